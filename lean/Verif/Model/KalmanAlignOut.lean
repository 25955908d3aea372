import Verif.Model.KalmanAlign
/-
Model of the output file of the alignment with a Kalman filter and of its plots: the columns `*_delta`, the arrays of chi2 and p-value, the
attribute `n_tracks_processed` (beam_telescope_analysis/dut_alignment.py, `_store_alignment_data` L1398-1454, `_alignment_loop` L1456-1586,
`_update_alignment_parameters` L2036-2049), and `plot_kf_alignment` (tools/plot_utils.py L2685-2832).

Simplifications: as in KalmanAlign.lean. The p-value of a fit is given by a function. The plots are the series of numbers that are drawn or
filled into a histogram; colours, labels and the bins of the histograms are left out. The attributes `deviation_cuts` and `max_track_chi2`,
which are constants, are left out.
-/
namespace BTA.KAlign
open BTA.Geo BTA.Kalman Matrix

/-- A line of the output for one track: alignment, errors and annealing factors, relative changes of the parameters (NaN is `none`), chi2 and
p-value. -/
structure Row (n : Nat) where
  line : Record n
  delta : Fin n → Fin 6 → Option ℝ
  chi2 : Option ℝ
  prob : Option ℝ

/-- L2040-2043: the relative change of a parameter. -/
noncomputable def deviation (a0 a1 : Option Vec6) (E0 : Mat6) (k : Fin 6) : Option ℝ := open Classical in
  if Real.sqrt (E0 k k) = 0 then some 0
  else
    match a0, a1 with
    | some a, some b => some (|b k - a k| / Real.sqrt (E0 k k))
    | _, _ => none

/-- L2044: the change of a parameter is too large; false for NaN. -/
noncomputable def exceeds (a0 a1 : Option Vec6) (E0 : Mat6) (k : Fin 6) : Bool := open Classical in
  match a0, a1 with
  | some a, some b => |b k - a k| > deviationCuts k * Real.sqrt (E0 k k)
  | _, _ => false

/-- L2038-2046: loop over the parameters, which ends at the first one whose change is too large. The array was filled with NaN (L1482). -/
noncomputable def deviations (a0 a1 : Option Vec6) (E0 : Mat6) : List (Fin 6) → Fin 6 → Option ℝ := open Classical in
  fun l => match l with
  | [] => fun _ => none
  | k :: ks =>
    if 0 < deviationCuts k then
      if exceeds a0 a1 E0 k then Function.update (fun _ => none) k (deviation a0 a1 E0 k)
      else Function.update (deviations a0 a1 E0 ks) k (deviation a0 a1 E0 k)
    else deviations a0 a1 E0 ks

/-- L2026-2046: the relative changes of the parameters of a DUT. `a0` and `E0` are copies (L1558-1559). -/
noncomputable def deltas {n : Nat} {T : Type} (al : Fin n → Dut.Alignment) (f : Fit n) (t : Track n T) (s : Dyn n) (d : Fin n) :
    Fin 6 → Option ℝ :=
  match calculateParameters (f.H d) (f.V d) (f.C0 d) (f.p0 d) (s.state d) (s.cov d)
      (rotationMatrix (al d).alpha (al d).beta (al d).gamma)ᵀ (t.hit d) with
  | .error _ => fun _ => none
  | .ok (a1, _) => deviations (s.state d) a1 (s.cov d) (List.finRange 6)

/-- L1480-1482, L1512-1530, L1533-1545, L2038-2046: what is stored for a track. If the fit fails, chi2 and p-value stay 0; if the track is
not used, there are no changes. -/
noncomputable def rowOf {n : Nat} {T : Type} (cfg : Config n T) (prob : Fit n → Option ℝ) (s : Dyn n) (t : Track n T) (line : Record n) :
    Row n :=
  match cfg.fit line.align line.annealing t with
  | none => { line := line, delta := fun _ _ => none, chi2 := some 0, prob := some 0 }
  | some f =>
    { line := line, chi2 := f.chi2, prob := prob f,
      delta := if badChi2 f.chi2 cfg.chi2Cut then fun _ _ => none else fun d => deltas line.align f t s d }

/-- What is left after the tracks of a chunk. -/
structure Part (n : Nat) where
  dyn : Dyn n
  al : Fin n → Dut.Alignment
  rows : List (Row n)
  stop : Bool

/-- L1485-1579: loop over the tracks of a chunk; at the maximum number of tracks the arrays are cut after the last track (L1578). -/
noncomputable def rowLoop {n : Nat} {T : Type} (cfg : Config n T) (prob : Fit n → Option ℝ) : List (Track n T) → Dyn n →
    (Fin n → Dut.Alignment) → Except Err (Part n)
  | [], s, al => .ok { dyn := s, al := al, rows := [], stop := false }
  | t :: ts, s, al =>
    match setAlignments cfg s (List.finRange n) al with
    | .error e => .error e
    | .ok al' =>
      match useTrack cfg s al' t (cfg.fit al' (record cfg s al').annealing t) with
      | .error e => .error e
      | .ok (s', used) =>
        if used && reached s'.count cfg.maxTracks then
          .ok { dyn := s', al := al', rows := [rowOf cfg prob s t (record cfg s al')], stop := true }
        else
          match rowLoop cfg prob ts s' al' with
          | .error e => .error e
          | .ok c => .ok { c with rows := rowOf cfg prob s t (record cfg s al') :: c.rows }

/-- A line of the table `Alignment_DUT<d>`. -/
structure DutRow where
  align : Dut.Alignment
  err : Vec6
  annealing : ℝ
  delta : Fin 6 → Option ℝ

/-- The row of array `alignment_values` for a DUT. -/
def Row.dut {n : Nat} (r : Row n) (d : Fin n) : DutRow :=
  { align := r.line.align d, err := r.line.err d, annealing := r.line.annealing d, delta := r.delta d }

/-- The output file: the tables `Alignment_DUT<d>` with their attribute `n_tracks_processed`, `TrackChi2` and `TrackpValue`; none if the node
does not exist. -/
structure File (n : Nat) where
  dut : Fin n → Option (List DutRow)
  processed : Fin n → Nat
  chi2 : Option (List (Option ℝ))
  prob : Option (List (Option ℝ))

/-- A new file. -/
def File.new {n : Nat} : File n := { dut := fun _ => none, processed := fun _ => 0, chi2 := none, prob := none }

/-- L1406-1419, L1425-1452: append to a node, which is created if it does not exist. -/
def appendTo {α : Type} (node : Option (List α)) (new : List α) : Option (List α) :=
  match node with
  | none => some new
  | some old => some (old ++ new)

/-- `_store_alignment_data`, L1398-1454. -/
def storeData {n : Nat} (file : File n) (processed : Fin n → Nat) (rows : List (Row n)) : File n :=
  { dut := fun d => appendTo (file.dut d) (rows.map fun r => r.dut d),
    processed := processed,
    chi2 := appendTo file.chi2 (rows.map Row.chi2),
    prob := appendTo file.prob (rows.map Row.prob) }

/-- The telescope configuration on disk, the output file, the exception. -/
structure FileOut (n : Nat) where
  saved : Fin n → Dut.Alignment
  file : File n
  err : Option Err

/-- L1473-1584: loop over the chunks. -/
noncomputable def fileLoop {n : Nat} {T : Type} (cfg : Config n T) (prob : Fit n → Option ℝ) (readErr : Option ReadErr) :
    List (List (Track n T)) → Dyn n → (Fin n → Dut.Alignment) → (Fin n → Dut.Alignment) → File n → FileOut n
  | [], _, _, saved, file => { saved := saved, file := file, err := readErr.map Err.read }
  | c :: cs, s, al, saved, file =>
    match rowLoop cfg prob (c.filter (valid cfg.hitMask)) s al with
    | .error e => { saved := saved, file := file, err := some e }
    | .ok r =>
      if r.stop then { saved := r.al, file := storeData file r.dyn.count r.rows, err := none }
      else fileLoop cfg prob readErr cs r.dyn r.al r.al (storeData file r.dyn.count r.rows)

/-- `_alignment_loop`, L1456-1586, with the output file before. -/
noncomputable def alignmentFile {n : Nat} {T : Type} (cfg : Config n T) (prob : Fit n → Option ℝ) (chunkSize : Nat)
    (al : Fin n → Dut.Alignment) (cov : Fin n → Mat6) (tracks : List (Track n T)) (file : File n) : FileOut n :=
  let g := dataAligned Track.event tracks { chunkSize := chunkSize }
  fileLoop { cfg with rot0 := fun d => initialRotation (al d), pos0 := fun d => initialPosition (al d) } prob g.err
    (g.items.map Prod.fst) (initialDyn cov) al al file

/-! ### Plots -/

inductive PlotErr
  /-- NoSuchNodeError of `TrackChi2`, plot_utils.py L2694 -/
  | noNode
  /-- IndexError of `y[0]`, L2730 -/
  | index
  /-- ValueError of `y_delta.min()`, L2752 -/
  | empty

/-- The column with the name of the parameter, L2705-2712. -/
def column (k : Fin 6) (a : Dut.Alignment) : ℝ :=
  match k with
  | 0 => a.x
  | 1 => a.y
  | 2 => a.z
  | 3 => a.alpha
  | 4 => a.beta
  | 5 => a.gamma

/-- The plots of a parameter of a DUT, L2717-2785. -/
structure Plots where
  values : List ℝ
  change : List ℝ
  errors : List ℝ
  /-- histogram (L2752) and graph (L2762) of the relative changes -/
  deltas : List ℝ
  annealing : List ℝ

/-- L2707-2785. -/
def plotsOf (rows : List DutRow) (k : Fin 6) : Except PlotErr Plots :=
  match rows with
  | [] => .error .index
  | first :: _ =>
    match rows.filterMap fun r => r.delta k with
    | [] => .error .empty
    | dl => .ok { values := rows.map fun r => column k r.align,
                  change := rows.map fun r => column k r.align - column k first.align,
                  errors := rows.map fun r => r.err k,
                  deltas := dl,
                  annealing := rows.map DutRow.annealing }

/-- L2702-2787: the plots for the parameters and DUTs in the list; DUTs without table are left out. -/
def plotLoop {n : Nat} (file : File n) : List (Fin 6 × Fin n) → Except PlotErr (List (Fin 6 × Fin n × Plots))
  | [] => .ok []
  | (k, d) :: rest =>
    match file.dut d with
    | none => plotLoop file rest
    | some rows =>
      match plotsOf rows k with
      | .error e => .error e
      | .ok p =>
        match plotLoop file rest with
        | .error e => .error e
        | .ok ps => .ok ((k, d, p) :: ps)

/-- The plots of `plot_kf_alignment`: of the parameters, chi2 and p-values (L2790-2822), number of tracks of the DUTs (L2824-2832). -/
structure KfPlots (n : Nat) where
  plots : List (Fin 6 × Fin n × Plots)
  chi2 : List (Option ℝ)
  prob : List (Option ℝ)
  processed : Fin n → Nat

/-- `plot_kf_alignment`, L2685-2832. -/
def plotKf {n : Nat} (file : File n) : Except PlotErr (KfPlots n) :=
  match file.chi2, file.prob with
  | some chi2, some prob =>
    match plotLoop file ((List.finRange 6).flatMap fun k => (List.finRange n).map fun d => (k, d)) with
    | .error e => .error e
    | .ok ps => .ok { plots := ps, chi2 := chi2, prob := prob, processed := fun d => if (file.dut d).isSome then file.processed d else 0 }
  | _, _ => .error .noNode

end BTA.KAlign
