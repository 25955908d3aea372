import Verif.Model.Kalman
import Verif.Model.Dut
import Verif.Model.ChunkReader
import Mathlib.Analysis.SpecialFunctions.Pow.Real
/-
Model of the alignment with a Kalman filter, beam_telescope_analysis/dut_alignment.py: `_alignment_loop` (L1456-1586, inside of
`_duts_alignment_kalman`), `_calculate_initial_alignment` (L1983-2020), `_update_alignment_parameters` (L2023-2056),
`_update_alignment` (L2059-2074), `_create_karimaki_delta` (L2077-2091), `_combine_karimaki` (L2094-2100), `_calculate_annealing`
(L2103-2111), `_calculate_alignment_parameters` (L2114-2128), `_jacobian_alignment` (L2131-2160).

Simplifications: floating point numbers are real numbers without rounding errors; NaN is `none` where it can occur (missing hits, and
the alignment state computed from them). The telescope has `n` DUTs, arrays over the DUTs are functions of `Fin n`. The fit of a track
(`_fit_tracks_kalman_loop`, modelled in Kalman.lean) is a parameter here: any function of the alignment of the DUTs, the annealing
factors and the track. The columns `*_delta` and the arrays of chi2 of the output file are in
KalmanAlignOut.lean; the progress bar and log messages are left out.
The loop over groups of DUTs with identical tracks (L1601-1658) is left out: this is one pass.
-/
namespace BTA.KAlign
open BTA.Geo BTA.Kalman Matrix

/-- The six alignment parameters translation_x, _y, _z, rotation_alpha, _beta, _gamma. -/
abbrev Vec6 := Fin 6 → ℝ
abbrev Mat6 := Matrix (Fin 6) (Fin 6) ℝ

inductive Err
  /-- ValueError of `euler_angles`: not a rotation matrix, in particular if it contains NaN -/
  | notRotation
  /-- UnboundLocalError of `euler_angles` -/
  | unbound
  /-- the arcsine of `euler_angles` is NaN; only with rounding errors -/
  | nan
  /-- LinAlgError of `np.linalg.inv` -/
  | singular
  /-- IndexError -/
  | index
  /-- TypeError: `in None` -/
  | type
  /-- error of `data_aligned_at_events` -/
  | read (e : ReadErr)

/-! ### Initial alignment -/

/-- L2001-2011: names of the parameters. -/
def parName (k : Fin 6) : String :=
  ["translation_x", "translation_y", "translation_z", "rotation_alpha", "rotation_beta", "rotation_gamma"].getD k ""

/-- L2001-2012: variances of the parameters in the list. -/
noncomputable def variances (names : List String) (errors : Vec6) (k : Fin 6) : ℝ :=
  if parName k ∈ names then errors k ^ 2 else 0

/-- L2000-2012: the covariance of a DUT; the entry of `alignment_parameters` is taken by the number of the DUT. -/
noncomputable def initialCov (select : List Nat) (parameters : List (Option (List String))) (errors : Vec6) (d : Nat) :
    Except Err Mat6 :=
  if d ∈ select then
    match parameters[d]? with
    | none => .error .index
    | some none => .error .type
    | some (some names) => .ok (diagonal (variances names errors))
  else .ok 0

/-- L2016-2018: all but the last parameter are fixed. -/
def fixFive (C : Mat6) : Mat6 := fun i j => if i = j ∧ i.val < 5 then 0 else C i j

/-- L1988-2012: loop over the DUTs. -/
noncomputable def initialCovs {n : Nat} (select : List Nat) (parameters : List (Option (List String))) (errors : Vec6) :
    List (Fin n) → (Fin n → Mat6) → Except Err (Fin n → Mat6)
  | [], cov => .ok cov
  | d :: ds, cov =>
    match initialCov select parameters errors d with
    | .error e => .error e
    | .ok C => initialCovs select parameters errors ds (Function.update cov d C)

/-- L2017-2018: fix one plane. -/
def fixPlane {n : Nat} (cov : Fin n → Mat6) (d : Nat) : Except Err (Fin n → Mat6) :=
  if h : d < n then .ok (Function.update cov ⟨d, h⟩ (fixFive (cov ⟨d, h⟩))) else .error .index

/-- `_calculate_initial_alignment`, L1983-2020: the initial covariance matrices. -/
noncomputable def initialAlignment {n : Nat} (select telescopeDuts : List Nat) (parameters : List (Option (List String)))
    (errors : Vec6) : Except Err (Fin n → Mat6) :=
  match initialCovs select parameters errors (List.finRange n) (fun _ => 0) with
  | .error e => .error e
  | .ok cov =>
    match telescopeDuts.head?, telescopeDuts.getLast? with
    | some a, some b =>
      match fixPlane cov a with
      | .error e => .error e
      | .ok cov' => fixPlane cov' b
    | _, _ => .error .index

/-! ### One track -/

/-- The result of the fit of a track at all DUTs, L1534, L1548-1555. -/
structure Fit (n : Nat) where
  /-- reduced chi2, NaN if there are no degrees of freedom -/
  chi2 : Option ℝ
  p0 : Fin n → State
  C0 : Fin n → Cov
  V : Fin n → ObsCov
  H : Fin n → ObsMat

/-- A track candidate: `hit_flag`, positions at the DUTs (NaN if there is no hit), and anything else the fit uses. -/
structure Track (n : Nat) (T : Type) where
  event : Int
  flag : Nat
  hit : Fin n → Option Obs
  data : T

/-- The variables that are carried along: change of the alignment parameters, their covariance, number of tracks used. -/
structure Dyn (n : Nat) where
  state : Fin n → Option Vec6
  cov : Fin n → Mat6
  count : Fin n → Nat

/-- A line of the output tables: alignment and errors before the track is used, annealing factors. -/
structure Record (n : Nat) where
  align : Fin n → Dut.Alignment
  err : Fin n → Vec6
  annealing : Fin n → ℝ

structure Config (n : Nat) (T : Type) where
  /-- initial rotation matrices and positions -/
  rot0 : Fin n → Mat3
  pos0 : Fin n → Vec3
  /-- none: an exception, which is printed -/
  fit : (Fin n → Dut.Alignment) → (Fin n → ℝ) → Track n T → Option (Fit n)
  chi2Cut : ℝ
  annealingFactor : ℝ
  annealingTracks : Nat
  maxTracks : Nat
  hitMask : Nat

/-- L2156-2157: the identity with the rotation matrix in the upper left corner. -/
def extendSix (R : Mat3) : Mat6 :=
  !![R 0 0, R 0 1, R 0 2, 0, 0, 0;
     R 1 0, R 1 1, R 1 2, 0, 0, 0;
     R 2 0, R 2 1, R 2 2, 0, 0, 0;
     0, 0, 0, 1, 0, 0;
     0, 0, 0, 0, 1, 0;
     0, 0, 0, 0, 0, 1]

/-- `_jacobian_alignment`, L2131-2160. -/
def jacobian (p : State) (R : Mat3) : Matrix (Fin 2) (Fin 6) ℝ :=
  !![-1, 0, p 2, -p 1 * p 2, p 0 * p 2, -p 1;
     0, -1, p 3, -p 1 * p 3, p 0 * p 3, p 0] * extendSix R

/-- The matrix inverted in L2122. -/
def innovation (H : ObsMat) (V : ObsCov) (C0 : Cov) (D : Matrix (Fin 2) (Fin 6) ℝ) (E0 : Mat6) : ObsCov :=
  V + H * (C0 * Hᵀ) + D * (E0 * Dᵀ)

/-- L2125: new parameters; NaN if the hit is missing. -/
noncomputable def newState (a0 : Option Vec6) (E0 : Mat6) (D : Matrix (Fin 2) (Fin 6) ℝ) (W : ObsCov) (m : Option Obs) (Hp : Obs) :
    Option Vec6 :=
  match a0, m with
  | some a, some m => some (a + (E0 * (Dᵀ * W)).mulVec (m - Hp))
  | _, _ => none

/-- L2126: new covariance. -/
noncomputable def newCov (E0 : Mat6) (D : Matrix (Fin 2) (Fin 6) ℝ) (W : ObsCov) : Mat6 := E0 - E0 * (Dᵀ * (W * (D * E0ᵀ)))

/-- `_calculate_alignment_parameters`, L2114-2128. -/
noncomputable def calculateParameters (H : ObsMat) (V : ObsCov) (C0 : Cov) (p0 : State) (a0 : Option Vec6) (E0 : Mat6) (R : Mat3)
    (m : Option Obs) : Except Err (Option Vec6 × Mat6) := open Classical in
  let D := jacobian p0 R
  let S := innovation H V C0 D E0
  if S.det = 0 then .error .singular
  else .ok (newState a0 E0 D S⁻¹ m (H.mulVec p0), newCov E0 D S⁻¹)

/-- L1469: maximum change of the parameters in one step, in units of their errors. -/
noncomputable def deviationCuts : Vec6 := fun _ => 0.05

/-- L2038-2046: one of the parameters changes too much. Comparisons with NaN are false. -/
noncomputable def changeTooLarge (a0 a1 : Option Vec6) (E0 : Mat6) : Bool := open Classical in
  match a0, a1 with
  | some a, some b =>
    (List.finRange 6).any fun k => 0 < deviationCuts k ∧ |b k - a k| > deviationCuts k * Real.sqrt (E0 k k)
  | _, _ => false

/-- L2026-2054 for one DUT. -/
noncomputable def updateDut {n : Nat} {T : Type} (al : Fin n → Dut.Alignment) (f : Fit n) (t : Track n T) (d : Fin n) (s : Dyn n) :
    Except Err (Dyn n) :=
  match calculateParameters (f.H d) (f.V d) (f.C0 d) (f.p0 d) (s.state d) (s.cov d)
      (rotationMatrix (al d).alpha (al d).beta (al d).gamma)ᵀ (t.hit d) with
  | .error e => .error e
  | .ok (a1, E1) =>
    if changeTooLarge (s.state d) a1 (s.cov d) then .ok s
    else .ok { state := Function.update s.state d a1, cov := Function.update s.cov d E1,
               count := Function.update s.count d (s.count d + 1) }

/-- `_update_alignment_parameters`, L2023-2056: loop over the DUTs. -/
noncomputable def updateLoop {n : Nat} {T : Type} (al : Fin n → Dut.Alignment) (f : Fit n) (t : Track n T) :
    List (Fin n) → Dyn n → Except Err (Dyn n)
  | [], s => .ok s
  | d :: ds, s =>
    match updateDut al f t d s with
    | .error e => .error e
    | .ok s' => updateLoop al f t ds s'

/-- `_update_alignment` with `_create_karimaki_delta` and `_combine_karimaki`, L2059-2100, and L1502-1510: the alignment of a DUT. -/
noncomputable def newAlignment (R0 : Mat3) (x0 : Vec3) (s : Option Vec6) : Except Err Dut.Alignment :=
  match s with
  | none => .error .notRotation
  | some a =>
    match eulerAngles ((rotationMatrix (a 3) (a 4) (a 5))ᵀ * R0) with
    | .notRotation => .error .notRotation
    | .unbound => .error .unbound
    | .nan => .error .nan
    | .angles alpha beta gamma =>
      .ok { x := a 0 + x0 0, y := a 1 + x0 1, z := a 2 + x0 2, alpha := alpha, beta := beta, gamma := gamma }

/-- L1489-1510: set the alignment of all DUTs. -/
noncomputable def setAlignments {n : Nat} {T : Type} (cfg : Config n T) (s : Dyn n) :
    List (Fin n) → (Fin n → Dut.Alignment) → Except Err (Fin n → Dut.Alignment)
  | [], al => .ok al
  | d :: ds, al =>
    match newAlignment (cfg.rot0 d) (cfg.pos0 d) (s.state d) with
    | .error e => .error e
    | .ok a => setAlignments cfg s ds (Function.update al d a)

/-- `_calculate_annealing`, L2103-2111. -/
noncomputable def annealing (k : Nat) (factor : ℝ) (tracks : Nat) : ℝ :=
  if k < tracks then factor ^ (((tracks : ℝ) - k) / tracks) else 1

/-- L1512-1530: what is stored. -/
noncomputable def record {n : Nat} {T : Type} (cfg : Config n T) (s : Dyn n) (al : Fin n → Dut.Alignment) : Record n :=
  { align := al, err := fun d k => Real.sqrt (s.cov d k k),
    annealing := fun d => annealing (s.count d) cfg.annealingFactor cfg.annealingTracks }

/-- L1544: chi2 of the track too large; false for NaN. -/
noncomputable def badChi2 (chi2 : Option ℝ) (cut : ℝ) : Bool := open Classical in
  match chi2 with
  | none => false
  | some c => c > cut

/-- L1547-1572: use the track if its chi2 is good; the flag is true if the number of tracks has to be checked. -/
noncomputable def useTrack {n : Nat} {T : Type} (cfg : Config n T) (s : Dyn n) (al : Fin n → Dut.Alignment) (t : Track n T)
    (f : Option (Fit n)) : Except Err (Dyn n × Bool) :=
  match f with
  | none => .ok (s, false)
  | some f =>
    if badChi2 f.chi2 cfg.chi2Cut then .ok (s, false)
    else
      match updateLoop al f t (List.finRange n) s with
      | .error e => .error e
      | .ok s' => .ok (s', true)

/-- What is left after the tracks of a chunk. -/
structure Chunk (n : Nat) where
  dyn : Dyn n
  al : Fin n → Dut.Alignment
  recs : List (Record n)
  /-- maximum number of tracks reached -/
  stop : Bool

/-- L1572: `n_tracks_processed.min() > max_tracks`. -/
def reached {n : Nat} (count : Fin n → Nat) (max : Nat) : Bool := decide (∀ d, max < count d)

/-- L1485-1579: loop over the tracks of a chunk. -/
noncomputable def trackLoop {n : Nat} {T : Type} (cfg : Config n T) : List (Track n T) → Dyn n → (Fin n → Dut.Alignment) →
    Except Err (Chunk n)
  | [], s, al => .ok { dyn := s, al := al, recs := [], stop := false }
  | t :: ts, s, al =>
    match setAlignments cfg s (List.finRange n) al with
    | .error e => .error e
    | .ok al' =>
      match useTrack cfg s al' t (cfg.fit al' (record cfg s al').annealing t) with
      | .error e => .error e
      | .ok (s', used) =>
        if used && reached s'.count cfg.maxTracks then .ok { dyn := s', al := al', recs := [record cfg s al'], stop := true }
        else
          match trackLoop cfg ts s' al' with
          | .error e => .error e
          | .ok c => .ok { c with recs := record cfg s al' :: c.recs }

/-- What the alignment leaves on disk: the telescope configuration and the tables of the output file. -/
structure Out (n : Nat) where
  saved : Fin n → Dut.Alignment
  table : List (Record n)
  err : Option Err

/-- L1475: the tracks with hits in all required DUTs. -/
def valid {n : Nat} {T : Type} (mask : Nat) (t : Track n T) : Bool := t.flag &&& mask == mask

/-- L1473-1584: loop over the chunks; the configuration is saved after every chunk. -/
noncomputable def chunkLoop {n : Nat} {T : Type} (cfg : Config n T) (readErr : Option ReadErr) : List (List (Track n T)) → Dyn n →
    (Fin n → Dut.Alignment) → (Fin n → Dut.Alignment) → List (Record n) → Out n
  | [], _, _, saved, table => { saved := saved, table := table, err := readErr.map Err.read }
  | c :: cs, s, al, saved, table =>
    match trackLoop cfg (c.filter (valid cfg.hitMask)) s al with
    | .error e => { saved := saved, table := table, err := some e }
    | .ok r =>
      if r.stop then { saved := r.al, table := table ++ r.recs, err := none }
      else chunkLoop cfg readErr cs r.dyn r.al r.al (table ++ r.recs)

/-- L1650, L1464: at the beginning there is no change and no track. -/
def initialDyn {n : Nat} (cov : Fin n → Mat6) : Dyn n := { state := fun _ => some 0, cov := cov, count := fun _ => 0 }

/-- L1626-1627: the bits of the required DUTs. -/
def hitMask (duts : List Nat) : Nat := duts.foldl (fun m d => m ||| (1 <<< d)) 0

/-- L1990-1997: initial rotation matrix and position of a DUT. -/
noncomputable def initialRotation (a : Dut.Alignment) : Mat3 := rotationMatrix a.alpha a.beta a.gamma

def initialPosition (a : Dut.Alignment) : Vec3 := ![a.x, a.y, a.z]

/-- `_alignment_loop`, L1456-1586: `al` is the alignment of the telescope before, `cov` the initial covariance. The chunk size of
10000 tracks is a parameter. -/
noncomputable def alignmentLoop {n : Nat} {T : Type} (cfg : Config n T) (chunkSize : Nat) (al : Fin n → Dut.Alignment)
    (cov : Fin n → Mat6) (tracks : List (Track n T)) : Out n :=
  let g := dataAligned Track.event tracks { chunkSize := chunkSize }
  chunkLoop { cfg with rot0 := fun d => initialRotation (al d), pos0 := fun d => initialPosition (al d) } g.err
    (g.items.map Prod.fst) (initialDyn cov) al al []

end BTA.KAlign
