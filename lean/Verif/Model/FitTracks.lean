import Verif.Model.ChunkReader
import Verif.Model.Bits
import Verif.Model.Isolation
import Mathlib.Data.Finset.Basic
import Mathlib.Data.List.Dedup
/-
Model of `fit_tracks` (L537-1032), `store_track_data` (L1035-1311) and `create_results_array` (L1337-1430) of
beam_telescope_analysis/track_analysis.py.

Simplifications:
* Positions are exact numbers of an ordered field, `none` is a value that is not finite.
* The fit itself (`_fit_tracks_loop`, `_fit_tracks_kalman_loop`) with the intersection of the track and the DUT plane is a
  parameter `est`: an arbitrary function of the set of fit DUTs, the track candidate and the DUT. It is applied to each
  candidate alone; splitting the candidates into slices and concatenating the results (L946-967) is the identity then.
* No correction of the residual offset (`select_align_duts` empty), no `full_track_info`.
* The normalisation of the parameters (L640-765) is left out: every selected DUT comes with its settings (`DutCfg`).
* The size of the random event sample of a chunk is computed with floating point numbers (L899-910); it is an arbitrary
  number here, as is the sample.
* A table is the list of its rows; a table that is not created and an empty table are the same.
* Statistics and plots are left out.
-/
namespace BTA.Fit
open BTA.Iso

variable {K R : Type} [Field K] [LinearOrder K]

/-- A track candidate: `event_number`, `hit_flag` (uint32), `x_dut_*`, `y_dut_*`. -/
structure Cand (K : Type) where
  event : Int
  flag : Nat
  x : Nat → Option K
  y : Nat → Option K

/-- Result of the track fit at a DUT: local intersection, and everything else (slope, chi2, ...). -/
structure Est (K R : Type) where
  x : Option K
  y : Option K
  other : R

/-- Settings of a selected DUT: items of `select_duts`, `select_fit_duts`, `select_hit_duts`, `exclude_dut_hit`,
`min_track_hits`. -/
structure DutCfg where
  dut : Nat
  fitDuts : List Nat
  hitDuts : List Nat
  exclude : Bool
  minHits : Option Nat

/-- What `store_track_data` uses of a DUT. Limits that are not finite (or not used) are `none` (L1058-1063, L1150-1157). -/
structure Plane (K : Type) where
  pixelX : K
  pixelY : K
  xlo : Option K
  xhi : Option K
  ylo : Option K
  yhi : Option K
  quality : Option (K × K)
  isolation : Option (K × K)

inductive Err
  /-- L653-654: duplicate in select_duts -/
  | duplicateDut
  /-- L815-816: fewer than two required hits -/
  | tooFewHits
  /-- L820-821: more hits required than fit DUTs -/
  | tooManyHits
  /-- exception of `data_aligned_at_events` -/
  | read (e : ReadErr)
  /-- exception in the calculation of the sample size or of `np.random.choice` -/
  | sample
  /-- L1167-1168, L1194-1195: negative distance -/
  | negativeDistance
  /-- L1401: NameError, `track_chi2_red` is not defined (keep_data) -/
  | nameError
deriving DecidableEq

/-! ### Selection -/

/-- `dut_hit_mask`, `dut_fit_mask` (L803-805, L817-819). -/
def dutMask (duts : List Nat) : Nat := duts.foldl (fun m d => m ||| (1 <<< d)) 0

/-- `fit_duts` (L810). The order of the list of a set does not matter below. -/
def effectiveFit (c : DutCfg) : List Nat :=
  if c.exclude then c.fitDuts.dedup.filter fun d => d ≠ c.dut else c.fitDuts

/-- `actual_min_track_hits` (L811-814). -/
def actualMinHits (c : DutCfg) : Nat := c.minHits.getD (effectiveFit c).length

/-- `select_fit_tracks` (L856-860). -/
def selectFit (kalman : Bool) (c : DutCfg) (flag : Nat) : Bool :=
  if kalman then decide (numberOfSetBits (flag &&& dutMask (effectiveFit c)) ≥ max 3 (actualMinHits c))
  else decide (numberOfSetBits (flag &&& dutMask (effectiveFit c)) ≥ 2)

/-- `select_tracks_for_storage` before the selection of events (L862-866). -/
def selectStore (kalman : Bool) (c : DutCfg) (flag : Nat) : Bool :=
  selectFit kalman c flag && decide (flag &&& dutMask c.hitDuts = dutMask c.hitDuts) &&
    decide (numberOfSetBits (flag &&& dutMask (effectiveFit c)) ≥ actualMinHits c)

/-- The condition of L781-787 for adding the DUT `c` to the group of `a`. -/
def sameTracks (c a : DutCfg) : Bool :=
  decide (c.dut = a.dut) ||
  (((!c.exclude && !a.exclude && decide (c.fitDuts.toFinset = a.fitDuts.toFinset)) ||
    (!c.exclude && a.exclude && decide (c.fitDuts.toFinset = a.fitDuts.toFinset \ {a.dut})) ||
    (c.exclude && !a.exclude && decide (c.fitDuts.toFinset \ {c.dut} = a.fitDuts.toFinset)) ||
    (c.exclude && a.exclude && decide (c.fitDuts.toFinset \ {c.dut} = a.fitDuts.toFinset \ {a.dut}))) &&
   decide (c.hitDuts.toFinset = a.hitDuts.toFinset) && decide (c.minHits = a.minHits))

/-! ### Flags -/

/-- `use_ellipse` (L1170-1175). -/
def useEllipse (P : Plane K) : Bool :=
  match P.quality with
  | none => true
  | some (qx, qy) => decide (qx ≥ 5 / 2 * P.pixelX) && decide (qy ≥ 5 / 2 * P.pixelY)

/-- `dut_quality_flag_sel` (L1147-1177) for one track: hit position `hx`, `hy`, track intersection `e`. -/
def dutQuality (P : Plane K) (hx hy : Option K) (e : Est K R) : Bool :=
  match hx, e.x, hy, e.y with
  | some hx, some ex, some hy, some ey =>
    P.xlo.all (fun l => decide (hx ≥ l)) && P.xhi.all (fun l => decide (hx ≤ l)) &&
    P.ylo.all (fun l => decide (hy ≥ l)) && P.yhi.all (fun l => decide (hy ≤ l)) &&
    match P.quality with
    | none => true                                                             -- infinite distance
    | some (qx, qy) =>
      if useEllipse P then decide ((hx - ex) ^ 2 / qx ^ 2 + (hy - ey) ^ 2 / qy ^ 2 ≤ 1)
      else decide (|hx - ex| ≤ qx) && decide (|hy - ey| ≤ qy)
  | _, _, _, _ => false

/-- Isolation distances (L1187-1192). -/
def isoDist (P : Plane K) : K × K := P.isolation.getD (0, 0)

/-- The checks of L1167-1168 and L1194-1195. -/
def negative (P : Plane K) : Bool :=
  P.quality.any (fun q => decide (q.1 < 0) || decide (q.2 < 0)) ||
  decide ((isoDist P).1 < 0) || decide ((isoDist P).2 < 0)

/-- `quality_flag`, `isolated_track_flag`, `isolated_hit_flag` of a track. -/
structure Flags where
  quality : Nat
  track : Nat
  hit : Nat
deriving DecidableEq

/-- `flag[sel] |= np.uint32(1 << dut_index)` -/
def setBit (f : Nat) (b : Bool) (d : Nat) : Nat := if b then f ||| (1 <<< d) else f

/-- Boolean indexing `l[mask]`. -/
def compress (l : List α) (mask : List Bool) : List α := ((l.zip mask).filter fun p => p.2).map fun p => p.1

/-- One step of the loop over the DUTs (L1056-1229): flags of the fitted tracks. -/
def dutFlags (est : Cand K → Nat → Est K R) (chunk : List (Cand K)) (fitMask : List Bool) (d : Nat) (P : Plane K)
    (flags : List Flags) : List Flags :=
  let fitted := compress chunk fitMask
  let q := fitted.map fun c => dutQuality P (c.x d) (c.y d) (est c d)
  let t := smallDistance true (isoDist P).1 (isoDist P).2 (fitted.map fun c => ⟨c.event, (est c d).x, (est c d).y⟩)
  let h := compress (smallDistance (useEllipse P) (isoDist P).1 (isoDist P).2
    (chunk.map fun c => ⟨c.event, c.x d, c.y d⟩)) fitMask
  List.zipWith (fun f b => { f with hit := setBit f.hit (!b) d })
    (List.zipWith (fun f b => { f with track := setBit f.track (!b) d })
      (List.zipWith (fun f b => { f with quality := setBit f.quality b d }) flags q) t) h

/-- Loop over the DUTs of the telescope, starting with index `d`. -/
def dutLoop (est : Cand K → Nat → Est K R) (chunk : List (Cand K)) (fitMask : List Bool) :
    Nat → List (Plane K) → List Flags → Except Err (List Flags)
  | _, [], flags => .ok flags
  | d, P :: rest, flags =>
    if negative P then .error .negativeDistance
    else dutLoop est chunk fitMask (d + 1) rest (dutFlags est chunk fitMask d P flags)

/-- A stored row of the table of a DUT. -/
structure Row (K R : Type) where
  cand : Cand K
  est : Est K R
  flags : Flags

/-- `store_track_data` and `create_results_array`: rows appended to the table of DUT `k` (L1275-1309, L1357-1428). -/
def storeTrackData (est : Cand K → Nat → Est K R) (planes : List (Plane K)) (keepData : Bool) (chunk : List (Cand K))
    (fitMask storeMask : List Bool) : Except Err (Nat → List (Row K R)) :=
  match dutLoop est chunk fitMask 0 planes (List.replicate (compress chunk fitMask).length ⟨0, 0, 0⟩) with
  | .error e => .error e
  | .ok flags =>
    if keepData then .error .nameError
    else
      let fitStore := compress storeMask fitMask
      .ok fun k =>
        List.zipWith (fun (ce : Cand K × Est K R) f => ⟨ce.1, ce.2, f⟩)
          (List.zip (compress chunk storeMask) (compress ((compress chunk fitMask).map fun c => est c k) fitStore))
          (compress flags fitStore)

/-! ### Loops of `fit_tracks` -/

/-- Random numbers: number of events to select in the chunk ending at an index (`none`: exception), and the sample. -/
structure Sampling where
  size : Nat → Option Int
  choice : Nat → List Int → Nat → List Int

/-- `select_n_events` (L894-912). -/
def selectNEvents (S : Sampling) (maxEvents stored total idx nEvents : Nat) : Option Int :=
  (if total = idx then some ((maxEvents : Int) - stored) else S.size idx).map fun n =>
    min (min (nEvents : Int) n) ((maxEvents : Int) - stored)

/-- Selection of events (L893-918): selected events, `none` if an exception is raised. -/
def sampleEvents (S : Sampling) (maxEvents stored total idx : Nat) (unique : List Int) : Option (List Int) :=
  match selectNEvents S maxEvents stored total idx unique.length with
  | none => none
  | some n => if n < 0 then none else some (S.choice idx unique n.toNat)

/-- Loop over the chunks (L847-1008). `maxEvents = 0` stands for None and 0. -/
def chunkLoop (est : Cand K → Nat → Est K R) (planes : List (Plane K)) (keepData kalman : Bool) (c : DutCfg)
    (S : Sampling) (maxEvents total : Nat) :
    List (List (Cand K) × Nat) → Nat → Except Err (Nat → List (Row K R))
  | [], _ => .ok fun _ => []
  | (chunk, idx) :: rest, stored =>
    let fitMask := chunk.map fun t => selectFit kalman c t.flag
    let storeMask := chunk.map fun t => selectStore kalman c t.flag
    let unique := ((compress chunk storeMask).map Cand.event).dedup               -- np.unique; sorted in the code
    if unique = [] then chunkLoop est planes keepData kalman c S maxEvents total rest stored     -- L890-891
    else if maxEvents = 0 then
      match storeTrackData est planes keepData chunk fitMask storeMask with
      | .error e => .error e
      | .ok f =>
        match chunkLoop est planes keepData kalman c S maxEvents total rest stored with
        | .error e => .error e
        | .ok g => .ok fun k => f k ++ g k
    else
      match sampleEvents S maxEvents stored total idx unique with
      | none => .error .sample
      | some sel =>
        let storeMask := List.zipWith (fun b t => b && decide (t.event ∈ sel)) storeMask chunk   -- L916
        match storeTrackData est planes keepData chunk fitMask storeMask with
        | .error e => .error e
        | .ok f =>
          match chunkLoop est planes keepData kalman c S maxEvents total rest (stored + sel.length) with
          | .error e => .error e
          | .ok g => .ok fun k => f k ++ g k

/-- Processing of one group, with the settings `c` of its first DUT (L799-1008). -/
def fitGroup (est : Finset Nat → Cand K → Nat → Est K R) (planes : List (Plane K)) (keepData kalman : Bool)
    (S : Sampling) (maxEvents cs : Nat) (T : List (Cand K)) (c : DutCfg) : Except Err (Nat → List (Row K R)) :=
  if actualMinHits c < 2 then .error .tooFewHits                                  -- L815-816
  else if actualMinHits c > (effectiveFit c).length then .error .tooManyHits      -- L820-821
  else
    let g := dataAligned Cand.event T { chunkSize := cs }
    match chunkLoop (est (effectiveFit c).toFinset) planes keepData kalman c S maxEvents T.length g.items 0 with
    | .error e => .error e
    | .ok f =>
      match g.err with
      | some e => .error (.read e)
      | none => .ok f

/-- Loop over the selected DUTs (L771-1010). `fitted` is `fitted_duts`. The result are the tables in the order of their
creation. -/
def groupLoop (proc : DutCfg → Except Err (Nat → List (Row K R))) (all : List DutCfg) :
    List DutCfg → List Nat → Except Err (List (Nat × List (Row K R)))
  | [], _ => .ok []
  | a :: rest, fitted =>
    if a.dut ∈ fitted then groupLoop proc all rest fitted                          -- L776-777
    else
      let group := (all.filter fun c => sameTracks c a).map DutCfg.dut            -- L779-788
      match proc a with
      | .error e => .error e
      | .ok f =>
        match groupLoop proc all rest (fitted ++ group) with                       -- L1010
        | .error e => .error e
        | .ok tables => .ok (group.map (fun k => (k, f k)) ++ tables)

/-- `fit_tracks`: the tables `Tracks_DUT<k>` of the output file. -/
def fitTracks (est : Finset Nat → Cand K → Nat → Est K R) (planes : List (Plane K)) (keepData kalman : Bool)
    (S : Sampling) (maxEvents cs : Nat) (T : List (Cand K)) (cfgs : List DutCfg) :
    Except Err (List (Nat × List (Row K R))) :=
  if ¬ (cfgs.map DutCfg.dut).Nodup then .error .duplicateDut                       -- L653-654
  else groupLoop (fitGroup est planes keepData kalman S maxEvents cs T) cfgs cfgs []

end BTA.Fit
