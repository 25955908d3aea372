import Verif.Model.Binning
import Verif.Model.ChunkReader
/-
Model of `calculate_purity` (beam_telescope_analysis/result_analysis.py L2094-2301).

Floats are an ordered field `K` (no rounding); counts are natural numbers (the code uses uint32). What the user gets before the end of a
DUT are the maps handed to `plot_utils.purity_plots` (L2228-2237), so these are the result of a DUT. Not modelled: the plots, the HDF5
file (nothing is written before the exception of L2239), the normalisation of the arguments (ranges are given per DUT).
-/
namespace BTA.Purity
open BTA.Binning

variable {K : Type} [Field K] [LinearOrder K] [FloorRing K]

/-- The columns of a row of the track table that are used (L2166-2176). `hit` is none where `x_dut` is NaN, `fitted` is false where
`track_chi2` is NaN. -/
structure Row (K : Type) where
  event : Int
  hit : Option (K × K)
  fitted : Bool
  ix : K
  iy : K
deriving DecidableEq

/-- The settings of one DUT. -/
structure Setup (K : Type) where
  /-- `x_extent()`, `y_extent()` of the DUT -/
  extentX : K × K
  extentY : K × K
  binSize : K × K
  /-- `cut_distance`, none for None -/
  cut : Option K
  /-- `local_x_range`, `local_y_range` -/
  rangeX : Option (K × K)
  rangeY : Option (K × K)
  minimumHitDensity : K
  sqrt : K → K

inductive Err
  /-- TypeError of the comparison with None (L2206) -/
  | cutNone
  /-- ValueError of `np.histogram2d`, no bins -/
  | noBins
  /-- RuntimeError 'No pure hit for DUT' (L2225-2226) -/
  | noPureHit
  /-- TypeError of a format string with the wrong number of arguments -/
  | format
  /-- exception of `data_aligned_at_events` -/
  | read (e : ReadErr)
deriving DecidableEq

/-- L2149-2156: the number of bins, `int(size / bin_size)`. -/
def nBins (extent : K × K) (binSize : K) : Nat := ⌊|extent.2 - extent.1| / binSize⌋.toNat

/-- The edges of `np.histogram2d(..., bins=(n_bin_x, n_bin_y), range=[x_extent, y_extent])`. -/
def edgesX (s : Setup K) : List K := linspace s.extentX.1 s.extentX.2 (nBins s.extentX s.binSize.1)
def edgesY (s : Setup K) : List K := linspace s.extentY.1 s.extentY.2 (nBins s.extentY s.binSize.2)

/-- `np.histogram2d`. -/
def histogram (s : Setup K) (points : List (K × K)) : Nat × Nat → Nat :=
  counts (fun p : K × K => binIndex2 (edgesX s) (edgesY s) p.1 p.2) points

/-- L2183-2199: `value >= range[0]` and `value <= range[1]`; no selection for None. -/
def inRange (range : Option (K × K)) (v : K) : Bool :=
  match range with
  | none => true
  | some r => decide (r.1 ≤ v) && decide (v ≤ r.2)

/-- `hits_local`, `intersections_local` after L2199: rows with hit and fit, whose intersection is in the range. -/
def selected (s : Setup K) (chunk : List (Row K)) : List ((K × K) × (K × K)) :=
  ((chunk.filter Row.fitted).filterMap fun r => r.hit.map fun h => (h, (r.ix, r.iy))).filter fun p =>
    inRange s.rangeX p.2.1 && inRange s.rangeY p.2.2

/-- L2201-2203: `distance_local`. -/
def distance (s : Setup K) (p : (K × K) × (K × K)) : K :=
  s.sqrt ((p.2.1 - p.1.1) * (p.2.1 - p.1.1) + (p.2.2 - p.1.2) * (p.2.2 - p.1.2))

/-- L2206: `hits_local[distance_local < cut_distance]`. An empty array can be compared with None. -/
def pureHits (s : Setup K) (sel : List ((K × K) × (K × K))) : Except Err (List (K × K)) :=
  match s.cut with
  | none => if sel = [] then .ok [] else .error .cutNone
  | some c => .ok ((sel.filter fun p => decide (distance s p < c)).map Prod.fst)

/-- `np.any` of an array of points: some coordinate is not 0. -/
def anyNonzero (points : List (K × K)) : Bool := points.any fun p => decide (p.1 ≠ 0) || decide (p.2 ≠ 0)

/-- `total_hit_hist`, `total_pure_hit_hist` -/
structure State where
  total : Nat × Nat → Nat
  pure : Nat × Nat → Nat

/-- One chunk (L2163-2211). -/
def stepChunk (s : Setup K) (chunk : List (Row K)) (st : State) : Except Err State :=
  if nBins s.extentX s.binSize.1 = 0 ∨ nBins s.extentY s.binSize.2 = 0 then .error .noBins
  else
    let hist := histogram s (chunk.filterMap Row.hit)
    let total := fun b => st.total b + hist b
    match pureHits s (selected s chunk) with
    | .error e => .error e
    | .ok p =>
      if anyNonzero p then
        let histPure := histogram s p
        .ok ⟨total, fun b => st.pure b + histPure b⟩
      else .ok ⟨total, st.pure⟩

/-- The loop over the chunks. -/
def chunkLoop (s : Setup K) : List (List (Row K)) → State → Except Err State
  | [], st => .ok st
  | c :: r, st =>
    match stepChunk s c st with
    | .error e => .error e
    | .ok st' => chunkLoop s r st'

/-- What is given to the plot (L2228-2237). -/
structure Maps where
  pure : Nat × Nat → Nat
  total : Nat × Nat → Nat
  purity : Nat × Nat → Nat
  mask : Nat × Nat → Bool

/-- L2213-2214: `purity` has the type uint32 of `total_hit_hist`, so the percentage is truncated. -/
def percentage (K : Type) [Field K] [LinearOrder K] [FloorRing K] (pure total : Nat) : Nat :=
  if total = 0 then 0 else ⌊(pure : K) / (total : K) * 100⌋.toNat

/-- L2213-2226: the purity map. -/
def finish (s : Setup K) (st : State) : Except Err Maps :=
  let purity := fun b => percentage K (st.pure b) (st.total b)
  let mask := fun b => decide ((st.total b : K) < s.minimumHitDensity)
  if (List.range (nBins s.extentX s.binSize.1)).any fun i => (List.range (nBins s.extentY s.binSize.2)).any fun j =>
      !mask (i, j) && decide (purity (i, j) ≠ 0) then
    .ok ⟨st.pure, st.total, purity, mask⟩
  else .error .noPureHit

/-- One DUT up to the plot (L2137-2237). -/
def dutMaps (s : Setup K) (table : List (Row K)) (chunkSize : Nat) : Except Err Maps :=
  let g := dataAligned Row.event table { chunkSize := chunkSize }
  match chunkLoop s (g.items.map Prod.fst) ⟨fun _ => 0, fun _ => 0⟩ with
  | .error e => .error e
  | .ok st =>
    match g.err with
    | some e => .error (.read e)
    | none => finish s st

/-- `string % value` with the given number of placeholders, for one number. -/
def format (placeholders : Nat) : Except Err Unit := if placeholders = 1 then .ok () else .error .format

/-- `calculate_purity`: the maps plotted, and the exception if one is raised. L2239: the format string has two placeholders and is
applied to the mean only. -/
def calculatePurity (chunkSize : Nat) : List (Setup K × List (Row K)) → List Maps × Except Err Unit
  | [] => ([], .ok ())
  | (s, T) :: r =>
    match dutMaps s T chunkSize with
    | .error e => ([], .error e)
    | .ok m =>
      match format 2 with
      | .error e => ([m], .error e)
      | .ok () => (m :: (calculatePurity chunkSize r).1, (calculatePurity chunkSize r).2)

end BTA.Purity
