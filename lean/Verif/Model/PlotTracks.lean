import Verif.Model.ChunkReader
import Verif.Model.Geometry
import Mathlib.Data.Finset.Card
import Mathlib.Data.Rat.Lemmas
/-
Model of `plot_events` (tools/plot_utils.py L669-812), of the statistics of the track fit (track_analysis.py L867-868, L1038-1240) with `plot_fit_tracks_statistics` (tools/plot_utils.py L814-845), and of
`plot_masked_pixels` (tools/plot_utils.py L185-302).

Not modelled: the drawing itself, colours, labels of the axes, the PDF file.
-/
namespace BTA.PlotTracks
open Geo

/-! ### plot_events -/

/-- A row of the tracks: the event and the line in global coordinates (L749-765); `none` if the offset is not finite, i.e. without fit. -/
structure EventRow where
  event : Int
  line : Option (Vec3 × Vec3)

/-- `len(set(...))` (L730). -/
def distinct (events : List Int) : Nat := events.dedup.length

/-- The loop over the chunks (L725-747): the numbers of tracks and of events. -/
def titleLoop : List (List EventRow) → Nat × Nat → Nat × Nat
  | [], st => st
  | c :: r, (tracks, events) => titleLoop r (tracks + c.countP (fun t => t.line.isSome), events + distinct (c.map EventRow.event))

/-- The numbers of tracks and events in the title (L722-805), or the exception of the reader. -/
def eventsTitle (chunkSize : Nat) (range : Int × Int) (T : List EventRow) : Except ReadErr (Nat × Nat) :=
  let g := dataAligned EventRow.event T { startEvent := some range.1, stopEvent := some range.2, failOnMissing := false, chunkSize := chunkSize }
  match g.err with
  | some e => .error e
  | none => .ok (titleLoop (g.items.map Prod.fst) (0, 0))

section
open Classical

/-- `min_z_dut_index` (L698-719): `zs` are the positions of the DUTs along z; the loop starts with DUT 0. -/
noncomputable def minZ (zs : List ℝ) : Nat := (List.range zs.length).foldl (fun m i => if zs.getD i 0 < zs.getD m 0 then i else m) 0

/-- `max_z_dut_index` (L699-721). -/
noncomputable def maxZ (zs : List ℝ) : Nat := (List.range zs.length).foldl (fun m i => if zs.getD m 0 < zs.getD i 0 then i else m) 0

end

/-- Position and orientation of a DUT. -/
structure Placement where
  pos : Vec3
  alpha : ℝ
  beta : ℝ
  gamma : ℝ

/-- The two ends of the line drawn for a track (L766-784), in mm; `none` if the intersection raises an exception. `first` and `last` are the DUTs with smallest and largest z. -/
noncomputable def drawnLine (line : Vec3 × Vec3) (first last : Placement) : Option (Vec3 × Vec3) :=
  match intersectDut [line] (first.pos 0) (first.pos 1) (first.pos 2) first.alpha first.beta first.gamma, intersectDut [line] (last.pos 0) (last.pos 1) (last.pos 2) last.alpha last.beta last.gamma with
  | some [p], some [q] =>
    let pMin := (1 / 1000 : ℝ) • p
    let pMax := (1 / 1000 : ℝ) • q
    some (pMin + (-(pMin 2) + 10) • line.2, pMin + (-(pMax 2) - 10) • line.2)
  | _, _ => none

/-! ### Statistics of the track fit -/

/-- A track candidate of a chunk for one DUT: `fit` is select_fit_tracks, `store` select_tracks_for_storage, `hit` select_finite_distance, `good` the conditions of the quality flag apart from the hit,
`closeTrack` and `closeHit` the flags of `_find_small_distance`. -/
structure Cand where
  fit : Bool
  store : Bool
  hit : Bool
  good : Bool
  closeTrack : Bool
  closeHit : Bool
deriving DecidableEq

/-- A share, 0 without tracks (L1118-1121, L1186-1189, L1219-1222, L1235-1238). -/
def share (n total : Nat) : ℚ := if total = 0 then 0 else (n : ℚ) / total

/-- `chunk_stats` (L867-868); the chunk is not empty. -/
def chunkStat (chunk : List Cand) : ℚ := (chunk.countP Cand.store : ℚ) / chunk.length

/-- `dut_stats` of one DUT (L1116-1121, L1157-1189, L1203-1240). All arrays are restricted to the fitted tracks; the quality flag needs a hit (L1151-1152). -/
def dutStats (chunk : List Cand) : List ℚ :=
  let fitted := chunk.filter Cand.fit
  let nGood := chunk.countP Cand.store
  let nHit := fitted.countP fun c => c.store && c.hit
  let nQuality := fitted.countP fun c => c.store && c.hit && (c.hit && c.good)
  let nTrack := fitted.countP fun c => c.store && c.hit && !c.closeTrack
  let nIsoHit := fitted.countP fun c => c.store && c.hit && !c.closeHit
  let nAll := fitted.countP fun c => (c.hit && c.good) && !c.closeTrack && !c.closeHit
  [share nHit nGood, share nQuality nHit, share nTrack nHit, share nIsoHit nHit, (nAll : ℚ) / chunk.length]

/-- `factor` for a curve (plot_utils.py L831-835): the first of 100, 10, 1 for which the scaled curve is not above 1; `none` if the variable is not assigned. -/
def curveFactor (stat : List ℚ) : Option Nat := [2, 1, 0].findSome? fun i => if stat.all fun v => decide (v ≤ 1 / 10 ^ i) then some (10 ^ i) else none

/-! ### plot_masked_pixels -/

/-- The mask file: number of columns and rows, the occupancy and the masks (index column, row) if they exist. -/
structure MaskFile where
  nCols : Nat
  nRows : Nat
  occ : Nat → Nat → Nat
  noisy : Option (Nat → Nat → Bool)
  disabled : Option (Nat → Nat → Bool)

/-- `np.dstack(np.nonzero(mask.T))[0] + 1` (L188, L194): (row, column), starting at 1. -/
def markedPixels (f : MaskFile) (mask : Nat → Nat → Bool) : List (Nat × Nat) :=
  (List.range f.nRows).flatMap fun r => ((List.range f.nCols).filter fun c => mask c r).map fun c => (r + 1, c + 1)

/-- `np.count_nonzero(mask)` (L189, L195). -/
def countMask (f : MaskFile) (mask : Nat → Nat → Bool) : Nat := ((List.range f.nCols).map fun c => (List.range f.nRows).countP fun r => mask c r).sum

/-- Markers (x, y) drawn for a mask (L226, L230) and the number in the title. -/
def markers (f : MaskFile) (mask : Nat → Nat → Bool) : List (Nat × Nat) × Nat := ((markedPixels f mask).map fun p => (p.2, p.1), countMask f mask)

/-- A page with the occupancy (index row, column) and the sums over rows and columns (L252-302). -/
structure OccPage where
  image : Nat → Nat → Nat
  perColumn : List Nat
  perRow : List Nat

/-- L252-302. -/
def occPage (f : MaskFile) (image : Nat → Nat → Nat) : OccPage :=
  ⟨image, (List.range f.nCols).map fun c => ((List.range f.nRows).map fun r => image r c).sum, (List.range f.nRows).map fun r => ((List.range f.nCols).map fun c => image r c).sum⟩

/-- `occupancy[occupancy_mask > 0] = 0` (L243-248): the mask is set for the pixels of the lists of marked pixels, with the indices row and column minus 1. -/
def clearMarked (f : MaskFile) (image : Nat → Nat → Nat) : Nat → Nat → Nat := fun r c =>
  let masked := fun o : Option (Nat → Nat → Bool) => match o with
    | none => false
    | some m => (markedPixels f m).any fun p => decide (p.1 - 1 = r ∧ p.2 - 1 = c)
  if masked f.noisy || masked f.disabled then 0 else image r c

/-- `plot_masked_pixels`: the markers of noisy and disabled pixels and the pages with the occupancy (L236-302). -/
def plotMaskedPixels (f : MaskFile) : Option (List (Nat × Nat) × Nat) × Option (List (Nat × Nat) × Nat) × List OccPage :=
  let image := fun r c => f.occ c r
  let second := if f.noisy.isNone && f.disabled.isNone then [] else [occPage f (clearMarked f image)]
  (f.noisy.map (markers f), f.disabled.map (markers f), occPage f image :: second)

end BTA.PlotTracks
