import Verif.Model.Plots
import Verif.Spec.Statistics
import Mathlib.Algebra.Order.Group.Unbundled.Abs
import Mathlib.Data.Finset.Card
import Mathlib.Data.List.Dedup
/-
Specification of the plots. Of the model only the types of the rows and of the plots are used.
-/
namespace BTA.Spec.Plots
open BTA.Plots BTA.Spec

/-- The shapes that have a bar. -/
def shapesWithBar : List Int := [1, 3, 5, 6, 9, 13, 14, 7, 11, 19, 261, 15, 95, 783, 4959]

/-- The clusters of a DUT in a table: all rows of a cluster file, the rows with a position in the DUT otherwise. -/
def clustersOf (ofDut : Bool) (T : List ClusterRow) : List ClusterRow := T.filter fun r => !ofDut || r.hit

/-- The plots show exactly the clusters `cl`. -/
structure ShowsClusters (cl : List ClusterRow) (p : ClusterPlot) : Prop where
  /-- numbers in the titles -/
  clusters : p.nClusters = cl.length
  hits : p.nHits = (cl.map ClusterRow.nHits).sum
  /-- bar at size n + 1 -/
  size : ∀ n : Nat, p.sizes.getD n 0 = cl.countP fun r => r.nHits == n + 1
  /-- the largest bar is the one of the largest cluster -/
  largest : (∀ r ∈ cl, r.nHits ≤ p.sizes.length) ∧ ∃ r ∈ cl, r.nHits = p.sizes.length
  /-- page with the sizes up to 10 -/
  small : p.small = p.sizes.take 10
  /-- bars of the shapes -/
  shape : p.shapes = shapesWithBar.map fun s => cl.countP fun r => r.shape == s
  /-- bar of all other shapes -/
  other : p.others = (cl.countP fun r => !shapesWithBar.contains r.shape : Nat)

end BTA.Spec.Plots

namespace BTA.Spec.Plots
open BTA.Plots BTA.Spec
variable {K : Type} [Field K] [LinearOrder K]

/-- The value `v` belongs to cell `i` of `n` cells with the same width that start at `lo`: the upper end belongs to the last cell. -/
def Cell (lo width : K) (n i : Nat) (v : K) : Prop :=
  i < n ∧ lo + (i : K) * width ≤ v ∧ (v < lo + ((i + 1 : Nat) : K) * width ∨ (i + 1 = n ∧ v = lo + (n : K) * width))

/-- The histograms show the chi2 of the tracks `T`: 100 bins between 0 and 20 for the chi2, 50 bins between 0 and 10 for the reduced chi2, 50 bins between 0 and 1 for the p-value. -/
structure ShowsChi2 (T : List (Chi2Row K)) (h : Chi2Hists K) : Prop where
  narrow : ∀ i, h.narrow i = number T fun r => ∃ v, r.chi2 = some v ∧ Cell 0 (1 / 5) 100 i v
  red : ∀ i, h.red i = number T fun r => ∃ v, r.red = some v ∧ Cell 0 (1 / 5) 50 i v
  prob : ∀ i, h.prob i = number T fun r => ∃ v, r.prob = some v ∧ Cell 0 (1 / 50) 50 i v

/-- The point is in the pixel with index (i, j), counted from the corner of the sensor; the origin is its center. -/
def InPixel (s : Sensor K) (i j : Nat) (x y : K) : Prop :=
  Cell (-((s.nColumns : K) * s.columnSize) / 2) s.columnSize s.nColumns i x ∧ Cell (-((s.nRows : K) * s.rowSize) / 2) s.rowSize s.nRows j y

/-- The point is on the sensor. -/
def OnSensor (s : Sensor K) (x y : K) : Prop :=
  |x| ≤ (s.nColumns : K) * s.columnSize / 2 ∧ |y| ≤ (s.nRows : K) * s.rowSize / 2

/-- The maps show the tracks `T`. -/
structure ShowsDensity (s : Sensor K) (T : List (MapRow K)) (p : DensityPlot) : Prop where
  tracks : ∀ i j, p.maps.tracks (i, j) = number T fun r => InPixel s i j r.ix r.iy
  hits : ∀ i j, p.maps.hits (i, j) = number T fun r => ∃ x y, r.hit = some (x, y) ∧ InPixel s i j x y
  nTracks : p.nTracks = number T fun r => OnSensor s r.ix r.iy
  nHits : p.nHits = number T fun r => ∃ x y, r.hit = some (x, y) ∧ OnSensor s x y

/-- The maps show the mean charges of the tracks `T` with a charge. -/
structure ShowsCharge (s : Sensor K) (T : List (MapRow K)) (p : ChargePlot K) : Prop where
  tracks : ∀ i j, p.tracks (i, j) = mean (valuesOf T (fun r => r.charge.isSome ∧ InPixel s i j r.ix r.iy) fun r => r.charge.getD 0)
  hits : ∀ i j, p.hits (i, j) = mean (valuesOf T (fun r => r.charge.isSome ∧ ∃ x y, r.hit = some (x, y) ∧ InPixel s i j x y) fun r => r.charge.getD 0)
  nTracks : p.nTracks = number T fun r => r.charge.isSome ∧ OnSensor s r.ix r.iy
  nHits : p.nHits = number T fun r => r.charge.isSome ∧ ∃ x y, r.hit = some (x, y) ∧ OnSensor s x y

/-- The page shows the number of events for each number of tracks per event. -/
structure ShowsEvents (events : List Int) (p : EventPage) : Prop where
  sorted : (p.bars.map Prod.fst).Pairwise (· < ·)
  bars : ∀ k n, (k, n) ∈ p.bars ↔ 0 < n ∧ n = (events.toFinset.filter fun e => events.count e = k).card
  nEvents : p.nEvents = events.toFinset.card

end BTA.Spec.Plots
