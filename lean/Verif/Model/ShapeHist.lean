import Verif.Model.Binning
import Mathlib.Algebra.Order.Ring.Rat
import Mathlib.Algebra.Field.Rat

/-
Model of the histograms of the cluster shape: HistClusterShape of `cluster_hits` (beam_telescope_analysis/hit_analysis.py L1131-1143)
and the third axis of count_in_pixel_cluster_shape_2d_hists of `calculate_efficiency` (beam_telescope_analysis/result_analysis.py
L831, L920, L1080-1082, L1256-1259). Integers are compared exactly (numpy converts to float64, which matters above 2^53 only).
-/
namespace BTA.ShapeHist
open Binning

/-- `np.arange(n)` as edges. -/
def intEdges (n : Nat) : List ℚ := (List.range n).map fun (k : Nat) => (k : ℚ)

/-- `np.histogram(a=cluster_shape, bins=np.arange(2**16))` (hit_analysis.py L1133), summed over the chunks by SMC. -/
def shapeHistogram (chunks : List (List Int)) (i : Nat) : Nat :=
  (chunks.map fun c => counts (fun s : Int => binIndex (intEdges (2 ^ 16)) (s : ℚ)) c i).sum

/-- `efficiency_regions_analyze_cluster_shapes` (result_analysis.py L831). -/
def shapes : List Int := [1, 3, 5, 13, 14, 7, 11, 15]

/-- `select_small_cluster_sizes` (L1080-1082) for one cluster: every shape of the list is compared with itself. -/
def selectSmall (_ : Int) : Bool := shapes.foldl (fun sel v => sel || decide (v = v)) false

/-- The loop over `enumerate(efficiency_regions_analyze_cluster_shapes)` (L1257-1258) for one entry, starting with label `i`. -/
def relabelLoop : Nat → List Int → Int → Int
  | _, [], v => v
  | i, w :: r, v => relabelLoop (i + 1) r (if v = w then (i : Int) else v)

/-- `cluster_shape_mod_tmp` (L1256-1258) for one entry. -/
def relabel (v : Int) : Int := relabelLoop 0 shapes v

/-- Number of clusters with label `i` (L1259), added up over the chunks; `range(len(...) + 1)` are the edges (L920). The position in the
pixel, which is the other axis of the histogram, is not modelled. -/
def shapeCounts (chunks : List (List Int)) (i : Nat) : Nat :=
  (chunks.map fun c => counts (fun s : Int => binIndex (intEdges 9) (relabel s : ℚ)) (c.filter selectSmall) i).sum

end BTA.ShapeHist
