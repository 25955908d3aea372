import Verif.Model.Efficiency
import Verif.Model.Dut
/-
Model of the preparation of the histograms for one DUT in `calculate_efficiency` (beam_telescope_analysis/result_analysis.py L834-858,
L974-984, L1033-1038): the edges of the 2D histograms, the centres of the pixels, the image points and the tree of the points, the mask of
disabled pixels. The image points are those of `voronoi_finite_polygons_2d` (beam_telescope_analysis/tools/analysis_utils.py L1064-1141).

Numbers are exact. Two functions of scipy are parameters: `query` of the kd-tree (the index of a closest point) and the Voronoi diagram, of
which the code uses here which pixels have a region with a vertex outside of the sensor or at infinity (L1096-1109). Both have
specifications in Verif.Spec.PixelTree. `np.isclose` in the comparison of the vertices with the extent is exact equality.
-/
namespace BTA.PixelTree
open BTA.Dut BTA.Binning

variable {K : Type} [Field K] [LinearOrder K]

/-- `np.indices((n_columns, n_rows)).reshape(2, -1).T` plus 1 (L974-977): the rows of the first column come first. -/
def pixelIndices (d : Pixels K) : List (K × K) :=
  (List.range (d.nColumns * d.nRows)).map fun i => (((i / d.nRows : Nat) : K) + 1, ((i % d.nRows : Nat) : K) + 1)

/-- `pixel_center_data`, L974-978. -/
def pixelCenters (d : Pixels K) : Except Dut.Err (List (K × K)) :=
  match indexToLocal d (pixelIndices d) with
  | .error e => .error e
  | .ok ps => .ok (ps.map fun p => (p.1, p.2.1))

/-- `dut_extent` (L839): limits in x and in y. -/
structure Extent (K : Type) where
  x : K × K
  y : K × K

/-- `points[:, i] -= m; points[:, i] *= -1; points[:, i] += m - np.ptp(extent)` with the middle `m` (analysis_utils.py L1111-1118, L1124-1126). -/
def mirrorLow (e : K × K) (v : K) : K :=
  -(v - (max e.1 e.2 + min e.1 e.2) / 2) + ((max e.1 e.2 + min e.1 e.2) / 2 - (max e.1 e.2 - min e.1 e.2))

/-- The same with `+ np.ptp(extent)` (analysis_utils.py L1115-1122). -/
def mirrorHigh (e : K × K) (v : K) : K :=
  -(v - (max e.1 e.2 + min e.1 e.2) / 2) + ((max e.1 e.2 + min e.1 e.2) / 2 + (max e.1 e.2 - min e.1 e.2))

/-- `mirrored_points`: up, down, left, right (analysis_utils.py L1110-1128). -/
def imagePoints (e : Extent K) (ps : List (K × K)) : List (K × K) :=
  ps.map (fun p => (p.1, mirrorHigh e.y p.2)) ++ ps.map (fun p => (p.1, mirrorLow e.y p.2)) ++
    ps.map (fun p => (mirrorLow e.x p.1, p.2)) ++ ps.map (fun p => (mirrorHigh e.x p.1, p.2))

/-- The functions of scipy. -/
structure Scipy (K : Type) where
  /-- `cKDTree(points).query(position)`: an index -/
  query : List (K × K) → K × K → Nat
  /-- the region of a point in the Voronoi diagram of the points has a vertex outside of the extent or at infinity -/
  leaves : List (K × K) → Extent K → K × K → Bool

/-- First result of `voronoi_finite_polygons_2d`: the points and the image points of those at the border (L1106-1130). -/
def treePoints (f : Scipy K) (e : Extent K) (ps : List (K × K)) : List (K × K) :=
  ps ++ imagePoints e (ps.filter (f.leaves ps e))

/-- `np.where(disabled_pixel_mask == False)[1] + np.where(...)[0] * disabled_pixel_mask.shape[1]` for a mask of the shape of the sensor (L1036). -/
def enabledIndices (d : Pixels K) (disabled : Nat → Nat → Bool) : List Nat :=
  ((List.range (d.nColumns * d.nRows)).filter fun i => disabled (i / d.nRows) (i % d.nRows) == false).map fun i =>
    i % d.nRows + (i / d.nRows) * d.nRows

/-- L1034-1039. -/
def isEnabled (f : Scipy K) (d : Pixels K) (tree : List (K × K)) (mask : Option (Nat → Nat → Bool)) (x y : K) : Bool :=
  match mask with
  | none => true
  | some disabled => (enabledIndices d disabled).contains (f.query tree (x, y))

variable [FloorRing K]

/-- The size of the histogram in one direction (L843-846, L849-852). -/
def histSize (size res : K) (extend : Option K) : K :=
  match extend with
  | none => ⌈size / res⌉ * res
  | some a => ⌈size / res⌉ * res + ⌈a / res⌉ * res * 2

/-- The edges in one direction (L847, L854, L856): symmetric around 0. -/
def histEdges (size res : K) (extend : Option K) : List K :=
  linspace (0 - histSize size res extend / 2) (0 + histSize size res extend / 2) ⌊histSize size res extend / res⌋.toNat

/-- The remaining arguments for the DUT. -/
structure Args (K : Type) where
  resolution : K × K
  extend : Option K × Option K
  mask : Option (Nat → Nat → Bool)
  cut : Option K × Option K
  offset : K × K
  regions : List (Efficiency.Region K)
  minimumTrackDensity : K
  sqrt : K → K

/-- The setup of the DUT for the model of `calculate_efficiency`. -/
def setupOf (f : Scipy K) (d : Pixels K) (a : Args K) : Except Dut.Err (Efficiency.Setup K) :=
  match xExtent d, yExtent d, pixelCenters d with
  | .ok ex, .ok ey, .ok ps =>
    .ok {
      edgesX := histEdges (ex.2 - ex.1) a.resolution.1 a.extend.1
      edgesY := histEdges (ey.2 - ey.1) a.resolution.2 a.extend.2
      pixelSize := (d.columnSize, d.rowSize)
      cut := a.cut
      offset := a.offset
      enabled := isEnabled f d (treePoints f ⟨ex, ey⟩ ps) a.mask
      nearest := fun x y => f.query (treePoints f ⟨ex, ey⟩ ps) (x, y)
      nPixels := ps.length
      regions := a.regions
      minimumTrackDensity := a.minimumTrackDensity
      sqrt := a.sqrt }
  | .error e, _, _ => .error e
  | _, .error e, _ => .error e
  | _, _, .error e => .error e

end BTA.PixelTree
