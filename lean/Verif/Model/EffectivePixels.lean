import Verif.Model.RegionHist
import Verif.Model.PixelTree
/-
Model of the effective pixels in `efficiency_plots` (beam_telescope_analysis/tools/plot_utils.py L1371-1554): the picture in which every bin
shows the pixel that measures the tracks through the bin, made from the mean residuals (L1394-1453) or from the hits of the clusters
(L1461-1530), and the measured and calculated sizes of the pixels (L1503, L1535-1554). Also the bins of the tracks for the histogram of the
cluster hits (beam_telescope_analysis/result_analysis.py L1419-1421); the histogram itself is in Verif.Model.RegionHist.

Numbers are exact. `query` of the kd-tree is a parameter (Verif.Model.PixelTree). Sizes of integer types are not modelled (uint16 number of bins
of a pixel, int8 colours). Not modelled: the drawing, the order of the colours of the colour map (only their number is used).
-/
namespace BTA.EffectivePixels
open BTA.Binning BTA.PixelTree BTA.RegionHist

variable {K : Type} [Field K] [LinearOrder K]

inductive Err
  /-- `np.ravel_multi_index`: ValueError, index out of bounds -/
  | outside
  /-- `colors[...]` (L1524): `colors` is the module `matplotlib.colors` (L22), TypeError -/
  | notSubscriptable
deriving DecidableEq

/-- Flat indices of the bins of the intersections `(x, y)` of the tracks with valid hit (result_analysis.py L1419-1421): an intersection outside of
the histogram is in an overflow bin, its index minus one is invalid. -/
def trackBins (edgesX edgesY : List K) : List (K × K) → Except Err (List Nat)
  | [] => .ok []
  | t :: r =>
    match binIndex2 edgesX edgesY t.1 t.2 with
    | none => .error .outside
    | some (i, j) =>
      match trackBins edgesX edgesY r with
      | .error e => .error e
      | .ok bs => .ok ((i * (edgesY.length - 1) + j) :: bs)

/-! ### The picture -/

/-- Picture after some pixels (L1415-1418): `pixel` is `effective_pixels_2d` by the flat index of the bin, `colour` is `color_index_array`, `next` is
`color_index`; `none` is -1. -/
structure Picture where
  pixel : Nat → Option Nat
  colour : Nat → Option Nat
  next : Nat

/-- The loop that changes the colour (L1433-1437): `used` are the colours in the region of the pixel, the first argument is the number of
repetitions that remain. -/
def pickColour (n : Nat) (used : List (Option Nat)) : Nat → Nat → Nat
  | 0, c => c
  | left + 1, c => if some (c % n) ∈ used then pickColour n used left (c + 1) else c

/-- What the picture is made from: the flat indices of the selected bins (`bin_indices_sel`) in their order, the pixel that a bin is attributed to
(`residual_to_pixel_center_sel`, L1402, or `max_hits_pixel_index_sel`, L1481), and the pixel closest to the centre of the bin
(`bin_center_to_pixel_center_sel`, L1403, L1471). -/
structure Bins where
  sel : List Nat
  effective : Nat → Nat
  own : Nat → Nat

/-- One pixel (L1421-1443, L1497-1516). `color_index_array[-1]` is the colour of the last pixel of `nPixels`. -/
def paint (nColours nPixels : Nat) (d : Bins) (st : Picture) (p : Nat) : Picture :=
  let used := (d.sel.filter fun b => d.own b = p).map fun b =>
    match st.pixel b with
    | some q => st.colour q
    | none => st.colour (nPixels - 1)
  let c := pickColour nColours used (nColours - 1) st.next
  { pixel := fun b => if b ∈ d.sel ∧ d.effective b = p then some p else st.pixel b
    colour := fun q => if q = p then some (c % nColours) else st.colour q
    next := c + 1 }

/-- All pixels in their order. -/
def paintAll (nColours nPixels : Nat) (d : Bins) : Picture :=
  (List.range nPixels).foldl (paint nColours nPixels d) ⟨fun _ => none, fun _ => none, 0⟩

/-- `count_index_array[pixel_index] = np.count_nonzero(bin_center_data_indices)` (L1426-1427, L1504-1505): the number of positions in the list of
selected bins which are not 0. -/
def markCount (d : Bins) (p : Nat) : Nat :=
  ((List.range d.sel.length).filter fun i => d.sel[i]?.map d.own = some p).countP fun i => i ≠ 0

/-- The pixel has a marker (L1447, L1521). -/
def marked (d : Bins) (p : Nat) : Bool := markCount d p != 0

/-- Centre of the bin with a flat index (L1376-1378, L1398). -/
def binCentre (edgesX edgesY : List K) (b : Nat) : K × K :=
  ((edgesX.getD (b / (edgesY.length - 1) + 1) 0 + edgesX.getD (b / (edgesY.length - 1)) 0) / 2,
    (edgesY.getD (b % (edgesY.length - 1) + 1) 0 + edgesY.getD (b % (edgesY.length - 1)) 0) / 2)

/-- The bins for the picture from the mean residuals (L1394-1403): bins with tracks with hit; `count` is `count_tracks_with_hit_2d_hist`, `rx` and
`ry` are the mean residuals. -/
def residualBins (f : Scipy K) (edgesX edgesY : List K) (centres : List (K × K)) (count : Nat → Nat) (rx ry : Nat → K) : Bins where
  sel := (List.range ((edgesX.length - 1) * (edgesY.length - 1))).filter fun b => count b > 0
  effective := fun b => f.query centres ((binCentre edgesX edgesY b).1 + rx b, (binCentre edgesX edgesY b).2 + ry b)
  own := fun b => f.query centres (binCentre edgesX edgesY b)

/-! ### Sizes -/

/-- `pixel_sizes[pixel_index]` (L1462-1463, L1503). -/
def measuredSize (resX resY : K) (d : Bins) (p : Nat) : K := ((d.sel.filter fun b => d.effective b = p).length : K) * resX * resY

/-- `region + [region[-1]] * (max_region_size - len(region))` (L1539-1540). -/
def padded {E : Type} (n : Nat) (l : List E) : List E :=
  match l.getLast? with
  | none => l
  | some z => l ++ List.replicate (n - l.length) z

/-- `polygon_area_multi` (analysis_utils.py L1165-1168) for one of the polygons. -/
def areaOf (x y : List K) : K := 1 / 2 * |BTA.dot x (roll1 y) - BTA.dot y (roll1 x)|

/-- `max_region_size` (L1535-1537). -/
def maxRegionSize {E : Type} (regions : List (List E)) : Nat := regions.foldl (fun m r => max m r.length) 0

/-- `calculated_pixel_sizes` (L1535-1542): the vertices of each region, filled up to the length of the longest. -/
def calculatedSizes (regions : List (List (K × K))) : List K :=
  regions.map fun r => areaOf ((padded (maxRegionSize regions) r).map Prod.fst) ((padded (maxRegionSize regions) r).map Prod.snd)

/-! ### From the hits -/

/-- The DUT: numbers of columns and rows, the shape of the array of relative indices (`relShape`), the number of bins, the index of the pixel closest
to the centre of a bin. -/
structure Sensor where
  nColumns : Nat
  nRows : Nat
  shapeX : Nat
  shapeY : Nat
  nBins : Nat
  own : Nat → Nat

/-- `count_pixel_hits_2d_hist`: flat index of the bin, relative column and row. -/
abbrev Hist := Nat → Nat × Nat → Nat

/-- The relative indices in the order of the memory. -/
def offsets (s : Sensor) : List (Nat × Nat) := (List.range (s.shapeX * s.shapeY)).map fun i => (i / s.shapeY, i % s.shapeY)

/-- `select_bins` (L1465): bins with hits. -/
def hasHits (s : Sensor) (hist : Hist) (b : Nat) : Bool := ((offsets s).map (hist b)).sum != 0

/-- `np.argmax` along the relative indices (L1472): the first one with the most hits. -/
def largest (h : Nat × Nat → Nat) : List (Nat × Nat) → Nat × Nat → Nat × Nat
  | [], best => best
  | o :: r, best => largest h r (if h best < h o then o else best)

/-- `max_hits_pixel_col_row` (L1472-1478): only for bins with hits half of the size of the array is subtracted. -/
def mostHit (s : Sensor) (hist : Hist) (b : Nat) : Int × Int :=
  let o := largest (hist b) (offsets s) (0, 0)
  if hasHits s hist b then
    (((s.own b / s.nRows : Nat) : Int) + ((o.1 : Int) - ((s.shapeX / 2 : Nat) : Int)), ((s.own b % s.nRows : Nat) : Int) + ((o.2 : Int) - ((s.shapeY / 2 : Nat) : Int)))
  else (((s.own b / s.nRows : Nat) : Int) + (o.1 : Int), ((s.own b % s.nRows : Nat) : Int) + (o.2 : Int))

/-- `np.ravel_multi_index(max_hits_pixel_col_row.T, dims=(n_columns, n_rows))` (L1479): all bins have to be valid. -/
def hitBins (s : Sensor) (hist : Hist) : Except Err Bins :=
  if (List.range s.nBins).all fun b => decide (0 ≤ (mostHit s hist b).1 ∧ (mostHit s hist b).1 < s.nColumns ∧ 0 ≤ (mostHit s hist b).2 ∧ (mostHit s hist b).2 < s.nRows) then
    .ok {
      sel := (List.range s.nBins).filter (hasHits s hist)
      effective := fun b => (mostHit s hist b).1.toNat * s.nRows + (mostHit s hist b).2.toNat
      own := s.own }
  else .error .outside

/-- The measured and the calculated sizes that are plotted (L1461-1554): after the loop over the pixels `colors[...]` is evaluated (L1524), the plot
of the sizes (L1532-1554) is behind it. -/
def sizePlot (s : Sensor) (hist : Hist) : Except Err (List K × List K) :=
  match hitBins s hist with
  | .error e => .error e
  | .ok _ => .error .notSubscriptable

end BTA.EffectivePixels
