import Mathlib.Data.Real.Archimedean
import Mathlib.Algebra.Order.Floor.Ring
/-
Model of the maps of a DUT: `plot_2d_map` and `plot_2d_pixel_hist` (beam_telescope_analysis/tools/plot_utils.py L64-139, without projections), with the arguments of
`plot_track_density` (L1086-1111), `plot_charge_distribution` (L1187-1215) and `calculate_residuals` (result_analysis.py L536-565).

Simplifications: real numbers; a masked value is `none`. The picture is a list of coloured rectangles with the limits of the colour scale; titles, labels and the colour bar are left
out. Median and standard deviation of the unmasked values are arguments (the histogram has entries). Arrays have at least one row and one column.
-/
namespace BTA.MapPlot

/-- A two-dimensional masked array: shape and values. -/
structure Grid where
  rows : ℕ
  cols : ℕ
  val : ℕ → ℕ → Option ℝ

/-- `hist.T`. -/
def Grid.transpose (g : Grid) : Grid := { rows := g.cols, cols := g.rows, val := fun i j => g.val j i }

/-- `np.ma.masked_equal(hist, 0)` (L1087-1088, result_analysis.py L537, L552). -/
noncomputable def maskedZero (nx ny : ℕ) (hist : ℕ → ℕ → ℝ) : Grid :=
  { rows := nx, cols := ny, val := fun i j => open Classical in if hist i j = 0 then none else some (hist i j) }

/-- `np.ma.masked_where(count == 0, hist)` (L1188-1189). -/
noncomputable def maskedWhere (nx ny : ℕ) (count : ℕ → ℕ → ℕ) (hist : ℕ → ℕ → ℝ) : Grid :=
  { rows := nx, cols := ny, val := fun i j => if count i j = 0 then none else some (hist i j) }

/-- The values that are not masked. -/
def Grid.values (g : Grid) : List ℝ := (List.range g.rows).flatMap fun i => (List.range g.cols).filterMap fun j => g.val i j

/-- A coloured rectangle. -/
structure Cell where
  left : ℝ
  right : ℝ
  bottom : ℝ
  top : ℝ
  value : ℝ

/-- `imshow` with `origin='lower'` (L100): the first row starts at the third number of the extent, also if this is larger than the fourth one. Masked values are white (L94). -/
noncomputable def imshow (g : Grid) (extent : ℝ × ℝ × ℝ × ℝ) : List Cell :=
  (List.range g.rows).flatMap fun i => (List.range g.cols).filterMap fun j =>
    (g.val i j).map fun v =>
      let x (n : ℕ) := extent.1 + n * ((extent.2.1 - extent.1) / g.cols)
      let y (n : ℕ) := extent.2.2.1 + n * ((extent.2.2.2 - extent.2.2.1) / g.rows)
      { left := min (x j) (x (j + 1)), right := max (x j) (x (j + 1)), bottom := min (y i) (y (i + 1)), top := max (y i) (y (i + 1)), value := v }

/-- `z_max` if it is not given (L87-91). `np.allclose` has the tolerances 1e-8 and 1e-5. -/
noncomputable def defaultMax (g : Grid) : ℝ :=
  open Classical in
  match g.values with
  | [] => 1
  | v :: l => if ∀ w ∈ v :: l, |w| ≤ 1 / 100000000 + 1 / 100000 * |w| then 1 else ⌈l.foldl max v⌉

/-- A picture: coloured rectangles and the limits of the colour scale. -/
structure Picture where
  cells : List Cell
  clim : ℝ × ℝ

/-- `plot_2d_pixel_hist` (L86-139). -/
noncomputable def plot2d (g : Grid) (extent : ℝ × ℝ × ℝ × ℝ) (zMin : ℝ) (zMax : Option ℝ) : Picture :=
  let top := zMax.getD (defaultMax g)
  { cells := imshow g extent, clim := (open Classical in if top = zMin then 0 else zMin, top) }

/-- The maps of tracks and of hits (`plot_track_density` L1086-1111): `n` by `m` pixels, size of the DUT, number of entries of each bin. -/
noncomputable def densityPicture (nx ny : ℕ) (sx sy : ℝ) (hist : ℕ → ℕ → ℕ) : Picture :=
  plot2d (maskedZero nx ny fun i j => hist i j).transpose (-sx / 2, sx / 2, sy / 2, -sy / 2) 0 none

/-- The maps of the mean charge (`plot_charge_distribution` L1187-1215). `median`: of the values that are shown. -/
noncomputable def chargePicture (nx ny : ℕ) (sx sy : ℝ) (count : ℕ → ℕ → ℕ) (hist : ℕ → ℕ → ℝ) (median : ℝ) : Picture :=
  plot2d (maskedWhere nx ny count hist).transpose (-sx / 2, sx / 2, sy / 2, -sy / 2) 0 (some (2 * median))

/-- The maps of the mean residual and of the entries (`calculate_residuals`, result_analysis.py L536-565): extent of the DUT in x and y. -/
noncomputable def residualPicture (nx ny : ℕ) (xe ye : ℝ × ℝ) (hist : ℕ → ℕ → ℝ) (median std : ℝ) : Picture :=
  plot2d (maskedZero nx ny hist).transpose (xe.1, xe.2, ye.2, ye.1) (max 0 ⌈median - 3 * std⌉) (some ⌈median + 3 * std + 1⌉)

end BTA.MapPlot
