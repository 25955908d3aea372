import Verif.Model.HistStat
import Verif.Model.Residuals
import Mathlib.Data.List.Sort
/-
Model of the binning of the residual histograms in `calculate_residuals` (beam_telescope_analysis/result_analysis.py L133-181, L190-204) and of
`fit_residuals_vs_position` (beam_telescope_analysis/tools/analysis_utils.py L885-927).

Numbers are exact. Parameters: the peak detection with splines (`peak_detect`, scipy), the automatic bins of numpy ("sturges"), the fits with
scipy's `curve_fit`.
-/
namespace BTA.ResFit
open BTA.Binning BTA.HistStat

variable {K : Type} [Field K] [LinearOrder K] [FloorRing K]

/-! ### Binning of the residuals -/

/-- The functions of scipy and numpy. -/
structure Lib (K : Type) where
  /-- `peak_detect(bin centers, hist)`: centre and FWHM, `none` for RuntimeError -/
  peak : List K → List Nat → Option (K × K)
  /-- the edges of `np.histogram(values, bins="sturges")` -/
  sturges : List K → List K

/-- Edges of the histogram for the search of the peak (L134-138, L150-154); `size` is the column or row size. -/
def searchEdges (f : Lib K) (size : K) (perPixel : Option Nat) (v : K) (vs : List K) : List K :=
  match perPixel with
  | some m => arange (vs.foldl min v - size / m) (vs.foldl max v + 2 * (size / m)) (size / m)
  | none => f.sturges (v :: vs)

/-- `np.histogram(values, bins=edges)[0]`. -/
def histogram (edges : List K) (vs : List K) : List Nat := (List.range (edges.length - 1)).map fun i => counts (binIndex edges) vs i

/-- L139-148, L155-164: centre and FWHM; `none` for other exceptions than RuntimeError. -/
def findPeak (f : Lib K) (size : K) (edges : List K) (vs : List K) : Option (K × K) :=
  match f.peak (centres edges) (histogram edges vs) with
  | some p => some p
  | none =>
    match simplePeak (centres edges) ((histogram edges vs).map fun n : Nat => (n : K)) with
    | .ok p => some (p.center, p.fwhm)
    | .error .noPeak => some (0, size * 6)
    | .error .value => none

/-- `np.mod(x, 2)`. -/
def mod2 (x : K) : K := x - 2 * (⌊x / 2⌋ : K)

/-- L168-170, L191-193: the width of the histogram with `nbins_per_pixel`. -/
def fullWidth (size fwhm : K) : K :=
  let width := max (6 * size) (size * (⌈6 * fwhm / size⌉ : K))
  if mod2 (width / size) ≠ 0 then width + size else width

/-- L167-181, L190-204: the edges of the residual histogram. -/
def edgesAround (size : K) (perPixel : Option Nat) (center fwhm : K) : List K :=
  match perPixel with
  | some m => linspace (center - 1 / 2 * fullWidth size fwhm) (center + 1 / 2 * fullWidth size fwhm) ⌊(m : K) * fullWidth size fwhm / size⌋.toNat
  | none => linspace (center - size * (⌈6 * fwhm / size⌉ : K)) (center + size * (⌈6 * fwhm / size⌉ : K)) 200

/-- L133-204 for one direction: the edges from the residuals of the first chunk; `none` if there is none (`np.min` raises a ValueError; the
"sturges" bins of an empty array are not modelled). This is `resEdgesX`, `resEdgesY` of Verif.Model.Residuals. -/
def resEdges (f : Lib K) (size : K) (perPixel : Option Nat) : List K → Option (List K)
  | [] => none
  | v :: vs =>
    match findPeak f size (searchEdges f size perPixel v vs) (v :: vs) with
    | none => none
    | some (center, fwhm) => some (edgesAround size perPixel center fwhm)

/-! ### Fit of the residuals against the position -/

/-- `np.where(xcenter >= limit_left)[0][0]`, 0 if there is none or if the limit is infinite (L895-901). -/
def selectLeft (xs : List K) : Option K → Nat
  | none => 0
  | some l => (xs.findIdx? fun x => decide (l ≤ x)).getD 0

/-- `np.where(xcenter <= limit_right)[0][-1] + 1`, all bins if there is none or if the limit is infinite (L902-908). -/
def selectRight (xs : List K) : Option K → Nat
  | none => xs.length
  | some r =>
    match ((List.range xs.length).filter fun i => xs[i]?.any fun x => decide (x ≤ r)).getLast? with
    | some i => i + 1
    | none => xs.length

/-- `np.percentile(values, q)` with linear interpolation, for a list that is not empty. -/
def percentile (q : K) (values : List K) : K :=
  let s := values.insertionSort (· ≤ ·)
  let h := ((values.length - 1 : Nat) : K) * (q / 100)
  let lo := s.getD ⌊h⌋.toNat 0
  lo + (h - (⌊h⌋ : K)) * (s.getD (⌊h⌋.toNat + 1) lo - lo)

/-- A bin along the position: centre, number of entries and the mean of the fit of its residuals (`none` is not finite, or there are no
entries in the histogram, L915-920). -/
structure PosBin (K : Type) where
  x : K
  count : Nat
  mean : Option K

/-- `select` of L887-914 without the condition on the means; `i` is the number of the bin. -/
def inRange (bins : List (PosBin K)) (limit : Option (Option K × Option K)) (i : Nat) (b : PosBin K) : Bool :=
  match limit with
  | none => decide (0 < b.count) &&
      decide (percentile (100 - 68) ((bins.filter fun b => decide (0 < b.count)).map fun b => (b.count : K)) < (b.count : K))
  | some (l, r) => decide (0 < b.count) && (decide (selectLeft (bins.map PosBin.x) l ≤ i) && decide (i < selectRight (bins.map PosBin.x) r))

/-- The bins used for the fit (L887-922), with their numbers. -/
def selected (bins : List (PosBin K)) (limit : Option (Option K × Option K)) : List (PosBin K × Nat) :=
  bins.zipIdx.filter fun p => inRange bins limit p.2 p.1 && p.1.mean.isSome

/-- `fit_residuals_vs_position`, L885-927: the coefficients, `none` for NaN. `curveFit` gets positions, means and errors. -/
def fitPosition (curveFit : List (K × K × K) → K × K) (bins : List (PosBin K)) (limit : Option (Option K × Option K)) : Option (K × K) :=
  let sel := selected bins limit
  if 1 < sel.length then
    some (curveFit (sel.map fun p => (p.1.x, p.1.mean.getD 0, (sel.map fun q => (q.1.count : K)).sum / (p.1.count : K))))
  else none

end BTA.ResFit
