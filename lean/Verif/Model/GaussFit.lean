import Verif.Model.HistStat
import Mathlib.Analysis.SpecialFunctions.Gaussian.GaussianIntegral
/-
Model of the functions fitted to the residuals (`gauss`, `gauss_box`, `gauss_box_erf`) and of `fit_residuals_gauss`, `fit_residuals_gauss_box_erf`, beam_telescope_analysis/tools/analysis_utils.py
L642-644, L673-694, L857-882.

Simplifications: real numbers; NaN is `none`. `quad` is the exact integral, `erf` is the error function. `curve_fit` of scipy is a parameter.
-/
namespace BTA.GaussFit
open BTA.HistStat

/-- `gauss`, L642-644. numpy divides by zero for `sigma = 0`: the value is `A * exp(-inf) = 0`, and NaN where `x = mu`. -/
noncomputable def gauss (A mu sigma x : ℝ) : Option ℝ := open Classical in
  if sigma = 0 then (if x = mu then none else some 0)
  else some (A * Real.exp (-(x - mu) ^ 2 / (2 * sigma ^ 2)))

/-- `gauss_box`, L673-687: for `sigma = 0` the integrand is 0 / 0. -/
noncomputable def gaussBox (A mu sigma a x : ℝ) : Option ℝ := open Classical in
  if sigma = 0 then none
  else some (∫ t in (-a / 2)..(a / 2), (gauss A mu sigma (x - t)).getD 0 / (Real.sqrt (2 * Real.pi) * sigma))

/-- The error function (scipy). -/
noncomputable def erf (x : ℝ) : ℝ := 2 / Real.sqrt Real.pi * ∫ t in (0 : ℝ)..x, Real.exp (-t ^ 2)

/-- `erf(u / (np.sqrt(2) * sigma))`: for `sigma = 0` the argument is infinite, or NaN if `u = 0`. -/
noncomputable def erfOf (u sigma : ℝ) : Option ℝ := open Classical in
  if sigma = 0 then (if u = 0 then none else if u < 0 then some (-1) else some 1)
  else some (erf (u / (Real.sqrt 2 * sigma)))

/-- `gauss_box_erf`, L690-694. -/
noncomputable def gaussBoxErf (A mu sigma width x : ℝ) : Option ℝ :=
  match erfOf (x - mu + width * 0.5) sigma, erfOf (mu + width * 0.5 - x) sigma with
  | some l, some r => some (0.5 * A * l + 0.5 * A * r)
  | _, _ => none

/-- Exceptions of `curve_fit`. -/
inductive CurveErr
  /-- RuntimeError or TypeError, caught in L866, L881 -/
  | caught
  /-- any other -/
  | other
deriving DecidableEq

inductive Err
  /-- ValueError: maximum of an empty array -/
  | noBin
  /-- exception of `curve_fit` that is not caught -/
  | curve
deriving DecidableEq

/-- `curve_fit(function of parameters and position, positions, values, p0)`: parameters and covariance. -/
abbrev CurveFit (C : Type) := (List ℝ → ℝ → Option ℝ) → List ℝ → List ℝ → List (Option ℝ) → Except CurveErr (List ℝ × C)

/-- Result of a fit. A parameter is `none` if it is NaN (or None); the covariance is `none` if it is NaN. -/
structure Fit (C : Type) where
  params : List (Option ℝ)
  cov : Option C

/-- The functions with all parameters in one list. -/
noncomputable def gaussP : List ℝ → ℝ → Option ℝ
  | [A, mu, sigma], x => gauss A mu sigma x
  | _, _ => none

noncomputable def gaussBoxP : List ℝ → ℝ → Option ℝ
  | [A, mu, sigma, width], x => gaussBoxErf A mu sigma width x
  | _, _ => none

/-- `np.amax(hist)`. -/
def amax : List Nat → Option Nat
  | [] => none
  | c :: cs => some (cs.foldl max c)

/-- L862-867, L876-881: `curve_fit` and what is returned if it fails. -/
def tryFit {C : Type} (result : Except CurveErr (List ℝ × C)) (start : List (Option ℝ)) : Except Err (Fit C) :=
  match result with
  | .ok (p, cov) => .ok ⟨p.map some, some cov⟩
  | .error .caught => .ok ⟨start, none⟩
  | .error .other => .error .curve

/-- `fit_residuals_gauss`, L857-868. `hist_std == 0` is false for NaN. -/
noncomputable def fitGauss {C : Type} (curve : CurveFit C) (hist : List Nat) (edges : List ℝ) : Except Err (Fit C) := open Classical in
  let xs := centres edges
  match amax hist with
  | none => .error .noBin
  | some m =>
    let start := [some (m : ℝ), meanFromHist hist xs, rmsFromHist hist xs]
    if rmsFromHist hist xs = some 0 then .ok ⟨start, none⟩
    else tryFit (curve gaussP xs (hist.map fun c : Nat => (c : ℝ)) start) start

/-- `fit_residuals_gauss_box_erf`, L871-882. If `w` is None, the first call of the fit function raises a TypeError. -/
noncomputable def fitGaussBox {C : Type} (curve : CurveFit C) (hist : List Nat) (edges : List ℝ) (w : Option ℝ) : Except Err (Fit C) := open Classical in
  let xs := centres edges
  match amax hist with
  | none => .error .noBin
  | some m =>
    let start := [some (m : ℝ), meanFromHist hist xs, rmsFromHist hist xs, w]
    if rmsFromHist hist xs = some 0 then .ok ⟨start, none⟩
    else tryFit (if w.isNone then .error .caught else curve gaussBoxP xs (hist.map fun c : Nat => (c : ℝ)) start) start

end BTA.GaussFit
