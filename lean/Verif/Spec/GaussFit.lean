import Verif.Spec.Statistics
import Mathlib.Probability.Distributions.Gaussian.Real
/-
Specification of the fit functions and of a least squares fit. Nothing here refers to the model of the code.
-/
namespace BTA.GaussFit.Spec
open ProbabilityTheory MeasureTheory

/-- The probability that a normal variable with mean `mu` and standard deviation `sigma` is not farther than `w / 2` from `x`. -/
noncomputable def nearProb (mu sigma w x : ℝ) : ℝ := (gaussianReal mu (Real.toNNReal (sigma ^ 2)) (Set.Icc (x - w / 2) (x + w / 2))).toReal

/-- The function with parameters `p` has numbers as values at all positions, and `s` is the sum of the squared differences to `ys`. -/
def Misfit (f : List ℝ → ℝ → Option ℝ) (xs ys : List ℝ) (p : List ℝ) (s : ℝ) : Prop :=
  ∃ vs : List ℝ, xs.map (f p) = vs.map some ∧ s = (List.zipWith (fun v y => (v - y) ^ 2) vs ys).sum

/-- No other parameters are better. -/
def LeastSquares (f : List ℝ → ℝ → Option ℝ) (xs ys : List ℝ) (p : List ℝ) : Prop := ∃ s, Misfit f xs ys p s ∧ ∀ q t, Misfit f xs ys q t → s ≤ t

/-- The positions of all entries of a histogram: the centre of the bin for each entry. -/
noncomputable def entries : List Nat → List ℝ → List ℝ
  | c :: cs, lo :: hi :: es => List.replicate c ((lo + hi) / 2) ++ entries cs (hi :: es)
  | _, _ => []

end BTA.GaussFit.Spec
