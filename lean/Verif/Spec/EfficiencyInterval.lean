import Mathlib.MeasureTheory.Integral.IntervalIntegral.Basic
/-
Specification of the interval of an efficiency.
-/
namespace BTA.Spec

/-- Probability that the efficiency is between `a` and `b`, if `k` of `N` tracks have a hit and all efficiencies from 0 to 1 were equally probable before (theorem of Bayes): the
probability of `k` of `N` is proportional to `x ^ k * (1 - x) ^ (N - k)` for the efficiency `x`. -/
noncomputable def efficiencyProbability (k N : Nat) (a b : ℝ) : ℝ :=
  (∫ x in a..b, ((N.choose k : ℝ) * x ^ k * (1 - x) ^ (N - k))) / ∫ x in (0 : ℝ)..1, ((N.choose k : ℝ) * x ^ k * (1 - x) ^ (N - k))

/-- `x` is a solution: inside of the bounds, `eq` is zero, and no other such point has a smaller value of `fn`. -/
def Solves (fn : ℝ → ℝ → ℝ) (bounds : (ℝ × ℝ) × (ℝ × ℝ)) (eq : ℝ → ℝ → ℝ) (x : ℝ × ℝ) : Prop :=
  let ok := fun a b => bounds.1.1 ≤ a ∧ a ≤ bounds.1.2 ∧ bounds.2.1 ≤ b ∧ b ≤ bounds.2.2 ∧ eq a b = 0
  ok x.1 x.2 ∧ ∀ a b, ok a b → fn x.1 x.2 ≤ fn a b

end BTA.Spec
