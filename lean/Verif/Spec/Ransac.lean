import Mathlib.Analysis.SpecialFunctions.Sqrt
/-
Specification of the search for a line: distance of a point to a line, one try with two of the points. Nothing here refers to the model of the code.
-/
namespace BTA.Ransac.Spec

/-- `d` is the distance of the point `(x0, y0)` to the line `y = m x + c`: the smallest distance to a point of the line. -/
def IsDistance (m c x0 y0 d : ℝ) : Prop :=
  (∃ x, d = Real.sqrt ((x - x0) ^ 2 + (m * x + c - y0) ^ 2)) ∧ ∀ x, d ≤ Real.sqrt ((x - x0) ^ 2 + (m * x + c - y0) ^ 2)

/-- The line goes through `q`, and with the machine precision `eps` added to the difference of the positions it has the slope of `p` and `q`. -/
def IsLine (eps : ℝ) (p q : ℝ × ℝ) (m c : ℝ) : Prop := q.2 = m * q.1 + c ∧ m * (q.1 - p.1 + eps) = q.2 - p.2

/-- One try with the points in the order `order`: the first two points give the line, `found` are those of the other points (in this order) that
are closer to the line than the threshold. -/
structure IsTry (eps threshold : ℝ) (order : List (ℝ × ℝ)) (m c : ℝ) (found : List (ℝ × ℝ)) : Prop where
  line : ∃ p q rest, order = p :: q :: rest ∧ q.1 - p.1 + eps ≠ 0 ∧ IsLine eps p q m c
  found : ∃ near : ℝ × ℝ → Bool, (∀ p, near p = true ↔ ∃ d, IsDistance m c p.1 p.2 d ∧ d < threshold) ∧ found = (order.drop 2).filter near

end BTA.Ransac.Spec
