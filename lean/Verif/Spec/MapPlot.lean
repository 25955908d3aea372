import Verif.Model.MapPlot
/-
C237: what the reader of a map sees, and the bins of a DUT.
-/
namespace BTA.MapPlot.Spec
open BTA.MapPlot

/-- The picture has the colour of the value `v` at the point (x, y) of its axes. -/
def Shows (p : Picture) (x y v : ℝ) : Prop := ∃ c ∈ p.cells, c.left < x ∧ x < c.right ∧ c.bottom < y ∧ y < c.top ∧ c.value = v

/-- The coordinate is inside of bin `i` of `n` bins of the same size between `lo` and `hi`. -/
def InBin (lo hi : ℝ) (n i : ℕ) (x : ℝ) : Prop := i < n ∧ lo + i * ((hi - lo) / n) < x ∧ x < lo + (i + 1) * ((hi - lo) / n)

end BTA.MapPlot.Spec
