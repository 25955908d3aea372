import Verif.Model.ResCorr
/-
Specification vocabulary for the correlation of residuals.
-/
namespace BTA.ResCorr.Spec
open BTA.ResCorr

/-- Arrays as they are stored: one row for each reference track, one column for each bin. -/
structure Stored (nd : Node) : Prop where
  rows : nd.res.length = nd.ref.length
  columns : ∀ row ∈ nd.res, row.length + 1 = nd.edges.length

/-- The pairs of residuals of bin `i`: of the reference track and of the other track, if there is one. -/
def pairs (nd : Node) (i : Nat) : List (ℝ × ℝ) :=
  (List.zip nd.ref nd.res).filterMap fun p => match p.2[i]? with | some (some v) => some (p.1, v) | _ => none

/-- Sum of the products of the deviations from the means. -/
noncomputable def deviations (ps : List (ℝ × ℝ)) (f g : ℝ × ℝ → ℝ) : ℝ :=
  (ps.map fun p => (f p - (ps.map f).sum / ps.length) * (g p - (ps.map g).sum / ps.length)).sum

/-- Pearson's correlation coefficient. -/
noncomputable def pearson (ps : List (ℝ × ℝ)) : ℝ :=
  deviations ps Prod.fst Prod.snd / Real.sqrt (deviations ps Prod.fst Prod.fst * deviations ps Prod.snd Prod.snd)

/-- The residuals of both tracks vary. -/
def Varies (ps : List (ℝ × ℝ)) : Prop := (∃ p ∈ ps, ∃ q ∈ ps, p.1 ≠ q.1) ∧ ∃ p ∈ ps, ∃ q ∈ ps, p.2 ≠ q.2

/-- The start value of the period is possible: the size of a pixel is not larger than the centre of the last bin. -/
def PixelFits (nd : Node) (size : ℝ) : Prop := ∃ a b, nd.edges.getLast? = some b ∧ nd.edges.dropLast.getLast? = some a ∧ 0 < (a + b) / 2 ∧ 0 ≤ size ∧ size ≤ (a + b) / 2

/-- A value belongs to bin `b` of `n` bins of equal size. -/
def InBin (n : Nat) (r0 r1 : ℝ) (b : Nat) (x : ℝ) : Prop := r0 + b * ((r1 - r0) / n) ≤ x ∧ x < r0 + (b + 1) * ((r1 - r0) / n)

open Classical in
/-- The values that belong to bin `b`, in their order. -/
noncomputable def valuesIn {A : Type} (n : Nat) (r0 r1 : ℝ) (b : Nat) (x : List ℝ) (vals : List A) : List A :=
  ((List.zip x vals).filter fun p => decide (InBin n r0 r1 b p.1)).map Prod.snd

end BTA.ResCorr.Spec
