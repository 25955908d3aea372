import Verif.Model.CheckPlot
import Verif.Spec.CheckFile
/-
Specification vocabulary for the plots of `check_file`. The model is used only for its data types.
-/
namespace BTA.Check.Spec
open BTA.Check

section
variable {K : Type} [Field K] [LinearOrder K]

/-- Two hits, `p` in one of the `range` events before the event of `q`. -/
def Before (range : Nat) (p q : Row K) : Prop := p.ev < q.ev ∧ q.ev ≤ p.ev + range

/-- Number of pairs of hits in consecutive events with the positions `u` (earlier event) and `v` (later event). -/
def nPairs (range : Nat) (f : Row K → K) (rows : List (Row K)) (u v : K) : Nat :=
  BTA.Spec.pairCount rows rows fun q p => decide ((p.ev < q.ev ∧ q.ev ≤ p.ev + range) ∧ f p = u ∧ f q = v)

/-- The image shows all pairs of `n` pixels: earlier event on the horizontal axis, later event on the vertical axis. -/
def ShowsPairs (range n : Nat) (f : Row K → K) (rows : List (Row K)) : PageData → Prop
  | .curve _ => False
  | .image h w val => h = n ∧ w = n ∧ ∀ r c, val r c = nPairs range f rows (c + 1) (r + 1)

end

end BTA.Check.Spec
