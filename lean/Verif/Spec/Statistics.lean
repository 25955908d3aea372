import Mathlib.Algebra.Field.Basic
import Mathlib.Order.Defs.LinearOrder
/-
Specification vocabulary for histograms and averages. Nothing here refers to the model of the code.
-/
namespace BTA.Spec

variable {K : Type} [Field K] [LinearOrder K]

/-- Edges of a histogram: at least one bin, increasing. -/
def ValidEdges (edges : List K) : Prop := 2 ≤ edges.length ∧ edges.Pairwise (· < ·)

/-- The value `v` belongs to bin `i`: between the edges of this bin; the upper edge belongs to the bin only in the last
bin. -/
def InBin (edges : List K) (i : Nat) (v : K) : Prop :=
  ∃ lo hi, edges[i]? = some lo ∧ edges[i + 1]? = some hi ∧ lo ≤ v ∧ (v < hi ∨ (v = hi ∧ i + 2 = edges.length))

/-- Mean of a list of values, undefined for an empty list. -/
def mean (l : List K) : Option K := if l = [] then none else some (l.sum / l.length)

open Classical in
/-- Number of rows with property `P`. -/
noncomputable def number {ρ : Type} (T : List ρ) (P : ρ → Prop) : Nat := (T.filter fun r => decide (P r)).length

open Classical in
/-- The values of the rows with property `P`. -/
noncomputable def valuesOf {ρ : Type} (T : List ρ) (P : ρ → Prop) (val : ρ → K) : List K :=
  (T.filter fun r => decide (P r)).map val

end BTA.Spec
