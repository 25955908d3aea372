import Verif.Model.ArrayDiff
/-
Specification vocabulary for the report of differences. The model is used only for its data types.
-/
namespace BTA.ArrayDiff.Spec
open BTA.ArrayDiff

variable {T : Type}

/-- The report says that there is a difference. -/
def Says : Report → Prop
  | .mismatch => True
  | .array d => d.type = true ∨ d.shape = true ∨ d.sum = true ∨ d.values = true
  | .table first second order cols => first ≠ [] ∨ second ≠ [] ∨ order = true ∨ ∃ c ∈ cols, c.2.type = true ∨ c.2.shape = true ∨ c.2.sum = true ∨ c.2.values = true

/-- The kind of values follows from the data type, only texts have text values, and infinity does not occur with both signs. -/
structure ProperArr (isText : T → Bool) (a : Arr T) : Prop where
  kind : a.isText = isText a.dtype
  text : a.isText = false → ∀ s, Val.text s ∉ a.vals
  infinite : a.isText = false → ¬ (Val.pinf ∈ a.vals ∧ Val.ninf ∈ a.vals)

/-- A numpy array: an array has one column, a table one for each name; names are not repeated. -/
structure ProperTable (isText : T → Bool) (a : Table T) : Prop where
  names : ∀ l, a.names = some l → l.Nodup ∧ a.cols.length = l.length
  plain : a.names = none → a.cols.length = 1
  cols : ∀ c ∈ a.cols, ProperArr isText c

/-- Column `c` of the table is `x`. -/
def IsColumn (a : Table T) (c : String) (x : Arr T) : Prop := ∃ l, a.names = some l ∧ ∃ i : Nat, l[i]? = some c ∧ a.cols[i]? = some x

/-- Each common column is reported once, with the facts. -/
def ColumnsOf (a b : Table T) (cols : List (String × Diff)) : Prop :=
  (cols.map Prod.fst).Nodup ∧ (∀ c, c ∈ cols.map Prod.fst ↔ (∃ x, IsColumn a c x) ∧ ∃ y, IsColumn b c y) ∧
  ∀ c d x y, (c, d) ∈ cols → IsColumn a c x → IsColumn b c y →
    (d.type = true ↔ x.dtype ≠ y.dtype) ∧ (d.shape = true ↔ x.shape ≠ y.shape) ∧ ((d.type = true ∨ d.shape = true ∨ d.sum = true ∨ d.values = true) ↔ x ≠ y)

end BTA.ArrayDiff.Spec
