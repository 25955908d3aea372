import Verif.Model.CompareFiles
import Mathlib.Algebra.Order.Field.Basic
import Mathlib.Algebra.Order.AbsoluteValue.Basic
/-
What is meant by nodes and files with the same content.
-/
namespace BTA.Spec
open BTA.CompareFiles

variable {T C : Type}

/-- The rows of a node have one value for each column, and each column has one type. Tables are one-dimensional. -/
def ProperNode (a : Node T C) : Prop :=
  match a.names with
  | none => a.types.length = 1 ∧ ∀ r ∈ a.rows, r.length = 1
  | some ns => a.inner = [] ∧ a.types.length = ns.length ∧ ∀ r ∈ a.rows, r.length = ns.length

/-- All nodes of the file are proper, have at least one value in a row, and no path occurs twice. -/
def ProperFile (f : File T C) : Prop := (∀ x ∈ f, ProperNode x.2 ∧ x.2.inner.prod ≠ 0) ∧ (f.map Prod.fst).Nodup

/-- Same structure, and the values at the same place are related. -/
def NodesRelated (rel : C → C → Prop) (a b : Node T C) : Prop :=
  a.names = b.names ∧ a.inner = b.inner ∧ a.types = b.types ∧ List.Forall₂ (List.Forall₂ rel) a.rows b.rows

/-- No column is a string. -/
def NoStrings (a : Node T C) : Prop := ∀ t ∈ a.types, t.isString = false

/-- Numbers that agree within a tolerance (numpy: `|a - b| <= atol + rtol * |b|`), NaN agree with NaN only. -/
def Agree {K : Type} [Field K] [LinearOrder K] (rtol atol : K) : Option K → Option K → Prop
  | none, none => True
  | some a, some b => |a - b| ≤ atol + rtol * |b|
  | _, _ => False

end BTA.Spec
