import Verif.Model.SmcCombine
import Mathlib.Algebra.BigOperators.Group.List.Basic
/-
Specification vocabulary for `SMC`. Of the model only the data type `Item` is used.
-/
namespace BTA.Spec
open BTA.Smc

variable {α ρ A R K : Type}

/-- Serial processing: the function is applied to one chunk after the other and the value is combined with the previous ones.
The outer option is none if the function or the combination raises an exception, the inner one if there is no chunk. -/
def serial (func : α → Option ρ) (combine : Option A → ρ → Option A) (chunks : List α) : Option (Option A) :=
  chunks.foldlM (fun acc c => do return some (← combine acc (← func c))) none

/-- The rows of an item. -/
def rowsOf : Item R K → List R
  | .table rows => rows
  | _ => []

/-- Element of an array of the given shape with the index, zero outside of the array. -/
def elem [Zero K] : List Nat → List K → List Nat → K
  | [], data, [] => data.headD 0
  | s :: shape, data, i :: idx =>
    if i < s then elem shape ((data.drop (i * shape.foldr (· * ·) 1)).take (shape.foldr (· * ·) 1)) idx else 0
  | _, _, _ => 0

/-- Element of a histogram. -/
def histAt [Zero K] : Item R K → List Nat → K
  | .hist shape data, idx => elem shape data idx
  | _, _ => 0

/-- What the function returns for a node: rows of a table, or a histogram with this shape except for the length of the first
axis. -/
inductive Kind
  | table
  | hist (tail : List Nat)

/-- The item is of this kind. -/
def Kind.Match : Kind → Item R K → Prop
  | .table, .table _ => True
  | .hist tail, .hist shape data => ∃ n, shape = n :: tail ∧ data.length = n * tail.foldr (· * ·) 1
  | _, _ => False

/-- The sum of items of one kind: all rows one after the other, or the element-wise sum of the histograms. -/
def Kind.IsSum [AddMonoid K] (kind : Kind) (items : List (Item R K)) (out : Item R K) : Prop :=
  match kind with
  | .table => out = .table (items.flatMap rowsOf)
  | .hist tail => Kind.Match (.hist tail) out ∧ ∀ idx, histAt out idx = (items.map fun item => histAt item idx).sum

end BTA.Spec
