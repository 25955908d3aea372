import Mathlib.Algebra.Order.Field.Rat
import Mathlib.Algebra.Order.AbsoluteValue.Basic
import Mathlib.Algebra.BigOperators.Group.List.Basic
/-
Model of `get_array_differences` (beam_telescope_analysis/tools/test_tools.py L131-198), the text that `compare_h5_files` adds to its message for a node that
differs (L290-301).

Simplifications: numbers are rational numbers without rounding. Instead of the text the reported facts are returned: sets of columns as lists in the order of the arrays.
Arrays have at least one dimension (as all arrays and columns read from a file), so that numpy compares them only with the same shape.
-/
namespace BTA.ArrayDiff

/-- A value of an array. -/
inductive Val
  | num (x : ℚ)
  | nan
  | pinf
  | ninf
  | text (s : String)
deriving DecidableEq

/-- An array (a column of a table): data type (`T`, whether it is a text), shape, and the values in C order. -/
structure Arr (T : Type) where
  dtype : T
  isText : Bool
  shape : List Nat
  vals : List Val
deriving DecidableEq

/-- A numpy array: without names one array, with names the columns (`dtype.names`). -/
structure Table (T : Type) where
  names : Option (List String)
  cols : List (Arr T)
deriving DecidableEq

/-- Sum of two numbers. -/
def add : Val → Val → Val
  | .num x, .num y => .num (x + y)
  | .num _, .pinf => .pinf
  | .num _, .ninf => .ninf
  | .pinf, .num _ => .pinf
  | .pinf, .pinf => .pinf
  | .ninf, .num _ => .ninf
  | .ninf, .ninf => .ninf
  | _, _ => .nan

/-- `np.nansum`: NaN is left out. -/
def nansum (l : List Val) : Val := l.foldl (fun acc v => if v = .nan then acc else add acc v) (.num 0)

/-- `x != y` of two numbers: NaN differs from everything. -/
def differs (x y : Val) : Bool := decide (x = .nan ∨ y = .nan ∨ x ≠ y)

/-- L156-160: sums; a TypeError for texts is caught. -/
def sumDiffers {T : Type} (a b : Arr T) : Bool := if a.isText || b.isText then false else differs (nansum a.vals) (nansum b.vals)

/-- Tolerances of the comparison (`equal_nan` is True in all calls, L300). -/
structure Tol where
  rtol : ℚ
  atol : ℚ

/-- `np.isclose` of a value and the desired value. -/
def close (t : Tol) : Val → Val → Bool
  | .num x, .num y => decide (|x - y| ≤ t.atol + t.rtol * |y|)
  | .nan, .nan => true
  | .pinf, .pinf => true
  | .ninf, .ninf => true
  | _, _ => false

/-- What is reported for an array: different types, shapes, sums, values. -/
structure Diff where
  type : Bool
  shape : Bool
  sum : Bool
  values : Bool
deriving DecidableEq

/-- L168-171: "Difference" instead of "No Difference". -/
def Diff.any (d : Diff) : Bool := d.type || d.shape || d.sum || d.values

variable {T : Type} [DecidableEq T]

/-- L151-155: reshape to the shape of the second array; a ValueError is caught. -/
def reshaped (a b : Arr T) : Arr T := if a.shape ≠ b.shape ∧ a.shape.prod = b.shape.prod then { a with shape := b.shape } else a

/-- L161-170: comparison of the values; `none`: TypeError of `assert_allclose` for texts, which is not caught. -/
def valuesDiffer (tol : Option Tol) (a b : Arr T) : Option Bool :=
  match tol with
  | none => some (decide (a.shape ≠ b.shape ∨ a.vals ≠ b.vals))
  | some t =>
    if a.shape ≠ b.shape then some true
    else if a.isText || b.isText then none
    else some (!((a.vals.zip b.vals).all fun p => close t p.1 p.2))

/-- `compare_arrays`, L144-173. -/
def compareArrays (tol : Option Tol) (a b : Arr T) : Option Diff :=
  (valuesDiffer tol (reshaped a b) b).map fun v => ⟨decide (a.dtype ≠ b.dtype), decide (a.shape ≠ b.shape), sumDiffers (reshaped a b) b, v⟩

/-- Column of a table. -/
def Table.col (a : Table T) (c : String) : Option (Arr T) := (((a.names.getD []).zip a.cols).find? fun p => p.1 = c).map Prod.snd

/-- What is reported. -/
inductive Report
  /-- L176-177: array and table. -/
  | mismatch
  /-- L178-179: two arrays. -/
  | array (d : Diff)
  /-- L180-198: additional columns of the first and of the second table, different order, the common columns. -/
  | table (first second : List String) (order : Bool) (cols : List (String × Diff))
deriving DecidableEq

/-- L193-197: loop over the common columns. -/
def compareColumns (tol : Option Tol) (a b : Table T) : List String → Option (List (String × Diff))
  | [] => some []
  | c :: cs =>
    match a.col c, b.col c with
    | some x, some y =>
      match compareArrays tol x y with
      | none => none
      | some d => (compareColumns tol a b cs).map fun l => (c, d) :: l
    | _, _ => none

/-- `get_array_differences`, L131-198. -/
def arrayDifferences (tol : Option Tol) (a b : Table T) : Option Report :=
  match a.names, b.names with
  | none, none =>
    match a.cols, b.cols with
    | x :: _, y :: _ => (compareArrays tol x y).map .array
    | _, _ => none
  | some na, some nb =>
    let first := na.filter fun c => decide (c ∉ nb)
    let second := nb.filter fun c => decide (c ∉ na)
    (compareColumns tol a b (na.filter fun c => decide (c ∈ nb))).map fun l =>
      .table first second (first.isEmpty && second.isEmpty && decide (na ≠ nb)) l
  | _, _ => some .mismatch

end BTA.ArrayDiff
