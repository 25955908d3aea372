import Mathlib.Data.List.Basic
import Mathlib.Data.Finset.Basic
import Mathlib.Algebra.BigOperators.Group.List.Basic
/-
Model of `nan_equal`, `nan_close` and `compare_h5_files` in beam_telescope_analysis/tools/test_tools.py, L39-L82, L85-L128, L201-L307.
-/
namespace BTA.CompareFiles

/-- Data type of a column or an array, with the distinction made by the code (L123): strings or not. `T` are the other properties. -/
structure Dtype (T : Type) where
  name : T
  isString : Bool
  deriving DecidableEq

/-- Node of a HDF5 file, or a slice of it. A table has column names; a plain array has none, and is treated as one column. `inner` is `shape[1:]`, empty for tables.
A row is the list of the values of its columns; for an array with more than one dimension a value is the array of the values of the row.
`C` are the values, with NaN as one of them: two values are equal if numpy takes them as equal and NaN as equal to NaN. -/
structure Node (T C : Type) where
  names : Option (List String)
  inner : List Nat
  types : List (Dtype T)
  rows : List (List C)

variable {T C : Type} [DecidableEq T] [DecidableEq C]

/-- Slice of the rows (`node.read(index_start, index_stop)`, L288-L289). -/
def Node.read (a : Node T C) (start stop : Nat) : Node T C := { a with rows := (a.rows.drop start).take (stop - start) }

/-- `array.shape` -/
def Node.shape (a : Node T C) : List Nat := a.rows.length :: a.inner

/-- `array[column]`: the values of a column. -/
def Node.column (a : Node T C) (i : Nat) : List (Option C) := a.rows.map fun r => r[i]?

/-- `dtype` of a column. -/
def Node.dtype (a : Node T C) (i : Nat) : Option (Dtype T) := a.types[i]?

/-- Loop over the columns of `nan_equal`, L73-L81. -/
def equalColumns (a b : Node T C) : List Nat → Bool
  | [] => true
  | i :: is =>
    if a.dtype i ≠ b.dtype i then false
    else if a.column i ≠ b.column i then false
    else equalColumns a b is

/-- `nan_equal`, L39-L82. `np.testing.assert_equal` compares arrays of the same shape element by element, NaN are equal. -/
def nanEqual (a b : Node T C) : Bool :=
  if a.shape ≠ b.shape then false
  else if a.names.isNone ≠ b.names.isNone then false
  else if a.names.isNone then
    if a.dtype 0 ≠ b.dtype 0 then false
    else if a.column 0 ≠ b.column 0 then false
    else true
  else if a.names ≠ b.names then false
  else equalColumns a b (List.range (a.names.getD []).length)

/-- `np.allclose` of two columns of the same length: all pairs of values are close. For strings there is an error (`TypeError`). `close` is the comparison of two values. -/
def allclose (close : C → C → Bool) (isString : Bool) (u v : List (Option C)) : Option Bool :=
  if isString then none
  else some ((u.zip v).all fun p => match p.1, p.2 with
    | some x, some y => close x y
    | _, _ => true)

/-- Data type of a string column. -/
def isStringType (d : Option (Dtype T)) : Bool := (d.map Dtype.isString).getD false

/-- Loop over the columns of `nan_close`, L118-L128. -/
def closeColumns (close : C → C → Bool) (a b : Node T C) : List Nat → Option Bool
  | [] => some true
  | i :: is =>
    if a.dtype i ≠ b.dtype i then some false
    else if isStringType (a.dtype i) then some (decide (a.column i = b.column i))
    else match allclose close false (a.column i) (b.column i) with
      | none => none
      | some false => some false
      | some true => closeColumns close a b is

/-- `nan_close`, L85-L128. -/
def nanClose (close : C → C → Bool) (a b : Node T C) : Option Bool :=
  if a.shape ≠ b.shape then some false
  else if a.names.isNone ≠ b.names.isNone then some false
  else if a.names.isNone then
    if a.dtype 0 ≠ b.dtype 0 then some false
    else allclose close (isStringType (a.dtype 0)) (a.column 0) (b.column 0)
  else if a.names ≠ b.names then some false
  else closeColumns close a b (List.range (a.names.getD []).length)

/-- Comparison of two slices (L290-L301): exact, or with a tolerance. `none`: error. -/
def compareSlices (close : Option (C → C → Bool)) (a b : Node T C) : Option Bool :=
  match close with
  | none => some (nanEqual a b)
  | some c => nanClose c a b

/-- Number of rows read at once, L286. Exact division instead of floating point numbers; a row without any value (division by zero, then conversion of infinity) is an error. -/
def readRows (chunkSize : Nat) (inner : List Nat) : Option Nat :=
  if inner.prod = 0 then none else some (max 1 (chunkSize / inner.prod))

/-- Loop over the slices of a node, L284-L302. The first argument bounds the number of iterations; `compareNode` gives enough. -/
def compareLoop (close : Option (C → C → Bool)) (chunkSize : Nat) (a b : Node T C) : Nat → Nat → Option Bool
  | 0, _ => none
  | fuel + 1, start =>
    if start < a.rows.length then
      match readRows chunkSize a.inner with
      | none => none
      | some n =>
        match compareSlices close (a.read start (start + n)) (b.read start (start + n)) with
        | none => none
        | some false => some false
        | some true => compareLoop close chunkSize a b fuel (start + n)
    else some true

/-- Comparison of a node, L282-L302. -/
def compareNode (close : Option (C → C → Bool)) (chunkSize : Nat) (a b : Node T C) : Option Bool :=
  compareLoop close chunkSize a b (a.rows.length + 1) 0

/-- File: paths (with leading slash) and nodes, groups left out, in the order of `walk_nodes` (L240-L250). -/
abbrev File (T C : Type) := List (String × Node T C)

/-- Node with a path. -/
def File.node (f : File T C) (p : String) : Option (Node T C) := (f.find? fun x => x.1 = p).map Prod.snd

/-- Paths, without those to be ignored (L252-L254). An empty list is the same as `None`. -/
def paths (f : File T C) (ignore : List String) : List String := (f.map Prod.fst).filter fun p => decide (p ∉ ignore)

/-- Leading slash of a node name, L269. -/
def withSlash (s : String) : String := if s ≠ "" ∧ s.toList.take 1 ≠ ['/'] then "/" ++ s else s

/-- Loop over the nodes to compare, L281-L302; the paths of the nodes that differ. The loop does not end at a difference. -/
def compareNodes (close : Option (C → C → Bool)) (chunkSize : Nat) (f g : File T C) : List String → Option (List String)
  | [] => some []
  | p :: ps =>
    match f.node p, g.node p with
    | some a, some b =>
      match compareNode close chunkSize a b with
      | none => none
      | some r => (compareNodes close chunkSize f g ps).map fun l => if r then l else p :: l
    | _, _ => none

/-- Result of `compare_h5_files`: passed or not, nodes missing in the first and in the second file, nodes that differ (these are named in the message with `detailed_comparison`). -/
structure Result where
  passed : Bool
  onlyFirst : List String
  onlySecond : List String
  differ : List String
  deriving DecidableEq

/-- `compare_h5_files`, L201-L307. `close = none`: `exact=True`. Sets are lists, the order of the nodes is that of the first file. Messages are not modelled apart from the names of nodes. -/
def compareFiles (close : Option (C → C → Bool)) (chunkSize : Nat) (names : Option (List String)) (ignore : List String) (f g : File T C) : Option Result :=
  let pf := paths f ignore
  let pg := paths g ignore
  match names with
  | none =>
    let onlyF := pf.filter fun p => decide (p ∉ pg)
    let onlyG := pg.filter fun p => decide (p ∉ pf)
    (compareNodes close chunkSize f g (pf.filter fun p => decide (p ∈ pg))).map fun d =>
      ⟨onlyF.isEmpty && onlyG.isEmpty && d.isEmpty, onlyF, onlyG, d⟩
  | some ns =>
    let ns := ns.map withSlash
    let missF := ns.filter fun p => decide (p ∉ pf)
    let missG := ns.filter fun p => decide (p ∉ pg)
    (compareNodes close chunkSize f g ((pf.filter fun p => decide (p ∈ pg)).filter fun p => decide (p ∈ ns))).map fun d =>
      ⟨missF.isEmpty && missG.isEmpty && d.isEmpty, missG, missF, d⟩

end BTA.CompareFiles
