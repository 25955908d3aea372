/-
Model of the part of `SMC._writer` that adds one result to the output, beam_telescope_analysis/tools/smc.py L254-297.

Simplifications:
* A numpy array is a record array (a list of rows) or a plain array: its shape and its elements in row-major order. The elements
  are of one type and their sum does not overflow; the checks and casts of numpy for different element types are not modelled.
* The output table can be created and rows can be appended to it, unless the result is not a record array.
-/
namespace BTA.Smc

/-- One item returned by the user function. -/
inductive Item (R K : Type)
  /-- record array, stored in a table -/
  | table (rows : List R)
  /-- other array, taken as histogram -/
  | hist (shape : List Nat) (data : List K)
  /-- not a numpy array -/
  | other

variable {R K : Type}

/-- `np.maximum` of two shapes (L292): element-wise, a shape of length one is broadcast, else an exception. -/
def maxShape (a b : List Nat) : Option (List Nat) :=
  if a.length = b.length then some (List.zipWith max a b)
  else match a, b with
    | [x], _ => some (b.map (max x))
    | _, [y] => some (a.map (max · y))
    | _, _ => none

/-- Number of elements of an array of this shape. -/
def arraySize (shape : List Nat) : Nat := shape.foldr (· * ·) 1

/-- `ndarray.resize` (L293, L296): the elements in memory are kept, then cut or filled with zeros. -/
def resize [Zero K] (shape : List Nat) (data : List K) : List K :=
  data.take (arraySize shape) ++ List.replicate (arraySize shape - data.length) 0

/-- `isinstance(item, np.ndarray)` (L258). -/
def Item.isArray : Item R K → Bool
  | .other => false
  | _ => true

/-- L266-283: the empty output for an item of the first result. -/
def Item.start [Zero K] : Item R K → Item R K
  | .table _ => .table []
  | .hist shape data => .hist shape (data.map fun _ => 0)
  | .other => .other

/-- L287-297: an item is added to the output. -/
def Item.add [Zero K] [Add K] : Item R K → Item R K → Option (Item R K)
  | .table rows, .table new => some (.table (rows ++ new))
  | .hist shape data, .hist shape' data' =>
    match maxShape shape shape' with
    | none => none
    | some s => some (.hist s (List.zipWith (· + ·) (resize s data) (resize s data')))
  | _, _ => none

/-- L286: all items are added. -/
def addAll [Zero K] [Add K] : List (Item R K) → List (Item R K) → Option (List (Item R K))
  | [], _ => some []
  | _, [] => some []
  | a :: as, b :: bs =>
    match a.add b, addAll as bs with
    | some c, some cs => some (c :: cs)
    | _, _ => none

/-- L254-297: one result is added to the output, which is none before the first result. `nNodes` is the number of node
descriptions. The result is none if an exception is raised. -/
def combine [Zero K] [Add K] (nNodes : Nat) (acc : Option (List (Item R K))) (res : List (Item R K)) :
    Option (List (Item R K)) :=
  if res.any fun item => !item.isArray then none                              -- L257-259
  else if res.length ≠ nNodes then none                                       -- L262-263
  else
    match acc with
    | none => addAll (res.map Item.start) res                                 -- L265-284
    | some out => addAll out res

end BTA.Smc
