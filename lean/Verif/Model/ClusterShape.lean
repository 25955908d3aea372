import Verif.Model.Bits

/-
Model of `end_of_cluster_function_with_index` (beam_telescope_analysis/hit_analysis.py L887-936), which `cluster_hits` gives to the
clusterizer of the package pixel_clusterizer (not part of the repository and not modelled): it is called for every cluster with the
indices of its hits and fills the fields cluster_shape, err_column, err_row, frame.

Column, row and frame are uint16 in the hit table (L993-1000); numba calculates with int64, so no overflow occurs.
-/
namespace BTA.Cluster

/-- Fields of a hit used here. -/
structure Hit where
  column : Nat
  row : Nat
  frame : Nat
deriving DecidableEq, Repr

/-- Fields set in the cluster (L933-936). -/
structure Summary where
  shape : Int
  errColumn : Int
  errRow : Int
  frame : Nat
deriving DecidableEq, Repr

/-- Local variables of the loop (L889-896). -/
structure Acc where
  /-- `hit_arr`, 15 x 15 -/
  arr : Nat → Nat → Bool
  minCol : Nat
  maxCol : Nat
  minRow : Nat
  maxRow : Nat
  minFrame : Nat

/-- `hit_arr[7, 7] = 1` and the values of the first hit (L889-896). -/
def first (h : Hit) : Acc :=
  ⟨fun x y => decide (x = 7 ∧ y = 7), h.column, h.column, h.row, h.row, h.frame⟩

/-- Body of the loop (L900-913) for the hit `h`; `c` is the first hit of the cluster. -/
def accStep (c : Hit) (a : Acc) (h : Hit) : Acc :=
  let diffCol : Int := h.column - c.column
  let diffRow : Int := h.row - c.row
  let arr := if diffCol.natAbs < 8 ∧ diffRow.natAbs < 8 then
      fun x y => if x = (7 + diffCol).toNat ∧ y = (7 + diffRow).toNat then true else a.arr x y
    else a.arr
  ⟨arr,
   if h.column < a.minCol then h.column else a.minCol,
   if h.column > a.maxCol then h.column else a.maxCol,
   if h.row < a.minRow then h.row else a.minRow,
   if h.row > a.maxRow then h.row else a.maxRow,
   if h.frame < a.minFrame then h.frame else a.minFrame⟩

/-- The loop over `cluster_hit_indices[1:]` (L897-913), ends at the first negative index. `none`: index outside of the table
(undefined behaviour). -/
def accLoop (hits : List Hit) (c : Hit) : List Int → Acc → Option Acc
  | [], a => some a
  | i :: r, a =>
    if i < 0 then some a
    else match hits[i.toNat]? with
      | none => none
      | some h => accLoop hits c r (accStep c a h)

/-- Assignment of the uint64 result to the int64 variable `cluster_shape` (L887, L928). -/
def toInt64 (v : Nat) : Int := if v < 2 ^ 63 then v else (v : Int) - 2 ^ 64

/-- L924-928: number for the 8 x 8 array `cluster_arr`. -/
def arrayNumber (clusterArr : Nat → Nat → Bool) : Int :=
  if clusterArr 7 7 then -1 else toInt64 (clusterShape clusterArr)

/-- L915-931: shape number. -/
def shapeNumber (c : Hit) (a : Acc) : Int :=
  if a.maxCol - a.minCol < 8 ∧ a.maxRow - a.minRow < 8 then
    let colBase : Int := 7 + a.minCol - c.column
    let rowBase : Int := 7 + a.minRow - c.row
    arrayNumber fun x y => a.arr (colBase.toNat + x) (rowBase.toNat + y)
  else -1

/-- The function (L887-936). -/
def endOfCluster (hits : List Hit) (indices : List Int) : Option Summary :=
  match indices with
  | [] => none
  | i :: r =>
    match hits[i.toNat]? with
    | none => none
    | some c =>
      match accLoop hits c r (first c) with
      | none => none
      | some a => some ⟨shapeNumber c a, (a.maxCol : Int) - a.minCol, (a.maxRow : Int) - a.minRow, a.minFrame⟩

end BTA.Cluster
