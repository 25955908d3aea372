import Verif.Model.ArrayTools
import Mathlib.Algebra.Order.Floor.Defs
/-
Model of `binned_statistic` (beam_telescope_analysis/tools/analysis_utils.py L972-983) and `count_unique_neighbors` (L1253-1291).

Simplifications: exact numbers; arrays are functions of the indices with their shape; values of `count_unique_neighbors` are not negative.
-/
namespace BTA.GridTools

/-! ### binned_statistic -/

section
variable {K V : Type} [Field K] [LinearOrder K] [FloorRing K]

/-- L980: `(float(nbins) / (r1 - r0) * (x - r0)).astype(int)`, truncation. -/
def digitize (nbins : Nat) (r0 r1 x : K) : Int :=
  if 0 ≤ (nbins : K) / (r1 - r0) * (x - r0) then ⌊(nbins : K) / (r1 - r0) * (x - r0)⌋ else ⌈(nbins : K) / (r1 - r0) * (x - r0)⌉

/-- L981: `csr_matrix` raises a ValueError for a row outside of the matrix (`none`); L983: the values of each row, in the order of the columns,
to which `func` is applied. -/
def binnedStatistic {R : Type} (func : List V → R) (nbins : Nat) (r0 r1 : K) (rows : List (K × V)) : Option (List R) :=
  if rows.any fun p => decide (digitize nbins r0 r1 p.1 < 0 ∨ (nbins : Int) ≤ digitize nbins r0 r1 p.1) then none
  else some ((List.range nbins).map fun i : Nat => func ((rows.filter fun p => decide (digitize nbins r0 r1 p.1 = (i : Int))).map Prod.snd))
end

/-! ### count_unique_neighbors -/

/-- The index of `np.pad(mode='reflect')` for an axis of length `n`. -/
def reflect (n : Nat) (i : Int) : Nat :=
  if n ≤ 1 then 0
  else if i % (2 * ((n : Int) - 1)) < n then (i % (2 * ((n : Int) - 1))).toNat else (2 * ((n : Int) - 1) - i % (2 * ((n : Int) - 1))).toNat

inductive NbErr
  /-- ValueError: Structure must be symmetrical -/
  | symmetrical
  /-- ValueError: Structure shape must be odd -/
  | odd
  /-- ValueError: nothing selected (unpacking of the shape in `unique_in_array`) -/
  | nothing
deriving DecidableEq

/-- L1283-1285: the positions of the structuring element relative to its centre, row by row. -/
def offsets (k : Nat) (structure' : Nat → Nat → Bool) : List (Int × Int) :=
  (List.range k).flatMap fun i : Nat => ((List.range k).filter fun j => structure' i j).map fun j : Nat => ((i : Int) - (k / 2 : Nat), (j : Int) - (k / 2 : Nat))

/-- `count_unique_neighbors`, L1274-1291: result for the element in row `r` and column `c`. `shape` is the shape of the structuring element. -/
def countUniqueNeighbors (m n : Nat) (arr : Nat → Nat → Nat) (element : Option ((Nat × Nat) × (Nat → Nat → Bool))) : Except NbErr (Nat → Nat → Nat) :=
  let shape := (element.map Prod.fst).getD (3, 3)
  let sel := (element.map Prod.snd).getD fun _ _ => true
  if shape.1 ≠ shape.2 then .error .symmetrical
  else if shape.1 % 2 = 0 then .error .odd
  else if offsets shape.1 sel = [] then .error .nothing
  else .ok fun r c => uniqueColumn ((offsets shape.1 sel).map fun d => arr (reflect m ((r : Int) + d.1)) (reflect n ((c : Int) + d.2)))

end BTA.GridTools
