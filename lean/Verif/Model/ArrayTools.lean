import Mathlib.Algebra.Order.Field.Basic
import Mathlib.Data.List.Dedup
/-
Model of small array functions of beam_telescope_analysis/tools/analysis_utils.py: `hist_quantiles` (L198-246),
`find_closest` (L614-635), `polygon_area` (L1144-1162), `in1d_index` (L1171-1217), `unique_loop` and `unique_in_array`
(L1220-1250).

Floating point numbers are elements of an ordered field `K` (no rounding, no NaN).
-/
namespace BTA

variable {K : Type} [Field K] [LinearOrder K]

/-! ### hist_quantiles -/

/-- `np.cumsum` (L222). -/
def cumsum (l : List Nat) : List Nat := (List.range l.length).map fun i => (l.take (i + 1)).sum

/-- `normcdf` (L224-227); `cdf[-1]` raises IndexError for an empty histogram (`none`). -/
def normcdf (hist : List Nat) : Option (List K) :=
  match (cumsum hist).getLast? with
  | none => none
  | some total =>
    if total = 0 then some ((cumsum hist).map fun c : Nat => (c : K))
    else some ((cumsum hist).map fun c : Nat => (c : K) / (total : K))

/-- `np.unique(a, return_index=True)` (L229): the sorted different values and the index of their first occurrence. -/
def npUnique (a : List K) : List (K × Nat) :=
  ((a.mergeSort (fun x y => decide (x ≤ y))).dedup).map fun v => (v, a.idxOf v)

/-- Indices `lp_index`, `hp_index` of `hist_quantiles` (L230-239). -/
def quantileIndices (hist : List Nat) (p0 p1 : K) : Option (Nat × Nat) :=
  (normcdf (K := K) hist).map fun cdf =>
    match (npUnique cdf).find? (fun u => decide (u.1 > p1)), (npUnique cdf).find? (fun u => decide (u.1 ≥ p0)) with
    | some hp, some lp => (lp.2, hp.2)
    | _, _ => (0, hist.length)

/-- The bins that are not masked in the result (L241-242). -/
def keptBins (hist : List Nat) (lp hp : Nat) : List Nat :=
  (List.range hist.length).filter fun i => decide (lp ≤ i) && decide (i < hp + 1)

/-- The list returned with `return_indices=True` (L244). -/
def returnedIndices (lp hp : Nat) : List Nat := List.range' lp (hp + 1 - lp)

/-! ### find_closest -/

/-- `np.searchsorted(arr, v)` for any ordered type. -/
def searchsorted [LinearOrder E] (arr : List E) (v : E) : Nat := (arr.takeWhile fun x => decide (x < v)).length

/-- `find_closest` (L630-635) for one value; `none` if an index is invalid (array shorter than 2). -/
def findClosest (arr : List K) (v : K) : Option Nat :=
  let idx := min (max (searchsorted arr v) 1) (arr.length - 1)
  match arr[idx - 1]?, arr[idx]? with
  | some left, some right => some (if v - left < right - v then idx - 1 else idx)
  | _, _ => none

/-! ### polygon_area -/

/-- `np.roll(l, 1)`. -/
def roll1 (l : List E) : List E :=
  match l.getLast? with
  | none => []
  | some z => z :: l.dropLast

/-- `np.dot` of two lists of the same length. -/
def dot (x y : List K) : K := (List.zipWith (· * ·) x y).sum

/-- `polygon_area(x, y)` (L1162). -/
def polygonArea (x y : List K) : K := 1 / 2 * |dot x (roll1 y) - dot y (roll1 x)|

/-! ### in1d_index -/

/-- `ar2.take(i, mode='clip')` for a non-negative index; `none` for an empty array. -/
def takeClip (ar : List E) (i : Nat) : Option E := ar[min i (ar.length - 1)]?

/-- `ar2_index` for one value of `ar1`: L1198 (`assume_sorted`) or L1200-1206 with `sorter = np.argsort(ar2)`. -/
def in1dPosition [LinearOrder E] (ar2 : List E) (sorter : Option (List Nat)) (v : E) : Option Nat :=
  match sorter with
  | none => some (searchsorted ar2 v)
  | some s =>
    let ar2sorted := s.filterMap fun i => ar2[i]?
    let i := searchsorted ar2sorted v
    s[if i ≥ ar2.length then ar2.length - 1 else i]?

/-- Entry of position `i` of `ar1` (L1208): kept with its index of `ar2` if the value there is the same. -/
def in1dEntry [LinearOrder E] (ar1 ar2 : List E) (sorter : Option (List Nat)) (i : Nat) : Option (Nat × Nat) :=
  match ar1[i]? with
  | none => none
  | some v =>
    match in1dPosition ar2 sorter v with
    | some j => if takeClip ar2 j = some v then some (i, j) else none
    | none => none

/-- `in1d_index(ar1, ar2)` with `fill_invalid=None` (L1207-1209): valid positions of `ar1` with the index of `ar2`. -/
def in1dIndex [LinearOrder E] (ar1 ar2 : List E) (sorter : Option (List Nat)) : List (Nat × Nat) :=
  (List.range ar1.length).filterMap (in1dEntry ar1 ar2 sorter)

/-- `in1d_index(ar1, ar2, fill_invalid=f)` (L1210-1213), second result: for each position of `ar1` the index or `f`. -/
def in1dIndexFill [LinearOrder E] (ar1 ar2 : List E) (sorter : Option (List Nat)) (f : Int) : List Int :=
  ar1.map fun v =>
    match in1dPosition ar2 sorter v with
    | some j => if takeClip ar2 j = some v then (j : Int) else f
    | none => f

/-! ### unique_in_array -/

/-- One column of `unique_loop` (L1222-1230): `mask` is a boolean array over the values, all True at the start. -/
def uniqueColumn : List Nat → Nat
  | [] => 0
  | a :: r => (r.foldl (fun (s : (Nat → Bool) × Nat) v =>
      let c := if s.1 v then s.2 + 1 else s.2
      ((fun k => if k = v then false else s.1 k), c)) ((fun k => if k = a then false else true), 1)).2

end BTA
