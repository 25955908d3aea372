import Mathlib.Logic.Function.Basic
/-
Model of the track finding in beam_telescope_analysis/track_analysis.py: `_get_first_dut_index` (L519-525),
`_get_last_dut_index` (L528-534), `_find_tracks` (L345-516), `_find_tracks_loop` (L309-342) and of the part of
`find_tracks` that writes the result (L267-298).

* The floating point arithmetic is a parameter (`Floats`): an arbitrary type with arbitrary operations. No law is assumed,
  so everything proved holds for IEEE arithmetic including NaN, infinities and rounding.
* The two-dimensional numpy arrays are functions of row and DUT index. Only rows `< event_numbers.shape[0]` and DUTs in
  `z_sorted_dut_indices` are accessed (numba does not check bounds).
* The recursive function is a partial fixpoint: `none` means that the evaluation does not end.
-/
namespace BTA.Find

/-- Floating point operations used by the jitted code; arbitrary functions. -/
structure Floats (F : Type) where
  isnan : F → Bool
  add : F → F → F
  sub : F → F → F
  mul : F → F → F
  div : F → F → F
  neg : F → F
  sqrt : F → F
  lt : F → F → Bool
  /-- `a >= 0` -/
  nonneg : F → Bool
  /-- the constant -1 -/
  minusOne : F

/-- The arrays `x`, `y`, `z`, `indices` modified by the jitted functions. -/
structure Tracks (F : Type) where
  x : Nat → Nat → F
  y : Nat → Nat → F
  z : Nat → Nat → F
  idx : Nat → Nat → Nat

/-- Assignment to an array element, `a[i][j] = v`. -/
def set2 (a : Nat → Nat → E) (i j : Nat) (v : E) : Nat → Nat → E :=
  fun r d => if r = i ∧ d = j then v else a r d

/-- The arguments that do not change. -/
structure Setup (F : Type) where
  fl : Floats F
  /-- `event_numbers` -/
  ev : List Int
  /-- `z_sorted_dut_indices` -/
  zs : List Nat
  /-- `select_extrapolation_duts` -/
  extrap : List Nat
  /-- `translation` -/
  tr : Nat → F × F × F
  /-- `normal` -/
  nrm : Nat → F × F × F

variable {F : Type} (S : Setup F)

/-- `_get_first_dut_index` (L519-525); -1 is `none`. -/
def firstDut (x : Nat → Nat → F) (track : Nat) (zs : List Nat) : Option Nat :=
  zs.find? fun d => !S.fl.isnan (x track d)

/-- `_get_last_dut_index` (L528-534); -1 is `none`. -/
def lastDut (x : Nat → Nat → F) (track : Nat) (zs : List Nat) : Option Nat :=
  zs.reverse.find? fun d => !S.fl.isnan (x track d)

/-- `for i, val in enumerate(z_sorted_dut_indices): if val == d: pos = i` with -1 as start value (L352-355 and others):
the last position of `d`. -/
def sortedPos (zs : List Nat) (d : Nat) : Int :=
  (zs.zipIdx.foldl (fun (p : Int) v => if v.1 = d then (v.2 : Int) else p) (-1))

/-- Slice `z_sorted_dut_indices[:p]`, Python semantics for negative `p`. -/
def slicePrefix (zs : List Nat) (p : Int) : List Nat :=
  if 0 ≤ p then zs.take p.toNat else zs.take (zs.length - (-p).toNat)

/-- The loop looking for the two reference DUTs used for the extrapolation (L365-385 and L436-456). Arguments: the loop
variables `curr_dut_index`, `cnt` and the reference DUTs found so far (`found`, in the order second, first; `cnt` is its
length). -/
def refDuts (x : Nat → Nat → F) (track curr : Nat) (found : List Nat) : Option (List Nat) := do
  if found.length < 2 then
    let p := sortedPos S.zs curr
    if p = 0 then
      return found
    match lastDut S x track (slicePrefix S.zs p) with
    | none => return found
    | some r => refDuts x track r (if S.extrap.contains r then found ++ [r] else found)
  else
    return found
partial_fixpoint

/-- Intersection of the line through the hits of the DUTs `d1` (first) and `d2` (second) of the track with the plane of
DUT `d` (L387-401 and L458-471): x and y. -/
def extrapolate (t : Tracks F) (track d d1 d2 : Nat) : F × F :=
  let f := S.fl
  let u0 := f.sub (t.x track d2) (t.x track d1)
  let u1 := f.sub (t.y track d2) (t.y track d1)
  let u2 := f.sub (t.z track d2) (t.z track d1)
  let len := f.sqrt (f.add (f.add (f.mul u0 u0) (f.mul u1 u1)) (f.mul u2 u2))
  let u0 := f.div u0 len
  let u1 := f.div u1 len
  let u2 := f.div u2 len
  let (t0, t1, t2) := S.tr d
  let (n0, n1, n2) := S.nrm d
  let w0 := f.sub (t.x track d2) t0
  let w1 := f.sub (t.y track d2) t1
  let w2 := f.sub (t.z track d2) t2
  let s := f.div (f.neg (f.add (f.add (f.mul n0 w0) (f.mul n1 w1)) (f.mul n2 w2)))
    (f.add (f.add (f.mul n0 u0) (f.mul n1 u1)) (f.mul n2 u2))
  (f.add (f.add t0 w0) (f.mul s u0), f.add (f.add t1 w1) (f.mul s u1))

/-- Reference position on DUT `d` for the row `track` (L363-403 and L434-473), `first` is the first DUT with a hit. -/
def reference (t : Tracks F) (track d first : Nat) : Option (F × F) := do
  let found ← refDuts S t.x track d []
  match found with
  | [d2, d1] => return extrapolate S t track d d1 d2
  | _ => return (t.x track first, t.y track first)

/-- `math.sqrt((x - rx)**2 + (y - ry)**2)`. -/
def distance (x y : F) (r : F × F) : F :=
  let f := S.fl
  let dx := f.sub x r.1
  let dy := f.sub y r.2
  f.sqrt (f.add (f.mul dx dx) (f.mul dy dy))

/-- Loop over all hits of the event (L413-481): `hit` is `hit_index`, `best` is `best_track_index` (`none` as long as
`swap` is False), `bestDist` is `best_hit_distance`. Result: `best_track_index` if `swap`. -/
def hitLoop (t : Tracks F) (start track d : Nat) (ref : F × F) (hit : Nat) (best : Option Nat) (bestDist : F) :
    Option (Option Nat) :=
  if hit < S.ev.length then
    if S.ev[hit]? ≠ S.ev[start]? then
      some best
    else if track = hit then
      hitLoop t start track d ref (hit + 1) best bestDist
    else if S.fl.isnan (t.x hit d) then
      hitLoop t start track d ref (hit + 1) best bestDist
    else
      let dist := distance S (t.x hit d) (t.y hit d) ref
      if S.fl.nonneg bestDist && S.fl.lt bestDist dist then
        hitLoop t start track d ref (hit + 1) best bestDist
      else
        match firstDut S t.x hit S.zs with
        | some fo =>
          if fo ≠ d then
            match reference S t hit d fo with
            | none => none
            | some refOther =>
              if S.fl.lt (distance S (t.x hit d) (t.y hit d) refOther) dist then
                hitLoop t start track d ref (hit + 1) best bestDist
              else
                hitLoop t start track d ref (hit + 1) (some hit) dist
          else
            hitLoop t start track d ref (hit + 1) (some hit) dist
        | none => -- not reached: the row has a hit on DUT `d`
          hitLoop t start track d ref (hit + 1) (some hit) dist
  else
    some best
termination_by S.ev.length - hit

/-- Swap of the hits of DUT `d` of the rows `a` (track_index) and `b` (best_track_index) (L485-493). -/
def swapHits (t : Tracks F) (a b d : Nat) : Tracks F :=
  let tmpx := t.x a d
  let tmpy := t.y a d
  let tmpz := t.z a d
  let tmpi := t.idx a d
  let t := { t with x := set2 t.x a d (t.x b d), y := set2 t.y a d (t.y b d), z := set2 t.z a d (t.z b d) }
  let t := { t with idx := set2 t.idx a d (t.idx b d) }
  let t := { t with x := set2 t.x b d tmpx, y := set2 t.y b d tmpy, z := set2 t.z b d tmpz }
  { t with idx := set2 t.idx b d tmpi }

/-- `_find_tracks` (L345-516) for the DUT `d` of the row `track`. -/
def findTracks (start d track : Nat) (t : Tracks F) : Option (Tracks F) := do
  match firstDut S t.x track S.zs with
  | none => return t
  | some first =>
    if sortedPos S.zs first ≥ sortedPos S.zs d then
      return t
    let ref ← reference S t track d first
    let bestDist := if S.fl.isnan (t.x track d) then S.fl.minusOne else distance S (t.x track d) (t.y track d) ref
    match ← hitLoop S t start track d ref start none bestDist with
    | none => return t
    | some best =>
      let t' := swapHits t track best d
      if track > best ∧ firstDut S t'.x best S.zs ≠ some d then
        findTracks start d best t'
      else
        return t'
partial_fixpoint

/-- Loop over the rows of the event for one DUT (L323-340); `start` is the first row of the event, `a` its number. -/
def rowLoop (start d : Nat) (a : Int) (row : Nat) (t : Tracks F) : Option (Tracks F) := do
  if row < S.ev.length then
    if S.ev[row]? ≠ some a then
      return t
    else
      let t' ← findTracks S start d row t
      rowLoop start d a (row + 1) t'
  else
    return t
termination_by S.ev.length - row

/-- Loop over the DUTs except the first (L322). -/
def dutLoop (start : Nat) (a : Int) : List Nat → Tracks F → Option (Tracks F)
  | [], t => some t
  | d :: ds, t => do dutLoop start a ds (← rowLoop S start d a start t)

/-- `_find_tracks_loop` (L309-342): `analyze` is `analyze_event_number`. -/
def findLoop (analyze : Int) (row : Nat) (t : Tracks F) : Option (Tracks F) :=
  if h : row < S.ev.length then
    if S.ev[row] ≠ analyze ∨ row = 0 then
      match dutLoop S row S.ev[row] S.zs.tail t with
      | none => none
      | some t' => findLoop S.ev[row] (row + 1) t'
    else
      findLoop analyze (row + 1) t
  else
    some t
termination_by S.ev.length - row

/-- The call in `find_tracks` (L231, L277-286): `indices` has the row number in every column. -/
def runFindTracks (x y z : Nat → Nat → F) : Option (Tracks F) :=
  findLoop S (-1) 0 ⟨x, y, z, fun r _ => r⟩

/-! ### Writing the result (L287-295) -/

/-- `'dut_%d' % dut in name`. -/
def nameOfDut (name : List Char) (d : Nat) : Bool := decide ((['d', 'u', 't', '_'] ++ Nat.toDigits 10 d) <:+: name)

/-- Copy of one column (L288-291): for all DUTs in order, `column = column[indices[:, dut]]` if the name matches. -/
def copyColumn (n : Nat) (idx : Nat → Nat → Nat) (name : List Char) (col : Nat → E) : Nat → E :=
  (List.range n).foldl (fun c d => if nameOfDut name d then (fun r => c (idx r d)) else c) col

/-- Hit flag of one row (L275, L293-294; hit_analysis.py L1713-1714): `finite[d]` is `np.isfinite(x_dut_d)`, the flag is
an unsigned 32-bit integer. -/
def hitFlag (n : Nat) (finite : Nat → Bool) : BitVec 32 :=
  (List.range n).foldl (fun f d => f + ((if finite d then 1#32 else 0#32) <<< d)) 0#32

end BTA.Find
