import Verif.Model.FitTracks
/-
Model of the arguments of `fit_tracks` (beam_telescope_analysis/track_analysis.py L648-765): select_duts, select_fit_duts, select_hit_duts,
quality_distances, isolation_distances, exclude_dut_hit, min_track_hits. The settings made of them are those of FitTracks.lean.

Simplifications: values are None, bool, int, float, list or tuple (no strings, no arrays, no other iterables). Floats are exact. The DUTs of
the telescope have the numbers 0, 1, ... A number that is not the number of a DUT raises an exception when the name of the DUT is logged
(L791, L806, L822) or in a shift (L805, L819), that is, after the tests of the other arguments, and after the tables of other DUTs are
written; here it is an error as well, but found earlier. A float used as the number of a DUT or as min_track_hits is an error.
-/
namespace BTA.FitArgs
open BTA.Fit

/-- A value given by the user. -/
inductive Py
  | none
  | bool (b : Bool)
  | int (i : Int)
  | float (q : ℚ)
  | list (l : List Py)
  | tuple (l : List Py)

/-- `isinstance(v, Iterable)` -/
def iterable : Py → Bool
  | .list _ => true
  | .tuple _ => true
  | _ => false

/-- The items of a list or of a tuple. -/
def items : Py → List Py
  | .list l => l
  | .tuple l => l
  | _ => []

/-- `v is None` -/
def isNone : Py → Bool
  | .none => true
  | _ => false

/-- An exception, named after the argument. -/
inductive Err
  | selectDuts
  | fitDuts
  | hitDuts
  | quality
  | isolation
  | exclude
  | minHits
  /-- KeyError, or exception of a shift: not a DUT -/
  | noDut
deriving DecidableEq

/-- Apply a function that can fail to all items. -/
def collect {V W : Type} (f : V → Option W) : List V → Option (List W)
  | [] => some []
  | v :: r =>
    match f v, collect f r with
    | some w, some ws => some (w :: ws)
    | _, _ => none

/-- The DUT with this number, in a telescope of `n` DUTs. -/
def dutOf (n : Nat) : Py → Option Nat
  | .bool b => if b.toNat < n then some b.toNat else none
  | .int i => if 0 ≤ i ∧ i.toNat < n then some i.toNat else none
  | _ => none

/-- `list(range(n))` -/
def allDuts (n : Nat) : List Py := (List.range n).map fun (d : Nat) => .int d

/-- L648-651 -/
def dutItems (n : Nat) (v : Py) : List Py := if isNone v then allDuts n else if iterable v then items v else [v]

/-- L648-657: select_duts. -/
def selectDuts (n : Nat) (v : Py) : Except Err (List Nat) :=
  match collect (dutOf n) (dutItems n v) with
  | none => .error .noDut
  | some ds => if ds.Nodup then .ok ds else .error .selectDuts

/-- `not isinstance(val, Iterable) and val is not None` -/
def scalar (v : Py) : Bool := !iterable v && !isNone v

/-- `x` with None replaced. -/
def fill (whole : List Py) (x : Py) : Py := if isNone x then .list whole else x

/-- L671-682, L697-708: one list for each selected DUT; `m` is their number, `whole` stands for None. An item of a tuple cannot be set. -/
def listsOf (e : Err) (whole : List Py) (m : Nat) (v : Py) : Except Err (List (List Py)) :=
  if (items v).all scalar then .ok (List.replicate m (items v))
  else
    match v with
    | .list l =>
      if !(l.map (fill whole)).all iterable then .error e
      else if l.length ≠ m then .error e
      else .ok ((l.map (fill whole)).map items)
    | .tuple l =>
      if l.any isNone then .error e
      else if !l.all iterable then .error e
      else if l.length ≠ m then .error e
      else .ok (l.map items)
    | _ => .error e

/-- DUT numbers of all lists. -/
def dutLists (n : Nat) (ls : List (List Py)) : Except Err (List (List Nat)) :=
  match collect (collect (dutOf n)) ls with
  | none => .error .noDut
  | some r => .ok r

/-- L660-685: select_fit_duts. -/
def fitDuts (n m : Nat) (v : Py) : Except Err (List (List Nat)) :=
  if !iterable (fill (allDuts n) v) || (items (fill (allDuts n) v)).isEmpty then .error .fitDuts
  else
    match listsOf .fitDuts (allDuts n) m (fill (allDuts n) v) with
    | .error e => .error e
    | .ok ls => if ls.any fun l => decide (l.length < 2) then .error .fitDuts else dutLists n ls

/-- L688-708: select_hit_duts. -/
def hitDuts (n m : Nat) (v : Py) : Except Err (List (List Nat)) :=
  if !iterable (fill [] v) then .error .hitDuts
  else
    match listsOf .hitDuts [] m (fill [] v) with
    | .error e => .error e
    | .ok ls => dutLists n ls

/-- What the list given by the caller contains after the call, L674-676 and L700-702: None is replaced in place. -/
def after (whole : List Py) : Py → Py
  | .list l => if l.all scalar then .list l else .list (l.map (fill whole))
  | v => v

/-- A number. -/
def number : Py → Option ℚ
  | .bool b => some b.toNat
  | .int i => some i
  | .float q => some q
  | _ => none

/-- Two numbers. -/
def pairOf : List (Option ℚ) → Option (Option (ℚ × ℚ))
  | [some x, some y] => some (some (x, y))
  | _ => none

/-- L724-727, L743-746 with L1163-1167: an item of quality_distances. Items that are not numbers raise an exception in the comparison. -/
def distance : Py → Option (Option (ℚ × ℚ))
  | .none => some none
  | v => pairOf ((items v).map number)

/-- `isinstance(v, tuple) or v is None` -/
def tupleOrNone : Py → Bool
  | .none => true
  | .tuple _ => true
  | _ => false

/-- L711-727, L730-746: quality_distances, isolation_distances. -/
def distances (e : Err) (n : Nat) (v : Py) : Except Err (List (Option (ℚ × ℚ))) :=
  let l := if tupleOrNone v then List.replicate n v else items v
  if l.isEmpty || decide (l.length ≠ n) then .error e
  else
    match collect distance l with
    | none => .error e
    | some ds => .ok ds

/-- A boolean. -/
def boolean : Py → Option Bool
  | .bool b => some b
  | _ => none

/-- L749-758: exclude_dut_hit. -/
def excludes (m : Nat) (v : Py) : Except Err (List Bool) :=
  if iterable v && (items v).isEmpty then .error .exclude
  else
    let l := if iterable v then items v else List.replicate m v
    if l.length ≠ m then .error .exclude
    else
      match collect boolean l with
      | none => .error .exclude
      | some bs => .ok bs

/-- An item of min_track_hits. A negative number raises the exception of L815-816. -/
def minHit : Py → Option (Option Nat)
  | .none => some none
  | .int i => if 0 ≤ i then some (some i.toNat) else none
  | .bool b => some (some b.toNat)
  | _ => none

/-- L761-765: min_track_hits. -/
def minHits (m : Nat) (v : Py) : Except Err (List (Option Nat)) :=
  let l := if iterable v then items v else List.replicate m v
  if l.length ≠ m then .error .minHits
  else
    match collect minHit l with
    | none => .error .minHits
    | some r => .ok r

/-- The arguments; the fields have the values of the declaration, L538. -/
structure Args where
  selectDuts : Py := .none
  selectHitDuts : Py := .none
  selectFitDuts : Py := .none
  minTrackHits : Py := .none
  excludeDutHit : Py := .bool true
  qualityDistances : Py := .tuple [.float 250, .float 250]
  isolationDistances : Py := .tuple [.float 500, .float 500]

/-- The settings of the selected DUTs, and the distances for all DUTs of the telescope. -/
structure Settings where
  cfgs : List DutCfg
  quality : List (Option (ℚ × ℚ))
  isolation : List (Option (ℚ × ℚ))

/-- Settings of the DUTs, put together by position (`select_fit_duts[fit_dut_index]` etc.). -/
def build : List Nat → List (List Nat) → List (List Nat) → List Bool → List (Option Nat) → List DutCfg
  | d :: ds, f :: fs, h :: hs, e :: es, k :: ks => ⟨d, f, h, e, k⟩ :: build ds fs hs es ks
  | _, _, _, _, _ => []

/-- L648-765: the settings, for a telescope of `n` DUTs. -/
def settings (n : Nat) (a : Args) : Except Err Settings :=
  match FitArgs.selectDuts n a.selectDuts with
  | .error e => .error e
  | .ok ds =>
    match fitDuts n ds.length a.selectFitDuts with
    | .error e => .error e
    | .ok fs =>
      match hitDuts n ds.length a.selectHitDuts with
      | .error e => .error e
      | .ok hs =>
        match distances .quality n a.qualityDistances with
        | .error e => .error e
        | .ok qs =>
          match distances .isolation n a.isolationDistances with
          | .error e => .error e
          | .ok is =>
            match excludes ds.length a.excludeDutHit with
            | .error e => .error e
            | .ok es =>
              match minHits ds.length a.minTrackHits with
              | .error e => .error e
              | .ok ks => .ok ⟨build ds fs hs es ks, qs, is⟩

/-- Exception of the call. -/
inductive CallErr
  | args (e : Err)
  | fit (e : Fit.Err)

variable {K R : Type} [Field K] [LinearOrder K]

/-- A pair of numbers. -/
def castPair (p : ℚ × ℚ) : K × K := ((p.1 : K), (p.2 : K))

/-- A DUT with its distances. -/
def withDistances (P : Plane K) (q i : Option (ℚ × ℚ)) : Plane K := { P with quality := q.map castPair, isolation := i.map castPair }

/-- The DUTs with their distances. -/
def planesOf (planes : List (Plane K)) (s : Settings) : List (Plane K) :=
  List.zipWith (fun P (q : Option (ℚ × ℚ) × Option (ℚ × ℚ)) => withDistances P q.1 q.2) planes (s.quality.zip s.isolation)

/-- `fit_tracks` with its arguments. -/
def fitTracksCall (est : Finset Nat → Cand K → Nat → Est K R) (planes : List (Plane K)) (keepData kalman : Bool) (S : Sampling)
    (maxEvents cs : Nat) (T : List (Cand K)) (a : Args) : Except CallErr (List (Nat × List (Row K R))) :=
  match settings planes.length a with
  | .error e => .error (.args e)
  | .ok s =>
    match fitTracks est (planesOf planes s) keepData kalman S maxEvents cs T s.cfgs with
    | .error e => .error (.fit e)
    | .ok t => .ok t

end BTA.FitArgs
