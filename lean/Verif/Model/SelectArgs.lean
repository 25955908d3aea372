import Verif.Model.DataSelection
/-
Model of the arguments of `select_tracks` (beam_telescope_analysis/tools/data_selection.py L223-351) and of the loop over the DUTs
(L353-404) with the exceptions raised there. The selection of one DUT is `selectDut` of DataSelection.lean.

Simplifications: items are None, integers or iterables of integers (a bool is an integer); no floats, strings or deeper nesting in the lists of
DUTs. The query strings can be evaluated for all rows. The telescope has a DUT for every track table of the input file.
-/
namespace BTA.SelArgs
open BTA.Sel
open BTA.Fit (Sampling)

/-- An item of a list of DUTs. -/
inductive Entry
  | none
  | number (i : Int)
  | list (l : List Int)
deriving DecidableEq

/-- One of the arguments `select_hit_duts`, `select_no_hit_duts`, `select_quality_duts`, `select_isolated_track_duts`, `select_isolated_hit_duts`. -/
inductive Arg
  | none
  /-- not an iterable -/
  | scalar
  | entries (l : List Entry)

/-- The argument `query`. An item that is not a string is `none`. -/
inductive Query
  | none
  | one (s : String)
  | each (l : List (Option String))

/-- The argument `select_duts`; an item that is not an integer is `none`. -/
inductive Duts
  /-- not an iterable (the exception is raised by `len` in L224) -/
  | scalar
  | each (l : List (Option Int))

inductive Err
  /-- ValueError or TypeError of L224-351 -/
  | args
  /-- NoSuchNodeError, L355: the input file has no table for the DUT -/
  | node
  /-- ValueError: negative shift count, L359-378 -/
  | shift
  /-- NodeError, L380: the output file has a table for the DUT already -/
  | twice
  /-- raised during the selection -/
  | select (e : Sel.Err)
deriving DecidableEq

/-- `not isinstance(val, Iterable) and val is not None` -/
def isNumber : Entry → Bool
  | .number _ => true
  | _ => false

/-- The integer. -/
def theNumber : Entry → Option Int
  | .number i => some i
  | _ => Option.none

/-- The list for a DUT; None stays None. -/
def theList : Entry → Option (List Int)
  | .list l => some l
  | _ => Option.none

/-- L245-261 and, with other names, L263-277, L284-300, L302-318, L320-336: one list (or None) for each of the `n` DUTs. -/
def expand (n : Nat) : Arg → Except Err (List (Option (List Int)))
  | .none => .ok (List.replicate n (some []))
  | .scalar => .error .args
  | .entries l =>
    if l = [] then .error .args
    else if l.all isNumber then .ok (List.replicate n (some (l.filterMap theNumber)))
    else if l.any isNumber then .error .args
    else if l.length ≠ n then .error .args
    else .ok (l.map theList)

/-- L279-281: a common DUT of two lists. -/
def clash : Option (List Int) → Option (List Int) → Bool
  | some a, some b => a.any fun d => decide (d ∈ b)
  | _, _ => false

/-- L338-351: one query string for each of the `n` DUTs. -/
def queries (n : Nat) : Query → Except Err (List String)
  | .none => .ok (List.replicate n "")
  | .one s => .ok (List.replicate n s)
  | .each l =>
    if l.any Option.isNone then .error .args
    else if l.length ≠ n then .error .args
    else .ok (l.filterMap id)

/-- L231-243 -/
def duts : Duts → Except Err (List Int)
  | .scalar => .error .args
  | .each l => if l = [] then .error .args else if l.any Option.isNone then .error .args else .ok (l.filterMap id)

/-- The arguments. -/
structure Args where
  select : Duts
  hit : Arg := .none
  noHit : Arg := .none
  quality : Arg := .none
  isoTrack : Arg := .none
  isoHit : Arg := .none
  query : Query := .none

/-- What is used for one DUT. -/
structure Setting where
  dut : Int
  hit : Option (List Int)
  noHit : Option (List Int)
  quality : Option (List Int)
  isoTrack : Option (List Int)
  isoHit : Option (List Int)
  query : String
deriving DecidableEq

/-- The settings with the given index. -/
def build : List Int → List (Option (List Int)) → List (Option (List Int)) → List (Option (List Int)) → List (Option (List Int)) →
    List (Option (List Int)) → List String → List Setting
  | d :: ds, a :: as, b :: bs, c :: cs, e :: es, f :: fs, q :: qs => ⟨d, a, b, c, e, f, q⟩ :: build ds as bs cs es fs qs
  | _, _, _, _, _, _, _ => []

/-- L278-281 -/
def checkClash (ns hs : List (Option (List Int))) : Except Err Unit := if (List.zipWith clash ns hs).any id then .error .args else .ok ()

/-- L223-351 -/
def settings (a : Args) : Except Err (List Setting) := do
  let ds ← duts a.select
  let hs ← expand ds.length a.hit
  let ns ← expand ds.length a.noHit
  let _ ← checkClash ns hs
  let qs ← expand ds.length a.quality
  let ts ← expand ds.length a.isoTrack
  let is ← expand ds.length a.isoHit
  let ss ← queries ds.length a.query
  return build ds hs ns qs ts is ss

/-- L357-378: None and an empty list give no bits; else one bit for each DUT. `none`: a negative number. -/
def bits : Option (List Int) → Option (List Nat)
  | none => some []
  | some l => if l.any fun i => decide (i < 0) then none else some (l.map Int.toNat)

/-- The masks of one DUT. -/
def criteria (s : Setting) : Option Criteria :=
  match bits s.hit, bits s.noHit, bits s.quality, bits s.isoTrack, bits s.isoHit with
  | some a, some b, some c, some d, some e => some ⟨a, b, c, d, e⟩
  | _, _, _, _, _ => none

/-- An empty string is no query (L433). -/
def queryOf {R : Type} (eval : String → R → Bool) (s : String) : Option (R → Bool) := if s = "" then none else some (eval s)

variable {R : Type}

/-- One DUT (L354-476): output table, exception. `tables`: the track tables of the input file; `done`: the DUTs with a table in the output file. -/
def oneDut (ev : R → Int) (flags : R → Flags) (eval : String → R → Bool) (S : Sampling) (maxEvents cs : Nat) (tables : Int → Option (List R))
    (done : List Int) (s : Setting) : Option (List R) × Option Err :=
  match tables s.dut with
  | none => (none, some .node)
  | some T =>
    match criteria s with
    | none => (none, some .shift)
    | some c =>
      if s.dut ∈ done then (none, some .twice)
      else
        match selectDut ev flags c (queryOf eval s.query) S maxEvents cs T with
        | (rows, none) => (some rows, none)
        | (rows, some e) => (some rows, some (.select e))

/-- The table of a DUT in the output file. -/
def stored (d : Int) : Option (List R) → List (Int × List R)
  | none => []
  | some rows => [(d, rows)]

/-- Loop over the DUTs (L353-476). -/
def loop (ev : R → Int) (flags : R → Flags) (eval : String → R → Bool) (S : Sampling) (maxEvents cs : Nat) (tables : Int → Option (List R)) :
    List Int → List Setting → List (Int × List R) × Option Err
  | _, [] => ([], none)
  | done, s :: rest =>
    match oneDut ev flags eval S maxEvents cs tables done s with
    | (t, some e) => (stored s.dut t, some e)
    | (t, none) =>
      let r := loop ev flags eval S maxEvents cs tables (s.dut :: done) rest
      (stored s.dut t ++ r.1, r.2)

/-- What is left of a call: the tables of the output file, or `none` if the output file has not been opened for writing (what it contained before is
kept); and the exception. -/
structure Outcome (R : Type) where
  output : Option (List (Int × List R))
  err : Option Err

/-- `select_tracks`. -/
def selectTracksCall (ev : R → Int) (flags : R → Flags) (eval : String → R → Bool) (S : Sampling) (maxEvents cs : Nat) (tables : Int → Option (List R))
    (a : Args) : Outcome R :=
  match settings a with
  | .error e => ⟨none, some e⟩
  | .ok l => let r := loop ev flags eval S maxEvents cs tables [] l; ⟨some r.1, r.2⟩

end BTA.SelArgs
