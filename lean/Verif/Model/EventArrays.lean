/-
Model of the event array functions of `beam_telescope_analysis/tools/analysis_utils.py` (Numba) and
`beam_telescope_analysis/cpp/AnalysisFunctions.h` (C++).

Conventions: arrays are lists, event numbers (int64) are `Int` without overflow.
-/
namespace BTA

/-! ### Loop nest shared by `merge_on_event_number` and `correlate_position_on_event_number` -/

/-- `while i < n2 and data_2[i]['event_number'] < e: i += 1`
(analysis_utils.py L60-61, L79-80, L130-131). -/
def catchUp (ev : β → Int) (d2 : List β) (e : Int) (i : Nat) : Nat :=
  if h : i < d2.length then
    if ev d2[i] < e then catchUp ev d2 e (i + 1) else i
  else i
termination_by d2.length - i

/-- `for j in range(i, n2): if e == data_2[j]['event_number']: <body> else: break`
(analysis_utils.py L63-67, L82-89, L133-144).
The body is the state update `f`; the loop over `range(i, n2)` is written as recursion over `d2.drop i`. -/
def scanEqual (ev : β → Int) (e : Int) (f : σ → β → σ) : List β → σ → σ
  | [], s => s
  | b :: rest, s => if e = ev b then scanEqual ev e f rest (f s b) else s

/-- The complete loop nest (analysis_utils.py L58-67, L77-89, L128-144):
`i` is `event_index_data_2` / `dut_index`, shared by all iterations of the outer loop. -/
def eventLoop (ev1 : α → Int) (ev2 : β → Int) (d2 : List β) (f : σ → α → β → σ) :
    List α → Nat → σ → σ
  | [], _, s => s
  | a :: rest, i, s =>
    let i' := catchUp ev2 d2 (ev1 a) i
    eventLoop ev1 ev2 d2 f rest i' (scanEqual ev2 (ev1 a) (fun s b => f s a b) (d2.drop i') s)

/-! ### `merge_on_event_number` -/

/-- State of the second pass of `merge_on_event_number`: result arrays and result indices. -/
structure MergeState (α β : Type) where
  result1 : List α
  result2 : List β
  index1 : Nat
  index2 : Nat

/-- `merge_on_event_number` (analysis_utils.py L31-91).
First pass counts, the result arrays are allocated with zeros (`zero1`, `zero2`), second pass fills.
`List.set` beyond the end leaves the list unchanged (the code would write out of bounds; the theorem
on the result implies that this never happens). -/
def mergeOnEventNumber (ev1 : α → Int) (ev2 : β → Int) (zero1 : α) (zero2 : β)
    (data1 : List α) (data2 : List β) : List α × List β :=
  -- L54-67
  let size := eventLoop ev1 ev2 data2 (fun (n : Nat) _ _ => n + 1) data1 0 0
  -- L70-75
  let init : MergeState α β := ⟨List.replicate size zero1, List.replicate size zero2, 0, 0⟩
  -- L77-89
  let fin := eventLoop ev1 ev2 data2
    (fun s a b => ⟨s.result1.set s.index1 a, s.result2.set s.index2 b, s.index1 + 1, s.index2 + 1⟩)
    data1 0 init
  -- L91
  (fin.result1, fin.result2)

/-! ### Correlation histograms -/

/-- 2D histogram. The entry type (uint32) is modelled by `Nat` (no overflow); indices are assumed to
lie inside the array (Numba does not check bounds). -/
abbrev Hist2 := Nat → Nat → Nat

/-- `hist[i, j] += 1` -/
def Hist2.inc (h : Hist2) (i j : Nat) : Hist2 :=
  fun a b => if a = i ∧ b = j then h a b + 1 else h a b

/-- A hit: event number and position indices. The parallel arrays `*_event_numbers`, `*_x_indices`,
`*_y_indices` of the code are one list of records in the model. -/
structure IHit where
  ev : Int
  x : Nat
  y : Nat
deriving DecidableEq, Repr

/-- `correlate_position_on_event_number` (analysis_utils.py L94-144). -/
def correlatePosition (ref dut : List IHit) (xHist yHist : Hist2) : Hist2 × Hist2 :=
  eventLoop IHit.ev IHit.ev dut
    (fun (s : Hist2 × Hist2) r d => (s.1.inc d.x r.x, s.2.inc d.y r.y)) ref 0 (xHist, yHist)

/-- `np.searchsorted(a, v)` (side='left') on a sorted array: number of leading elements `< v`.
(Binary search in NumPy; only the result for sorted arrays is modelled.) -/
def searchsortedLeft (a : List Int) (v : Int) : Nat :=
  (a.takeWhile (fun e => decide (e < v))).length

/-- Inner loop of `correlate_hits_on_event_range` (analysis_utils.py L180-183):
`while event_numbers[corr_index] < curr_event_number: ...; corr_index += 1`.
`none`: read beyond the end of the array. -/
def corrInner (hits : List IHit) (cur : IHit) (corr : Nat) (s : Hist2 × Hist2) :
    Option (Hist2 × Hist2) :=
  if h : corr < hits.length then
    if hits[corr].ev < cur.ev then
      corrInner hits cur (corr + 1)
        (s.1.inc hits[corr].x cur.x, s.2.inc hits[corr].y cur.y)
    else some s
  else none
termination_by hits.length - corr

/-- Outer loop of `correlate_hits_on_event_range` (analysis_utils.py L171-184).
`start = none`: `corr_start_index` has not been assigned yet; using it is an error (`none`). -/
def corrOuter (hits : List IHit) (eventRange : Nat) :
    List IHit → Int → Option Nat → Hist2 × Hist2 → Option (Hist2 × Hist2)
  | [], _, _, s => some s
  | cur :: rest, last, start, s =>
    let start' := if cur.ev ≠ last then
        some (searchsortedLeft (hits.map IHit.ev) (cur.ev - eventRange)) else start
    match start' with
    | none => none
    | some i =>
      match corrInner hits cur i s with
      | none => none
      | some s' => corrOuter hits eventRange rest cur.ev start' s'

/-- `correlate_hits_on_event_range` (analysis_utils.py L147-184). -/
def correlateHitsOnEventRange (hits : List IHit) (xHist yHist : Hist2) (eventRange : Nat) :
    Option (Hist2 × Hist2) :=
  corrOuter hits eventRange hits (-1) none (xHist, yHist)

/-! ### `in1d_sorted`, `getEventsInBothArrays` -/

/-- `for (j = idx; j < n; ++j) if (two[j] >= act) { idx = j; break; }`
(AnalysisFunctions.h L29-34, L134-139): returns the new `tActualIndex`. -/
def seekGE (two : List Int) (act : Int) (idx j : Nat) : Nat :=
  if h : j < two.length then
    if two[j] ≥ act then j else seekGE two act idx (j + 1)
  else idx
termination_by two.length - j

/-- Main loop of `in1d_sorted` (AnalysisFunctions.h L132-144). `none`: read outside of array two. -/
def in1dLoop (two : List Int) : List Int → Nat → Option (List Bool)
  | [], _ => some []
  | act :: rest, idx =>
    let idx' := seekGE two act idx idx
    match two[idx']? with
    | none => none
    | some v => (in1dLoop two rest idx').map (decide (v = act) :: ·)

/-- `in1d_events` (analysis_utils.py L187-195) / `in1d_sorted` (AnalysisFunctions.h L127-145).
`rSelection[0] = true` (L129) is overwritten by the loop if array one is not empty; for an empty array
one it is a write out of bounds, modelled as `none`. -/
def in1dEvents (one two : List Int) : Option (List Bool) :=
  if one = [] then none else in1dLoop two one 0

/-- Main loop of `getEventsInBothArrays` (AnalysisFunctions.h L25-39). State: actual event number, index
in array two. The result buffer has the size of array one (analysis_utils.py L306), every iteration
writes at most once, so it cannot overflow. `none`: read outside of array two. -/
def eventsInBothLoop (two : List Int) : List Int → Int → Nat → Option (List Int)
  | [], _, _ => some []
  | e :: rest, act, idx =>
    if e = act then eventsInBothLoop two rest act idx
    else
      let idx' := seekGE two e idx idx
      match two[idx']? with
      | none => none
      | some v =>
        if v = e then (eventsInBothLoop two rest e idx').map (e :: ·)
        else eventsInBothLoop two rest e idx'

/-- `get_events_in_both_arrays` (analysis_utils.py L299-308, AnalysisFunctions.h L20-41). -/
def eventsInBoth (one two : List Int) : Option (List Int) :=
  eventsInBothLoop two one (-1) 0

/-! ### `getMaxEventsInBothArrays` -/

/-- Errors of `getMaxEventsInBothArrays`. -/
inductive MaxErr
  /-- read outside of an (empty) array, L46-49 -/
  | undefined
  /-- `std::out_of_range`, L91, L101, L111 -/
  | outOfRange
deriving DecidableEq, Repr

/-- Loop variables of `getMaxEventsInBothArrays` (AnalysisFunctions.h L46-57). The part of the result buffer
which has been written is the list `out` (`tActualResultIndex = out.length`). -/
structure MaxState where
  f : Int        -- tFirstActualEventNumber
  s : Int        -- tSecondActualEventNumber
  i : Nat
  j : Nat
  ff : Bool      -- first_finished
  sf : Bool      -- second_finished
  out : List Int
deriving Repr

/-- `for (ii = i; ii < n; ++ii) if (arr[ii] == v) occ++ else break` (AnalysisFunctions.h L62-67, L73-78):
number of iterations. -/
def runLength (v : Int) : List Int → Nat
  | [] => 0
  | a :: rest => if a = v then runLength v rest + 1 else 0

/-- Loop body (AnalysisFunctions.h L60-120); `cap` is the size of the result buffer. -/
def maxStep (one two : List Int) (fLast sLast : Int) (cap : Nat) (st : MaxState) :
    Except MaxErr MaxState :=
  -- L60-69
  let occ1 := if st.f ≤ st.s ∨ st.sf = true then runLength st.f (one.drop st.i) else 0
  let i := st.i + occ1
  -- L71-80
  let occ2 := if st.s ≤ st.f ∨ st.ff = true then runLength st.s (two.drop st.j) else 0
  let j := st.j + occ2
  -- L115-118
  let f := (one[i]?).getD st.f
  let s := (two[j]?).getD st.s
  if st.f = st.s then
    -- L82-93
    let ff := if st.f = fLast then true else st.ff
    let sf := if st.s = sLast then true else st.sf
    let out := st.out ++ List.replicate (max occ1 occ2) st.f
    if out.length ≤ cap then .ok ⟨f, s, i, j, ff, sf, out⟩ else .error .outOfRange
  else if (st.ff = false ∧ st.f < st.s) ∨ st.sf = true then
    -- L94-103
    let ff := if st.f = fLast then true else st.ff
    let out := st.out ++ List.replicate occ1 st.f
    if out.length ≤ cap then .ok ⟨f, s, i, j, ff, st.sf, out⟩ else .error .outOfRange
  else if (st.sf = false ∧ st.s < st.f) ∨ st.ff = true then
    -- L104-113
    let sf := if st.s = sLast then true else st.sf
    let out := st.out ++ List.replicate occ2 st.s
    if out.length ≤ cap then .ok ⟨f, s, i, j, st.ff, sf, out⟩ else .error .outOfRange
  else .ok ⟨f, s, i, j, st.ff, st.sf, st.out⟩

/-- `while (!(first_finished && second_finished))` (AnalysisFunctions.h L59-121).
The outer `Option` is `none` if the loop does not terminate. -/
def maxLoop (one two : List Int) (fLast sLast : Int) (cap : Nat) (st : MaxState) :
    Option (Except MaxErr (List Int)) :=
  if st.ff = true ∧ st.sf = true then some (.ok st.out)
  else
    match maxStep one two fLast sLast cap st with
    | .error e => some (.error e)
    | .ok st' => maxLoop one two fLast sLast cap st'
partial_fixpoint

/-- `get_max_events_in_both_arrays` (analysis_utils.py L249-258, AnalysisFunctions.h L44-124). -/
def maxEventsInBoth (one two : List Int) : Option (Except MaxErr (List Int)) :=
  match one.head?, two.head?, one.getLast?, two.getLast? with
  | some f, some s, some fl, some sl =>
    maxLoop one two fl sl (one.length + two.length) ⟨f, s, 0, 0, false, false, []⟩
  | _, _, _, _ => some (.error .undefined)

/-! ### `map_cluster` -/

/-- Main loop of `map_cluster` (analysis_utils.py L283-296): `i` event index, `j` cluster index. -/
def mapClusterLoop (ev : β → Int) (events : List Int) (clusters : List β) (i j : Nat)
    (mapped : List β) : List β :=
  if h : i < events.length then
    let j' := catchUp ev clusters events[i] j
    if hj : j' < clusters.length then
      if ev clusters[j'] = events[i] then
        mapClusterLoop ev events clusters (i + 1) (j' + 1) (mapped.set i clusters[j'])
      else mapClusterLoop ev events clusters (i + 1) j' mapped
    else mapped
  else mapped
termination_by events.length - i

/-- `map_cluster` (analysis_utils.py L261-296). -/
def mapCluster (ev : β → Int) (events : List Int) (clusters mapped : List β) : List β :=
  mapClusterLoop ev events clusters 0 0 mapped

end BTA
