import Verif.Model.EventArrays
/-
Model of `data_aligned_at_events`, beam_telescope_analysis/tools/analysis_utils.py L451-611, and of
`get_data_in_event_range`, L402-448.
-/
namespace BTA

/-- Exceptions of `data_aligned_at_events`. -/
inductive ReadErr
  /-- L505: ValueError('Invalid start/stop index') -/
  | invalidIndex
  /-- L508: ValueError('Invalid start/stop event number') -/
  | invalidEvent
  /-- L545, L571, L603: ValueError('Chunk size too small ...') -/
  | chunkTooSmall
  /-- L549, L552, L558: ValueError('The start event ... is missing') -/
  | startMissing
  /-- IndexError of `array_chunk["event_number"][-1]` on an empty chunk (L536, L567, L582) or of L557 -/
  | indexError
deriving DecidableEq, Repr

/-- A finished generator: the yielded values and the exception that ended it, if any. -/
structure Gen (γ : Type) where
  items : List γ
  err : Option ReadErr
deriving DecidableEq, Repr

/-- Arguments of `data_aligned_at_events` (L451). Negative indices are not modelled. `trySpeedup` stands for
`try_speedup and table.colindexed["event_number"]` (L511). -/
structure ReadArgs where
  startEvent : Option Int := none
  stopEvent : Option Int := none
  startIndex : Option Nat := none
  stopIndex : Option Nat := none
  chunkSize : Nat := 1000000
  trySpeedup : Bool := false
  firstAligned : Bool := true
  failOnMissing : Bool := true

/-- `table.read(start=a, stop=b)` (PyTables): the rows a ≤ index < b, clipped to the table. -/
def readRows (T : List α) (a b : Nat) : List α := (T.take b).drop a

/-- Search for the start event (L532-562). Returns the new `current_start_index`.
`start` is `start_index`, `cur` is `current_start_index`. -/
def seekStart (ev : α → Int) (T : List α) (a : Int) (aligned fail : Bool) (cs start stop cur : Nat) :
    Except ReadErr Nat :=
  if hcur : cur < stop then
    let chunk := readRows T cur (min (cur + cs) stop)          -- L534-535
    match hl : chunk.getLast?, chunk.head? with
    | some last, some first =>
      if ev last < a then                                       -- L538-539
        seekStart ev T a aligned fail cs start stop (cur + cs)
      else if chunk.length = cs ∧ ev first = ev last then       -- L544-545
        .error .chunkTooSmall
      else if aligned = false ∧ ev first = a ∧ start ≠ 0 ∧ start = cur then   -- L547-550
        if fail then .error .startMissing
        else .ok (cur + searchsortedLeft (chunk.map ev) (a + 1))
      else if fail = true ∧ ev first > a ∧ start = cur then     -- L551-552
        .error .startMissing
      else if aligned = true ∧ ev first = a ∧ start = cur then  -- L553-554
        .ok cur
      else                                                      -- L555-558
        let csi := searchsortedLeft (chunk.map ev) a
        match (chunk.map ev)[csi]? with
        | none => if fail then .error .indexError else .ok (cur + csi)
        | some e =>
          if fail = true ∧ e ≠ a ∧ start = cur then .error .startMissing
          else .ok (cur + csi)
    | _, _ => .error .indexError
  else .ok cur
termination_by stop - cur
decreasing_by
  have : 0 < cs := by
    rcases Nat.eq_zero_or_pos cs with h0 | h0
    · have hl' : (readRows T cur (min (cur + cs) stop)).getLast? = some last := hl
      have h1 : readRows T cur (min (cur + cs) stop) = [] := by
        unfold readRows
        apply List.drop_eq_nil_of_le
        simp only [List.length_take]; omega
      rw [h1] at hl'
      simp at hl'
    · exact h0
  omega

/-- `np.searchsorted(events, first + 1)` of a non-empty chunk starting with `first` is positive. -/
theorem searchsorted_succ_pos (ev : α → Int) (chunk : List α) (first : α) (h : chunk.head? = some first) :
    0 < searchsortedLeft (chunk.map ev) (ev first + 1) := by
  cases chunk with
  | nil => simp at h
  | cons b r =>
    simp only [List.head?_cons, Option.some.injEq] at h
    subst h
    have h0 : ev b < ev b + 1 := by omega
    simp only [searchsortedLeft, List.map_cons, List.takeWhile_cons, h0, decide_true, if_true, List.length_cons]
    omega

/-- Skip the first event (L563-576) if `not first_event_aligned and start_index != 0`. -/
def skipFirst (ev : α → Int) (T : List α) (cs stop cur : Nat) : Except ReadErr Nat :=
  if hcur : cur < stop then
    let chunk := readRows T cur (min (cur + cs) stop)
    match hh : chunk.head?, chunk.getLast? with
    | some first, some last =>
      if chunk.length = cs ∧ ev first = ev last then .error .chunkTooSmall
      else
        let csi := searchsortedLeft (chunk.map ev) (ev first + 1)
        if ev first ≠ ev last then .ok (cur + csi)
        else skipFirst ev T cs stop (cur + csi)
    | _, _ => .error .indexError
  else .ok cur
termination_by stop - cur
decreasing_by
  have hh' : (readRows T cur (min (cur + cs) stop)).head? = some first := hh
  have := searchsorted_succ_pos ev _ first hh'
  have : 0 < csi := this
  omega

/-- Index of the first row of the chunk that is not delivered (L587-598). `atEnd` is
`current_stop_index == table_max_rows`, `last` the last event number of the chunk. -/
def chunkStopIndex (events : List Int) (stopEvent : Option Int) (atEnd : Bool) (last : Int) : Nat :=
  match stopEvent with
  | none => if atEnd then events.length else searchsortedLeft events last
  | some b =>
    if last ≥ b then searchsortedLeft events b
    else if atEnd then events.length
    else searchsortedLeft events last

/-- Data loop (L579-611). `chunk_start_index` is always 0 here (L585), so the branches for a value ≠ 0 are
unreachable and omitted. -/
def dataLoop (ev : α → Int) (T : List α) (stopEvent : Option Int) (cs stop cur : Nat) :
    Gen (List α × Nat) :=
  if hcur : cur < stop then
    let cstop := min (cur + cs) stop
    let chunk := readRows T cur cstop
    match chunk.head?, chunk.getLast? with
    | some first, some last =>
      let nrows := chunkStopIndex (chunk.map ev) stopEvent (decide (cstop = T.length)) (ev last)
      if hn : nrows = 0 then
        if chunk.length = cs ∧ ev first = ev last then ⟨[], some .chunkTooSmall⟩   -- L602-603
        else ⟨[], none⟩                                                            -- L604-605
      else
        let r := dataLoop ev T stopEvent cs stop (cur + nrows)
        ⟨(chunk.take nrows, cur + nrows) :: r.items, r.err⟩                         -- L609, L611
    | _, _ => ⟨[], some .indexError⟩
  else ⟨[], none⟩
termination_by stop - cur
decreasing_by
  exact Nat.sub_lt_sub_left hcur (Nat.lt_add_of_pos_right (Nat.pos_of_ne_zero hn))

/-- `table.get_where_list('event_number==e', start=a, stop=b)`: first element of the result, if any (L514-517,
L521-524). -/
def firstIndexOf (ev : α → Int) (T : List α) (e : Int) (a b : Nat) : Option Nat :=
  ((readRows T a b).findIdx? (fun r => ev r == e)).map (a + ·)

/-- Condition of L507. -/
def boundsReversed : Option Int → Option Int → Bool
  | some a, some b => decide (b < a)
  | _, _ => false

/-- `data_aligned_at_events` (L451-611). -/
def dataAligned (ev : α → Int) (T : List α) (args : ReadArgs) : Gen (List α × Nat) :=
  let start0 := args.startIndex.getD 0                                              -- L502
  let stop0 := args.stopIndex.getD T.length                                         -- L503
  if stop0 < start0 then ⟨[], some .invalidIndex⟩                                   -- L504-505
  else if boundsReversed args.startEvent args.stopEvent = true then
    ⟨[], some .invalidEvent⟩                                                        -- L507-508
  else
    -- L511-524
    let startFound := if args.trySpeedup then args.startEvent.bind (firstIndexOf ev T · start0 stop0) else none
    let start := startFound.getD start0
    let stopFound := if args.trySpeedup then args.stopEvent.bind (firstIndexOf ev T · start stop0) else none
    let stop := stopFound.getD stop0
    if startFound.isSome = true ∧ stopFound.isSome = true ∧ start + args.chunkSize ≥ stop then
      ⟨[(readRows T start stop, stop)], none⟩                                       -- L526-527
    else
      let begin := match args.startEvent with
        | some a => seekStart ev T a args.firstAligned args.failOnMissing args.chunkSize start stop start
        | none =>
          if args.firstAligned = false ∧ start ≠ 0 then skipFirst ev T args.chunkSize stop start
          else .ok start
      match begin with
      | .error e => ⟨[], some e⟩
      | .ok cur => dataLoop ev T args.stopEvent args.chunkSize stop cur

/-- All delivered rows. -/
def Gen.rows (g : Gen (List α × Nat)) : List α := g.items.flatMap Prod.fst

/-! ### `get_data_in_event_range` -/

/-- `np.argmin` of a boolean array: index of the first False, 0 if there is none. -/
def argminBool (l : List Bool) : Nat := (l.findIdx? (fun b => !b)).getD 0
/-- `np.argmax` of a boolean array: index of the first True, 0 if there is none. -/
def argmaxBool (l : List Bool) : Nat := (l.findIdx? (fun b => b)).getD 0

/-- `get_data_in_event_range(..., assume_sorted=True)` (L402-446). For an empty array `np.any` is False, so the
early return (L419-420) is taken. -/
def dataInEventRange (ev : α → Int) (array : List α) (start stop : Option Int) : List α :=
  let e := array.map ev
  if ¬ e.any (fun x => x ≠ 0) then []                                               -- L419-420
  else
    match e.head?, e.getLast? with
    | some d0, some dN =>
      if (match start, stop with
          | some a, some b => decide (dN < a ∨ d0 > b ∨ a = b) | _, _ => false) = true then []   -- L424-425
      else
        let minIdx := match start with                                              -- L428-434
          | none => 0
          | some a => if d0 > a then 0 else argminBool (e.map fun x => decide (x < a))
        let maxIdx := match stop with                                               -- L436-442
          | none => e.length
          | some b => if dN < b then e.length else argmaxBool (e.map fun x => decide (x ≥ b))
        readRows array minIdx maxIdx                                                -- L446
    | _, _ => []

/-- `get_data_in_event_range(..., assume_sorted=False)` (L448) with both bounds given (`None` would raise). -/
def dataInEventRangeUnsorted (ev : α → Int) (array : List α) (a b : Int) : List α :=
  if ¬ (array.map ev).any (fun x => x ≠ 0) then []
  else array.filter fun r => decide (ev r ≥ a) && decide (ev r < b)

end BTA
