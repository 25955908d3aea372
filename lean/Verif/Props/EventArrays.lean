import Verif.Lemmas.MaxEvents

/-! Properties C07 – C13: event array functions. -/

namespace BTA.Props
open BTA BTA.Spec

/-! ### C07 -/

/-- C07: `merge_on_event_number` returns exactly the event join of two arrays sorted by event number,
the first result holding the left rows and the second the right rows. -/
theorem C07_merge_is_join (ev1 : α → Int) (ev2 : β → Int) (zero1 : α) (zero2 : β) (data1 : List α)
    (data2 : List β) (h1 : SortedBy ev1 data1) (h2 : SortedBy ev2 data2) :
    mergeOnEventNumber ev1 ev2 zero1 zero2 data1 data2
      = ((join ev1 ev2 data1 data2).map Prod.fst, (join ev1 ev2 data1 data2).map Prod.snd) := by
  unfold mergeOnEventNumber
  simp only [eventLoop_eq ev1 ev2 data2 _ data1 0 _ h1 h2 (by simp)]
  rw [foldl_count, Nat.zero_add]
  have := mergeFill (join ev1 ev2 data1 data2) zero1 zero2 [] []
  simp only [List.nil_append, List.length_nil, Nat.zero_add] at this
  rw [this]

/-- C07 (explicit form): both results have the same length; a pair of rows appears in it exactly
(number of occurrences of left row) × (number of occurrences of right row) times if the event numbers agree
and never otherwise. -/
theorem C07_merge_pairs [DecidableEq α] [DecidableEq β] (ev1 : α → Int) (ev2 : β → Int) (zero1 : α)
    (zero2 : β) (data1 : List α) (data2 : List β) (h1 : SortedBy ev1 data1) (h2 : SortedBy ev2 data2) :
    let r := mergeOnEventNumber ev1 ev2 zero1 zero2 data1 data2
    r.1.length = r.2.length ∧ SortedBy ev1 r.1 ∧
    ∀ a b, (r.1.zip r.2).count (a, b) = if ev1 a = ev2 b then data1.count a * data2.count b else 0 := by
  simp only [C07_merge_is_join ev1 ev2 zero1 zero2 data1 data2 h1 h2]
  refine ⟨by simp, ?_, ?_⟩
  · -- sorted: by induction on data1
    clear h2
    unfold join SortedBy at *
    induction data1 with
    | nil => simp
    | cons c r ih =>
      have h1' := List.pairwise_cons.mp h1
      rw [List.flatMap_cons, List.map_append, List.pairwise_append]
      refine ⟨?_, ih h1'.2, ?_⟩
      · rw [List.map_map]
        have : (Prod.fst ∘ fun b : β => (c, b)) = fun _ => c := rfl
        rw [this, List.map_const', List.pairwise_replicate]
        right; omega
      · intro x hx y hy
        simp only [List.map_map, List.mem_map, Function.comp] at hx
        obtain ⟨_, _, rfl⟩ := hx
        simp only [List.mem_map, List.mem_flatMap, List.mem_filter] at hy
        obtain ⟨p, ⟨d, hd, b, _, rfl⟩, rfl⟩ := hy
        exact h1'.1 d hd
  · intro a b
    have hz : ((join ev1 ev2 data1 data2).map Prod.fst).zip ((join ev1 ev2 data1 data2).map Prod.snd)
        = join ev1 ev2 data1 data2 := by
      rw [List.zip_map', List.map_id'']
      intro p; rfl
    rw [hz]
    unfold join
    rw [List.count, countP_flatMap']
    have : ∀ c : α, ((data2.filter fun b => decide (ev2 b = ev1 c)).map fun b => (c, b)).countP (· == (a, b))
        = if c = a then (if ev1 a = ev2 b then data2.count b else 0) else 0 := by
      intro c
      rw [List.countP_map, List.countP_filter]
      by_cases hc : c = a
      · subst hc
        rw [if_pos rfl]
        by_cases he : ev1 c = ev2 b
        · rw [if_pos he, List.count]
          apply List.countP_congr
          intro d _
          simp only [Function.comp, Bool.and_eq_true, beq_iff_eq, Prod.mk.injEq, true_and, decide_eq_true_eq]
          constructor
          · exact fun h => h.1
          · rintro rfl; exact ⟨rfl, he.symm⟩
        · rw [if_neg he, List.countP_eq_zero]
          intro d _
          simp only [Function.comp, Bool.and_eq_true, beq_iff_eq, Prod.mk.injEq, true_and, decide_eq_true_eq]
          rintro ⟨rfl, h⟩
          exact he h.symm
      · rw [if_neg hc, List.countP_eq_zero]
        intro d _
        simp [Function.comp, hc]
    simp only [this]
    by_cases he : ev1 a = ev2 b
    · simp only [if_pos he]
      clear h1 hz this
      induction data1 with
      | nil => simp
      | cons c r ih =>
        rw [List.map_cons, List.sum_cons, ih, List.count_cons]
        by_cases hc : c = a
        · simp [hc, Nat.add_mul, Nat.add_comm]
        · simp [hc]
    · simp only [if_neg he, ite_self]
      clear h1 hz this
      induction data1 with
      | nil => simp
      | cons c r ih => simpa using ih

/-- Non-vacuity: events 1,1,3 joined with events 1,2,3,3. -/
example : let d1 : List (Int × String) := [(1, "a"), (1, "b"), (3, "c")]
    let d2 : List (Int × String) := [(1, "x"), (2, "y"), (3, "z"), (3, "w")]
    SortedBy Prod.fst d1 ∧ SortedBy Prod.fst d2 ∧
    join Prod.fst Prod.fst d1 d2 = [((1, "a"), (1, "x")), ((1, "b"), (1, "x")), ((3, "c"), (3, "z")), ((3, "c"), (3, "w"))] := by
  refine ⟨?_, ?_, by decide⟩ <;> simp [SortedBy]

/-! ### C08 -/

/-- C08: every bin of the x (y) correlation histogram grows by the number of pairs (reference hit, DUT hit) of
the same event with these indices. -/
theorem C08_correlation_counts (ref dut : List IHit) (xHist yHist : Hist2) (h1 : SortedBy IHit.ev ref)
    (h2 : SortedBy IHit.ev dut) (i j : Nat) :
    (correlatePosition ref dut xHist yHist).1 i j
      = xHist i j + pairCount ref dut (fun r d => decide (r.ev = d.ev) && decide (d.x = i ∧ r.x = j)) ∧
    (correlatePosition ref dut xHist yHist).2 i j
      = yHist i j + pairCount ref dut (fun r d => decide (r.ev = d.ev) && decide (d.y = i ∧ r.y = j)) := by
  unfold correlatePosition
  rw [eventLoop_eq IHit.ev IHit.ev dut _ ref 0 _ h1 h2 (by simp)]
  have := foldl_inc (join IHit.ev IHit.ev ref dut) (fun p => p.2.x) (fun p => p.2.y) (fun p => p.1.x)
    (fun p => p.1.y) (xHist, yHist) i j
  rw [this.1, this.2]
  rw [← countP_join IHit.ev IHit.ev ref dut (fun r d => decide (d.x = i ∧ r.x = j)),
    ← countP_join IHit.ev IHit.ev ref dut (fun r d => decide (d.y = i ∧ r.y = j))]
  exact ⟨rfl, rfl⟩

example : let ref : List IHit := [⟨0, 1, 1⟩, ⟨2, 5, 6⟩, ⟨2, 5, 7⟩]
    let dut : List IHit := [⟨1, 0, 0⟩, ⟨2, 3, 4⟩]
    SortedBy IHit.ev ref ∧ SortedBy IHit.ev dut ∧
    pairCount ref dut (fun r d => decide (r.ev = d.ev) && decide (d.x = 3 ∧ r.x = 5)) = 2 := by
  refine ⟨?_, ?_, by decide⟩ <;> simp [SortedBy]

/-! ### C09 (event range correlation) -/

/-- C09: `correlate_hits_on_event_range` never reads outside of the arrays and adds one entry for every pair
(earlier hit p, hit q) with `0 < q.ev - p.ev ≤ event_range`. The hypothesis on event numbers is needed only for
the value -1 of the first hit (see `C09_event_minus_one`). -/
theorem C09_event_range_correlation (hits : List IHit) (xHist yHist : Hist2) (r : Nat)
    (hs : SortedBy IHit.ev hits) (hne : ∀ q ∈ hits.head?, q.ev ≠ -1) :
    ∃ res, correlateHitsOnEventRange hits xHist yHist r = some res ∧ ∀ i j,
      res.1 i j = xHist i j + pairCount hits hits (fun q p =>
        decide (0 < q.ev - p.ev ∧ q.ev - p.ev ≤ r) && decide (p.x = i ∧ q.x = j)) ∧
      res.2 i j = yHist i j + pairCount hits hits (fun q p =>
        decide (0 < q.ev - p.ev ∧ q.ev - p.ev ≤ r) && decide (p.y = i ∧ q.y = j)) := by
  unfold correlateHitsOnEventRange
  rw [corrOuter_eq hits r hs hits (-1) none _ (fun q h => h)
    (fun q hq he => absurd he (hne q hq)) hs]
  refine ⟨_, rfl, fun i j => ?_⟩
  have key : ∀ P : IHit → IHit → Bool, (corrPairs hits r hits).countP (fun p => P p.2 p.1)
      = pairCount hits hits (fun q p => decide (0 < q.ev - p.ev ∧ q.ev - p.ev ≤ r) && P q p) := by
    intro P
    unfold corrPairs pairCount
    rw [countP_flatMap', countP_flatMap']
    congr 1
    apply List.map_congr_left
    intro q _
    rw [List.countP_map, List.countP_map, List.countP_filter]
    apply List.countP_congr
    intro p _
    simp only [Function.comp, Bool.and_eq_true, decide_eq_true_eq]
    constructor
    · rintro ⟨h, h', h''⟩; exact ⟨⟨by omega, by omega⟩, h⟩
    · rintro ⟨⟨h, h'⟩, h''⟩; exact ⟨h'', by omega, by omega⟩
  have := foldl_inc (corrPairs hits r hits) (fun p => p.1.x) (fun p => p.1.y) (fun p => p.2.x)
    (fun p => p.2.y) (xHist, yHist) i j
  rw [this.1, this.2]
  rw [← key (fun q p => decide (p.x = i ∧ q.x = j)), ← key (fun q p => decide (p.y = i ∧ q.y = j))]
  exact ⟨rfl, rfl⟩

/-- C09: if the first hit has event number -1 the start index is used before it is assigned. -/
theorem C09_event_minus_one (q : IHit) (rest : List IHit) (x y : Hist2) (r : Nat) (h : q.ev = -1) :
    correlateHitsOnEventRange (q :: rest) x y r = none := by
  simp [correlateHitsOnEventRange, corrOuter, h]

example : let hits : List IHit := [⟨4, 1, 1⟩, ⟨5, 2, 2⟩, ⟨5, 2, 3⟩, ⟨7, 2, 2⟩]
    SortedBy IHit.ev hits ∧ (∀ q ∈ hits.head?, q.ev ≠ -1) ∧
    pairCount hits hits (fun q p => decide (0 < q.ev - p.ev ∧ q.ev - p.ev ≤ (1 : Nat)) && decide (p.x = 1 ∧ q.x = 2)) = 2 := by
  refine ⟨?_, ?_, by decide⟩ <;> simp [SortedBy]

/-! ### C10 -/

/-- C10: `in1d_events` is the membership test for sorted, non-empty arrays. -/
theorem C10_in1d_events (one two : List Int) (h1 : one.Pairwise (· ≤ ·)) (h2 : two.Pairwise (· ≤ ·))
    (hne1 : one ≠ []) (hne2 : two ≠ []) :
    in1dEvents one two = some (one.map fun e => decide (e ∈ two)) := by
  unfold in1dEvents
  rw [if_neg hne1]
  exact in1dLoop_eq two h2 one 0 h1 (List.length_pos_iff.mpr hne2) (by simp)

/-- C10: with an empty second array the code reads outside of the array. -/
theorem C10_in1d_empty_undefined (one : List Int) : in1dEvents one [] = none := by
  unfold in1dEvents
  cases one with
  | nil => rfl
  | cons a r => simp [in1dLoop]

example : in1dEvents [1, 1, 3, 7] [1, 2, 7, 9] = some [true, true, false, true] := by
  rw [C10_in1d_events] <;> simp

/-! ### C11 -/

/-- C11: `get_events_in_both_arrays` gives the strictly increasing list of common event numbers. The value -1 is
the initial value of the "already seen" variable and is never reported at the start of array one
(`C11_minus_one_lost`), so it is excluded. -/
theorem C11_events_in_both (one two : List Int) (h1 : one.Pairwise (· ≤ ·)) (h2 : two.Pairwise (· ≤ ·))
    (hne2 : two ≠ []) (hpos : ∀ e ∈ one, 0 ≤ e) :
    ∃ r, eventsInBoth one two = some r ∧ r.Pairwise (· < ·) ∧ ∀ e, e ∈ r ↔ e ∈ one ∧ e ∈ two := by
  obtain ⟨r, hr, hp, hm⟩ := eventsInBothLoop_eq two h2 one (-1) 0 h1
    (fun e he => by have := hpos e he; omega) (List.length_pos_iff.mpr hne2) (by simp)
  refine ⟨r, hr, hp, fun e => ?_⟩
  rw [hm]
  constructor
  · exact fun h => h.2
  · intro h
    have := hpos e h.1
    exact ⟨by omega, h⟩

/-- C11: event number -1 is lost, so the statement is false without a restriction of the event numbers. -/
theorem C11_minus_one_lost : eventsInBoth [-1, 2] [-1, 2] = some [2] := by
  simp [eventsInBoth, eventsInBothLoop, seekGE]

/-- C11: with an empty second array (and a non-empty first array of valid event numbers) the code reads outside of
the array. -/
theorem C11_empty_undefined (e : Int) (rest : List Int) (he : e ≠ -1) : eventsInBoth (e :: rest) [] = none := by
  simp [eventsInBoth, eventsInBothLoop, he]

example : ∃ r, eventsInBoth [0, 2, 2, 5, 8] [1, 2, 5, 5] = some r ∧ r.Pairwise (· < ·) ∧
    ∀ e, e ∈ r ↔ e ∈ [0, 2, 2, 5, 8] ∧ e ∈ [1, 2, 5, (5 : Int)] :=
  C11_events_in_both _ _ (by simp) (by simp) (by simp) (by simp)

/-! ### C12 -/

/-- C12: for non-empty sorted arrays `get_max_events_in_both_arrays` terminates, does not raise, and returns a
sorted array with every event number as often as in the array where it is more frequent. -/
theorem C12_max_events (one two : List Int) (h1 : one.Pairwise (· ≤ ·)) (h2 : two.Pairwise (· ≤ ·))
    (hne1 : one ≠ []) (hne2 : two ≠ []) :
    ∃ r, maxEventsInBoth one two = some (.ok r) ∧ r.Pairwise (· ≤ ·) ∧
      ∀ e, r.count e = max (one.count e) (two.count e) := by
  have hf := List.head?_eq_some_head hne1
  have hs := List.head?_eq_some_head hne2
  have hfl := List.getLast?_eq_some_getLast hne1
  have hsl := List.getLast?_eq_some_getLast hne2
  unfold maxEventsInBoth
  rw [hf, hs, hfl, hsl]
  exact maxLoop_spec one two _ _ _ (maxInv_init one two _ _ _ _ h1 h2 hf hs hfl hsl) _ (Nat.le_refl _)

/-- C12: an empty array is not handled by the code (reads the element 0 and the last element). -/
theorem C12_empty_undefined (one two : List Int) (h : one = [] ∨ two = []) :
    maxEventsInBoth one two = some (.error .undefined) := by
  rcases h with rfl | rfl
  · rfl
  · unfold maxEventsInBoth
    cases one <;> rfl

example : ∃ r, maxEventsInBoth [0, 1, 1, 4] [1, 2, 2, 4, 4, 4] = some (.ok r) ∧ r.Pairwise (· ≤ ·) ∧
    ∀ e, r.count e = max (List.count e [0, 1, 1, 4]) (List.count e [1, 2, 2, 4, 4, (4 : Int)]) :=
  C12_max_events _ _ (by simp) (by simp) (by simp) (by simp)

/-! ### C13 -/

/-- C13: row `m` of the mapped array (event number `events[m]`, being the k-th row of this event) holds the k-th
cluster of this event if there is one, else its initial value; the number of rows is unchanged. -/
theorem C13_map_cluster (ev : β → Int) (events : List Int) (clusters mapped : List β)
    (he : events.Pairwise (· ≤ ·)) (hc : SortedBy ev clusters) (hl : mapped.length = events.length) :
    (mapCluster ev events clusters mapped).length = events.length ∧
    ∀ m (hm : m < events.length), (mapCluster ev events clusters mapped)[m]? =
      some ((nthOfEvent ev clusters events[m] ((events.take m).count events[m])).getD mapped[m]) := by
  unfold mapCluster
  refine ⟨by rw [mapClusterLoop_length, hl], fun m hm => ?_⟩
  exact mapClusterLoop_spec ev events clusters he hc 0 0 mapped (by simp) (by simp) m (by simp) hm (by omega)

/-- The example of the doc string. -/
example : let events : List Int := [0, 1, 1, 2, 3, 3]
    let clusters : List (Int × Nat) := [(0, 10), (1, 11), (2, 12), (2, 13), (3, 14), (4, 15)]
    let init := List.replicate 6 ((0 : Int), 0)
    events.Pairwise (· ≤ ·) ∧ SortedBy Prod.fst clusters ∧
    mapCluster Prod.fst events clusters init = [(0, 10), (1, 11), (0, 0), (2, 12), (3, 14), (0, 0)] := by
  refine ⟨by simp, by simp [SortedBy], ?_⟩
  simp [mapCluster, mapClusterLoop, catchUp]

end BTA.Props
