import Verif.Lemmas.ChunkSeek

/-! Property C16: `get_data_in_event_range`; property C55: the index based speed-up of the chunk reader. -/

namespace BTA.Props
open BTA BTA.Spec

variable {α : Type} {ev : α → Int} {T : List α}

theorem take_eq_filter' {R : List α} (k : Nat) (p : α → Bool) (h1 : ∀ x ∈ R.take k, p x = true)
    (h2 : ∀ x ∈ R.drop k, p x = false) : R.take k = R.filter p := by
  conv => rhs; rw [← List.take_append_drop k R, List.filter_append]
  rw [List.filter_eq_self.mpr h1, List.filter_eq_nil_iff.mpr (by intro x hx; simp [h2 x hx]), List.append_nil]

/-- the index found by `argmin(e < v)` / `argmax(e >= v)` if some event is ≥ v -/
theorem firstGE_spec (hs : SortedBy ev T) (v : Int) (h : ∃ x ∈ T, v ≤ ev x) (p : Bool → Bool) (q : Int → Bool)
    (hpq : ∀ e, p (q e) = decide (v ≤ e)) :
    let k := (((T.map ev).map q).findIdx? p).getD 0
    (∀ x ∈ T.take k, ev x < v) ∧ ∀ x ∈ T.drop k, v ≤ ev x := by
  intro k
  have hk : k = (T.findIdx? (fun x => decide (v ≤ ev x))).getD 0 := by
    show (((T.map ev).map q).findIdx? p).getD 0 = _
    rw [List.map_map, List.findIdx?_map]
    congr 2
    funext x
    simp [hpq]
  cases hf : T.findIdx? (fun x => decide (v ≤ ev x)) with
  | none =>
    rw [List.findIdx?_eq_none_iff] at hf
    obtain ⟨x, hx, hvx⟩ := h
    have := hf x hx
    simp at this
    omega
  | some i =>
    rw [hf, Option.getD_some] at hk
    rw [List.findIdx?_eq_some_iff_getElem] at hf
    obtain ⟨hi, h1, h2⟩ := hf
    rw [hk]
    refine ⟨?_, ?_⟩
    · intro x hx
      obtain ⟨j, hj, rfl⟩ := List.mem_iff_getElem.mp hx
      rw [List.getElem_take]
      have := h2 j (by simp at hj; omega)
      simpa using this
    · exact sorted_drop_ge hs i v (fun _ => by simpa using h1)

/-- C16 (partial): the rows of the half-open range are returned, if at least one event number is not 0 and, when there
is no stop event, the start event is not behind the last event of the array. The missing cases are wrong, see below. -/
theorem C16_event_range_partial (hs : SortedBy ev T) (a b : Option Int) (hnz : ∃ r ∈ T, ev r ≠ 0)
    (hlast : b = none → ∀ x ∈ a, ∃ r ∈ T, x ≤ ev r) :
    dataInEventRange ev T a b = T.filter fun r => inRange a b (ev r) := by
  obtain ⟨r0, hr0, hz⟩ := hnz
  have hne : T ≠ [] := by intro h; rw [h] at hr0; simp at hr0
  obtain ⟨f, hF⟩ : ∃ f, T.head? = some f := ⟨_, List.head?_eq_some_head hne⟩
  obtain ⟨l, hL⟩ : ∃ l, T.getLast? = some l := ⟨_, List.getLast?_eq_some_getLast hne⟩
  have hfle := mem_head?_le hs hF
  have hlge := mem_getLast?_ge hs hL
  have hlm := getLast?_mem hL
  have hany : (T.map ev).any (fun x => decide (x ≠ 0)) = true := by
    rw [List.any_eq_true]
    exact ⟨ev r0, List.mem_map_of_mem hr0, by simpa using hz⟩
  unfold dataInEventRange
  simp only [hany, not_true_eq_false, if_false, List.head?_map, List.getLast?_map, hF, hL, Option.map_some]
  -- lower index
  have lower : ∀ (x : Int), (∃ r ∈ T, x ≤ ev r) →
      (∀ r ∈ T.take (if ev f > x then 0 else argminBool ((T.map ev).map fun e => decide (e < x))), ev r < x) ∧
      (∀ r ∈ T.drop (if ev f > x then 0 else argminBool ((T.map ev).map fun e => decide (e < x))), x ≤ ev r) := by
    intro x hx
    split
    · refine ⟨by simp, ?_⟩
      intro r hr
      have := hfle r (by simpa using hr)
      omega
    · apply firstGE_spec hs x hx (fun b => !b)
      intro e
      rw [← decide_not]
      simp
  have upper : ∀ (y : Int),
      (∀ r ∈ T.take (if ev l < y then (T.map ev).length else argmaxBool ((T.map ev).map fun e => decide (e ≥ y))), ev r < y) ∧
      (∀ r ∈ T.drop (if ev l < y then (T.map ev).length else argmaxBool ((T.map ev).map fun e => decide (e ≥ y))), y ≤ ev r) := by
    intro y
    split
    · refine ⟨?_, ?_⟩
      · intro r hr
        have := hlge r (List.mem_of_mem_take hr)
        omega
      · intro r hr
        rw [List.length_map, List.drop_length] at hr
        simp at hr
    · apply firstGE_spec hs y ⟨l, hlm, by omega⟩ (fun b => b)
      intro e
      rfl
  have combine : ∀ (i j : Nat) (p q : Int → Bool),
      (∀ r ∈ T.take i, p (ev r) = false) → (∀ r ∈ T.drop i, p (ev r) = true) →
      (∀ r ∈ T.take j, q (ev r) = true) → (∀ r ∈ T.drop j, q (ev r) = false) →
      readRows T i j = T.filter fun r => p (ev r) && q (ev r) := by
    intro i j p q h1 h2 h3 h4
    unfold readRows
    rw [drop_eq_filter (R := T.take j) i (fun r => p (ev r)), take_eq_filter' j (fun r => q (ev r)) h3 h4,
      List.filter_filter]
    · intro x hx
      rw [List.take_take] at hx
      apply h1
      have : T.take (min i j) = (T.take i).take (min i j) := by rw [List.take_take]; congr 1; omega
      rw [this] at hx
      exact List.mem_of_mem_take hx
    · intro x hx
      rw [List.drop_take] at hx
      exact h2 x (List.mem_of_mem_take hx)
  cases a with
  | none =>
    cases b with
    | none =>
      simp only [Bool.false_eq_true, if_false, List.length_map, readRows_full, List.drop_zero]
      rw [List.filter_eq_self.mpr]
      intro x _; simp [inRange]
    | some y =>
      simp only [Bool.false_eq_true, if_false]
      obtain ⟨u1, u2⟩ := upper y
      rw [combine 0 _ (fun _ => true) (fun e => decide (e < y)) (by simp) (by simp)
        (fun r hr => by simpa using u1 r hr) (fun r hr => by simpa using u2 r hr)]
      simp [inRange]
  | some x =>
    cases b with
    | none =>
      simp only [Bool.false_eq_true, if_false]
      obtain ⟨l1, l2⟩ := lower x (hlast rfl x rfl)
      rw [combine _ _ (fun e => decide (x ≤ e)) (fun _ => true)
        (fun r hr => by simpa using l1 r hr) (fun r hr => by simpa using l2 r hr) (by simp) (by simp)]
      simp [inRange]
    | some y =>
      simp only [decide_eq_true_eq]
      split
      · rename_i hearly
        symm
        rw [List.filter_eq_nil_iff]
        intro r hr
        have := hfle r hr
        have := hlge r hr
        simp [inRange]
        omega
      · rename_i hearly
        obtain ⟨u1, u2⟩ := upper y
        obtain ⟨l1, l2⟩ := lower x ⟨l, hlm, by omega⟩
        rw [combine _ _ (fun e => decide (x ≤ e)) (fun e => decide (e < y))
          (fun r hr => by simpa using l1 r hr) (fun r hr => by simpa using l2 r hr)
          (fun r hr => by simpa using u1 r hr) (fun r hr => by simpa using u2 r hr)]
        simp [inRange]

/-- C16, `assume_sorted=False`: the rows of the range if some event number is not 0, for any order of the rows. -/
theorem C16_unsorted_partial (a b : Int) (hnz : ∃ r ∈ T, ev r ≠ 0) :
    dataInEventRangeUnsorted ev T a b = T.filter fun r => inRange (some a) (some b) (ev r) := by
  obtain ⟨r0, hr0, hz⟩ := hnz
  have hany : (T.map ev).any (fun x => decide (x ≠ 0)) = true := by
    rw [List.any_eq_true]
    exact ⟨ev r0, List.mem_map_of_mem hr0, by simpa using hz⟩
  unfold dataInEventRangeUnsorted
  simp only [hany, not_true_eq_false, if_false]
  simp [inRange]

/-- C16 is false: rows of event 0 are lost if the array contains no other event. -/
theorem C16_event_zero_lost : dataInEventRange Prod.fst [((0 : Int), 'a'), (0, 'b')] none none = [] ∧
    [((0 : Int), 'a'), (0, 'b')].filter (fun r => inRange none none r.1) = [(0, 'a'), (0, 'b')] := by
  refine ⟨by decide, by decide⟩

/-- C16 is false: a start event behind the end of the array without stop event returns the complete array. -/
theorem C16_start_behind_end : dataInEventRange id [1, 2, 3] (some 7) none = [1, 2, 3] ∧
    [1, 2, 3].filter (fun r => inRange (some 7) none (id r)) = [] := by
  refine ⟨by decide, by decide⟩

example : SortedBy id [0, 1, 2, 2, (5 : Int)] ∧ (∃ r ∈ [0, 1, 2, 2, (5 : Int)], id r ≠ 0) ∧
    dataInEventRange id [0, 1, 2, 2, (5 : Int)] (some 1) (some 5) = [1, 2, 2] := by
  refine ⟨by simp [SortedBy], ⟨1, by simp, by simp⟩, by decide⟩

end BTA.Props

namespace BTA.Props
open BTA BTA.Spec

variable {α : Type} {ev : α → Int} {T : List α}

/-! ### C55: try_speedup -/

theorem firstIndexOf_spec (hs : SortedBy ev T) (e : Int) (s k : Nat) (h : firstIndexOf ev T e s T.length = some k) :
    s ≤ k ∧ k < T.length ∧ (∀ x ∈ readRows T s k, ev x < e) ∧ ∀ x ∈ T.drop k, e ≤ ev x := by
  unfold firstIndexOf at h
  rw [readRows_full] at h
  obtain ⟨i, hi, rfl⟩ := Option.map_eq_some_iff.mp h
  rw [List.findIdx?_eq_some_iff_getElem] at hi
  obtain ⟨hlen, h1, h2⟩ := hi
  rw [List.length_drop] at hlen
  have hge : ∀ x ∈ T.drop (s + i), e ≤ ev x := by
    apply sorted_drop_ge hs
    intro hk
    have : ev (T.drop s)[i] = e := by simpa using h1
    rw [List.getElem_drop] at this
    omega
  refine ⟨by omega, by omega, ?_, hge⟩
  intro x hx
  unfold readRows at hx
  rw [List.drop_take] at hx
  obtain ⟨j, hj, rfl⟩ := List.mem_iff_getElem.mp hx
  rw [List.length_take, List.length_drop] at hj
  rw [List.getElem_take]
  have hne := h2 j (by omega)
  have hle : ev (T.drop s)[j] ≤ ev (T.drop s)[i] := sorted_getElem (sorted_drop hs s) _ _ (by omega)
  have : ev (T.drop s)[i] = e := by simpa using h1
  have : ev (T.drop s)[j] ≠ e := by simpa using hne
  omega

/-- C55 (partial): if both events are found by the index query and the range fits into one chunk, the single read
delivers exactly the events of the range. The case of more than one chunk is wrong, see `C55_speedup_loses_event`. -/
theorem C55_speedup_single_read_partial (hs : SortedBy ev T) (a b : Int) (hab : a ≤ b) (s cs i j : Nat)
    (hst : s ≤ T.length) (hi : firstIndexOf ev T a s T.length = some i) (hj : firstIndexOf ev T b i T.length = some j)
    (hone : j ≤ i + cs) :
    let g := dataAligned ev T { startEvent := some a, stopEvent := some b, startIndex := some s, chunkSize := cs,
                                trySpeedup := true }
    g.err = none ∧ g.rows = (T.drop s).filter fun r => inRange (some a) (some b) (ev r) := by
  intro g
  have hg : g = ⟨[(readRows T i j, j)], none⟩ := by
    show dataAligned ev T _ = _
    unfold dataAligned
    simp only [Option.getD_some, Option.getD_none, if_neg (show ¬ T.length < s by omega)]
    rw [if_neg (by simp [boundsReversed]; omega)]
    simp [hi, hj]
    omega
  rw [hg]
  refine ⟨rfl, ?_⟩
  obtain ⟨hsi, hiT, i1, i2⟩ := firstIndexOf_spec hs a s i hi
  obtain ⟨hij, hjT, j1, j2⟩ := firstIndexOf_spec hs b i j hj
  show [(readRows T i j, j)].flatMap Prod.fst = _
  rw [List.flatMap_cons, List.flatMap_nil, List.append_nil]
  have split1 : T.drop s = readRows T s i ++ (readRows T i j ++ T.drop j) := by
    unfold readRows
    rw [List.drop_take, List.drop_take]
    have e1 : T.drop i = (T.drop s).drop (i - s) := by rw [List.drop_drop]; congr 1; omega
    have e2 : T.drop j = (T.drop i).drop (j - i) := by rw [List.drop_drop]; congr 1; omega
    rw [e2, List.take_append_drop, e1, List.take_append_drop]
  rw [split1, List.filter_append, List.filter_append]
  have z1 : (readRows T s i).filter (fun r => inRange (some a) (some b) (ev r)) = [] := by
    rw [List.filter_eq_nil_iff]; intro x hx; have := i1 x hx; simp [inRange]; omega
  have z2 : (T.drop j).filter (fun r => inRange (some a) (some b) (ev r)) = [] := by
    rw [List.filter_eq_nil_iff]; intro x hx; have := j2 x hx; simp [inRange]; omega
  have z3 : (readRows T i j).filter (fun r => inRange (some a) (some b) (ev r)) = readRows T i j := by
    rw [List.filter_eq_self]
    intro x hx
    have h1 := j1 x hx
    have h2 : a ≤ ev x := by
      apply i2
      unfold readRows at hx
      rw [List.drop_take] at hx
      exact List.mem_of_mem_take hx
    simp [inRange]; omega
  rw [z1, z2, z3, List.nil_append, List.append_nil]

example : let T : List Int := [0, 1, 1, 2, 5]
    SortedBy id T ∧ firstIndexOf id T 1 0 T.length = some 1 ∧ firstIndexOf id T 5 1 T.length = some 4 := by
  refine ⟨by simp [SortedBy], by decide, by decide⟩

/-- C55 is false: with `try_speedup` on an indexed table the last event before the stop event is silently lost as soon as
the data do not fit into one chunk. Event 4 is delivered without the speed-up and lost with it. -/
theorem C55_speedup_loses_event :
    (dataAligned id [0, 1, 2, 3, 4, 5] { startEvent := some 0, stopEvent := some 5, chunkSize := 2 }).rows
      = [0, 1, 2, 3, 4] ∧
    dataAligned id [0, 1, 2, 3, 4, 5] { startEvent := some 0, stopEvent := some 5, chunkSize := 2, trySpeedup := true }
      = ⟨[([0], 1), ([1], 2), ([2], 3), ([3], 4)], none⟩ := by
  refine ⟨by decide +kernel, by decide +kernel⟩

/-! ### C56: stop_index -/

/-- C56: with a stop index before the end of the table, the delivered rows are the rows between start index and stop
index except those of the last event in this range (it may continue behind the stop index). -/
theorem C56_stop_index (hs : SortedBy ev T) (s k cs : Nat) (hcs : 0 < cs) (hsk : s < k) (hk : k < T.length)
    (hm : ∀ e, multiplicity ev T e < cs) (last : α) (hl : T[k - 1]? = some last) :
    let g := dataAligned ev T { startIndex := some s, stopIndex := some k, chunkSize := cs }
    g.err = none ∧ g.rows = ((T.take k).drop s).filter fun r => decide (ev r < ev last) := by
  intro g
  have hg : g = dataLoop ev T none cs k s := by
    show dataAligned ev T _ = _
    unfold dataAligned
    simp only [Option.getD_some, Option.getD_none, if_neg (show ¬ k < s by omega)]
    simp [boundsReversed]
  rw [hg]
  obtain ⟨h1, -, h3⟩ := dataLoop_spec hs none cs k s hcs (by omega)
  have he : (dataLoop ev T none cs k s).err = none := by
    rcases h1 with h1 | ⟨-, e, he⟩
    · exact h1
    · have := hm e
      unfold multiplicity at this
      have hsub : ((T.drop s).filter fun r => ev r = e).length ≤ (T.filter fun r => ev r = e).length :=
        ((List.drop_sublist s T).filter _).length_le
      omega
  refine ⟨he, ?_⟩
  have hlast : (readRows T s k).getLast? = some last := by
    unfold readRows
    rw [List.getLast?_drop, if_neg (by rw [List.length_take]; omega), List.getLast?_take, if_neg (by omega), hl]
    rfl
  rw [h3 he last hlast]
  apply List.filter_congr
  intro x _
  simp [keepRow]
  omega

example : (dataAligned id [0, 1, 1, 2, 5] { stopIndex := some 4, chunkSize := 3 }).rows = [0, 1, 1] := by
  decide +kernel

end BTA.Props
