import Verif.Lemmas.ChunkReader

namespace BTA
open Spec

variable {α : Type} {ev : α → Int} {T : List α}

/-- Rows that the data loop delivers: below the stop event and, if the table is not read to its end, below the last
event of the read range. -/
def keepRow (stopEvent : Option Int) (atEnd : Bool) (lastEv e : Int) : Bool :=
  (match stopEvent with | none => true | some b => decide (e < b)) && (atEnd || decide (e < lastEv))

theorem chunk_eq_drop (T : List α) (cur c : Nat) : readRows T cur (cur + c) = (T.drop cur).take c := by
  unfold readRows
  rw [List.take_drop]

/-- Facts on one step of the data loop. -/
theorem dataStep (hs : SortedBy ev T) (stopEvent : Option Int) (cs stop cur : Nat) (hcs : 0 < cs)
    (hcur : cur < stop) (hstop : stop ≤ T.length) :
    ∃ first last lastR, (readRows T cur (min (cur + cs) stop)).head? = some first ∧
      (readRows T cur (min (cur + cs) stop)).getLast? = some last ∧
      (readRows T cur stop).getLast? = some lastR ∧
      let chunk := readRows T cur (min (cur + cs) stop)
      let k := chunkStopIndex (chunk.map ev) stopEvent (decide (min (cur + cs) stop = T.length)) (ev last)
      k ≤ chunk.length ∧ k ≤ cs ∧ cur + k ≤ stop ∧ chunk.take k = (readRows T cur stop).take k ∧
      (∀ x ∈ chunk.take k, keepRow stopEvent (decide (stop = T.length)) (ev lastR) (ev x) = true) ∧
      (k = 0 → ¬ (chunk.length = cs ∧ ev first = ev last) →
        ∀ x ∈ readRows T cur stop, keepRow stopEvent (decide (stop = T.length)) (ev lastR) (ev x) = false) ∧
      (∀ x ∈ chunk.take k, ∀ y ∈ T.drop (cur + k), ev x < ev y) ∧
      (chunk.length = cs ∧ ev first = ev last → ∀ x ∈ chunk, ev x = ev first) := by
  have hRlen := readRows_length T cur stop
  have hRne : readRows T cur stop ≠ [] := by
    intro h0; rw [h0] at hRlen; simp at hRlen; omega
  have hCne : readRows T cur (min (cur + cs) stop) ≠ [] := by
    intro h0
    have := readRows_length T cur (min (cur + cs) stop)
    rw [h0] at this; simp at this; omega
  have hCs := readRows_sorted hs cur (min (cur + cs) stop)
  have hRs := readRows_sorted hs cur stop
  have hchunk := chunk_eq T cur cs stop
  refine ⟨_, _, _, List.head?_eq_some_head hCne, List.getLast?_eq_some_getLast hCne,
    List.getLast?_eq_some_getLast hRne, ?_⟩
  generalize hF : (readRows T cur (min (cur + cs) stop)).head hCne = first
  generalize hL : (readRows T cur (min (cur + cs) stop)).getLast hCne = last
  generalize hLR : (readRows T cur stop).getLast hRne = lastR
  have hF' : (readRows T cur (min (cur + cs) stop)).head? = some first := by
    rw [← hF]; exact List.head?_eq_some_head hCne
  have hL' : (readRows T cur (min (cur + cs) stop)).getLast? = some last := by
    rw [← hL]; exact List.getLast?_eq_some_getLast hCne
  have hLR' : (readRows T cur stop).getLast? = some lastR := by
    rw [← hLR]; exact List.getLast?_eq_some_getLast hRne
  clear hF hL hLR
  have hClen := readRows_length T cur (min (cur + cs) stop)
  have hlmem := getLast?_mem hL'
  have hFle := mem_head?_le hCs hF'
  have hLge := mem_getLast?_ge hCs hL'
  have hLRge := mem_getLast?_ge hRs hLR'
  have hsub : ∀ x ∈ readRows T cur (min (cur + cs) stop), x ∈ readRows T cur stop := by
    intro x hx; rw [hchunk] at hx; exact List.mem_of_mem_take hx
  have hFleR : ∀ x ∈ readRows T cur stop, ev first ≤ ev x := by
    apply mem_head?_le hRs
    rw [hchunk] at hF'
    rw [List.head?_take, if_neg (by omega)] at hF'
    exact hF'
  have hll := hLRge last (hsub last hlmem)
  -- the two situations
  intro chunk k
  have hk1 : k ≤ chunk.length := by
    show chunkStopIndex _ _ _ _ ≤ _
    have h1 := searchsorted_le (chunk.map ev)
    simp only [List.length_map] at h1
    unfold chunkStopIndex
    cases stopEvent with
    | none => simp only; split <;> simp [h1, chunk] <;> simpa [chunk] using h1 _
    | some b =>
      simp only
      split
      · exact h1 _
      · split
        · simp [chunk]
        · exact h1 _
  have hClen' : chunk.length = min (min (cur + cs) stop) T.length - cur := hClen
  have hcoll : chunk.length = cs ∧ ev first = ev last → ∀ x ∈ chunk, ev x = ev first := by
    rintro ⟨-, h⟩ x hx
    have := hFle x hx
    have := hLge x hx
    omega
  refine ⟨hk1, by omega, by omega, ?_, ?_, ?_, ?_, hcoll⟩
  · show (readRows T cur (min (cur + cs) stop)).take k = _
    rw [hchunk, List.take_take, Nat.min_eq_left (by omega)]
  all_goals
    -- case distinction on the boundary used
    have hcase : (k = chunk.length ∧ min (cur + cs) stop = T.length ∧
          ∀ b, stopEvent = some b → ev last < b) ∨
        (∃ b, stopEvent = some b ∧ b ≤ ev last ∧ k = searchsortedLeft (chunk.map ev) b) ∨
        (k = searchsortedLeft (chunk.map ev) (ev last) ∧ min (cur + cs) stop ≠ T.length ∧
          ∀ b, stopEvent = some b → ev last < b) := by
      show (chunkStopIndex _ _ _ _ = _ ∧ _) ∨ (∃ b, _ ∧ _ ∧ chunkStopIndex _ _ _ _ = _) ∨ (chunkStopIndex _ _ _ _ = _ ∧ _)
      unfold chunkStopIndex
      cases stopEvent with
      | none =>
        by_cases hE : min (cur + cs) stop = T.length
        · left; simp [hE, chunk]
        · right; right; simp [hE, chunk]
      | some b =>
        by_cases hb : ev last ≥ b
        · right; left; exact ⟨b, rfl, hb, by simp [hb]⟩
        · by_cases hE : min (cur + cs) stop = T.length
          · left; simp [hE, hb, chunk]; omega
          · right; right; simp [hE, hb, chunk]; omega
  · -- delivered rows are to be kept
    intro x hx
    have hxc : x ∈ chunk := List.mem_of_mem_take hx
    have hxl := hLge x hxc
    rcases hcase with ⟨-, hE, hb⟩ | ⟨b, hb, hbl, hk⟩ | ⟨hk, hE, hb⟩
    · have hst : stop = T.length := by omega
      unfold keepRow
      cases stopEvent with
      | none => simp [hst]
      | some b => have := hb b rfl; simp [hst]; omega
    · rw [hk] at hx
      have hxb := take_searchsorted_lt chunk b x hx
      subst hb
      simp [keepRow, hxb]
      right; omega
    · rw [hk] at hx
      have hxb := take_searchsorted_lt chunk _ x hx
      unfold keepRow
      cases stopEvent with
      | none => simp; right; omega
      | some b => have := hb b rfl; simp; omega
  · -- nothing delivered and no exception: nothing left to deliver
    intro hk0 hnf x hx
    have hxf := hFleR x hx
    rcases hcase with ⟨hk, hE, hb⟩ | ⟨b, hb, hbl, hk⟩ | ⟨hk, hE, hb⟩
    · omega
    · have hge := drop_searchsorted_ge (T := chunk) hCs b
      rw [← hk, hk0, List.drop_zero] at hge
      have := hge first (List.mem_of_mem_head? hF')
      subst hb
      simp [keepRow]; omega
    · have hge := drop_searchsorted_ge (T := chunk) hCs (ev last)
      rw [← hk, hk0, List.drop_zero] at hge
      have h1 := hge first (List.mem_of_mem_head? hF')
      have h2 := hFle last hlmem
      have hshort : ¬ chunk.length = cs := fun h => hnf ⟨h, by omega⟩
      have hstopeq : min (cur + cs) stop = stop := by omega
      have hsame : chunk = readRows T cur stop := by
        show readRows T cur (min (cur + cs) stop) = _
        rw [hstopeq]
      have hlL : ev lastR ≤ ev last := by
        have hm := getLast?_mem hLR'
        rw [← hsame] at hm
        exact hLge _ hm
      have hst : ¬ stop = T.length := by omega
      unfold keepRow
      simp [hst]
      omega
  · -- rows behind the chunk belong to later events
    intro x hx y hy
    have hcc : chunk = (T.drop cur).take (min (cur + cs) stop - cur) := by
      show readRows T cur (min (cur + cs) stop) = _
      rw [← chunk_eq_drop]
      congr 1
      omega
    have hds := sorted_drop hs cur
    have hval : ∀ v, v ≤ ev last → k = searchsortedLeft (chunk.map ev) v → ev x < ev y := by
      intro v hv hk
      have h1 : ev x < v := by
        rw [hk] at hx; exact take_searchsorted_lt chunk v x hx
      have h2 := drop_searchsorted_take_ge hds (min (cur + cs) stop - cur) v
        ⟨last, by rw [← hcc]; exact hlmem, hv⟩
      rw [← hcc, ← hk, List.drop_drop] at h2
      have := h2 y hy
      omega
    rcases hcase with ⟨hk, hE, hb⟩ | ⟨b, hb, hbl, hk⟩ | ⟨hk, hE, hb⟩
    · exfalso
      rw [List.drop_eq_nil_of_le (by omega)] at hy
      simp at hy
    · exact hval b hbl hk
    · exact hval _ (by omega) hk

/-- Main lemma on the data loop. -/
theorem dataLoop_spec (hs : SortedBy ev T) (stopEvent : Option Int) (cs stop cur : Nat) (hcs : 0 < cs)
    (hstop : stop ≤ T.length) :
    let g := dataLoop ev T stopEvent cs stop cur
    (g.err = none ∨ (g.err = some .chunkTooSmall ∧ ∃ e, cs ≤ ((T.drop cur).filter fun r => ev r = e).length)) ∧
    (∃ rest, readRows T cur stop = g.rows ++ rest) ∧
    (g.err = none → ∀ lastR, (readRows T cur stop).getLast? = some lastR →
      g.rows = (readRows T cur stop).filter
        (fun r => keepRow stopEvent (decide (stop = T.length)) (ev lastR) (ev r))) := by
  fun_induction dataLoop ev T stopEvent cs stop cur with
  | case1 cur hcur cstop chunk first last hL hF nrows hn hfull =>
    obtain ⟨first', last', lastR, e1, e2, e3, hk1, hk2, hk3, h4, h5, h6, h7, h8⟩ :=
      dataStep hs stopEvent cs stop cur hcs hcur hstop
    have hfe : first' = first := Option.some.inj (e1.symm.trans hF)
    have hle : last' = last := Option.some.inj (e2.symm.trans hL)
    subst hfe hle
    refine ⟨.inr ⟨rfl, ev first', ?_⟩, ⟨_, rfl⟩, by simp⟩
    have h9 := h8 hfull
    have hcc : chunk = (T.drop cur).take (min (cur + cs) stop - cur) := by
      show readRows T cur (min (cur + cs) stop) = _
      rw [← chunk_eq_drop]
      congr 1
      omega
    have h10 : chunk.filter (fun r => decide (ev r = ev first')) = chunk := by
      rw [List.filter_eq_self]
      intro x hx
      simpa using h9 x hx
    calc cs = chunk.length := hfull.1.symm
      _ = (chunk.filter (fun r => decide (ev r = ev first'))).length := by rw [h10]
      _ ≤ _ := by
        apply List.Sublist.length_le
        apply List.Sublist.filter
        rw [hcc]
        exact List.take_sublist _ _
  | case2 cur hcur cstop chunk first last hL hF nrows hn hfull =>
    obtain ⟨first', last', lastR, e1, e2, e3, hk1, hk2, hk3, h4, h5, h6, h7, h8⟩ :=
      dataStep hs stopEvent cs stop cur hcs hcur hstop
    have hfe : first' = first := Option.some.inj (e1.symm.trans hF)
    have hle : last' = last := Option.some.inj (e2.symm.trans hL)
    subst hfe hle
    refine ⟨.inl rfl, ⟨_, rfl⟩, fun _ lR hlR => ?_⟩
    have hLe : lastR = lR := Option.some.inj (e3.symm.trans hlR)
    subst hLe
    have := h6 hn hfull
    show [] = _
    symm
    rw [List.filter_eq_nil_iff]
    intro x hx
    simp [this x hx]
  | case3 cur hcur cstop chunk first last hL hF nrows hn r ih =>
    obtain ⟨first', last', lastR, e1, e2, e3, hk1, hk2, hk3, h4, h5, h6, h7, h8⟩ :=
      dataStep hs stopEvent cs stop cur hcs hcur hstop
    have hfe : first' = first := Option.some.inj (e1.symm.trans hF)
    have hle : last' = last := Option.some.inj (e2.symm.trans hL)
    subst hfe hle
    obtain ⟨i1, ⟨rest, i2⟩, i3⟩ := ih
    have hsplit : readRows T cur stop = chunk.take nrows ++ readRows T (cur + nrows) stop := by
      rw [← readRows_drop]
      rw [show chunk.take nrows = (readRows T cur stop).take nrows from h4, List.take_append_drop]
    have hrows : (⟨(chunk.take nrows, cur + nrows) :: r.items, r.err⟩ : Gen (List α × Nat)).rows
        = chunk.take nrows ++ r.rows := by
      simp [Gen.rows]
    simp only [hrows]
    refine ⟨?_, ⟨rest, ?_⟩, fun herr lR hlR => ?_⟩
    · rcases i1 with h | ⟨h, e, he⟩
      · exact .inl h
      · refine .inr ⟨h, e, Nat.le_trans he ?_⟩
        apply List.Sublist.length_le
        apply List.Sublist.filter
        rw [← List.drop_drop]
        exact List.drop_sublist _ _
    · rw [hsplit, i2, List.append_assoc]
    · have hLe : lastR = lR := Option.some.inj (e3.symm.trans hlR)
      subst hLe
      have hA : (chunk.take nrows).filter
          (fun r => keepRow stopEvent (decide (stop = T.length)) (ev lastR) (ev r)) = chunk.take nrows := by
        rw [List.filter_eq_self]; exact h5
      have hB : r.rows = (readRows T (cur + nrows) stop).filter
          (fun r => keepRow stopEvent (decide (stop = T.length)) (ev lastR) (ev r)) := by
        by_cases hend : cur + nrows < stop
        · apply i3 herr
          rw [← readRows_drop]
          apply getLast?_drop e3
          rw [readRows_length]
          omega
        · have h0 : readRows T (cur + nrows) stop = [] := by
            apply List.eq_nil_of_length_eq_zero
            rw [readRows_length]; omega
          rw [h0] at i2 ⊢
          have := (List.append_eq_nil_iff.mp i2.symm).1
          simpa using this
      rw [hsplit, List.filter_append, hA, ← hB]
  | case4 cur hcur cstop chunk hno =>
    obtain ⟨first', last', lastR, e1, e2, e3, -⟩ := dataStep hs stopEvent cs stop cur hcs hcur hstop
    exact absurd e2 (fun h => hno _ _ e1 h)
  | case5 cur hcur =>
    have h0 : readRows T cur stop = [] := by
      apply List.eq_nil_of_length_eq_zero
      rw [readRows_length]; omega
    refine ⟨.inl rfl, ⟨_, rfl⟩, fun _ lR hlR => ?_⟩
    rw [h0] at hlR
    simp at hlR

/-- Properties of the individual chunks. `b` is the table index of the first row delivered. -/
theorem dataLoop_chunks (hs : SortedBy ev T) (stopEvent : Option Int) (cs stop cur : Nat) (hcs : 0 < cs)
    (hstop : stop ≤ T.length) :
    ∀ pre d idx post, (dataLoop ev T stopEvent cs stop cur).items = pre ++ (d, idx) :: post →
      d ≠ [] ∧ d.length ≤ cs ∧ cur + d.length ≤ idx ∧ idx ≤ stop ∧ d = readRows T (idx - d.length) idx ∧
      idx = cur + (pre.flatMap Prod.fst).length + d.length ∧
      (∀ x ∈ d, ∀ y ∈ T.drop idx, ev x < ev y) ∧
      dataLoop ev T stopEvent cs stop idx = ⟨post, (dataLoop ev T stopEvent cs stop cur).err⟩ := by
  fun_induction dataLoop ev T stopEvent cs stop cur with
  | case1 | case2 | case4 | case5 => intro pre d idx post h; simp at h
  | case3 cur hcur cstop chunk first last hL hF nrows hn r ih =>
    obtain ⟨first', last', lastR, e1, e2, e3, hk1, hk2, hk3, h4, h5, h6, h7, h8⟩ :=
      dataStep hs stopEvent cs stop cur hcs hcur hstop
    have hfe : first' = first := Option.some.inj (e1.symm.trans hF)
    have hle : last' = last := Option.some.inj (e2.symm.trans hL)
    subst hfe hle
    have hnk : nrows = chunkStopIndex (chunk.map ev) stopEvent (decide (cstop = T.length)) (ev last') := rfl
    have hkl : nrows ≤ chunk.length := hk1
    have hkc : nrows ≤ cs := hk2
    have hks : cur + nrows ≤ stop := hk3
    have hlen : (chunk.take nrows).length = nrows := by
      rw [List.length_take]; omega
    intro pre d idx post h
    cases pre with
    | nil =>
      simp only [List.nil_append, List.cons.injEq, Prod.mk.injEq] at h
      obtain ⟨⟨hd, hi⟩, hp⟩ := h
      subst hd hi hp
      refine ⟨?_, by omega, by omega, by omega, ?_, by simp; omega, h7, rfl⟩
      · intro h0; rw [h0] at hlen; simp at hlen; omega
      · rw [hlen, show cur + nrows - nrows = cur by omega, readRows_take T cur stop nrows hk3]
        exact h4
    | cons p pre' =>
      simp only [List.cons_append, List.cons.injEq] at h
      obtain ⟨hp, hrest⟩ := h
      subst hp
      obtain ⟨j1, j2, j3, j4, j5, j6, j7, j8⟩ := ih pre' d idx post hrest
      refine ⟨j1, j2, by omega, j4, j5, ?_, j7, j8⟩
      rw [List.flatMap_cons, List.length_append, hlen]; omega

end BTA
