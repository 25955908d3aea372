import Verif.Lemmas.ChunkLoop

namespace BTA
open Spec

variable {α : Type} {ev : α → Int} {T : List α}

/-- Dropping the part below `v` leaves exactly the rows with event number `≥ v`. -/
theorem drop_eq_filter {R : List α} (k : Nat) (p : α → Bool) (h1 : ∀ x ∈ R.take k, p x = false)
    (h2 : ∀ x ∈ R.drop k, p x = true) : R.drop k = R.filter p := by
  conv => rhs; rw [← List.take_append_drop k R, List.filter_append]
  have e1 : (R.take k).filter p = [] := by
    rw [List.filter_eq_nil_iff]; intro x hx; simp [h1 x hx]
  have e2 : (R.drop k).filter p = R.drop k := by
    rw [List.filter_eq_self]; exact h2
  rw [e1, e2]; rfl

/-- Lower bound that applies after the search: normally `a ≤ event`, `a < event` if the first event is skipped. -/
def lowerOk (a : Int) (skip : Bool) (e : Int) : Bool := if skip then decide (a < e) else decide (a ≤ e)

/-- Does the search skip the start event as possibly incomplete? -/
def skipsFirst (ev : α → Int) (a : Int) (aligned : Bool) (start : Nat) (rows : List α) : Bool :=
  !aligned && decide (start ≠ 0) && (match rows.head? with | some f => decide (ev f = a) | none => false)

structure SeekFacts (ev : α → Int) (T : List α) (cs stop cur : Nat) (first last : α) : Prop where
  head : (readRows T cur stop).head? = some first
  firstLe : ∀ x ∈ readRows T cur stop, ev first ≤ ev x
  firstLast : ev first ≤ ev last
  next : ∀ p : α → Bool, (∀ x, p x = true → ev last < ev x) →
    (readRows T (cur + cs) stop).filter p = (readRows T cur stop).filter p
  cut : ∀ v, v ≤ ev last → readRows T (cur + searchsortedLeft ((readRows T cur (min (cur + cs) stop)).map ev) v) stop
    = (readRows T cur stop).filter (fun x => decide (v ≤ ev x))
  cutHead : ∀ v, v ≤ ev last →
    ∃ x ∈ readRows T cur stop,
      ((readRows T cur (min (cur + cs) stop)).map ev)[searchsortedLeft ((readRows T cur (min (cur + cs) stop)).map ev) v]?
        = some (ev x) ∧ v ≤ ev x ∧ ∀ y ∈ readRows T cur stop, v ≤ ev y → ev x ≤ ev y
  full : (readRows T cur (min (cur + cs) stop)).length = cs → ev first = ev last →
    ∃ e, cs ≤ ((T.drop cur).filter fun r => ev r = e).length

theorem seekFacts (hs : SortedBy ev T) (cs stop cur : Nat) (hcs : 0 < cs) (hcur : cur < stop)
    (first last : α) (hL : (readRows T cur (min (cur + cs) stop)).getLast? = some last)
    (hF : (readRows T cur (min (cur + cs) stop)).head? = some first) : SeekFacts ev T cs stop cur first last := by
  have hCs : SortedBy ev (readRows T cur (min (cur + cs) stop)) := readRows_sorted hs _ _
  have hRs := readRows_sorted hs cur stop
  have hchunk := chunk_eq T cur cs stop
  have hlmem := getLast?_mem hL
  have hFle := mem_head?_le hCs hF
  have hLge := mem_getLast?_ge hCs hL
  have hhead : (readRows T cur stop).head? = some first := by
    rw [hchunk, List.head?_take, if_neg (by omega)] at hF
    exact hF
  have hcut : ∀ v, v ≤ ev last →
      readRows T (cur + searchsortedLeft ((readRows T cur (min (cur + cs) stop)).map ev) v) stop
      = (readRows T cur stop).filter (fun x => decide (v ≤ ev x)) := by
    intro v hv
    rw [← readRows_drop]
    apply drop_eq_filter
    · intro x hx
      have hle := searchsorted_le ((readRows T cur (min (cur + cs) stop)).map ev) v
      have hx' : x ∈ (readRows T cur (min (cur + cs) stop)).take
          (searchsortedLeft ((readRows T cur (min (cur + cs) stop)).map ev) v) := by
        have h5 : (readRows T cur (min (cur + cs) stop)).length ≤ cs := by rw [readRows_length]; omega
        rw [List.length_map] at hle
        conv => arg 1; arg 2; rw [hchunk]
        rw [List.take_take, Nat.min_eq_left (by omega)]
        exact hx
      have := take_searchsorted_lt _ v x hx'
      simp; omega
    · intro x hx
      have h5 := drop_searchsorted_take_ge hRs cs v ⟨last, by rw [← hchunk]; exact hlmem, hv⟩
      rw [← hchunk] at h5
      simpa using h5 x hx
  refine ⟨hhead, mem_head?_le hRs hhead, hFle last hlmem, ?_, hcut, ?_, ?_⟩
  · intro p hp
    have hsplit : readRows T cur stop = readRows T cur (min (cur + cs) stop) ++ readRows T (cur + cs) stop := by
      rw [hchunk, ← readRows_drop, List.take_append_drop]
    rw [hsplit, List.filter_append]
    have : (readRows T cur (min (cur + cs) stop)).filter p = [] := by
      rw [List.filter_eq_nil_iff]
      intro x hx hpx
      have := hp x hpx
      have := hLge x hx
      omega
    rw [this]; rfl
  · intro v hv
    have hge := drop_searchsorted_ge (T := readRows T cur (min (cur + cs) stop)) hCs v
    have htl := take_searchsorted_lt (ev := ev) (readRows T cur (min (cur + cs) stop)) v
    have hlt : searchsortedLeft ((readRows T cur (min (cur + cs) stop)).map ev) v
        < (readRows T cur (min (cur + cs) stop)).length := by
      have hle := searchsorted_le ((readRows T cur (min (cur + cs) stop)).map ev) v
      rw [List.length_map] at hle
      rcases Nat.lt_or_ge (searchsortedLeft ((readRows T cur (min (cur + cs) stop)).map ev) v)
        (readRows T cur (min (cur + cs) stop)).length with h | h
      · exact h
      · rw [List.take_of_length_le h] at htl
        have := htl last hlmem
        omega
    refine ⟨(readRows T cur (min (cur + cs) stop))[searchsortedLeft ((readRows T cur (min (cur + cs) stop)).map ev) v], ?_, ?_, ?_, ?_⟩
    · have hsub : ∀ z ∈ readRows T cur (min (cur + cs) stop), z ∈ readRows T cur stop := by
        intro z hz; rw [hchunk] at hz; exact List.mem_of_mem_take hz
      exact hsub _ (List.getElem_mem hlt)
    · rw [List.getElem?_map, List.getElem?_eq_getElem hlt]; rfl
    · apply hge
      rw [List.drop_eq_getElem_cons hlt]
      exact List.mem_cons_self
    · intro y hy hvy
      have hyf : y ∈ readRows T (cur + searchsortedLeft ((readRows T cur (min (cur + cs) stop)).map ev) v) stop := by
        rw [hcut v hv]; simp [hy, hvy]
      rw [← readRows_drop] at hyf
      have hh : ((readRows T cur stop).drop (searchsortedLeft ((readRows T cur (min (cur + cs) stop)).map ev) v)).head?
          = some (readRows T cur (min (cur + cs) stop))[searchsortedLeft ((readRows T cur (min (cur + cs) stop)).map ev) v] := by
        rw [List.head?_drop]
        have h6 : (readRows T cur (min (cur + cs) stop))[searchsortedLeft ((readRows T cur (min (cur + cs) stop)).map ev) v]?
            = (readRows T cur stop)[searchsortedLeft ((readRows T cur (min (cur + cs) stop)).map ev) v]? := by
          have h5 : (readRows T cur (min (cur + cs) stop)).length ≤ cs := by rw [readRows_length]; omega
          conv => lhs; arg 1; rw [hchunk]
          rw [List.getElem?_take, if_pos (by omega)]
        rw [← h6, List.getElem?_eq_getElem hlt]
      exact mem_head?_le (sorted_drop hRs _) hh y hyf
  · intro hlen heq
    refine ⟨ev first, ?_⟩
    have h10 : (readRows T cur (min (cur + cs) stop)).filter (fun r => decide (ev r = ev first))
        = readRows T cur (min (cur + cs) stop) := by
      rw [List.filter_eq_self]
      intro x hx
      have := hFle x hx
      have := hLge x hx
      simp; omega
    calc cs = (readRows T cur (min (cur + cs) stop)).length := hlen.symm
      _ = ((readRows T cur (min (cur + cs) stop)).filter (fun r => decide (ev r = ev first))).length := by rw [h10]
      _ ≤ _ := by
        apply List.Sublist.length_le
        apply List.Sublist.filter
        have : readRows T cur (min (cur + cs) stop) = (T.drop cur).take (min (cur + cs) stop - cur) := by
          rw [← chunk_eq_drop]; congr 1; omega
        rw [this]
        exact List.take_sublist _ _

theorem seekStart_spec (hs : SortedBy ev T) (a : Int) (aligned fail : Bool) (cs start stop cur : Nat)
    (hcs : 0 < cs) (hstop : stop ≤ T.length) (hstart : start ≤ cur) :
    match seekStart ev T a aligned fail cs start stop cur with
    | .ok cur' => cur ≤ cur' ∧ readRows T cur' stop = (readRows T cur stop).filter
        (fun r => lowerOk a (decide (start = cur) && skipsFirst ev a aligned start (readRows T cur stop)) (ev r))
    | .error e =>
      (e = .chunkTooSmall ∧ ∃ e, cs ≤ ((T.drop cur).filter fun r => ev r = e).length) ∨
      (e = .startMissing ∧ fail = true ∧ start = cur ∧
        ((∀ r ∈ readRows T cur stop, ev r ≠ a) ∨ skipsFirst ev a aligned start (readRows T cur stop) = true)) := by
  fun_induction seekStart ev T a aligned fail cs start stop cur with
  | case1 cur hcur chunk last first hL hF hlt ih =>
    have sf := seekFacts hs cs stop cur hcs hcur first last hL hF
    have hne : ¬ start = cur + cs := by omega
    have hfl := sf.firstLast
    have hsk : skipsFirst ev a aligned start (readRows T cur stop) = false := by
      unfold skipsFirst
      rw [sf.head]
      simp
      intro _ _
      omega
    have ih := ih (by omega)
    revert ih
    cases seekStart ev T a aligned fail cs start stop (cur + cs) with
    | ok cur' =>
      simp only [hne, hsk, decide_false, Bool.false_and, Bool.and_false]
      rintro ⟨h1, h2⟩
      refine ⟨by omega, ?_⟩
      rw [h2]
      apply sf.next
      intro x hx
      simp [lowerOk] at hx
      omega
    | error e =>
      simp only
      rintro (⟨h1, e, h2⟩ | ⟨_, _, h, _⟩)
      · refine .inl ⟨h1, e, Nat.le_trans h2 ?_⟩
        apply List.Sublist.length_le
        apply List.Sublist.filter
        rw [← List.drop_drop]
        exact List.drop_sublist _ _
      · exact absurd h hne
  | case2 cur hcur chunk last first hL hF hlt hfull =>
    have sf := seekFacts hs cs stop cur hcs hcur first last hL hF
    exact .inl ⟨rfl, sf.full hfull.1 hfull.2⟩
  | case3 cur hcur chunk last first hL hF hlt hfull hsk hfail =>
    have sf := seekFacts hs cs stop cur hcs hcur first last hL hF
    refine .inr ⟨rfl, hfail, hsk.2.2.2, .inr ?_⟩
    unfold skipsFirst
    rw [sf.head]
    simp [hsk.1, hsk.2.1, hsk.2.2.1]
  | case4 cur hcur chunk last first hL hF hlt hfull hsk hfail =>
    have sf := seekFacts hs cs stop cur hcs hcur first last hL hF
    refine ⟨by omega, ?_⟩
    have hs1 : (decide (start = cur) && skipsFirst ev a aligned start (readRows T cur stop)) = true := by
      unfold skipsFirst
      rw [sf.head]
      have h0 := hsk.2.2.1
      have h1 := hsk.2.2.2
      simp [hsk.1, hsk.2.1, h0, h1.symm]
    by_cases hle : a + 1 ≤ ev last
    · rw [sf.cut (a + 1) hle]
      apply List.filter_congr
      intro x _
      rw [hs1]
      simp [lowerOk]
      omega
    · -- the chunk has just the start event; it is shorter than the chunk size, so it ends at `stop`
      have hfl := sf.firstLast
      have heq : ev first = ev last := by omega
      have hshort : ¬ chunk.length = cs := fun h => hfull ⟨h, heq⟩
      have hCs : SortedBy ev chunk := readRows_sorted hs _ _
      have hLge := mem_getLast?_ge hCs hL
      have hFle := mem_head?_le hCs hF
      have hlen : chunk.length = min (min (cur + cs) stop) T.length - cur := readRows_length _ _ _
      have hsame : chunk = readRows T cur stop := by
        show readRows T cur (min (cur + cs) stop) = _
        congr 1; omega
      have hall : searchsortedLeft (chunk.map ev) (a + 1) = chunk.length := by
        rw [searchsorted_map]
        have : chunk.takeWhile (fun x => decide (ev x < a + 1)) = chunk := by
          rw [takeWhile_lt_sorted hCs, List.filter_eq_self]
          intro x hx
          have := hLge x hx
          simp; omega
        rw [this]
      rw [hall, ← readRows_drop, List.drop_eq_nil_of_le (by rw [hsame]; omega)]
      symm
      rw [List.filter_eq_nil_iff]
      intro x hx
      rw [← hsame] at hx
      have := hLge x hx
      rw [hs1]
      simp [lowerOk]; omega
  | case5 cur hcur chunk last first hL hF hlt hfull hsk hgt =>
    have sf := seekFacts hs cs stop cur hcs hcur first last hL hF
    refine .inr ⟨rfl, hgt.1, hgt.2.2, .inl ?_⟩
    intro r hr
    have := sf.firstLe r hr
    omega
  | case6 cur hcur chunk last first hL hF hlt hfull hsk hgt hal =>
    have sf := seekFacts hs cs stop cur hcs hcur first last hL hF
    refine ⟨Nat.le_refl _, ?_⟩
    have hs1 : skipsFirst ev a aligned start (readRows T cur stop) = false := by
      simp [skipsFirst, hal.1]
    rw [hs1]
    symm
    rw [List.filter_eq_self]
    intro x hx
    have := sf.firstLe x hx
    simp [lowerOk]; omega
  | case7 cur hcur chunk last first hL hF hlt hfull hsk hgt hal csi hnone hfail =>
    have sf := seekFacts hs cs stop cur hcs hcur first last hL hF
    obtain ⟨x, -, hx, -⟩ := sf.cutHead a (by omega)
    exact absurd (hnone.symm.trans hx) (by simp)
  | case8 cur hcur chunk last first hL hF hlt hfull hsk hgt hal csi hnone hfail =>
    have sf := seekFacts hs cs stop cur hcs hcur first last hL hF
    obtain ⟨x, -, hx, -⟩ := sf.cutHead a (by omega)
    exact absurd (hnone.symm.trans hx) (by simp)
  | case9 cur hcur chunk last first hL hF hlt hfull hsk hgt hal csi e he hmiss =>
    have sf := seekFacts hs cs stop cur hcs hcur first last hL hF
    obtain ⟨x, hxm, hx, hax, hmin⟩ := sf.cutHead a (by omega)
    have hxe : e = ev x := Option.some.inj (he.symm.trans hx)
    refine .inr ⟨rfl, hmiss.1, hmiss.2.2, .inl ?_⟩
    intro r hr hra
    have := hmin r hr (by omega)
    omega
  | case10 cur hcur chunk last first hL hF hlt hfull hsk hgt hal csi e he hmiss =>
    have sf := seekFacts hs cs stop cur hcs hcur first last hL hF
    refine ⟨by omega, ?_⟩
    rw [sf.cut a (by omega)]
    have hs1 : (decide (start = cur) && skipsFirst ev a aligned start (readRows T cur stop)) = false := by
      unfold skipsFirst
      rw [sf.head]
      simp
      intro h1 h2 h3 h4
      exact hsk ⟨h2, h4, h3, h1⟩
    rw [hs1]
    rfl
  | case11 cur hcur chunk hno =>
    obtain ⟨first', last', lastR, e1, e2, e3, -⟩ := dataStep hs none cs stop cur hcs hcur hstop
    exact absurd e1 (fun h => hno _ _ e2 h)
  | case12 cur hcur =>
    refine ⟨Nat.le_refl _, ?_⟩
    have h0 : readRows T cur stop = [] := by
      apply List.eq_nil_of_length_eq_zero
      rw [readRows_length]; omega
    rw [h0]; rfl

theorem skipFirst_spec (hs : SortedBy ev T) (cs stop cur : Nat) (hcs : 0 < cs) (hstop : stop ≤ T.length) :
    match skipFirst ev T cs stop cur with
    | .ok cur' => cur ≤ cur' ∧ ∀ f, (readRows T cur stop).head? = some f →
        readRows T cur' stop = (readRows T cur stop).filter (fun r => decide (ev f < ev r))
    | .error e => e = .chunkTooSmall ∧ ∃ e, cs ≤ ((T.drop cur).filter fun r => ev r = e).length := by
  fun_induction skipFirst ev T cs stop cur with
  | case1 cur hcur chunk first last hF hL hfull =>
    have sf := seekFacts hs cs stop cur hcs hcur first last hL hF
    exact ⟨rfl, sf.full hfull.1 hfull.2⟩
  | case2 cur hcur chunk first last hF hL hfull csi hne =>
    have sf := seekFacts hs cs stop cur hcs hcur first last hL hF
    have := sf.firstLast
    refine ⟨by omega, fun f hf => ?_⟩
    have : f = first := Option.some.inj (hf.symm.trans sf.head)
    subst this
    show readRows T (cur + searchsortedLeft (chunk.map ev) (ev f + 1)) stop = _
    rw [sf.cut (ev f + 1) (by omega)]
    apply List.filter_congr
    intro x _
    simp
    omega
  | case3 cur hcur chunk first last hF hL hfull csi hne ih =>
    have sf := seekFacts hs cs stop cur hcs hcur first last hL hF
    have heq : ev first = ev last := by omega
    have hshort : ¬ chunk.length = cs := fun h => hfull ⟨h, heq⟩
    have hCs : SortedBy ev chunk := readRows_sorted hs _ _
    have hLge := mem_getLast?_ge hCs hL
    have hlen : chunk.length = min (min (cur + cs) stop) T.length - cur := readRows_length _ _ _
    have hsame : chunk = readRows T cur stop := by
      show readRows T cur (min (cur + cs) stop) = _
      congr 1; omega
    have hall : csi = chunk.length := by
      show searchsortedLeft (chunk.map ev) (ev first + 1) = _
      rw [searchsorted_map]
      have : chunk.takeWhile (fun x => decide (ev x < ev first + 1)) = chunk := by
        rw [takeWhile_lt_sorted hCs, List.filter_eq_self]
        intro x hx
        have := hLge x hx
        simp; omega
      rw [this]
    have hstopc : cur + csi = stop := by omega
    have hend : skipFirst ev T cs stop (cur + csi) = .ok (cur + csi) := by
      rw [skipFirst, dif_neg (by omega)]
    rw [hend]
    refine ⟨by omega, fun f hf => ?_⟩
    have : f = first := Option.some.inj (hf.symm.trans sf.head)
    subst this
    rw [← readRows_drop, List.drop_eq_nil_of_le (by rw [← hsame]; omega)]
    symm
    rw [List.filter_eq_nil_iff]
    intro x hx
    rw [← hsame] at hx
    have := hLge x hx
    simp; omega
  | case4 cur hcur chunk hno =>
    obtain ⟨first', last', lastR, e1, e2, e3, -⟩ := dataStep hs none cs stop cur hcs hcur hstop
    exact absurd e2 (fun h => hno _ _ e1 h)
  | case5 cur hcur =>
    refine ⟨Nat.le_refl _, fun f hf => ?_⟩
    have h0 : readRows T cur stop = [] := by
      apply List.eq_nil_of_length_eq_zero
      rw [readRows_length]; omega
    rw [h0] at hf
    simp at hf

end BTA
