import Verif.Lemmas.ChunkSeek

/-! Properties C01 – C06, C16: reading tables in chunks aligned at events. -/

namespace BTA.Props
open BTA BTA.Spec

variable {α : Type} {ev : α → Int} {T : List α}

theorem readRows_of_ge (T : List α) (a b : Nat) (h : b ≤ a) : readRows T a b = [] := by
  apply List.eq_nil_of_length_eq_zero
  rw [readRows_length]; omega

/-! ### C01, C05 -/

/-- C01/C05 (safety): with default bounds the generator yields a prefix of the table; it ends normally only after the
complete table has been delivered, the only possible exception is "chunk size too small". -/
theorem C01_no_loss (hs : SortedBy ev T) (cs : Nat) (hcs : 0 < cs) :
    let g := dataAligned ev T { chunkSize := cs }
    (∃ rest, T = g.rows ++ rest) ∧ (g.err = none → g.rows = T) ∧ (g.err = none ∨ g.err = some .chunkTooSmall) := by
  have h := dataLoop_spec hs none cs T.length 0 hcs (Nat.le_refl _)
  have hg : dataAligned ev T { chunkSize := cs } = dataLoop ev T none cs T.length 0 := by
    simp [dataAligned, boundsReversed]
  simp only [hg]
  rw [readRows_full, List.drop_zero] at h
  obtain ⟨h1, h2, h3⟩ := h
  refine ⟨h2, ?_, ?_⟩
  · intro he
    cases hl : T.getLast? with
    | none =>
      have : T = [] := by simpa using hl
      obtain ⟨rest, hr⟩ := h2
      rw [this] at hr
      have := (List.append_eq_nil_iff.mp hr.symm).1
      subst T
      exact this
    | some l =>
      rw [h3 he l hl, List.filter_eq_self]
      intro x _
      simp [keepRow]
  · rcases h1 with h1 | ⟨h1, -⟩
    · exact .inl h1
    · exact .inr h1

/-- C01 (success): if every event has fewer rows than `chunk_size`, iterating with default bounds does not raise and
delivers exactly the table. -/
theorem C01_complete (hs : SortedBy ev T) (cs : Nat) (hcs : 0 < cs) (hm : ∀ e, multiplicity ev T e < cs) :
    (dataAligned ev T { chunkSize := cs }).err = none ∧ (dataAligned ev T { chunkSize := cs }).rows = T := by
  have h := dataLoop_spec hs none cs T.length 0 hcs (Nat.le_refl _)
  have hg : dataAligned ev T { chunkSize := cs } = dataLoop ev T none cs T.length 0 := by
    simp [dataAligned, boundsReversed]
  have h1 : (dataAligned ev T { chunkSize := cs }).err = none := by
    rw [hg]
    rcases h.1 with h1 | ⟨-, e, he⟩
    · exact h1
    · have := hm e
      unfold multiplicity at this
      rw [List.drop_zero] at he
      omega
  exact ⟨h1, (C01_no_loss hs cs hcs).2.1 h1⟩

example : let T : List (Int × Nat) := [(0, 1), (0, 2), (3, 3), (4, 4), (4, 5)]
    SortedBy Prod.fst T ∧ (∀ e, multiplicity Prod.fst T e < 3) ∧
    dataAligned Prod.fst T { chunkSize := 3 }
      = ⟨[([(0, 1), (0, 2)], 2), ([(3, 3), (4, 4), (4, 5)], 5)], none⟩ := by
  refine ⟨by simp [SortedBy], ?_, ?_⟩
  · intro e
    simp only [multiplicity, List.filter_cons, List.filter_nil]
    repeat' split
    all_goals simp_all <;> omega
  · simp [dataAligned, boundsReversed, dataLoop, readRows, chunkStopIndex, searchsortedLeft]

/-! ### C02 -/

/-- C02: every chunk yielded (with any event bounds and start index) is non-empty, has at most `chunk_size` rows, is a
contiguous part of the table ending at the yielded index, and all later rows of the table belong to later events. -/
theorem C02_chunks_aligned (hs : SortedBy ev T) (args : ReadArgs) (hcs : 0 < args.chunkSize)
    (hsp : args.trySpeedup = false) (hstop : ∀ s ∈ args.stopIndex, s ≤ T.length) (d : List α) (idx : Nat)
    (h : (d, idx) ∈ (dataAligned ev T args).items) :
    d ≠ [] ∧ d.length ≤ args.chunkSize ∧ d.length ≤ idx ∧ d = (T.take idx).drop (idx - d.length) ∧
    (∀ x ∈ d, ∀ y ∈ T.drop idx, ev x < ev y) := by
  have hst : args.stopIndex.getD T.length ≤ T.length := by
    cases hh : args.stopIndex with
    | none => simp
    | some s => simpa using hstop s (by rw [hh]; rfl)
  have key : ∀ cur, (d, idx) ∈ (dataLoop ev T args.stopEvent args.chunkSize (args.stopIndex.getD T.length) cur).items →
      d ≠ [] ∧ d.length ≤ args.chunkSize ∧ d.length ≤ idx ∧ d = (T.take idx).drop (idx - d.length) ∧
      (∀ x ∈ d, ∀ y ∈ T.drop idx, ev x < ev y) := by
    intro cur hm
    obtain ⟨pre, post, hpp⟩ := List.append_of_mem hm
    obtain ⟨j1, j2, j3, j4, j5, j6, j7, j8⟩ :=
      dataLoop_chunks hs args.stopEvent args.chunkSize _ cur hcs hst pre d idx post hpp
    exact ⟨j1, j2, by omega, j5, j7⟩
  unfold dataAligned at h
  simp only [hsp] at h
  split at h
  · simp at h
  · rename_i hidx
    simp only [Bool.false_eq_true, if_false, Option.isSome_none, false_and, Option.getD_none] at h
    generalize boundsReversed args.startEvent args.stopEvent = B at h
    cases B
    · simp only [Bool.false_eq_true, if_false] at h
      split at h
      · simp at h
      · exact key _ h
    · simp at h

/-- C02, consequence: no event number occurs in two different chunks, and event numbers increase from chunk to
chunk. -/
theorem C02_no_split (hs : SortedBy ev T) (cs : Nat) (hcs : 0 < cs) (i j : Nat) (hij : i < j)
    (ci cj : List α × Nat) (hi : (dataAligned ev T { chunkSize := cs }).items[i]? = some ci)
    (hj : (dataAligned ev T { chunkSize := cs }).items[j]? = some cj) :
    ∀ x ∈ ci.1, ∀ y ∈ cj.1, ev x < ev y := by
  have hg : dataAligned ev T { chunkSize := cs } = dataLoop ev T none cs T.length 0 := by
    simp [dataAligned, boundsReversed]
  rw [hg] at hi hj
  obtain ⟨hil, hie⟩ := List.getElem?_eq_some_iff.mp hi
  obtain ⟨hjl, hje⟩ := List.getElem?_eq_some_iff.mp hj
  generalize hL : (dataLoop ev T none cs T.length 0).items = L at hi hj hil hie hjl hje
  have hsi : L = L.take i ++ (ci.1, ci.2) :: L.drop (i + 1) := by
    rw [show (ci.1, ci.2) = L[i] from hie.symm, ← List.drop_eq_getElem_cons hil, List.take_append_drop]
  obtain ⟨-, -, -, hstop, -, -, h7, h8⟩ := dataLoop_chunks hs none cs T.length 0 hcs (Nat.le_refl _)
    (L.take i) ci.1 ci.2 (L.drop (i + 1)) (hL.trans hsi)
  intro x hx y hy
  apply h7 x hx y
  have hmem : cj ∈ L.drop (i + 1) := by
    rw [← hje, List.mem_iff_getElem]
    refine ⟨j - (i + 1), by simp; omega, ?_⟩
    rw [List.getElem_drop]
    congr 1
    omega
  obtain ⟨p2, q2, hpq⟩ := List.append_of_mem hmem
  obtain ⟨-, -, k3, k4, k5, -⟩ := dataLoop_chunks hs none cs T.length ci.2 hcs (Nat.le_refl _) p2 cj.1 cj.2 q2
    (by rw [h8]; exact hpq)
  rw [k5] at hy
  have : readRows T (cj.2 - cj.1.length) cj.2 = (readRows T ci.2 cj.2).drop (cj.2 - cj.1.length - ci.2) := by
    rw [readRows_drop]; congr 1; omega
  rw [this] at hy
  have hy' := List.mem_of_mem_drop hy
  unfold readRows at hy'
  rw [List.drop_take] at hy'
  exact List.mem_of_mem_take hy'

example : (([(3, 3), (4, 4), (4, 5)] : List (Int × Nat)), 5) ∈
    (dataAligned Prod.fst [(0, 1), (0, 2), (3, 3), (4, 4), (4, 5)] { chunkSize := 3 }).items := by
  simp [dataAligned, boundsReversed, dataLoop, readRows, chunkStopIndex, searchsortedLeft]

/-! ### C03 -/

/-- Everything that can happen with event bounds, aligned start, complete table. -/
theorem range_spec (hs : SortedBy ev T) (a b : Option Int) (s cs : Nat) (hcs : 0 < cs) (hst : s ≤ T.length)
    (hab : ∀ x ∈ a, ∀ y ∈ b, x ≤ y) (fail : Bool) :
    let g := dataAligned ev T { startEvent := a, stopEvent := b, startIndex := some s, chunkSize := cs,
                                failOnMissing := fail }
    (g.err = none → g.rows = (T.drop s).filter fun r => inRange a b (ev r)) ∧
    (g.err = none ∨ (g.err = some .chunkTooSmall ∧ ∃ e, cs ≤ ((T.drop s).filter fun r => ev r = e).length) ∨
      (g.err = some .startMissing ∧ fail = true ∧ ∃ x ∈ a, ∀ r ∈ T.drop s, ev r ≠ x)) := by
  have loop : ∀ cur, s ≤ cur →
      let g := dataLoop ev T b cs T.length cur
      (g.err = none → g.rows = (readRows T cur T.length).filter fun r => b.all fun y => decide (ev r < y)) ∧
      (g.err = none ∨ (g.err = some .chunkTooSmall ∧ ∃ e, cs ≤ ((T.drop s).filter fun r => ev r = e).length)) := by
    intro cur hcur
    obtain ⟨h1, ⟨rest, h2⟩, h3⟩ := dataLoop_spec hs b cs T.length cur hcs (Nat.le_refl _)
    refine ⟨?_, ?_⟩
    · intro he
      cases hl : (readRows T cur T.length).getLast? with
      | none =>
        have h0 : readRows T cur T.length = [] := by simpa using hl
        rw [h0] at h2 ⊢
        exact (List.append_eq_nil_iff.mp h2.symm).1
      | some l =>
        rw [h3 he l hl]
        apply List.filter_congr
        intro x _
        cases b <;> simp [keepRow]
    · rcases h1 with h1 | ⟨h1, e, he⟩
      · exact .inl h1
      · refine .inr ⟨h1, e, Nat.le_trans he ?_⟩
        apply List.Sublist.length_le
        apply List.Sublist.filter
        have : T.drop cur = (T.drop s).drop (cur - s) := by
          rw [List.drop_drop]; congr 1; omega
        rw [this]
        exact List.drop_sublist _ _
  intro g
  have hinv : boundsReversed a b = false := by
    cases a with
    | none => cases b <;> rfl
    | some x =>
      cases b with
      | none => rfl
      | some y => have := hab x rfl y rfl; simp [boundsReversed]; omega
  cases a with
  | none =>
    have hg : g = dataLoop ev T b cs T.length s := by
      show dataAligned ev T _ = _
      unfold dataAligned
      simp only [Option.getD_some, Option.getD_none, Option.bind_none, if_neg (show ¬ T.length < s by omega)]
      simp [boundsReversed]
    rw [hg]
    obtain ⟨l1, l2⟩ := loop s (Nat.le_refl _)
    refine ⟨fun he => ?_, ?_⟩
    · rw [l1 he, readRows_full]
      apply List.filter_congr
      intro x _
      simp [inRange]
    · rcases l2 with l2 | l2
      · exact .inl l2
      · exact .inr (.inl l2)
  | some x =>
    have hg : g = match seekStart ev T x true fail cs s T.length s with
        | .error e => ⟨[], some e⟩
        | .ok cur => dataLoop ev T b cs T.length cur := by
      show dataAligned ev T _ = _
      unfold dataAligned
      simp only [Option.getD_some, Option.getD_none, if_neg (show ¬ T.length < s by omega)]
      rw [if_neg (by rw [hinv]; simp)]
      simp
      rfl
    have sk := seekStart_spec hs x true fail cs s T.length s hcs (Nat.le_refl _) (Nat.le_refl _)
    have hns : skipsFirst ev x true s (readRows T s T.length) = false := by simp [skipsFirst]
    rw [hg]
    rw [hns] at sk
    cases hsk : seekStart ev T x true fail cs s T.length s with
    | error e =>
      rw [hsk] at sk
      simp only at sk ⊢
      refine ⟨by simp, .inr ?_⟩
      rcases sk with ⟨h1, h2⟩ | ⟨h1, h2, h3, h4⟩
      · exact .inl ⟨by rw [h1], h2⟩
      · refine .inr ⟨by rw [h1], h2, x, rfl, ?_⟩
        rcases h4 with h4 | h4
        · rw [readRows_full] at h4; exact h4
        · simp at h4
    | ok cur =>
      rw [hsk] at sk
      simp only at sk ⊢
      obtain ⟨hle, heq⟩ := sk
      obtain ⟨l1, l2⟩ := loop cur hle
      refine ⟨fun he => ?_, ?_⟩
      · rw [l1 he, heq, readRows_full, List.filter_filter]
        apply List.filter_congr
        intro r _
        simp only [Bool.and_false, lowerOk, Bool.false_eq_true, if_false, inRange, Option.all_some]
        rw [Bool.and_comm]
      · rcases l2 with l2 | l2
        · exact .inl l2
        · exact .inr (.inl l2)

/-- C03: reading the events `a ≤ event_number < b` from any start index delivers exactly these rows in order, whatever
the chunk size, provided every event has fewer rows than the chunk size. -/
theorem C03_event_range (hs : SortedBy ev T) (a b : Option Int) (s cs : Nat) (hcs : 0 < cs) (hst : s ≤ T.length)
    (hab : ∀ x ∈ a, ∀ y ∈ b, x ≤ y) (hm : ∀ e, multiplicity ev T e < cs) :
    let g := dataAligned ev T { startEvent := a, stopEvent := b, startIndex := some s, chunkSize := cs,
                                failOnMissing := false }
    g.err = none ∧ g.rows = (T.drop s).filter fun r => inRange a b (ev r) := by
  intro g
  obtain ⟨h1, h2⟩ := range_spec hs a b s cs hcs hst hab false
  have he : g.err = none := by
    rcases h2 with h2 | ⟨-, e, he⟩ | ⟨-, h2, -⟩
    · exact h2
    · have := hm e
      unfold multiplicity at this
      have hsub : ((T.drop s).filter fun r => ev r = e).length ≤ (T.filter fun r => ev r = e).length := by
        apply List.Sublist.length_le
        apply List.Sublist.filter
        exact List.drop_sublist _ _
      omega
    · simp at h2
  exact ⟨he, h1 he⟩

/-- C03: even without the assumption on the event size the delivered rows are right if no exception is raised, and the
only exception is "chunk size too small". -/
theorem C03_event_range_or_error (hs : SortedBy ev T) (a b : Option Int) (s cs : Nat) (hcs : 0 < cs)
    (hst : s ≤ T.length) (hab : ∀ x ∈ a, ∀ y ∈ b, x ≤ y) :
    let g := dataAligned ev T { startEvent := a, stopEvent := b, startIndex := some s, chunkSize := cs,
                                failOnMissing := false }
    (g.err = none ∧ g.rows = (T.drop s).filter fun r => inRange a b (ev r)) ∨ g.err = some .chunkTooSmall := by
  intro g
  obtain ⟨h1, h2⟩ := range_spec hs a b s cs hcs hst hab false
  rcases h2 with h2 | ⟨h2, -⟩ | ⟨-, h2, -⟩
  · exact .inl ⟨h2, h1 h2⟩
  · exact .inr h2
  · simp at h2

/-- C03: bounds in the wrong order are rejected. -/
theorem C03_invalid_bounds (T : List α) (a b : Int) (hab : b < a) (cs : Nat) :
    dataAligned ev T { startEvent := some a, stopEvent := some b, chunkSize := cs } = ⟨[], some .invalidEvent⟩ := by
  simp [dataAligned, boundsReversed, hab]

/-- C03, `first_event_aligned=False` without start event: the event at a start index ≠ 0 is left out, all later ones are
delivered. -/
theorem C03_first_event_not_aligned (hs : SortedBy ev T) (s cs : Nat) (hcs : 0 < cs) (hs0 : s ≠ 0)
    (hm : ∀ e, multiplicity ev T e < cs) (f : α) (hf : T[s]? = some f) :
    let g := dataAligned ev T { startIndex := some s, chunkSize := cs, firstAligned := false }
    g.err = none ∧ g.rows = (T.drop s).filter fun r => decide (ev f < ev r) := by
  have hst : s < T.length := (List.getElem?_eq_some_iff.mp hf).1
  intro g
  have hg : g = match skipFirst ev T cs T.length s with
      | .error e => ⟨[], some e⟩
      | .ok cur => dataLoop ev T none cs T.length cur := by
    show dataAligned ev T _ = _
    unfold dataAligned
    simp only [Option.getD_some, Option.getD_none, if_neg (show ¬ T.length < s by omega)]
    simp [hs0, boundsReversed]
    rfl
  have hbig : ∀ c e, ¬ cs ≤ ((T.drop c).filter fun r => decide (ev r = e)).length := by
    intro c e he
    have := hm e
    unfold multiplicity at this
    have hsub : ((T.drop c).filter fun r => ev r = e).length ≤ (T.filter fun r => ev r = e).length := by
      apply List.Sublist.length_le
      apply List.Sublist.filter
      exact List.drop_sublist _ _
    omega
  have sk := skipFirst_spec hs cs T.length s hcs (Nat.le_refl _)
  rw [hg]
  cases hsk : skipFirst ev T cs T.length s with
  | error e =>
    rw [hsk] at sk
    obtain ⟨-, e, he⟩ := sk
    exact absurd he (hbig s e)
  | ok cur =>
    rw [hsk] at sk
    obtain ⟨hle, hfil⟩ := sk
    have hfil := hfil f (by rw [readRows_full, List.head?_drop, hf])
    obtain ⟨h1, ⟨rest, h2⟩, h3⟩ := dataLoop_spec hs none cs T.length cur hcs (Nat.le_refl _)
    have he : (dataLoop ev T none cs T.length cur).err = none := by
      rcases h1 with h1 | ⟨-, e, he⟩
      · exact h1
      · exact absurd he (hbig cur e)
    refine ⟨he, ?_⟩
    rw [readRows_full T s] at hfil
    rw [← hfil]
    cases hl : (readRows T cur T.length).getLast? with
    | none =>
      have h0 : readRows T cur T.length = [] := by simpa using hl
      rw [h0] at h2 ⊢
      exact (List.append_eq_nil_iff.mp h2.symm).1
    | some l =>
      rw [h3 he l hl, List.filter_eq_self]
      intro x _
      simp [keepRow]

/-- C03, `first_event_aligned=False` with a start event: the event at a start index ≠ 0 is left out if it is the start event, all later
ones in the range are delivered. (An event at the start index with a larger number is delivered though it may be incomplete.) -/
theorem C03_start_event_not_aligned (hs : SortedBy ev T) (a : Int) (b : Option Int) (s cs : Nat) (hcs : 0 < cs) (hs0 : s ≠ 0)
    (hab : ∀ y ∈ b, a ≤ y) (hm : ∀ e, multiplicity ev T e < cs) (f : α) (hf : T[s]? = some f) :
    let g := dataAligned ev T { startEvent := some a, stopEvent := b, startIndex := some s, chunkSize := cs, firstAligned := false,
                                failOnMissing := false }
    g.err = none ∧ g.rows = (T.drop s).filter fun r => inRange (some a) b (ev r) && decide (¬ (ev f = a ∧ ev r = a)) := by
  have hst : s < T.length := (List.getElem?_eq_some_iff.mp hf).1
  intro g
  have hinv : boundsReversed (some a) b = false := by
    cases b with
    | none => simp [boundsReversed]
    | some y => have := hab y rfl; simp [boundsReversed]; omega
  have hg : g = match seekStart ev T a false false cs s T.length s with
      | .error e => ⟨[], some e⟩
      | .ok cur => dataLoop ev T b cs T.length cur := by
    show dataAligned ev T _ = _
    unfold dataAligned
    simp only [Option.getD_some, Option.getD_none, if_neg (show ¬ T.length < s by omega)]
    rw [if_neg (by rw [hinv]; simp)]
    simp
    rfl
  have hbig : ∀ c e, ¬ cs ≤ ((T.drop c).filter fun r => decide (ev r = e)).length := by
    intro c e he
    have := hm e
    unfold multiplicity at this
    have hsub : ((T.drop c).filter fun r => ev r = e).length ≤ (T.filter fun r => ev r = e).length := by
      apply List.Sublist.length_le
      apply List.Sublist.filter
      exact List.drop_sublist _ _
    omega
  have sk := seekStart_spec hs a false false cs s T.length s hcs (Nat.le_refl _) (Nat.le_refl _)
  have hns : skipsFirst ev a false s (readRows T s T.length) = decide (ev f = a) := by
    unfold skipsFirst
    rw [readRows_full, List.head?_drop, hf]
    simp [hs0]
  rw [hns] at sk
  rw [hg]
  cases hsk : seekStart ev T a false false cs s T.length s with
  | error e =>
    rw [hsk] at sk
    rcases sk with ⟨-, e, he⟩ | ⟨-, h, -⟩
    · exact absurd he (hbig s e)
    · simp at h
  | ok cur =>
    rw [hsk] at sk
    obtain ⟨hle, hfil⟩ := sk
    obtain ⟨h1, ⟨rest, h2⟩, h3⟩ := dataLoop_spec hs b cs T.length cur hcs (Nat.le_refl _)
    have he : (dataLoop ev T b cs T.length cur).err = none := by
      rcases h1 with h1 | ⟨-, e, he⟩
      · exact h1
      · exact absurd he (hbig cur e)
    refine ⟨he, ?_⟩
    have hgoal : (readRows T cur T.length).filter (fun r => b.all fun y => decide (ev r < y)) =
        (T.drop s).filter fun r => inRange (some a) b (ev r) && decide (¬ (ev f = a ∧ ev r = a)) := by
      rw [hfil, readRows_full, List.filter_filter]
      apply List.filter_congr
      intro r _
      have : lowerOk a (decide (s = s) && decide (ev f = a)) (ev r) = (decide (a ≤ ev r) && decide (¬ (ev f = a ∧ ev r = a))) := by
        unfold lowerOk
        by_cases hfa : ev f = a
        · simp [hfa]
          by_cases h1 : a < ev r
          · simp [h1]; omega
          · simp [h1]; omega
        · simp [hfa]
      rw [this]
      simp only [inRange, Option.all_some]
      cases b.all (fun y => decide (ev r < y)) <;> simp
    rw [← hgoal]
    cases hl : (readRows T cur T.length).getLast? with
    | none =>
      have h0 : readRows T cur T.length = [] := by simpa using hl
      rw [h0] at h2 ⊢
      rw [(List.append_eq_nil_iff.mp h2.symm).1]; simp
    | some l =>
      rw [h3 he l hl]
      apply List.filter_congr
      intro x _
      cases b <;> simp [keepRow]

example : let T : List (Int × Nat) := [(0, 1), (0, 2), (3, 3), (4, 4), (4, 5), (9, 6)]
    SortedBy Prod.fst T ∧ (∀ e, multiplicity Prod.fst T e < 3) ∧
    (T.drop 0).filter (fun r => inRange (some 2) (some 9) r.1) = [(3, 3), (4, 4), (4, 5)] := by
  refine ⟨by simp [SortedBy], ?_, by decide⟩
  intro e
  simp only [multiplicity, List.filter_cons, List.filter_nil]
  repeat' split
  all_goals simp_all <;> omega

/-! ### C04 -/

/-- C04: after any number of chunks, the index yielded last is the number of rows from the start index that have been
delivered (plus the start index), and a new iteration started at this index gives exactly the remaining chunks and the
same end. -/
theorem C04_resume (hs : SortedBy ev T) (b : Option Int) (s cs : Nat) (hcs : 0 < cs) (hst : s ≤ T.length)
    (pre : List (List α × Nat)) (d : List α) (idx : Nat) (post : List (List α × Nat))
    (h : (dataAligned ev T { stopEvent := b, startIndex := some s, chunkSize := cs }).items = pre ++ (d, idx) :: post) :
    idx = s + (pre.flatMap Prod.fst ++ d).length ∧
    dataAligned ev T { stopEvent := b, startIndex := some idx, chunkSize := cs }
      = ⟨post, (dataAligned ev T { stopEvent := b, startIndex := some s, chunkSize := cs }).err⟩ := by
  have hg : ∀ s ≤ T.length, dataAligned ev T { stopEvent := b, startIndex := some s, chunkSize := cs }
      = dataLoop ev T b cs T.length s := by
    intro s hst
    unfold dataAligned
    simp only [Option.getD_some, Option.getD_none, if_neg (show ¬ T.length < s by omega)]
    simp [boundsReversed]
  rw [hg s hst] at h ⊢
  obtain ⟨j1, j2, j3, j4, j5, j6, j7, j8⟩ := dataLoop_chunks hs b cs T.length s hcs (Nat.le_refl _) pre d idx post h
  rw [hg idx j4]
  refine ⟨?_, j8⟩
  rw [List.length_append]; omega

example : dataAligned Prod.fst ([(0, 1), (0, 2), (3, 3), (4, 4), (4, 5)] : List (Int × Nat)) { chunkSize := 3, startIndex := some 0 }
      = ⟨[] ++ ([(0, 1), (0, 2)], 2) :: [([(3, 3), (4, 4), (4, 5)], 5)], none⟩ := by
  simp [dataAligned, boundsReversed, dataLoop, readRows, chunkStopIndex, searchsortedLeft]

/-! ### C05 -/

/-- C05: if some event has more rows than the chunk size, iterating over the table raises. -/
theorem C05_oversized_event_raises (hs : SortedBy ev T) (cs : Nat) (hcs : 0 < cs) (e : Int)
    (hbig : cs < multiplicity ev T e) : (dataAligned ev T { chunkSize := cs }).err = some .chunkTooSmall := by
  obtain ⟨-, h2, h3⟩ := C01_no_loss hs cs hcs
  rcases h3 with h3 | h3
  · exfalso
    have hrows := h2 h3
    -- some row of event e is in some chunk; all rows of e are in this chunk
    have hne : (T.filter fun r => decide (ev r = e)) ≠ [] := by
      intro h0
      unfold multiplicity at hbig
      rw [h0] at hbig
      simp at hbig
    have hg : dataAligned ev T { chunkSize := cs } = dataLoop ev T none cs T.length 0 := by
      simp [dataAligned, boundsReversed]
    obtain ⟨x, hx⟩ := List.exists_mem_of_ne_nil _ hne
    obtain ⟨hxT, hxe⟩ := List.mem_filter.mp hx
    have hxe : ev x = e := by simpa using hxe
    have hxr : x ∈ (dataAligned ev T { chunkSize := cs }).rows := by rw [hrows]; exact hxT
    unfold Gen.rows at hxr
    obtain ⟨⟨d, idx⟩, hdm, hxd⟩ := List.mem_flatMap.mp hxr
    simp only at hxd
    -- chunks: the filter of event e over the whole list of chunks is contained in d
    obtain ⟨pre, post, hpp⟩ := List.append_of_mem hdm
    rw [hg] at hpp hrows
    obtain ⟨j1, j2, j3, j4, j5, j6, j7, j8⟩ :=
      dataLoop_chunks hs none cs T.length 0 hcs (Nat.le_refl _) pre d idx post hpp
    have hT : T = pre.flatMap Prod.fst ++ (d ++ T.drop idx) := by
      have hlen : idx = (pre.flatMap Prod.fst ++ d).length := by rw [List.length_append]; omega
      have hpre : (pre.flatMap Prod.fst ++ d) = T.take idx := by
        conv => rhs; arg 2; rw [← hrows]
        unfold Gen.rows
        rw [hpp, List.flatMap_append, List.flatMap_cons, ← List.append_assoc, hlen, List.take_left']
        rfl
      rw [← List.append_assoc, hpre, List.take_append_drop]
    have hprelt : ∀ y ∈ pre.flatMap Prod.fst, ev y < ev x := by
      intro y hy
      obtain ⟨⟨d', idx'⟩, hm', hy'⟩ := List.mem_flatMap.mp hy
      obtain ⟨p1, p2, hpeq⟩ := List.append_of_mem hm'
      obtain ⟨k1, k2, k3, k4, k5, k6, k7, k8⟩ :=
        dataLoop_chunks hs none cs T.length 0 hcs (Nat.le_refl _) p1 d' idx' (p2 ++ (d, idx) :: post)
          (by rw [hpp, hpeq]; simp)
      apply k7 y hy'
      have : idx' ≤ idx - d.length := by
        have e1 : pre.flatMap Prod.fst = p1.flatMap Prod.fst ++ (d' ++ p2.flatMap Prod.fst) := by
          rw [hpeq]; simp
        have e2 := congrArg List.length e1
        simp only [List.length_append] at e2
        omega
      rw [j5] at hxd
      unfold readRows at hxd
      rw [List.drop_take] at hxd
      have h9 := List.mem_of_mem_take hxd
      have : T.drop (idx - d.length) = (T.drop idx').drop (idx - d.length - idx') := by
        rw [List.drop_drop]; congr 1; omega
      rw [this] at h9
      exact List.mem_of_mem_drop h9
    have hcount : multiplicity ev T e ≤ d.length := by
      unfold multiplicity
      rw [hT, List.filter_append, List.filter_append]
      have z1 : (pre.flatMap Prod.fst).filter (fun r => decide (ev r = e)) = [] := by
        rw [List.filter_eq_nil_iff]
        intro y hy
        have := hprelt y hy
        simp; omega
      have z2 : (T.drop idx).filter (fun r => decide (ev r = e)) = [] := by
        rw [List.filter_eq_nil_iff]
        intro y hy
        have := j7 x hxd y hy
        simp; omega
      rw [z1, z2]
      simp only [List.nil_append, List.append_nil]
      exact List.length_filter_le _ _
    omega
  · exact h3

example : SortedBy Prod.fst ([(0, 1), (1, 2), (1, 3), (1, 4)] : List (Int × Nat)) ∧
    2 < multiplicity Prod.fst ([(0, 1), (1, 2), (1, 3), (1, 4)] : List (Int × Nat)) 1 := by
  refine ⟨by simp [SortedBy], by decide⟩

/-! ### C06 -/

/-- C06 (no false alarm): "start event missing" is only reported if the start event is missing. -/
theorem C06_no_false_alarm (hs : SortedBy ev T) (a b : Option Int) (s cs : Nat) (hcs : 0 < cs) (hst : s ≤ T.length)
    (hab : ∀ x ∈ a, ∀ y ∈ b, x ≤ y)
    (h : (dataAligned ev T { startEvent := a, stopEvent := b, startIndex := some s, chunkSize := cs }).err
      = some .startMissing) :
    ∃ x ∈ a, ∀ r ∈ T.drop s, ev r ≠ x := by
  obtain ⟨-, h2⟩ := range_spec hs a b s cs hcs hst hab true
  rcases h2 with h2 | ⟨h2, -⟩ | ⟨-, -, h2⟩
  · rw [h2] at h; simp at h
  · rw [h2] at h; simp at h
  · exact h2

/-- C06 (partial): a missing start event is reported if it would have to be in the first chunk (some row of the first
chunk has a larger event number). Missing in the full property: start events beyond the first chunk and all stop events,
see the counterexamples below. -/
theorem C06_missing_start_partial (hs : SortedBy ev T) (a : Int) (b : Option Int) (cs : Nat) (hcs : 0 < cs)
    (hab : ∀ y ∈ b, a ≤ y) (hmiss : ∀ r ∈ T, ev r ≠ a) (hfirst : ∃ r ∈ T.take cs, a < ev r) :
    (dataAligned ev T { startEvent := some a, stopEvent := b, chunkSize := cs }).err = some .startMissing ∨
    (dataAligned ev T { startEvent := some a, stopEvent := b, chunkSize := cs }).err = some .chunkTooSmall := by
  obtain ⟨r0, hr0, har0⟩ := hfirst
  have hne : 0 < T.length := by
    rcases Nat.eq_zero_or_pos T.length with h | h
    · have : T = [] := by simpa using h
      rw [this] at hr0
      simp at hr0
    · exact h
  have hinv : boundsReversed (some a) b = false := by
    cases b with
    | none => rfl
    | some y => have := hab y rfl; simp [boundsReversed]; omega
  have hg : dataAligned ev T { startEvent := some a, stopEvent := b, chunkSize := cs }
      = match seekStart ev T a true true cs 0 T.length 0 with
        | .error e => ⟨[], some e⟩
        | .ok cur => dataLoop ev T b cs T.length cur := by
    unfold dataAligned
    simp only [Option.getD_none, if_neg (show ¬ T.length < 0 by omega)]
    rw [if_neg (by rw [hinv]; simp)]
    simp
    rfl
  have hchunk := chunk_eq T 0 cs T.length
  rw [readRows_full, List.drop_zero] at hchunk
  have hne' : T.take cs ≠ [] := by
    intro h0; rw [h0] at hr0; simp at hr0
  obtain ⟨last, hL⟩ : ∃ l, (T.take cs).getLast? = some l := ⟨_, List.getLast?_eq_some_getLast hne'⟩
  obtain ⟨first, hF⟩ : ∃ f, (T.take cs).head? = some f := ⟨_, List.head?_eq_some_head hne'⟩
  have hCs : SortedBy ev (T.take cs) := List.Pairwise.sublist (List.take_sublist _ _) hs
  have hlast := mem_getLast?_ge hCs hL r0 hr0
  have sf := seekFacts hs cs T.length 0 hcs hne first last (by rw [hchunk]; exact hL) (by rw [hchunk]; exact hF)
  obtain ⟨x, hxm, hx, hax, -⟩ := sf.cutHead a (by omega)
  rw [readRows_full, List.drop_zero] at hxm
  have hxa := hmiss x hxm
  rw [hchunk] at hx
  have key : seekStart ev T a true true cs 0 T.length 0 = .error .startMissing ∨
      seekStart ev T a true true cs 0 T.length 0 = .error .chunkTooSmall := by
    rw [seekStart, dif_pos hne]
    simp only
    split
    · rename_i l f hl hf
      rw [hchunk] at hl hf
      rw [hL] at hl
      rw [hF] at hf
      cases hl
      cases hf
      rw [hchunk, if_neg (by omega)]
      by_cases hfull : (T.take cs).length = cs ∧ ev first = ev last
      · rw [if_pos hfull]; right; rfl
      · rw [if_neg hfull, if_neg (by simp)]
        by_cases hgt : a < ev first
        · rw [if_pos ⟨trivial, hgt, trivial⟩]; left; rfl
        · rw [if_neg (by intro hh; exact hgt hh.2.1)]
          have hfa : ev first ≠ a := by
            apply hmiss
            exact List.mem_of_mem_take (List.mem_of_mem_head? hF)
          rw [if_neg (by intro hh; exact hfa hh.2.1)]
          simp only [hx]
          rw [if_pos ⟨trivial, hxa, trivial⟩]
          left; rfl
    · rename_i hno
      exact absurd (by rw [hchunk]; exact hF) (hno last first (by rw [hchunk]; exact hL))
  rw [hg]
  rcases key with key | key
  · rw [key]; left; rfl
  · rw [key]; right; rfl

/-- C06 is false: start event 3 does not exist, but it is not in the first chunk, so the data from event 4 on are
returned without error although `fail_on_missing_events=True`. -/
theorem C06_missing_start_fails :
    dataAligned id [0, 1, 4, 5] { startEvent := some 3, chunkSize := 2, failOnMissing := true }
      = ⟨[([4, 5], 4)], none⟩ := by
  decide +kernel

/-- C06 is false: a missing stop event is never reported. -/
theorem C06_missing_stop_fails :
    dataAligned id [0, 1, 4, 5] { startEvent := some 0, stopEvent := some 3, chunkSize := 10, failOnMissing := true }
      = ⟨[([0, 1], 2)], none⟩ := by
  decide +kernel

example : SortedBy id [0, 1, 4, (5 : Int)] ∧ (∀ r ∈ [0, 1, 4, (5 : Int)], id r ≠ 3) ∧
    (∃ r ∈ [0, 1, 4, (5 : Int)].take 3, 3 < id r) := by
  refine ⟨by simp [SortedBy], by simp, 4, by simp, by decide⟩

end BTA.Props
