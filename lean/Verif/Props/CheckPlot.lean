import Verif.Spec.CheckPlot
import Verif.Props.CheckFile
/-
C230: plots of `check_file`.
-/
namespace BTA.Check
open BTA.Dut BTA.Spec BTA.Check.Spec

/-- Pages of nodes without a group. -/
theorem plotChecks_spec : ∀ l : List (NodeName × NodeData), (∀ n ∈ l, n.2 ≠ .group) →
    (plotChecks l).2 = none ∧ (∀ p, p ∈ (plotChecks l).1 ↔ ∃ n ∈ l, checkPage n = .ok (some p)) ∧ ((plotChecks l).1.map CheckPage.node).Sublist (l.map Prod.fst)
  | [], _ => ⟨rfl, fun p => ⟨fun h => (List.not_mem_nil h).elim, fun ⟨n, h, _⟩ => (List.not_mem_nil h).elim⟩, List.Sublist.slnil⟩
  | n :: l, h => by
    obtain ⟨h1, h2, h3⟩ := plotChecks_spec l (fun m hm => h m (List.mem_cons_of_mem _ hm))
    cases hc : checkPage n with
    | error e =>
      exfalso
      have := h n List.mem_cons_self
      unfold checkPage at hc
      split at hc
      · next e => exact this e
      · cases hc
      · cases hc
    | ok o =>
      have hname : ∀ p, o = some p → p.node = n.1 := by
        intro p hp
        unfold checkPage at hc
        split at hc
        · cases hc
        · split at hc
          · have := Except.ok.inj hc
            rw [hp] at this
            cases this
          · have := Except.ok.inj hc
            rw [hp] at this
            rw [← Option.some.inj this]
        · split at hc
          · have := Except.ok.inj hc
            rw [hp] at this
            cases this
          · have := Except.ok.inj hc
            rw [hp] at this
            rw [← Option.some.inj this]
      cases o with
      | none =>
        have e : plotChecks (n :: l) = plotChecks l := by rw [plotChecks, hc]
        rw [e]
        refine ⟨h1, ?_, ?_⟩
        · intro p
          rw [h2 p]
          constructor
          · rintro ⟨m, hm, hp⟩
            exact ⟨m, List.mem_cons_of_mem _ hm, hp⟩
          · rintro ⟨m, hm, hp⟩
            rcases List.mem_cons.mp hm with rfl | hm
            · rw [hc] at hp
              cases Except.ok.inj hp
            · exact ⟨m, hm, hp⟩
        · rw [List.map_cons]
          exact h3.cons _
      | some q =>
        have e : plotChecks (n :: l) = (q :: (plotChecks l).1, (plotChecks l).2) := by rw [plotChecks, hc]
        rw [e]
        refine ⟨h1, ?_, ?_⟩
        · intro p
          rw [List.mem_cons, h2 p]
          constructor
          · rintro (rfl | ⟨m, hm, hp⟩)
            · exact ⟨n, List.mem_cons_self, hc⟩
            · exact ⟨m, List.mem_cons_of_mem _ hm, hp⟩
          · rintro ⟨m, hm, hp⟩
            rcases List.mem_cons.mp hm with rfl | hm
            · rw [hc] at hp
              exact .inl (Option.some.inj (Except.ok.inj hp)).symm
            · exact .inr ⟨m, hm, hp⟩
        · rw [List.map_cons, List.map_cons, hname q rfl]
          exact h3.cons_cons _

theorem plotChecks_group : ∀ l : List (NodeName × NodeData), (∃ n ∈ l, n.2 = .group) → (plotChecks l).2 = some .group
  | [], h => by simp at h
  | n :: l, h => by
    cases hc : checkPage n with
    | error e =>
      rw [plotChecks, hc]
    | ok o =>
      have hl : ∃ m ∈ l, m.2 = .group := by
        obtain ⟨m, hm, hg⟩ := h
        rcases List.mem_cons.mp hm with rfl | hm
        · unfold checkPage at hc
          rw [hg] at hc
          cases hc
        · exact ⟨m, hm, hg⟩
      cases o with
      | none => rw [plotChecks, hc]; exact plotChecks_group l hl
      | some p => rw [plotChecks, hc]; exact plotChecks_group l hl

section
variable {K : Type} [Field K] [LinearOrder K] [FloorRing K] [IsStrictOrderedRing K]

/-- The pages of the file: which pages exist and what they contain. -/
theorem pages_mem (a : Args K) (s : State) (nodes : List (NodeName × NodeData)) (hp : nodes.Perm (checkNodes a s)) :
    (plotChecks nodes).2 = none ∧ ((plotChecks nodes).1.map CheckPage.node).Nodup ∧
      ∀ p, p ∈ (plotChecks nodes).1 ↔ ∃ n ∈ checkNodes a s, checkPage n = .ok (some p) := by
  have hng : ∀ n ∈ nodes, n.2 ≠ .group := by
    intro n hn
    have := hp.subset hn
    simp only [checkNodes, List.mem_cons, List.not_mem_nil, or_false] at this
    rcases this with rfl | rfl | rfl | rfl <;> simp
  obtain ⟨h1, h2, h3⟩ := plotChecks_spec nodes hng
  refine ⟨h1, h3.nodup ?_, ?_⟩
  · rw [(hp.map Prod.fst).nodup_iff]
    show [NodeName.eventDelta, NodeName.eventNumber, NodeName.columns, NodeName.rows].Nodup
    decide
  · intro p
    rw [h2 p]
    constructor
    · rintro ⟨n, hn, h⟩
      exact ⟨n, hp.subset hn, h⟩
    · rintro ⟨n, hn, h⟩
      exact ⟨n, hp.symm.subset hn, h⟩

theorem pairCount_pos {A B : Type} (l : List A) (m : List B) (P : A → B → Bool) : 0 < pairCount l m P ↔ ∃ x ∈ l, ∃ y ∈ m, P x y = true := by
  unfold pairCount
  rw [List.countP_pos_iff]
  constructor
  · rintro ⟨⟨x, y⟩, h, hP⟩
    rw [List.mem_flatMap] at h
    obtain ⟨x', hx, h⟩ := h
    rw [List.mem_map] at h
    obtain ⟨y', hy, h⟩ := h
    cases h
    exact ⟨x, hx, y, hy, hP⟩
  · rintro ⟨x, hx, y, hy, hP⟩
    exact ⟨(x, y), List.mem_flatMap.mpr ⟨x, hx, List.mem_map.mpr ⟨y, hy, rfl⟩⟩, hP⟩

theorem nPairs_eq (range : Nat) (f : Row K → K) (rows : List (Row K)) (u v : K) : pairCount rows rows (Earlier range f u v) = nPairs range f rows u v := by
  unfold nPairs Earlier
  congr 1
  funext q p
  congr 1
  apply propext
  constructor
  · rintro ⟨⟨h1, h2⟩, h3⟩
    exact ⟨⟨by omega, by omega⟩, h3⟩
  · rintro ⟨⟨h1, h2⟩, h3⟩
    exact ⟨⟨by omega, by omega⟩, h3⟩

/-- Page of a curve. -/
theorem curve_page (n : NodeName) (l : List Int) (p : CheckPage) : checkPage (n, .curve l) = .ok (some p) ↔ (∃ v ∈ l, 0 < v) ∧ p = ⟨n, .curve l⟩ := by
  unfold checkPage
  dsimp only
  constructor
  · intro h
    split at h
    · cases Except.ok.inj h
    · rename_i hn
      refine ⟨?_, (Option.some.inj (Except.ok.inj h)).symm⟩
      rw [List.all_eq_true] at hn
      push Not at hn
      obtain ⟨v, hv, h1⟩ := hn
      exact ⟨v, hv, by simpa using h1⟩
  · rintro ⟨⟨v, hv, h1⟩, rfl⟩
    rw [if_neg]
    rw [List.all_eq_true]
    intro h
    have := h v hv
    simp at this
    omega

/-- Page of an image. -/
theorem image_page (n : NodeName) (h w : Nat) (val : Hist2) (p : CheckPage) :
    checkPage (n, .image h w val) = .ok (some p) ↔ (∃ i < h, ∃ j < w, 0 < val i j) ∧ p = ⟨n, .image w h fun r c => val c r⟩ := by
  unfold checkPage
  dsimp only
  constructor
  · intro hp
    split at hp
    · cases Except.ok.inj hp
    · rename_i hn
      refine ⟨?_, (Option.some.inj (Except.ok.inj hp)).symm⟩
      rw [List.all_eq_true] at hn
      push Not at hn
      obtain ⟨i, hi, h1⟩ := hn
      rw [ne_eq, List.all_eq_true] at h1
      push Not at h1
      obtain ⟨j, hj, h2⟩ := h1
      exact ⟨i, List.mem_range.mp hi, j, List.mem_range.mp hj, by
        simp at h2
        omega⟩
  · rintro ⟨⟨i, hi, j, hj, h1⟩, rfl⟩
    rw [if_neg]
    rw [List.all_eq_true]
    intro hh
    have := List.all_eq_true.mp (hh i (List.mem_range.mpr hi)) j (List.mem_range.mpr hj)
    simp at this
    omega

/-- C230: the pages with event numbers, for every chunk size and every order of the nodes: no exception, no page twice; the page with the event numbers exists exactly if there is a hit in an
event above 0 and shows the different event numbers in increasing order; the page with the distances (no event 0, or one chunk) exists exactly if there are two events, and shows the distances of
neighbours, all positive. -/
theorem C230_events_partial (a : Args K) (t : Table K) (ht : IndexTable t ∨ PositionTable t) (h1 : 0 < a.dut.columnSize) (h2 : 0 < a.dut.rowSize) (hd : Delivered a.chunkSize t.rows)
    (s : State) (hs : checkFile a t = .ok s) (nodes : List (NodeName × NodeData)) (hp : nodes.Perm (checkNodes a s)) :
    (plotChecks nodes).2 = none ∧ ((plotChecks nodes).1.map CheckPage.node).Nodup ∧
      ((∃ p ∈ (plotChecks nodes).1, p.node = .eventNumber) ↔ ∃ r ∈ t.rows, 0 < r.ev) ∧
      (∀ p ∈ (plotChecks nodes).1, p.node = .eventNumber → ∃ l, p.data = .curve l ∧ DifferentOf (t.rows.map Row.ev) l) ∧
      (((∀ r ∈ t.rows, r.ev ≠ 0) ∨ t.rows.length ≤ a.chunkSize) →
        ((∃ p ∈ (plotChecks nodes).1, p.node = .eventDelta) ↔ ∃ r ∈ t.rows, ∃ r' ∈ t.rows, r.ev ≠ r'.ev) ∧
        ∀ p ∈ (plotChecks nodes).1, p.node = .eventDelta → ∃ l d, DifferentOf (t.rows.map Row.ev) l ∧ p.data = .curve d ∧ Distances l d ∧ ∀ v ∈ d, 0 < v) := by
  obtain ⟨g1, g2, g3⟩ := pages_mem a s nodes hp
  have hE := C84_event_numbers a t ht h1 h2 hd s hs
  have hnum : ∀ p, (p ∈ (plotChecks nodes).1 ∧ p.node = .eventNumber) ↔ (∃ v ∈ s.eventNumber, 0 < v) ∧ p = ⟨.eventNumber, .curve s.eventNumber⟩ := by
    intro p
    rw [g3 p, ← curve_page]
    constructor
    · rintro ⟨⟨n, hn, h⟩, hq⟩
      simp only [checkNodes, List.mem_cons, List.not_mem_nil, or_false] at hn
      rcases hn with rfl | rfl | rfl | rfl
      · rw [curve_page] at h
        rw [h.2] at hq
        cases hq
      · exact h
      · rw [image_page] at h
        rw [h.2] at hq
        cases hq
      · rw [image_page] at h
        rw [h.2] at hq
        cases hq
    · intro h
      refine ⟨⟨_, by simp [checkNodes], h⟩, ?_⟩
      rw [((curve_page _ _ _).mp h).2]
  have hdel : ∀ p, (p ∈ (plotChecks nodes).1 ∧ p.node = .eventDelta) ↔ (∃ v ∈ s.eventDelta, 0 < v) ∧ p = ⟨.eventDelta, .curve s.eventDelta⟩ := by
    intro p
    rw [g3 p, ← curve_page]
    constructor
    · rintro ⟨⟨n, hn, h⟩, hq⟩
      simp only [checkNodes, List.mem_cons, List.not_mem_nil, or_false] at hn
      rcases hn with rfl | rfl | rfl | rfl
      · exact h
      · rw [curve_page] at h
        rw [h.2] at hq
        cases hq
      · rw [image_page] at h
        rw [h.2] at hq
        cases hq
      · rw [image_page] at h
        rw [h.2] at hq
        cases hq
    · intro h
      refine ⟨⟨_, by simp [checkNodes], h⟩, ?_⟩
      rw [((curve_page _ _ _).mp h).2]
  refine ⟨g1, g2, ?_, ?_, ?_⟩
  · constructor
    · rintro ⟨p, hp1, hp2⟩
      obtain ⟨⟨v, hv, h0⟩, -⟩ := (hnum p).mp ⟨hp1, hp2⟩
      obtain ⟨r, hr, rfl⟩ := List.mem_map.mp ((hE.same v).mp hv)
      exact ⟨r, hr, h0⟩
    · rintro ⟨r, hr, h0⟩
      exact ⟨_, (hnum _).mpr ⟨⟨r.ev, (hE.same _).mpr (List.mem_map_of_mem hr), h0⟩, rfl⟩⟩
  · intro p hp1 hp2
    obtain ⟨-, rfl⟩ := (hnum p).mp ⟨hp1, hp2⟩
    exact ⟨_, rfl, hE⟩
  · intro hz
    have hD := C84_distances_partial a t ht h1 h2 hd hz s hs
    have hpos : ∀ v ∈ s.eventDelta, 0 < v := by
      intro v hv
      obtain ⟨i, hi, rfl⟩ := List.mem_iff_getElem.mp hv
      have hi1 : i + 1 < s.eventNumber.length := by
        have := hD.1
        omega
      rw [hD.2 i hi hi1]
      have := List.pairwise_iff_getElem.mp hE.increasing i (i + 1) (by omega) hi1 (by omega)
      omega
    refine ⟨?_, ?_⟩
    · constructor
      · rintro ⟨p, hp1, hp2⟩
        obtain ⟨⟨v, hv, h0⟩, -⟩ := (hdel p).mp ⟨hp1, hp2⟩
        have hlen : 0 < s.eventDelta.length := List.length_pos_of_mem hv
        have hlen2 := hD.1
        have hlt := List.pairwise_iff_getElem.mp hE.increasing 0 1 (by omega) (by omega) (by omega)
        obtain ⟨r, hr, e1⟩ := List.mem_map.mp ((hE.same _).mp (List.getElem_mem (l := s.eventNumber) (n := 0) (by omega)))
        obtain ⟨r', hr', e2⟩ := List.mem_map.mp ((hE.same _).mp (List.getElem_mem (l := s.eventNumber) (n := 1) (by omega)))
        exact ⟨r, hr, r', hr', by rw [e1, e2]; omega⟩
      · rintro ⟨r, hr, r', hr', hne⟩
        have m1 := (hE.same _).mpr (List.mem_map_of_mem (f := Row.ev) hr)
        have m2 := (hE.same _).mpr (List.mem_map_of_mem (f := Row.ev) hr')
        have hlen : 1 < s.eventNumber.length := by
          by_contra hc
          obtain ⟨i, hi, ei⟩ := List.mem_iff_getElem.mp m1
          obtain ⟨j, hj, ej⟩ := List.mem_iff_getElem.mp m2
          apply hne
          rw [← ei, ← ej]
          congr 1
          omega
        have hlen2 : 0 < s.eventDelta.length := by
          have := hD.1
          omega
        have hm := List.getElem_mem (l := s.eventDelta) (n := 0) hlen2
        exact ⟨_, (hdel _).mpr ⟨⟨_, hm, hpos _ hm⟩, rfl⟩⟩
    · intro p hp1 hp2
      obtain ⟨-, rfl⟩ := (hdel p).mp ⟨hp1, hp2⟩
      exact ⟨_, _, hE, rfl, hD, hpos⟩

theorem pixel_range {n : Nat} {x : K} (h : 1 ≤ x ∧ x ≤ n) (c : Nat) (e : x = c) : ∃ i < n, x = (i : K) + 1 := by
  subst e
  obtain ⟨h1, h2⟩ := h
  have h1' : 1 ≤ c := by exact_mod_cast h1
  have h2' : c ≤ n := by exact_mod_cast h2
  refine ⟨c - 1, by omega, ?_⟩
  rw [Nat.cast_sub h1']
  simp

/-- C230: the pages with correlations, for a table of hits that fits into a chunk: they exist exactly if there are two hits in consecutive events (at most `event_range` apart); the image has one
pixel for each pair of columns (rows) and shows the number of pairs of hits, the earlier event on the horizontal axis. -/
theorem C230_correlation_partial (a : Args K) (t : Table K) (ht : IndexTable t) (h1 : 0 < a.dut.columnSize) (h2 : 0 < a.dut.rowSize) (h3 : a.resolution = none)
    (hl : t.rows.length ≤ a.chunkSize) (hi : ∀ r ∈ t.rows, ∃ c w : Nat, r.plain = ((c : K), (w : K)))
    (s : State) (hs : checkFile a t = .ok s) (nodes : List (NodeName × NodeData)) (hp : nodes.Perm (checkNodes a s)) :
    ((∃ p ∈ (plotChecks nodes).1, p.node = .columns) ↔ ∃ p ∈ t.rows, ∃ q ∈ t.rows, Before a.eventRange p q) ∧
    ((∃ p ∈ (plotChecks nodes).1, p.node = .rows) ↔ ∃ p ∈ t.rows, ∃ q ∈ t.rows, Before a.eventRange p q) ∧
    (∀ p ∈ (plotChecks nodes).1, p.node = .columns → ShowsPairs a.eventRange a.dut.nColumns (fun r => r.plain.1) t.rows p.data) ∧
    (∀ p ∈ (plotChecks nodes).1, p.node = .rows → ShowsPairs a.eventRange a.dut.nRows (fun r => r.plain.2) t.rows p.data) := by
  obtain ⟨-, -, g3⟩ := pages_mem a s nodes hp
  have hr : a.res = (a.dut.columnSize, a.dut.rowSize) := by unfold Args.res; rw [h3]; rfl
  have hC := C85_pairs_partial a t ht h1 h2 h3 hl hi s hs
  have hM : ∀ r ∈ t.rows, OnMatrix a.dut r :=
    ((C83_indices_partial a t ht h1 h2 (by rw [hr]; exact h1) (by rw [hr]; exact h2) (.inl hl)).mp ⟨s, hs⟩).2
  have b1 : nBins (a.dut.nColumns * a.dut.columnSize) a.res.1 = a.dut.nColumns := by rw [hr]; exact nBins_pixels _ _ h1
  have b2 : nBins (a.dut.nRows * a.dut.rowSize) a.res.2 = a.dut.nRows := by rw [hr]; exact nBins_pixels _ _ h2
  have hcol : ∀ p, (p ∈ (plotChecks nodes).1 ∧ p.node = .columns) ↔ (∃ i < a.dut.nColumns, ∃ j < a.dut.nColumns, 0 < s.xCorr i j) ∧
      p = ⟨.columns, .image a.dut.nColumns a.dut.nColumns fun r c => s.xCorr c r⟩ := by
    intro p
    rw [g3 p, ← image_page]
    constructor
    · rintro ⟨⟨n, hn, h⟩, hq⟩
      simp only [checkNodes, List.mem_cons, List.not_mem_nil, or_false] at hn
      rcases hn with rfl | rfl | rfl | rfl
      · rw [curve_page] at h
        rw [h.2] at hq
        cases hq
      · rw [curve_page] at h
        rw [h.2] at hq
        cases hq
      · rw [b1] at h
        exact h
      · rw [image_page] at h
        rw [h.2] at hq
        cases hq
    · intro h
      refine ⟨⟨_, by simp only [checkNodes, b1]; simp, h⟩, ?_⟩
      rw [((image_page _ _ _ _ _).mp h).2]
  have hrow : ∀ p, (p ∈ (plotChecks nodes).1 ∧ p.node = .rows) ↔ (∃ i < a.dut.nRows, ∃ j < a.dut.nRows, 0 < s.yCorr i j) ∧
      p = ⟨.rows, .image a.dut.nRows a.dut.nRows fun r c => s.yCorr c r⟩ := by
    intro p
    rw [g3 p, ← image_page]
    constructor
    · rintro ⟨⟨n, hn, h⟩, hq⟩
      simp only [checkNodes, List.mem_cons, List.not_mem_nil, or_false] at hn
      rcases hn with rfl | rfl | rfl | rfl
      · rw [curve_page] at h
        rw [h.2] at hq
        cases hq
      · rw [curve_page] at h
        rw [h.2] at hq
        cases hq
      · rw [image_page] at h
        rw [h.2] at hq
        cases hq
      · rw [b2] at h
        exact h
    · intro h
      refine ⟨⟨_, by simp only [checkNodes, b2]; simp, h⟩, ?_⟩
      rw [((image_page _ _ _ _ _).mp h).2]
  refine ⟨?_, ?_, ?_, ?_⟩
  · constructor
    · rintro ⟨p, hp1, hp2⟩
      obtain ⟨⟨i, hi', j, hj, h0⟩, -⟩ := (hcol p).mp ⟨hp1, hp2⟩
      rw [(hC i j).1, nPairs_eq] at h0
      obtain ⟨q, hq, p', hp', hP⟩ := (pairCount_pos _ _ _).mp h0
      exact ⟨p', hp', q, hq, (of_decide_eq_true hP).1⟩
    · rintro ⟨p, hp1, q, hq, hb⟩
      obtain ⟨c, w, e⟩ := hi p hp1
      obtain ⟨c', w', e'⟩ := hi q hq
      obtain ⟨i, hi1, hi2⟩ := pixel_range (hM p hp1).1 c (by rw [e])
      obtain ⟨j, hj1, hj2⟩ := pixel_range (hM q hq).1 c' (by rw [e'])
      refine ⟨_, (hcol _).mpr ⟨⟨i, hi1, j, hj1, ?_⟩, rfl⟩⟩
      rw [(hC i j).1, nPairs_eq]
      exact (pairCount_pos _ _ _).mpr ⟨q, hq, p, hp1, decide_eq_true ⟨hb, hi2, hj2⟩⟩
  · constructor
    · rintro ⟨p, hp1, hp2⟩
      obtain ⟨⟨i, hi', j, hj, h0⟩, -⟩ := (hrow p).mp ⟨hp1, hp2⟩
      rw [(hC i j).2, nPairs_eq] at h0
      obtain ⟨q, hq, p', hp', hP⟩ := (pairCount_pos _ _ _).mp h0
      exact ⟨p', hp', q, hq, (of_decide_eq_true hP).1⟩
    · rintro ⟨p, hp1, q, hq, hb⟩
      obtain ⟨c, w, e⟩ := hi p hp1
      obtain ⟨c', w', e'⟩ := hi q hq
      obtain ⟨i, hi1, hi2⟩ := pixel_range (hM p hp1).2 w (by rw [e])
      obtain ⟨j, hj1, hj2⟩ := pixel_range (hM q hq).2 w' (by rw [e'])
      refine ⟨_, (hrow _).mpr ⟨⟨i, hi1, j, hj1, ?_⟩, rfl⟩⟩
      rw [(hC i j).2, nPairs_eq]
      exact (pairCount_pos _ _ _).mpr ⟨q, hq, p, hp1, decide_eq_true ⟨hb, hi2, hj2⟩⟩
  · intro p hp1 hp2
    obtain ⟨-, rfl⟩ := (hcol p).mp ⟨hp1, hp2⟩
    exact ⟨rfl, rfl, fun r c => by rw [← nPairs_eq]; exact (hC c r).1⟩
  · intro p hp1 hp2
    obtain ⟨-, rfl⟩ := (hrow p).mp ⟨hp1, hp2⟩
    exact ⟨rfl, rfl, fun r c => by rw [← nPairs_eq]; exact (hC c r).2⟩

/-- C230 is false for the file that `check_file` returns: it has the group with the arguments, and the plots raise an exception, whatever the order of the nodes is. -/
theorem C230_again_fails (a : Args K) (s : State) (nodes : List (NodeName × NodeData)) (hp : nodes.Perm ((.arguments, .group) :: checkNodes a s)) :
    (plotChecks nodes).2 = some .group :=
  plotChecks_group nodes ⟨_, hp.symm.subset List.mem_cons_self, rfl⟩

/-- In the order of the names (capital letters first) the pages have been saved before. -/
theorem C230_again_pages (a : Args K) (s : State) : (plotChecks (checkNodes a s ++ [(.arguments, .group)])).1 = (plotChecks (checkNodes a s)).1 := by
  have : ∀ l : List (NodeName × NodeData), (plotChecks (l ++ [(.arguments, .group)])).1 = (plotChecks l).1 := by
    intro l
    induction l with
    | nil => rfl
    | cons n l ih =>
      rw [List.cons_append, plotChecks, plotChecks]
      cases checkPage n with
      | error e => rfl
      | ok o =>
        cases o with
        | none => exact ih
        | some p => rw [ih]
  exact this _

end

/-- C230: the pages of the example: two events, all four pages. -/
example : ∃ s, checkFile (exArgs 10) exTable = .ok s ∧ (plotChecks (checkNodes (exArgs 10) s)).2 = none ∧
    (∃ p ∈ (plotChecks (checkNodes (exArgs 10) s)).1, p.node = .eventDelta) ∧ (∃ p ∈ (plotChecks (checkNodes (exArgs 10) s)).1, p.node = .columns) := by
  have hl : exTable.rows.length ≤ (exArgs 10).chunkSize := by decide
  have p1 : 0 < (exArgs 10).dut.columnSize := by simp [exArgs]
  have p2 : 0 < (exArgs 10).dut.rowSize := by simp [exArgs]
  obtain ⟨s, hs⟩ := (C83_indices_partial (exArgs 10) exTable ⟨rfl, rfl, rfl⟩ p1 p2 (by simp [exArgs, Args.res]) (by simp [exArgs, Args.res])
    (.inl hl)).mpr ⟨⟨by simp [exTable], by simp [SortedBy, exTable]⟩, by
      simp [exTable, OnMatrix, exArgs]; norm_num⟩
  obtain ⟨g1, -, -, -, g2⟩ := C230_events_partial (exArgs 10) exTable (.inl ⟨rfl, rfl, rfl⟩) p1 p2 (.inl hl) s hs _ (List.Perm.refl _)
  obtain ⟨g3, -⟩ := C230_correlation_partial (exArgs 10) exTable ⟨rfl, rfl, rfl⟩ p1 p2 rfl hl (by
    intro r hr
    simp only [exTable, List.mem_cons, List.not_mem_nil, or_false] at hr
    rcases hr with rfl | rfl | rfl
    · exact ⟨1, 3, by norm_num⟩
    · exact ⟨2, 1, by norm_num⟩
    · exact ⟨2, 2, by norm_num⟩) s hs _ (List.Perm.refl _)
  refine ⟨s, hs, g1, (g2 (.inr hl)).1.mpr ⟨⟨3, (1, 3), (0, 0)⟩, by simp [exTable], ⟨5, (2, 2), (0, 0)⟩, by simp [exTable], by decide⟩,
    g3.mpr ⟨⟨3, (1, 3), (0, 0)⟩, by simp [exTable], ⟨5, (2, 2), (0, 0)⟩, by simp [exTable], by unfold Before; decide⟩⟩

end BTA.Check
