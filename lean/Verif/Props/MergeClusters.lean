import Verif.Lemmas.MergeClusters
import Mathlib.Data.List.Induction
/-
C14: `merge_cluster_data`, for any number of DUTs, any tables and any chunk size.
-/
namespace BTA.Merge.Props
open BTA.Merge BTA.Spec

variable {C : Type} {ev : C → Int}

/-- The result is a merged table with as many rows for each event (up to the last event of DUT 0) as the DUT with most
clusters needs. -/
def MergedOk (ev : C → Int) (T0 : List C) (others : List (List C)) (out : List (Int × List (Option C))) : Prop :=
  ∃ events, out = rowsFor ev (T0 :: others) events ∧ events.Pairwise (· ≤ ·) ∧
    ∀ e, events.count e = if ∃ x ∈ T0, e ≤ ev x then maxMultiplicity ev (T0 :: others) e else 0

/-- C14: for all sorted tables `merge_cluster_data` either raises the "chunk size too small" exception, and then a table has
an event with at least `chunk_size` clusters, or writes the merged table. In particular the result does not depend on the
chunk size. -/
theorem C14_merged_table (T0 : List C) (others : List (List C)) (hs0 : SortedBy ev T0) (hs : ∀ T ∈ others, SortedBy ev T)
    (cs : Nat) (hcs : 0 < cs) :
    (∃ out, mergeClusterData ev T0 others cs = .ok out ∧ MergedOk ev T0 others out) ∨
    (mergeClusterData ev T0 others cs = .error (.read .chunkTooSmall) ∧ ∃ T ∈ T0 :: others, ∃ e, cs ≤ multiplicity ev T e) := by
  unfold mergeClusterData
  have hgsep : Separated ev (dataAligned ev T0 { chunkSize := cs }).items :=
    dataAligned_separated hs0 _ hcs rfl (by simp)
  have hgit : ∀ it ∈ (dataAligned ev T0 { chunkSize := cs }).items, it.1 ≠ [] ∧ SortedBy ev it.1 := by
    intro it hit
    obtain ⟨hne, -, -, hd, -⟩ := BTA.Props.C02_chunks_aligned hs0 { chunkSize := cs } hcs rfl (by simp) it.1 it.2 hit
    refine ⟨hne, ?_⟩
    rw [hd]
    exact List.Pairwise.sublist ((List.drop_sublist _ _).trans (List.take_sublist _ _)) hs0
  obtain ⟨-, hrows⟩ := BTA.Props.C01_no_loss hs0 cs hcs
  have hg := BTA.Props.range_spec hs0 none none 0 cs hcs (Nat.zero_le _) (by simp) true
  have hall : ∀ ts : List (List C), AllOk ev ts (ts.map fun _ => none) none := by
    intro ts
    induction ts with
    | nil => exact .nil
    | cons T ts ih => exact .cons ⟨by simp, by simp⟩ ih
  rcases mainLoop_spec others hs cs hcs _ hgsep hgit none _ _ (hall others) (hall others) (by simp) with
    ⟨events, h1, h2, h3⟩ | ⟨h1, T, hT, h2⟩
  · simp only [h1]
    cases herr : (dataAligned ev T0 { chunkSize := cs }).err with
    | none =>
      left
      refine ⟨_, rfl, events, ?_, h2, ?_⟩
      · have : (dataAligned ev T0 { chunkSize := cs }).items.flatMap Prod.fst = T0 := hrows.1 herr
        rw [this]
      · have : (dataAligned ev T0 { chunkSize := cs }).items.flatMap Prod.fst = T0 := hrows.1 herr
        rw [this] at h3
        intro e
        rw [h3 e]
        simp
    | some e =>
      right
      rcases hg.2 with h | ⟨h, e', he⟩ | ⟨-, -, h⟩
      · rw [show (dataAligned ev T0 { chunkSize := cs }).err = none from h] at herr
        cases herr
      · rw [show (dataAligned ev T0 { chunkSize := cs }).err = some .chunkTooSmall from h] at herr
        cases herr
        exact ⟨rfl, T0, by simp, e', by simpa [multiplicity] using he⟩
      · obtain ⟨x, hx, -⟩ := h
        cases hx
  · right
    simp only [h1]
    exact ⟨by trivial, T, by simp [hT], h2⟩

theorem ranks (events : List Int) (e : Int) :
    ((events.zipIdx.filter fun p => decide (p.1 = e)).map fun p => (events.take p.2).count p.1) = List.range (events.count e) := by
  induction events using List.reverseRecOn with
  | nil => rfl
  | append_singleton l a ih =>
    rw [List.zipIdx_append, List.filter_append, List.map_append, List.count_append]
    have h1 : ((l.zipIdx.filter fun p => decide (p.1 = e)).map fun p => ((l ++ [a]).take p.2).count p.1)
        = List.range (l.count e) := by
      rw [← ih]
      apply List.map_congr_left
      rintro ⟨b, m⟩ hb
      have := (List.mem_filter.mp hb).1
      rw [List.mem_zipIdx_iff_getElem?] at this
      have hm := (List.getElem?_eq_some_iff.mp this).1
      simp only []
      rw [List.take_append_of_le_length (by omega)]
    rw [h1]
    by_cases ha : a = e
    · subst ha
      simp [List.range_succ]
    · simp [ha]

theorem range_filterMap (l : List C) (c : Nat) : ((List.range c).filterMap fun k => l[k]?) = l.take c := by
  induction c with
  | zero => simp
  | succ c ih =>
    rw [List.range_succ, List.filterMap_append, ih, List.take_add_one]
    cases h : l[c]? <;> simp [List.filterMap_cons, h]

/-- The cells of column `k` of the rows of event `e` that are filled, in row order. -/
def cellsOfEvent (out : List (Int × List (Option C))) (k : Nat) (e : Int) : List C :=
  (out.filter fun r => decide (r.1 = e)).filterMap fun r => (r.2[k]?).getD none

/-- C14 (partial): every cluster of an event up to the last event of DUT 0 is in the merged table exactly once: the filled
cells of DUT `k` in the rows of the event are the clusters of DUT `k` in this event, in their order. Missing: later
events, which are lost (`C14_later_events_lost`). -/
theorem C14_every_cluster_once_partial (T0 : List C) (others : List (List C)) (hs0 : SortedBy ev T0)
    (hs : ∀ T ∈ others, SortedBy ev T) (cs : Nat) (hcs : 0 < cs) (hm : ∀ T ∈ T0 :: others, ∀ e, multiplicity ev T e < cs) :
    ∃ out, mergeClusterData ev T0 others cs = .ok out ∧
      (out.map Prod.fst).Pairwise (· ≤ ·) ∧
      ∀ (k : Nat) (T : List C), (T0 :: others)[k]? = some T → ∀ e, (∃ x ∈ T0, e ≤ ev x) →
        cellsOfEvent out k e = T.filter fun x => decide (ev x = e) := by
  rcases C14_merged_table T0 others hs0 hs cs hcs with ⟨out, h1, events, rfl, h2, h3⟩ | ⟨-, T, hT, e, he⟩
  · refine ⟨_, h1, ?_, ?_⟩
    · have : (rowsFor ev (T0 :: others) events).map Prod.fst = events := by
        unfold rowsFor
        rw [List.map_map]
        simp [Function.comp_def, List.zipIdx_map_fst]
      rw [this]
      exact h2
    · intro k T hT e hx
      have hc := h3 e
      rw [if_pos hx] at hc
      unfold cellsOfEvent rowsFor
      rw [List.filter_map, List.filterMap_map]
      have e1 : (events.zipIdx.filter ((fun r : Int × List (Option C) => decide (r.1 = e)) ∘ fun p =>
          (p.1, (T0 :: others).map fun T => nthOfEvent ev T p.1 ((events.take p.2).count p.1))))
          = events.zipIdx.filter fun p => decide (p.1 = e) := rfl
      rw [e1]
      have e2 : ((events.zipIdx.filter fun p => decide (p.1 = e)).filterMap
          ((fun r : Int × List (Option C) => (r.2[k]?).getD none) ∘ fun p =>
          (p.1, (T0 :: others).map fun T => nthOfEvent ev T p.1 ((events.take p.2).count p.1))))
          = (((events.zipIdx.filter fun p => decide (p.1 = e)).map fun p => (events.take p.2).count p.1).filterMap
            fun m => (T.filter fun x => decide (ev x = e))[m]?) := by
        rw [List.filterMap_map]
        apply List.filterMap_congr
        intro p hp
        have hpe : p.1 = e := by simpa using (List.mem_filter.mp hp).2
        simp only [Function.comp, List.getElem?_map, hT, Option.map_some, Option.getD_some]
        unfold nthOfEvent
        rw [hpe]
      rw [e2, ranks, range_filterMap, List.take_of_length_le]
      rw [hc]
      have hmem : T ∈ T0 :: others := List.mem_of_getElem? hT
      show multiplicity ev T e ≤ _
      unfold maxMultiplicity
      exact le_foldl_max_mem _ _ _ (List.mem_map_of_mem hmem)
  · exact absurd (hm T hT e) (by omega)

/-- C14 is false for the complete tables: clusters of events after the last event of DUT 0 are lost, for all tables. -/
theorem C14_later_events_lost (T0 : List C) (others : List (List C)) (hs0 : SortedBy ev T0)
    (hs : ∀ T ∈ others, SortedBy ev T) (cs : Nat) (hcs : 0 < cs) (out : List (Int × List (Option C)))
    (h : mergeClusterData ev T0 others cs = .ok out) (e : Int) (he : ∀ x ∈ T0, ev x < e) (k : Nat) :
    cellsOfEvent out k e = [] := by
  rcases C14_merged_table T0 others hs0 hs cs hcs with ⟨out', h1, events, rfl, h2, h3⟩ | ⟨h1, -⟩
  · rw [h1] at h
    cases h
    have hc := h3 e
    rw [if_neg (by rintro ⟨x, hx, hex⟩; have := he x hx; omega)] at hc
    unfold cellsOfEvent
    rw [List.filter_eq_nil_iff.mpr, List.filterMap_nil]
    intro r hr
    unfold rowsFor at hr
    obtain ⟨p, hp, rfl⟩ := List.mem_map.mp hr
    simp only [decide_eq_true_eq]
    intro hpe
    obtain ⟨b, m⟩ := p
    rw [List.mem_zipIdx_iff_getElem?] at hp
    have := List.mem_of_getElem? hp
    simp only at hpe this
    rw [hpe] at this
    have := List.count_pos_iff.mpr this
    omega
  · rw [h1] at h; cases h

/-- Two DUTs, chunk size 3: the clusters up to event 7 are merged, the one of event 9 is lost. -/
example : let T0 : List (Int × Nat) := [(1, 10), (1, 11), (4, 12), (7, 13)]
    let T1 : List (Int × Nat) := [(0, 20), (1, 21), (4, 22), (4, 23), (9, 24)]
    ∃ out, mergeClusterData Prod.fst T0 [T1] 3 = .ok out ∧ cellsOfEvent out 1 4 = [(4, 22), (4, 23)] ∧
      cellsOfEvent out 0 4 = [(4, 12)] ∧ cellsOfEvent out 1 9 = [] := by
  intro T0 T1
  have hs0 : SortedBy Prod.fst T0 := by simp [SortedBy, T0]
  have hs1 : ∀ T ∈ [T1], SortedBy Prod.fst T := by simp [SortedBy, T1]
  obtain ⟨out, h1, -, h2⟩ := C14_every_cluster_once_partial T0 [T1] hs0 hs1 3 (by omega) (by
    intro T hT e
    by_contra hc
    have : ∀ e ∈ T.map Prod.fst, multiplicity Prod.fst T e < 3 := by
      rcases List.mem_cons.mp hT with rfl | hT
      · decide
      · rcases List.mem_cons.mp hT with rfl | hT
        · decide
        · cases hT
    have hz : multiplicity Prod.fst T e ≠ 0 := by omega
    have := this e (by
      by_contra hn
      apply hz
      unfold multiplicity
      rw [List.length_eq_zero_iff, List.filter_eq_nil_iff]
      intro x hx
      rw [decide_eq_true_eq]
      intro h
      exact hn (h ▸ List.mem_map_of_mem hx))
    omega)
  refine ⟨out, h1, ?_, ?_, ?_⟩
  · rw [h2 1 T1 rfl 4 ⟨(4, 12), by decide, by decide⟩]; decide
  · rw [h2 0 T0 rfl 4 ⟨(4, 12), by decide, by decide⟩]; decide
  · exact C14_later_events_lost T0 [T1] hs0 hs1 3 (by omega) out h1 9 (by decide) 1

end BTA.Merge.Props
