import Verif.Model.ChunkReader
import Verif.Lemmas.EventScan

namespace BTA
open Spec

variable {α : Type} {ev : α → Int} {T : List α}

theorem readRows_sorted (h : SortedBy ev T) (a b : Nat) : SortedBy ev (readRows T a b) :=
  List.Pairwise.sublist ((List.drop_sublist _ _).trans (List.take_sublist _ _)) h

theorem readRows_length (T : List α) (a b : Nat) : (readRows T a b).length = min b T.length - a := by
  simp [readRows]

/-- reading a shorter range gives a prefix -/
theorem readRows_take (T : List α) (a b c : Nat) (h : a + c ≤ b) :
    readRows T a (a + c) = (readRows T a b).take c := by
  unfold readRows
  rw [List.take_drop, List.take_take, Nat.min_eq_left h]

theorem readRows_drop (T : List α) (a b c : Nat) :
    (readRows T a b).drop c = readRows T (a + c) b := by
  unfold readRows
  rw [List.drop_drop]

theorem readRows_full (T : List α) (a : Nat) : readRows T a T.length = T.drop a := by
  unfold readRows
  rw [List.take_length]

/-- the rows below the first chunk border -/
theorem chunk_eq (T : List α) (cur cs stop : Nat) :
    readRows T cur (min (cur + cs) stop) = (readRows T cur stop).take cs := by
  by_cases h : cur + cs ≤ stop
  · rw [Nat.min_eq_left h, readRows_take T cur stop cs h]
  · rw [Nat.min_eq_right (by omega), List.take_of_length_le]
    rw [readRows_length]; omega

theorem searchsorted_le (l : List Int) (v : Int) : searchsortedLeft l v ≤ l.length := by
  unfold searchsortedLeft
  exact (List.takeWhile_sublist _).length_le

theorem searchsorted_map (l : List α) (v : Int) :
    searchsortedLeft (l.map ev) v = (l.takeWhile fun x => decide (ev x < v)).length := by
  unfold searchsortedLeft
  rw [List.takeWhile_map, List.length_map]; rfl

theorem take_searchsorted (l : List α) (v : Int) :
    l.take (searchsortedLeft (l.map ev) v) = l.takeWhile fun x => decide (ev x < v) := by
  rw [searchsorted_map]
  have h := List.takeWhile_append_dropWhile (p := fun x => decide (ev x < v)) (l := l)
  conv => lhs; arg 2; rw [← h]
  rw [List.take_left']
  rfl

theorem take_searchsorted_lt (l : List α) (v : Int) : ∀ x ∈ l.take (searchsortedLeft (l.map ev) v), ev x < v := by
  intro x hx
  rw [take_searchsorted] at hx
  have := List.all_takeWhile (p := fun x => decide (ev x < v)) (l := l)
  rw [List.all_eq_true] at this
  simpa using this x hx

theorem drop_searchsorted_ge (hs : SortedBy ev T) (v : Int) :
    ∀ x ∈ T.drop (searchsortedLeft (T.map ev) v), v ≤ ev x := by
  intro x hx
  rw [searchsorted_map, drop_takeWhile_length, dropWhile_lt_sorted hs] at hx
  simpa using (List.mem_filter.mp hx).2

/-- Rows behind the chunk's delivered part, given in terms of the remaining rows `R`: searchsorted on a prefix. -/
theorem drop_searchsorted_take_ge {R : List α} (hs : SortedBy ev R) (cs : Nat) (v : Int)
    (hlast : ∃ x ∈ R.take cs, v ≤ ev x) :
    ∀ x ∈ R.drop (searchsortedLeft ((R.take cs).map ev) v), v ≤ ev x := by
  have hst : SortedBy ev (R.take cs) := List.Pairwise.sublist (List.take_sublist _ _) hs
  intro x hx
  have hle : searchsortedLeft ((R.take cs).map ev) v ≤ (R.take cs).length := by
    have := searchsorted_le ((R.take cs).map ev) v
    simpa using this
  conv at hx => arg 1; arg 2; rw [← List.take_append_drop cs R]
  rw [List.drop_append_of_le_length hle, List.mem_append] at hx
  rcases hx with h | h
  · exact drop_searchsorted_ge hst v x h
  · obtain ⟨y, hy, hvy⟩ := hlast
    have : ev y ≤ ev x := by
      have hp := hs
      unfold SortedBy at hp
      rw [← List.take_append_drop cs R, List.pairwise_append] at hp
      exact hp.2.2 y hy x h
    omega

theorem mem_head?_le (hs : SortedBy ev T) {f : α} (hf : T.head? = some f) : ∀ x ∈ T, ev f ≤ ev x := by
  cases T with
  | nil => simp at hf
  | cons a r =>
    simp at hf
    subst hf
    intro x hx
    rcases List.mem_cons.mp hx with h | h
    · subst h; omega
    · exact (List.pairwise_cons.mp hs).1 x h

theorem mem_getLast?_ge (hs : SortedBy ev T) {l : α} (hl : T.getLast? = some l) : ∀ x ∈ T, ev x ≤ ev l := by
  obtain ⟨r, rfl⟩ := List.getLast?_eq_some_iff.mp hl
  intro x hx
  unfold SortedBy at hs
  rw [List.pairwise_append] at hs
  rcases List.mem_append.mp hx with h | h
  · exact hs.2.2 x h l (by simp)
  · simp at h; subst h; omega

theorem getLast?_mem {l : α} (h : T.getLast? = some l) : l ∈ T := List.mem_of_getLast? h

theorem getLast?_drop {l : α} (h : T.getLast? = some l) (k : Nat) (hk : k < T.length) :
    (T.drop k).getLast? = some l := by
  rw [List.getLast?_drop, if_neg (by omega)]; exact h

end BTA
