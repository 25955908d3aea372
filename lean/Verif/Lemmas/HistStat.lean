import Verif.Model.HistStat
import Verif.Lemmas.Binning
import Mathlib.Tactic.Linarith
import Mathlib.Tactic.Ring
import Mathlib.Tactic.FieldSimp
import Mathlib.Tactic.Positivity
import Mathlib.Tactic.Push
/-
Lemmas about histograms and peaks.
-/
namespace BTA.HistStat
open BTA.Binning BTA.Spec

section
variable {K : Type} [Field K] [LinearOrder K]

omit [LinearOrder K] in
theorem centres_get : ∀ (x : List K) (i : Nat) (c : K), (centres x)[i]? = some c ↔
    ∃ a b, x[i]? = some a ∧ x[i + 1]? = some b ∧ c = (b + a) / 2
  | [], i, c => by simp [centres]
  | [a], i, c => by simp [centres]
  | a :: b :: es, 0, c => by
    simp only [centres, List.getElem?_cons_zero, List.getElem?_cons_succ, Option.some.injEq]
    constructor
    · rintro rfl; exact ⟨a, b, rfl, rfl, rfl⟩
    · rintro ⟨_, _, rfl, rfl, rfl⟩; rfl
  | a :: b :: es, i + 1, c => by
    simp only [centres, List.getElem?_cons_succ]
    exact centres_get (b :: es) i c

omit [LinearOrder K] in
theorem centres_length : ∀ x : List K, (centres x).length = x.length - 1
  | [] => rfl
  | [a] => rfl
  | a :: b :: es => by
    have := centres_length (b :: es)
    simp only [centres, List.length_cons] at this ⊢
    omega

theorem changes_nil : ∀ (g : List Bool) (k : Nat), changes g k = [] → ∀ i, i < g.length → g[i]? = g[0]?
  | [], k, _, i, hi => by simp at hi
  | [a], k, _, i, hi => by
    simp at hi
    rw [hi]
  | a :: b :: l, k, h, i, hi => by
    unfold changes at h
    split at h
    · cases h
    · rename_i hab
      have ih := changes_nil (b :: l) (k + 1) h
      cases i with
      | zero => rfl
      | succ i =>
        rw [List.getElem?_cons_succ, ih i (by simpa using hi)]
        simp at hab
        simp [hab]

theorem changes_head : ∀ (g : List Bool) (k f : Nat), (changes g k).head? = some f →
    ∃ j, f = k + j ∧ j + 1 < g.length ∧ g[j]? ≠ g[j + 1]? ∧ ∀ i, i ≤ j → g[i]? = g[0]?
  | [], k, f, h => by simp [changes] at h
  | [a], k, f, h => by simp [changes] at h
  | a :: b :: l, k, f, h => by
    unfold changes at h
    split at h
    · rename_i hab
      simp only [List.head?_cons, Option.some.injEq] at h
      refine ⟨0, h.symm, by simp, by simpa using hab, fun i hi => by rw [Nat.le_zero.mp hi]⟩
    · rename_i hab
      simp at hab
      obtain ⟨j, h1, h2, h3, h4⟩ := changes_head (b :: l) (k + 1) f h
      refine ⟨j + 1, by omega, by simpa using h2, by simpa using h3, fun i hi => ?_⟩
      cases i with
      | zero => rfl
      | succ i =>
        rw [List.getElem?_cons_succ, h4 i (by omega)]
        simp [hab]

theorem changes_last : ∀ (g : List Bool) (k l : Nat), (changes g k).getLast? = some l →
    ∃ j, l = k + j ∧ j + 1 < g.length ∧ g[j]? ≠ g[j + 1]? ∧ ∀ i, j + 1 ≤ i → i < g.length → g[i]? = g[g.length - 1]?
  | [], k, f, h => by simp [changes] at h
  | [a], k, f, h => by simp [changes] at h
  | a :: b :: l, k, f, h => by
    have hlast : (a :: b :: l)[(a :: b :: l).length - 1]? = (b :: l)[(b :: l).length - 1]? := by simp
    by_cases hn : changes (b :: l) (k + 1) = []
    · unfold changes at h
      split at h
      · rename_i hab
        rw [hn] at h
        simp only [List.getLast?_singleton, Option.some.injEq] at h
        have h0 := changes_nil _ _ hn
        refine ⟨0, h.symm, by simp, by simpa using hab, fun i hi hlt => ?_⟩
        obtain ⟨i, rfl⟩ : ∃ j, i = j + 1 := ⟨i - 1, by omega⟩
        rw [hlast, List.getElem?_cons_succ, h0 i (by simpa using hlt), ← h0 ((b :: l).length - 1) (by simp)]
      · rw [hn] at h
        cases h
    · have h' : (changes (b :: l) (k + 1)).getLast? = some f := by
        unfold changes at h
        split at h
        · rw [List.getLast?_cons_of_ne_nil hn] at h
          exact h
        · exact h
      obtain ⟨j, h1, h2, h3, h4⟩ := changes_last (b :: l) (k + 1) f h'
      refine ⟨j + 1, by omega, by simpa using h2, by simpa using h3, fun i hi hlt => ?_⟩
      obtain ⟨i, rfl⟩ : ∃ j, i = j + 1 := ⟨i - 1, by omega⟩
      rw [hlast, List.getElem?_cons_succ]
      exact h4 i (by omega) (by simpa using hlt)

variable [IsStrictOrderedRing K]

omit [Field K] [IsStrictOrderedRing K] in
theorem argmaxFrom_spec : ∀ (xs pre : List K) (at' : Nat) (h : at' < pre.length), (∀ k (hk : k < pre.length), pre[k] ≤ pre[at']) →
    ∃ hr : argmaxFrom xs pre.length at' pre[at'] < (pre ++ xs).length,
      ∀ k (hk : k < (pre ++ xs).length), (pre ++ xs)[k] ≤ (pre ++ xs)[argmaxFrom xs pre.length at' pre[at']]
  | [], pre, at', h, h1 => by
    refine ⟨by simpa [argmaxFrom] using h, fun k hk => ?_⟩
    simp only [argmaxFrom, List.append_nil] at hk ⊢
    exact h1 k hk
  | x :: xs, pre, at', h, h1 => by
    have hlen : (pre ++ [x]).length = pre.length + 1 := by simp
    by_cases hx : pre[at'] < x
    · have e : argmaxFrom (x :: xs) pre.length at' pre[at'] =
          argmaxFrom xs (pre ++ [x]).length pre.length ((pre ++ [x])[pre.length]'(by simp)) := by
        simp [argmaxFrom, hx]
      have ih := argmaxFrom_spec xs (pre ++ [x]) pre.length (by simp) (by
        intro k hk
        rw [hlen] at hk
        rcases Nat.lt_or_ge k pre.length with hk2 | hk2
        · rw [List.getElem_append_left hk2]
          simpa using (h1 k hk2).trans hx.le
        · have : k = pre.length := by omega
          subst this
          exact le_rfl)
      simp only [List.append_assoc, List.singleton_append] at ih
      simp only [e]
      exact ih
    · have e : argmaxFrom (x :: xs) pre.length at' pre[at'] =
          argmaxFrom xs (pre ++ [x]).length at' ((pre ++ [x])[at']'(by rw [hlen]; omega)) := by
        simp [argmaxFrom, hx, List.getElem_append_left h]
      have ih := argmaxFrom_spec xs (pre ++ [x]) at' (by rw [hlen]; omega) (by
        intro k hk
        rw [hlen] at hk
        rcases Nat.lt_or_ge k pre.length with hk2 | hk2
        · rw [List.getElem_append_left hk2, List.getElem_append_left h]
          exact h1 k hk2
        · have : k = pre.length := by omega
          subst this
          rw [List.getElem_append_left h]
          simpa using not_lt.mp hx)
      simp only [List.append_assoc, List.singleton_append] at ih
      simp only [e]
      exact ih

omit [Field K] [IsStrictOrderedRing K] in
theorem argmax_spec (l : List K) (h : l ≠ []) : ∃ hr : argmax l < l.length, ∀ k (hk : k < l.length), l[k] ≤ l[argmax l] := by
  cases l with
  | nil => exact absurd rfl h
  | cons x xs =>
    have := argmaxFrom_spec xs [x] 0 (by simp) (by
      intro k hk
      simp at hk
      subst hk
      exact le_rfl)
    exact this

end

theorem sum_map_range_counts (bin : ℝ → Option Nat) (f : Nat → ℝ) (n : Nat) : ∀ (vs : List ℝ), (∀ v ∈ vs, ∃ i, i < n ∧ bin v = some i) →
    ((List.range n).map fun i => (counts bin vs i : ℝ) * f i).sum = (vs.map fun v => f ((bin v).getD 0)).sum
  | [], _ => by simp [counts]
  | v :: vs, h => by
    obtain ⟨j, hj, hb⟩ := h v List.mem_cons_self
    have ih := sum_map_range_counts bin f n vs fun w hw => h w (List.mem_cons_of_mem _ hw)
    have e : ∀ i, (counts bin (v :: vs) i : ℝ) * f i = (if i = j then f i else 0) + (counts bin vs i : ℝ) * f i := by
      intro i
      unfold counts
      rw [List.countP_cons, hb]
      by_cases hij : i = j
      · simp [hij]; ring
      · have : ¬ j = i := fun h => hij h.symm
        simp [hij, this]
    simp only [e]
    rw [List.sum_map_add, ih, List.map_cons, List.sum_cons, hb, Option.getD_some]
    congr 1
    have : ((List.range n).map fun i => if i = j then f i else 0).sum = ((List.range n).map fun i => if i = j then f j else 0).sum := by
      congr 1
      refine List.map_congr_left fun i _ => ?_
      split
      · rename_i h; rw [h]
      · rfl
    rw [this, List.sum_map_ite_eq]
    simp [List.count_range, hj]

end BTA.HistStat
