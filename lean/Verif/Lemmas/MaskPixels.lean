import Verif.Spec.MaskPixels
import Mathlib.Data.List.Sort
import Mathlib.Tactic.Ring

/-! Lemmas for C46: median filter and the loop of the noisy pixel search. -/

namespace BTA.Mask
open Spec

theorem median_spec (l : List Int) (hl : l ≠ []) : IsMedian l (median l) := by
  have hpos : 0 < l.length := List.length_pos_iff.mpr hl
  set S := l.insertionSort (· ≤ ·) with hS
  have hperm : S.Perm l := List.perm_insertionSort _ l
  have hlen : S.length = l.length := hperm.length_eq
  have hsort : S.Pairwise (· ≤ ·) := List.pairwise_insertionSort _ l
  have hr : l.length / 2 < S.length := by rw [hlen]; omega
  have hb : median l = S[l.length / 2] := by
    unfold median
    rw [← hS, List.getElem?_eq_getElem hr]; rfl
  have hget := List.pairwise_iff_getElem.mp hsort
  have hle : ∀ i (h : i < S.length), i ≤ l.length / 2 → S[i] ≤ median l := by
    intro i h hi
    rcases Nat.lt_or_eq_of_le hi with h1 | h1
    · rw [hb]; exact hget i _ h hr h1
    · subst h1; rw [hb]
  have hge : ∀ i (h : i < S.length), l.length / 2 ≤ i → median l ≤ S[i] := by
    intro i h hi
    rcases Nat.lt_or_eq_of_le hi with h1 | h1
    · rw [hb]; exact hget _ i hr h h1
    · subst h1; rw [hb]
  refine ⟨?_, ?_, ?_⟩
  · rw [hb]; exact hperm.mem_iff.mp (List.getElem_mem hr)
  · rw [← (hperm.filter _).length_eq]
    have hsplit : S = S.take (l.length / 2) ++ S.drop (l.length / 2) := (List.take_append_drop _ _).symm
    rw [hsplit, List.filter_append, List.length_append]
    have h0 : (S.drop (l.length / 2)).filter (fun x => decide (x < median l)) = [] := by
      rw [List.filter_eq_nil_iff]
      intro x hx
      obtain ⟨i, hi, rfl⟩ := List.mem_iff_getElem.mp hx
      rw [List.getElem_drop]
      have := hge (l.length / 2 + i) (by rw [List.length_drop] at hi; omega) (by omega)
      simp only [decide_eq_true_eq]; omega
    rw [h0]
    have := List.length_filter_le (fun x => decide (x < median l)) (S.take (l.length / 2))
    rw [List.length_take] at this
    simp only [List.length_nil]; omega
  · rw [← (hperm.filter _).length_eq]
    have hsplit : S = S.take (l.length / 2 + 1) ++ S.drop (l.length / 2 + 1) := (List.take_append_drop _ _).symm
    rw [hsplit, List.filter_append, List.length_append]
    have h0 : (S.take (l.length / 2 + 1)).filter (fun x => decide (x ≤ median l)) = S.take (l.length / 2 + 1) := by
      rw [List.filter_eq_self]
      intro x hx
      obtain ⟨i, hi, rfl⟩ := List.mem_iff_getElem.mp hx
      rw [List.getElem_take]
      have := hle i (by rw [List.length_take] at hi; omega) (by rw [List.length_take] at hi; omega)
      simpa using this
    rw [h0, List.length_take]; omega

variable {K : Type}

theorem mem_pixels (s : Setup K) (p : Nat × Nat) : p ∈ s.pixels ↔ IsPixel s p := by
  obtain ⟨i, j⟩ := p
  simp only [Setup.pixels, List.mem_flatMap, List.mem_range, List.mem_map, Prod.mk.injEq, IsPixel]
  constructor
  · rintro ⟨a, h1, b, h2, rfl, rfl⟩; exact ⟨h1, h2⟩
  · rintro ⟨h1, h2⟩; exact ⟨i, h1, j, h2, rfl, rfl⟩

theorem pixels_length (s : Setup K) : s.pixels.length = s.nx * s.ny := by
  simp [Setup.pixels, List.length_flatMap]

/-- Window of the code and neighbourhood of the specification. -/
theorem window_eq (s : Setup K) (a : Img) (p : Nat × Nat) : s.window a p = neighbours s a p := by
  unfold Setup.window neighbours offsets
  rw [List.flatMap_map]
  congr 1
  funext k
  rw [List.map_map]
  congr 1
  funext l
  simp only [Function.comp, Setup.entry]
  by_cases h : s.size.1 / 2 ≤ p.1 + k ∧ p.1 + k - s.size.1 / 2 < s.nx ∧ s.size.2 / 2 ≤ p.2 + l ∧ p.2 + l - s.size.2 / 2 < s.ny
  · rw [if_pos h, if_pos (by omega)]
    congr 1
    apply Prod.ext <;> dsimp only <;> omega
  · rw [if_neg h, if_neg (by omega)]

theorem neighbours_ne_nil (s : Setup K) (a : Img) (p : Nat × Nat) (h1 : 0 < s.size.1) (h2 : 0 < s.size.2) :
    neighbours s a p ≠ [] := by
  intro h
  have := congrArg List.length h
  simp [neighbours, List.length_flatMap] at this
  omega

theorem neighbours_mem {s : Setup K} {a : Img} {p : Nat × Nat} {v : Int} (h : v ∈ neighbours s a p) :
    v = 0 ∨ ∃ q, IsPixel s q ∧ v = a q := by
  simp only [neighbours, List.mem_flatMap, List.mem_range, List.mem_map] at h
  obtain ⟨k, -, l, -, rfl⟩ := h
  split
  · next hc => exact .inr ⟨_, ⟨hc.2.1, hc.2.2.2⟩, rfl⟩
  · exact .inl rfl

theorem neighbours_congr {s : Setup K} {a b : Img} (h : ∀ q, IsPixel s q → a q = b q) (p : Nat × Nat) :
    neighbours s a p = neighbours s b p := by
  unfold neighbours
  congr 1
  funext k
  congr 1
  funext l
  split
  · next hc => exact h _ ⟨hc.2.1, hc.2.2.2⟩
  · rfl

/-- Counts which fit into int32. -/
def Small (s : Setup K) (a : Img) : Prop := ∀ p, IsPixel s p → 0 ≤ a p ∧ a p < 2 ^ 31

theorem blur_median {s : Setup K} {a : Img} (h1 : 0 < s.size.1) (h2 : 0 < s.size.2) (ha : Small s a) (p : Nat × Nat) :
    IsMedian (neighbours s a p) (s.blur a p) := by
  unfold Setup.blur
  rw [window_eq, neighbours_congr (a := fun q => toInt32 (a q)) (b := a)]
  · exact median_spec _ (neighbours_ne_nil s a p h1 h2)
  · intro q hq; exact if_pos (ha q hq).2

theorem blur_small {s : Setup K} {a : Img} (h1 : 0 < s.size.1) (h2 : 0 < s.size.2) (ha : Small s a) (p : Nat × Nat) :
    0 ≤ s.blur a p ∧ s.blur a p < 2 ^ 31 := by
  rcases neighbours_mem (blur_median h1 h2 ha p).1 with h | ⟨q, hq, h⟩
  · rw [h]; omega
  · rw [h]; exact ha q hq

variable [Field K] [LinearOrder K]

theorem noisy_iff (s : Setup K) (a : Img) (p : Nat × Nat) : s.noisy a p = true ↔ Exceeds s a (s.blur a) p := by
  unfold Setup.noisy Exceeds
  rw [Bool.and_eq_true, decide_eq_true_eq, decide_eq_true_eq]
  rfl

/-- State after `k` iterations. -/
def Setup.iter (s : Setup K) (st : State) : Nat → State
  | 0 => st
  | k + 1 => (s.step (s.iter st k)).1

theorem iter_shift (s : Setup K) (st : State) (k : Nat) : s.iter (s.step st).1 k = s.iter st (k + 1) := by
  induction k with
  | zero => rfl
  | succ k ih => rw [Setup.iter, ih]; rfl

theorem step_small {s : Setup K} {st : State} (h1 : 0 < s.size.1) (h2 : 0 < s.size.2) (ha : Small s st.occupancy) :
    Small s (s.step st).1.occupancy := by
  intro p hp
  simp only [Setup.step]
  split
  · have := blur_small h1 h2 ha p
    unfold toUInt32; omega
  · exact ha p hp

theorem iter_small {s : Setup K} {st : State} (h1 : 0 < s.size.1) (h2 : 0 < s.size.2) (ha : Small s st.occupancy) (k : Nat) :
    Small s (s.iter st k).occupancy := by
  induction k with
  | zero => exact ha
  | succ k ih => exact step_small h1 h2 ih

/-- The iterations are a search as specified. -/
theorem search_iter (s : Setup K) (counts : Img) (h1 : 0 < s.size.1) (h2 : 0 < s.size.2) (ha : Small s counts) :
    let st := s.iter ⟨counts, fun _ => false⟩
    Search s counts (fun k => (st k).occupancy) (fun k => s.blur (st k).occupancy) (fun k => {p | (st k).mask p = true}) := by
  intro st
  have hsm : ∀ k, Small s (st k).occupancy := fun k => iter_small (st := ⟨counts, fun _ => false⟩) h1 h2 ha k
  have hmask : ∀ k p, (st (k + 1)).mask p = true ↔ (st k).mask p = true ∨ s.noisy (st k).occupancy p = true := by
    intro k p
    show ((s.step (st k)).1).mask p = true ↔ _
    simp [Setup.step]
  have hocc : ∀ k p, (st (k + 1)).occupancy p =
      if (st (k + 1)).mask p then (toUInt32 (s.blur (st k).occupancy p) : Int) else (st k).occupancy p := fun k p => rfl
  refine ⟨rfl, ?_, ?_, ?_, ?_, ?_⟩
  · ext p; simp [st, Setup.iter]
  · intro k p _; exact blur_median h1 h2 (hsm k) p
  · intro k p _
    show _ = true ↔ _ = true ∨ _
    rw [hmask, noisy_iff]
  · intro k p _ hp
    show (st (k + 1)).occupancy p = _
    rw [hocc, if_pos (show (st (k + 1)).mask p = true from hp)]
    have := blur_small h1 h2 (hsm k) p
    unfold toUInt32; omega
  · intro k p _ hp
    show (st (k + 1)).occupancy p = _
    rw [hocc, if_neg (show ¬ (st (k + 1)).mask p = true from hp)]

/-- No new pixel. -/
theorem step_new (s : Setup K) (st : State) :
    (s.step st).2 = 0 ↔ ∀ p, IsPixel s p → s.noisy st.occupancy p = true → st.mask p = true := by
  simp only [Setup.step, List.length_eq_zero_iff, List.filter_eq_nil_iff, mem_pixels]
  apply forall_congr'; intro p
  apply imp_congr_right; intro _
  cases s.noisy st.occupancy p <;> cases st.mask p <;> simp

/-- The loop goes on after the iteration with number `i` (from 0) in the state `st`. -/
def Setup.Continues (s : Setup K) (i : Nat) (st : State) : Prop :=
  (s.step st).2 ≠ 0 ∧ ¬ (s.iterations ≠ 0 ∧ s.iterations ≤ i + 1)

theorem loop_spec {s : Setup K} {fuel i : Nat} {st : State} {mk : Bits} {n : Nat} (h : s.loop fuel i st = some (mk, n)) :
    ∃ j, n = i + j + 1 ∧ j < fuel ∧ mk = (s.iter st (j + 1)).mask ∧ (∀ l < j, s.Continues (i + l) (s.iter st l)) ∧
      ¬ s.Continues (i + j) (s.iter st j) := by
  induction fuel generalizing i st with
  | zero => simp [Setup.loop] at h
  | succ fuel ih =>
    rw [Setup.loop] at h
    split at h
    · next hc =>
      simp only [Option.some.injEq, Prod.mk.injEq] at h
      refine ⟨0, h.2.symm, by omega, h.1.symm, by omega, ?_⟩
      rintro ⟨h1, h2⟩
      rcases hc with hc | hc
      · exact h1 hc
      · exact h2 hc
    · next hc =>
      rw [not_or] at hc
      obtain ⟨j, rfl, h2, h3, h4, h5⟩ := ih h
      refine ⟨j + 1, by omega, by omega, by rw [h3, iter_shift], ?_, ?_⟩
      · intro l hl
        cases l with
        | zero => exact hc
        | succ l =>
          have := h4 l (by omega)
          rw [iter_shift] at this
          rwa [show i + (l + 1) = i + 1 + l by omega]
      · rw [iter_shift] at h5
        rwa [show i + (j + 1) = i + 1 + j by omega]

theorem loop_mono {s : Setup K} {fuel i : Nat} {st : State} {r : Bits × Nat} (h : s.loop fuel i st = some r) (k : Nat) :
    s.loop (fuel + k) i st = some r := by
  induction fuel generalizing i st with
  | zero => simp [Setup.loop] at h
  | succ fuel ih =>
    rw [show fuel + 1 + k = fuel + k + 1 by omega]
    rw [Setup.loop] at h ⊢
    split at h
    · next hc => rw [if_pos hc]; exact h
    · next hc => rw [if_neg hc]; exact ih h

/-- Number of pixels which are not masked. -/
def Setup.unmasked (s : Setup K) (st : State) : Nat := (s.pixels.filter fun p => !st.mask p).length

theorem unmasked_step {s : Setup K} {st : State} (h : (s.step st).2 ≠ 0) :
    s.unmasked (s.step st).1 < s.unmasked st := by
  have h0 := h
  rw [ne_eq, step_new] at h0
  push Not at h0
  obtain ⟨p, hp, hn, hm⟩ := h0
  unfold Setup.unmasked
  rw [← List.countP_eq_length_filter, ← List.countP_eq_length_filter]
  have hpm := (mem_pixels s p).mpr hp
  obtain ⟨l1, l2, hl⟩ := List.append_of_mem hpm
  rw [hl, List.countP_append, List.countP_append, List.countP_cons, List.countP_cons]
  have hle : ∀ l : List (Nat × Nat), l.countP (fun p => !(s.step st).1.mask p) ≤ l.countP fun p => !st.mask p := by
    intro l
    apply List.countP_mono_left
    intro q _ hq
    simp only [Setup.step, Bool.not_or, Bool.and_eq_true] at hq
    exact hq.1
  have e1 : (!(s.step st).1.mask p) = false := by simp [Setup.step, hn]
  have e2 : (!st.mask p) = true := by simp [hm]
  have := hle l1
  have := hle l2
  rw [e1, e2]
  simp only [Bool.false_eq_true, if_false, if_true]
  omega

theorem loop_ends (s : Setup K) (fuel i : Nat) (st : State) (h : s.unmasked st < fuel) : (s.loop fuel i st).isSome := by
  induction fuel generalizing i st with
  | zero => omega
  | succ fuel ih =>
    rw [Setup.loop]
    split
    · rfl
    · next hc =>
      rw [not_or] at hc
      exact ih _ _ (by have := unmasked_step hc.1; omega)

end BTA.Mask
