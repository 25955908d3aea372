import Verif.Model.EventArrays
import Verif.Spec.Events

namespace BTA
open Spec

/-! ### catchUp -/

theorem catchUp_ge (ev : β → Int) (d2 : List β) (e : Int) (i : Nat) : i ≤ catchUp ev d2 e i := by
  fun_induction catchUp ev d2 e i <;> omega

/-- Everything before the returned index is smaller than `e`, provided it was before the start index. -/
theorem catchUp_before (ev : β → Int) (d2 : List β) (e : Int) (i : Nat)
    (h : ∀ k (hk : k < d2.length), k < i → ev d2[k] < e) :
    ∀ k (hk : k < d2.length), k < catchUp ev d2 e i → ev d2[k] < e := by
  fun_induction catchUp ev d2 e i with
  | case1 i hi hlt ih =>
    apply ih
    intro k hk hki
    by_cases hk' : k = i
    · subst hk'; exact hlt
    · exact h k hk (by omega)
  | case2 i hi hlt => exact h
  | case3 i hi => exact h

theorem catchUp_at (ev : β → Int) (d2 : List β) (e : Int) (i : Nat) :
    ∀ (hk : catchUp ev d2 e i < d2.length), e ≤ ev d2[catchUp ev d2 e i] := by
  fun_induction catchUp ev d2 e i with
  | case1 i hi hlt ih => exact ih
  | case2 i hi hlt => intro _; omega
  | case3 i hi => intro hk; omega

/-! ### scanEqual -/

theorem scanEqual_eq_foldl (ev : β → Int) (e : Int) (f : σ → β → σ) (l : List β) (s : σ)
    (hs : SortedBy ev l) (hge : ∀ b ∈ l, e ≤ ev b) :
    scanEqual ev e f l s = (l.filter fun b => ev b = e).foldl f s := by
  induction l generalizing s with
  | nil => rfl
  | cons b rest ih =>
    have hs' := List.pairwise_cons.mp hs
    unfold scanEqual
    by_cases hb : e = ev b
    · rw [if_pos hb, ih _ hs'.2 (fun c hc => hge c (by simp [hc]))]
      simp [hb.symm]
    · rw [if_neg hb]
      have h0 : e < ev b := by
        have := hge b (by simp)
        omega
      have : (b :: rest).filter (fun b => decide (ev b = e)) = [] := by
        rw [List.filter_eq_nil_iff]
        intro c hc
        have hbc : ev b ≤ ev c := by
          rcases List.mem_cons.mp hc with h | h
          · subst h; omega
          · exact hs'.1 c h
        simp; omega
      rw [this]; rfl

theorem filter_drop_of_before (p : β → Bool) (l : List β) (i : Nat)
    (h : ∀ k (hk : k < l.length), k < i → p l[k] = false) :
    (l.drop i).filter p = l.filter p := by
  conv => rhs; rw [← List.take_append_drop i l, List.filter_append]
  have : (l.take i).filter p = [] := by
    rw [List.filter_eq_nil_iff]
    intro a ha
    rcases List.mem_iff_getElem.mp ha with ⟨k, hk, rfl⟩
    simp at hk
    simp [h k (by omega) (by omega)]
  rw [this]; rfl

theorem sorted_drop {ev : β → Int} {l : List β} (h : SortedBy ev l) (i : Nat) : SortedBy ev (l.drop i) :=
  List.Pairwise.sublist (List.drop_sublist i l) h

theorem sorted_getElem {ev : β → Int} {l : List β} (h : SortedBy ev l) {i j : Nat} (hi : i < l.length)
    (hj : j < l.length) (hij : i ≤ j) : ev l[i] ≤ ev l[j] := by
  by_cases he : i = j
  · subst he; omega
  · exact List.pairwise_iff_getElem.mp h i j hi hj (by omega)

/-- From index `i` on all elements are `≥ e` if the element at `i` is. -/
theorem sorted_drop_ge {ev : β → Int} {l : List β} (h : SortedBy ev l) (i : Nat) (e : Int)
    (hi : ∀ (hk : i < l.length), e ≤ ev l[i]) : ∀ b ∈ l.drop i, e ≤ ev b := by
  intro b hb
  rcases List.mem_iff_getElem.mp hb with ⟨k, hk, rfl⟩
  simp at hk
  have h1 := hi (by omega)
  have h2 := sorted_getElem h (i := i) (j := i + k) (by omega) (by omega) (by omega)
  simp
  omega

/-- The loop nest visits exactly the pairs of the join, in order. -/
theorem eventLoop_eq (ev1 : α → Int) (ev2 : β → Int) (d2 : List β) (f : σ → α → β → σ)
    (d1 : List α) (i : Nat) (s : σ) (h1 : SortedBy ev1 d1) (h2 : SortedBy ev2 d2)
    (hbefore : ∀ a ∈ d1, ∀ k (hk : k < d2.length), k < i → ev2 d2[k] < ev1 a) :
    eventLoop ev1 ev2 d2 f d1 i s = (join ev1 ev2 d1 d2).foldl (fun s p => f s p.1 p.2) s := by
  induction d1 generalizing i s with
  | nil => rfl
  | cons a rest ih =>
    have h1' := List.pairwise_cons.mp h1
    have hb := catchUp_before ev2 d2 (ev1 a) i (hbefore a (by simp))
    have hat := catchUp_at ev2 d2 (ev1 a) i
    unfold eventLoop
    simp only []
    rw [ih _ _ h1'.2]
    · rw [scanEqual_eq_foldl _ _ _ _ _ (sorted_drop h2 _) (sorted_drop_ge h2 _ _ hat)]
      rw [filter_drop_of_before]
      · unfold join
        rw [List.flatMap_cons, List.foldl_append, List.foldl_map]
      · intro k hk hki
        have := hb k hk hki
        simp; omega
    · intro c hc k hk hki
      have := hb k hk hki
      have := h1'.1 c hc
      omega

/-! ### filling preallocated arrays -/

theorem set_append_replicate (done : List γ) (n : Nat) (z x : γ) :
    (done ++ List.replicate (n + 1) z).set done.length x = (done ++ [x]) ++ List.replicate n z := by
  rw [List.set_append_right _ _ (Nat.le_refl _)]
  simp [List.replicate_succ]

theorem mergeFill (l : List (α × β)) (z1 : α) (z2 : β) (d1 : List α) (d2 : List β) :
    l.foldl (fun (s : MergeState α β) p =>
      ⟨s.result1.set s.index1 p.1, s.result2.set s.index2 p.2, s.index1 + 1, s.index2 + 1⟩)
      ⟨d1 ++ List.replicate l.length z1, d2 ++ List.replicate l.length z2, d1.length, d2.length⟩
    = ⟨d1 ++ l.map Prod.fst, d2 ++ l.map Prod.snd, d1.length + l.length, d2.length + l.length⟩ := by
  induction l generalizing d1 d2 with
  | nil => simp
  | cons p rest ih =>
    rw [List.foldl_cons]
    simp only [List.length_cons, set_append_replicate]
    have := ih (d1 ++ [p.1]) (d2 ++ [p.2])
    simp only [List.length_append, List.length_cons, List.length_nil] at this
    rw [this]
    simp
    omega

theorem foldl_count (l : List γ) (n : Nat) : l.foldl (fun n _ => n + 1) n = n + l.length := by
  induction l generalizing n with
  | nil => rfl
  | cons a r ih => simp [ih]; omega

/-! ### histograms -/

theorem Hist2.inc_apply (h : Hist2) (i j a b : Nat) :
    h.inc i j a b = h a b + if i = a ∧ j = b then 1 else 0 := by
  unfold Hist2.inc
  by_cases hh : a = i ∧ b = j
  · rw [if_pos hh, if_pos ⟨hh.1.symm, hh.2.symm⟩]
  · rw [if_neg hh, if_neg (fun c => hh ⟨c.1.symm, c.2.symm⟩)]; rfl

theorem foldl_inc (l : List γ) (fx fy gx gy : γ → Nat) (s : Hist2 × Hist2) (a b : Nat) :
    (l.foldl (fun (s : Hist2 × Hist2) p => (s.1.inc (fx p) (gx p), s.2.inc (fy p) (gy p))) s).1 a b
      = s.1 a b + l.countP (fun p => decide (fx p = a ∧ gx p = b)) ∧
    (l.foldl (fun (s : Hist2 × Hist2) p => (s.1.inc (fx p) (gx p), s.2.inc (fy p) (gy p))) s).2 a b
      = s.2 a b + l.countP (fun p => decide (fy p = a ∧ gy p = b)) := by
  induction l generalizing s with
  | nil => simp
  | cons p r ih =>
    rw [List.foldl_cons, (ih _).1, (ih _).2]
    simp only [Hist2.inc_apply, List.countP_cons, decide_eq_true_eq]
    omega

theorem countP_flatMap' (l : List α) (f : α → List β) (p : β → Bool) :
    (l.flatMap f).countP p = (l.map fun a => (f a).countP p).sum := by
  induction l with
  | nil => rfl
  | cons a r ih => simp [List.flatMap_cons, List.countP_append, ih]

theorem countP_join (ev1 : α → Int) (ev2 : β → Int) (d1 : List α) (d2 : List β) (P : α → β → Bool) :
    (join ev1 ev2 d1 d2).countP (fun p => P p.1 p.2)
      = pairCount d1 d2 (fun a b => decide (ev1 a = ev2 b) && P a b) := by
  unfold join pairCount
  rw [countP_flatMap', countP_flatMap']
  congr 1
  apply List.map_congr_left
  intro a _
  rw [List.countP_map, List.countP_map, List.countP_filter]
  apply List.countP_congr
  intro b _
  simp only [Function.comp, Bool.and_eq_true, decide_eq_true_eq]
  constructor
  · rintro ⟨h, h'⟩; exact ⟨h'.symm, h⟩
  · rintro ⟨h, h'⟩; exact ⟨h', h.symm⟩

end BTA
