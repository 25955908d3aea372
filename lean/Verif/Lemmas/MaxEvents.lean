import Verif.Lemmas.EventScan

namespace BTA

theorem runLength_le (v : Int) (l : List Int) : runLength v l ≤ l.length := by
  induction l with
  | nil => simp [runLength]
  | cons a r ih => unfold runLength; split <;> simp <;> omega

theorem runLength_eq_count (v : Int) (l : List Int) (hs : l.Pairwise (· ≤ ·)) (hv : ∀ a ∈ l, v ≤ a) :
    runLength v l = l.count v := by
  induction l with
  | nil => rfl
  | cons a r ih =>
    have hs' := List.pairwise_cons.mp hs
    unfold runLength
    by_cases ha : a = v
    · rw [if_pos ha, ih hs'.2 (fun c hc => hv c (by simp [hc]))]
      simp [ha]
    · rw [if_neg ha]
      symm
      rw [List.count_eq_zero]
      intro hm
      rcases List.mem_cons.mp hm with h | h
      · exact ha h.symm
      · have := hs'.1 v h
        have := hv a (by simp)
        omega

/-- after dropping the leading run of `v` all elements are larger -/
theorem drop_runLength_gt (v : Int) (l : List Int) (hs : l.Pairwise (· ≤ ·)) (hv : ∀ a ∈ l, v ≤ a) :
    ∀ a ∈ l.drop (runLength v l), v < a := by
  induction l with
  | nil => simp
  | cons a r ih =>
    have hs' := List.pairwise_cons.mp hs
    unfold runLength
    by_cases ha : a = v
    · rw [if_pos ha]
      simpa using ih hs'.2 (fun c hc => hv c (by simp [hc]))
    · rw [if_neg ha]
      intro c hc
      have h1 := hv a (by simp)
      rcases List.mem_cons.mp (by simpa using hc) with h | h
      · subst h; omega
      · have := hs'.1 c h; omega

theorem take_runLength_eq (v : Int) (l : List Int) :
    ∀ a ∈ l.take (runLength v l), a = v := by
  induction l with
  | nil => simp
  | cons a r ih =>
    unfold runLength
    by_cases ha : a = v
    · rw [if_pos ha]
      intro c hc
      rcases List.mem_cons.mp (by simpa using hc) with h | h
      · exact h.trans ha
      · exact ih c h
    · rw [if_neg ha]; simp

theorem runLength_pos (v : Int) (l : List Int) (h : l.head? = some v) : 0 < runLength v l := by
  cases l with
  | nil => simp at h
  | cons a r =>
    simp at h
    unfold runLength
    rw [if_pos h]; omega

/-- Description of one array relative to the loop variables: `i` elements are consumed, `f` is the actual
event number, `fin` the finished flag. -/
structure SideInv (arr : List Int) (last : Int) (f : Int) (i : Nat) (fin : Bool) : Prop where
  sorted : arr.Pairwise (· ≤ ·)
  lastEq : arr.getLast? = some last
  le : i ≤ arr.length
  fin_iff : fin = true ↔ i = arr.length
  head : ∀ h : i < arr.length, arr[i] = f
  /-- consumed elements are smaller than the remaining ones -/
  split : ∀ a ∈ arr.take i, ∀ b ∈ arr.drop i, a < b

theorem SideInv.rest_ge {arr last f i fin} (h : SideInv arr last f i fin) : ∀ a ∈ arr.drop i, f ≤ a := by
  intro a ha
  have hs : Spec.SortedBy id arr := h.sorted
  exact sorted_drop_ge hs i f (fun hk => by have := h.head hk; simp; omega) a ha

theorem SideInv.last_le {arr last f i fin} (h : SideInv arr last f i fin) : ∀ a ∈ arr, a ≤ last := by
  intro a ha
  rcases List.mem_iff_getElem.mp ha with ⟨k, hk, rfl⟩
  have hne : arr ≠ [] := by intro h0; simp [h0] at hk
  have hl : last = arr[arr.length - 1] := by
    have := h.lastEq
    rw [List.getLast?_eq_getElem?, List.getElem?_eq_getElem (by omega)] at this
    exact (Option.some.inj this).symm
  rw [hl]
  exact sorted_getElem (ev := id) h.sorted hk (by omega) (by omega)

theorem SideInv.last_mem {arr last f i fin} (h : SideInv arr last f i fin) : last ∈ arr :=
  List.mem_of_getLast? h.lastEq

/-- Consuming the run of the actual event number. -/
theorem SideInv.consume {arr last f i fin} (h : SideInv arr last f i fin) (hlt : i < arr.length) :
    SideInv arr last ((arr[i + runLength f (arr.drop i)]?).getD f) (i + runLength f (arr.drop i))
      (if f = last then true else fin) ∧
    runLength f (arr.drop i) = (arr.drop i).count f ∧ 0 < runLength f (arr.drop i) ∧
    (∀ b ∈ arr.drop (i + runLength f (arr.drop i)), f < b) ∧
    (∀ e, (arr.take (i + runLength f (arr.drop i))).count e
      = (arr.take i).count e + if e = f then runLength f (arr.drop i) else 0) := by
  have hds : (arr.drop i).Pairwise (· ≤ ·) := List.Pairwise.sublist (List.drop_sublist _ _) h.sorted
  have hcount := runLength_eq_count f (arr.drop i) hds h.rest_ge
  have hgt := drop_runLength_gt f (arr.drop i) hds h.rest_ge
  rw [List.drop_drop] at hgt
  have hlen := runLength_le f (arr.drop i)
  simp only [List.length_drop] at hlen
  have hpos : 0 < runLength f (arr.drop i) := by
    apply runLength_pos
    rw [List.head?_drop, List.getElem?_eq_getElem hlt, h.head hlt]
  have hfinfalse : fin = false := by
    cases hf : fin with
    | false => rfl
    | true => have := h.fin_iff.mp hf; omega
  have hfmem : f ∈ arr := by rw [← h.head hlt]; exact List.getElem_mem hlt
  have hfl := h.last_le f hfmem
  refine ⟨⟨h.sorted, h.lastEq, by omega, ?_, ?_, ?_⟩, hcount, hpos, hgt, ?_⟩
  · rw [hfinfalse]
    constructor
    · intro hh
      have hfe : f = last := by
        by_cases hh' : f = last
        · exact hh'
        · simp [hh'] at hh
      -- remaining elements would be larger than the last one
      by_cases hc : i + runLength f (arr.drop i) < arr.length
      · have hm : arr[i + runLength f (arr.drop i)] ∈ arr.drop (i + runLength f (arr.drop i)) := by
          rw [List.drop_eq_getElem_cons hc]; exact List.mem_cons_self
        have h1 := hgt _ hm
        have h2 := h.last_le _ (List.getElem_mem hc)
        omega
      · omega
    · intro hh
      -- the last element has been consumed in this run
      have hlm := h.last_mem
      have : f = last := by
        rcases List.mem_iff_getElem.mp hlm with ⟨k, hk, hkl⟩
        by_cases hki : k < i
        · have ha : arr[k] ∈ arr.take i := List.mem_take_iff_getElem.mpr ⟨k, by omega, rfl⟩
          have hb : f ∈ arr.drop i := by
            rw [List.drop_eq_getElem_cons hlt, h.head hlt]; simp
          have := h.split _ ha _ hb
          omega
        · have hmem : arr[k] ∈ (arr.drop i).take (runLength f (arr.drop i)) := by
            rw [List.mem_take_iff_getElem]
            refine ⟨k - i, by simp; omega, ?_⟩
            simp only [List.getElem_drop]
            congr 1
            omega
          have := take_runLength_eq f (arr.drop i) _ hmem
          omega
      simp [this]
  · intro hh
    rw [List.getElem?_eq_getElem hh]; rfl
  · intro a ha b hb
    have hb' := hgt b hb
    have ha' : a ∈ arr.take i ∨ a ∈ (arr.drop i).take (runLength f (arr.drop i)) := by
      rw [List.take_add, List.mem_append] at ha
      exact ha
    rcases ha' with h1 | h1
    · have : f ∈ arr.drop i := by
        rw [List.drop_eq_getElem_cons hlt, h.head hlt]; simp
      have := h.split a h1 f this
      omega
    · have := take_runLength_eq f (arr.drop i) a h1
      omega
  · intro e
    rw [List.take_add, List.count_append]
    congr 1
    have hrep : (arr.drop i).take (runLength f (arr.drop i)) = List.replicate (runLength f (arr.drop i)) f := by
      rw [List.eq_replicate_iff]
      refine ⟨by simp; omega, take_runLength_eq _ _⟩
    rw [hrep, List.count_replicate]
    by_cases hef : e = f
    · simp [hef]
    · have hfe : ¬ f = e := fun hh => hef hh.symm
      simp [hef, hfe]

/-- Complete loop invariant. -/
structure MaxInv (one two : List Int) (fl sl : Int) (st : MaxState) : Prop where
  s1 : SideInv one fl st.f st.i st.ff
  s2 : SideInv two sl st.s st.j st.sf
  /-- a finished side keeps its last event number, which is smaller than the rest of the other side -/
  cross1 : st.ff = true → st.sf = false → st.f < st.s
  cross2 : st.sf = true → st.ff = false → st.s < st.f
  outSorted : st.out.Pairwise (· ≤ ·)
  outLt1 : ∀ a ∈ st.out, ∀ b ∈ one.drop st.i, a < b
  outLt2 : ∀ a ∈ st.out, ∀ b ∈ two.drop st.j, a < b
  outCount : ∀ e, st.out.count e = max ((one.take st.i).count e) ((two.take st.j).count e)
  outLen : st.out.length ≤ st.i + st.j

theorem SideInv.stay {arr last f i fin} (h : SideInv arr last f i fin) : (arr[i]?).getD f = f := by
  by_cases hi : i < arr.length
  · rw [List.getElem?_eq_getElem hi]; exact h.head hi
  · rw [List.getElem?_eq_none (by omega)]; rfl

theorem SideInv.lt_of_not_fin {arr last f i} (h : SideInv arr last f i false) : i < arr.length := by
  have := h.le
  have h2 := h.fin_iff
  by_cases hi : i = arr.length
  · exact absurd (h2.mpr hi) (by simp)
  · omega

theorem SideInv.mem_rest {arr last f i} (h : SideInv arr last f i false) : f ∈ arr.drop i := by
  have hlt := h.lt_of_not_fin
  rw [List.drop_eq_getElem_cons hlt, h.head hlt]; simp

theorem count_zero_of_lt {l : List Int} {v : Int} (h : ∀ a ∈ l, a < v) : l.count v = 0 := by
  rw [List.count_eq_zero]
  intro hm
  have := h v hm
  omega

theorem pairwise_append_replicate {out : List Int} {v : Int} (n : Nat) (h : out.Pairwise (· ≤ ·))
    (hlt : ∀ a ∈ out, a < v) : (out ++ List.replicate n v).Pairwise (· ≤ ·) := by
  rw [List.pairwise_append]
  refine ⟨h, ?_, ?_⟩
  · rw [List.pairwise_replicate]; right; omega
  · intro a ha b hb
    have := List.eq_of_mem_replicate hb
    have := hlt a ha
    omega

theorem SideInv.fin_len {arr last f i} (h : SideInv arr last f i true) : i = arr.length :=
  h.fin_iff.mp rfl

theorem maxStep_spec (one two : List Int) (fl sl : Int) (st : MaxState) (h : MaxInv one two fl sl st)
    (hnf : ¬ (st.ff = true ∧ st.sf = true)) :
    ∃ st', maxStep one two fl sl (one.length + two.length) st = .ok st' ∧ MaxInv one two fl sl st' ∧
      st.i + st.j < st'.i + st'.j := by
  obtain ⟨f, s, i, j, ff, sf, out⟩ := st
  obtain ⟨s1, s2, c1, c2, os, ol1, ol2, oc, olen⟩ := h
  simp only at *
  cases ff with
  | false =>
    have hmem1 := s1.mem_rest
    have hlt1 := s1.lt_of_not_fin
    have hout1 : ∀ a ∈ out, a < f := fun a ha => ol1 a ha f hmem1
    have hz1 : max ((one.take i).count f) ((two.take j).count f) = 0 := by
      rw [← oc]; exact count_zero_of_lt hout1
    obtain ⟨n1, hc1, hp1, hg1, ht1⟩ := s1.consume hlt1
    have hle1 := n1.le
    cases sf with
    | false =>
      have hmem2 := s2.mem_rest
      have hlt2 := s2.lt_of_not_fin
      have hout2 : ∀ a ∈ out, a < s := fun a ha => ol2 a ha s hmem2
      have hz2 : max ((one.take i).count s) ((two.take j).count s) = 0 := by
        rw [← oc]; exact count_zero_of_lt hout2
      obtain ⟨n2, hc2, hp2, hg2, ht2⟩ := s2.consume hlt2
      have hle2 := n2.le
      rcases Int.lt_trichotomy f s with hfs | hfs | hfs
      · -- f < s
        have e1 : f ≤ s := by omega
        have e2 : ¬ s ≤ f := by omega
        have e3 : ¬ f = s := by omega
        simp only [maxStep, e1, e2, e3, hfs, true_or, or_self, if_true, if_false, Nat.add_zero,
          Bool.false_eq_true, and_self]
        rw [if_pos (by simp; omega)]
        refine ⟨_, rfl, ⟨n1, ?_, ?_, ?_, ?_, ?_, ?_, ?_, ?_⟩, by simp; omega⟩
        · rw [s2.stay]; exact s2
        · intro hff _
          simp only at hff ⊢
          rw [s2.stay]
          have : i + runLength f (one.drop i) = one.length := n1.fin_iff.mp hff
          rw [List.getElem?_eq_none (by omega)]
          exact hfs
        · simp
        · exact pairwise_append_replicate _ os hout1
        · intro a ha b hb
          rcases List.mem_append.mp ha with h5 | h5
          · apply ol1 a h5 b
            exact List.drop_subset_drop_left one (Nat.le_add_right _ _) hb
          · have := List.eq_of_mem_replicate h5
            have := hg1 b hb
            omega
        · intro a ha b hb
          rcases List.mem_append.mp ha with h5 | h5
          · exact ol2 a h5 b hb
          · have := List.eq_of_mem_replicate h5
            have := s2.rest_ge b hb
            omega
        · intro e
          simp only [List.count_append, oc, ht1, List.count_replicate]
          by_cases hef : e = f
          · subst hef; simp; omega
          · have : ¬ f = e := fun hh => hef hh.symm
            simp [hef, this]
        · simp; omega
      · -- f = s
        subst hfs
        simp only [maxStep, Int.le_refl, true_or, if_true]
        rw [if_pos (by simp; omega)]
        refine ⟨_, rfl, ⟨n1, n2, ?_, ?_, ?_, ?_, ?_, ?_, ?_⟩, by simp; omega⟩
        · intro hff hsf
          simp only at hff hsf ⊢
          have h6 : i + runLength f (one.drop i) = one.length := n1.fin_iff.mp hff
          rw [hsf] at n2
          have h7 := n2.lt_of_not_fin
          have h8 := n2.mem_rest
          have h9 := hg2 _ h8
          rw [List.getElem?_eq_none (l := one) (by omega)]
          exact h9
        · intro hsf hff
          simp only at hff hsf ⊢
          have h6 : j + runLength f (two.drop j) = two.length := n2.fin_iff.mp hsf
          rw [hff] at n1
          have h8 := n1.mem_rest
          have h9 := hg1 _ h8
          rw [List.getElem?_eq_none (l := two) (by omega)]
          exact h9
        · exact pairwise_append_replicate _ os hout1
        · intro a ha b hb
          rcases List.mem_append.mp ha with h5 | h5
          · apply ol1 a h5 b
            exact List.drop_subset_drop_left one (Nat.le_add_right _ _) hb
          · have := List.eq_of_mem_replicate h5
            have := hg1 b hb
            omega
        · intro a ha b hb
          rcases List.mem_append.mp ha with h5 | h5
          · apply ol2 a h5 b
            exact List.drop_subset_drop_left two (Nat.le_add_right _ _) hb
          · have := List.eq_of_mem_replicate h5
            have := hg2 b hb
            omega
        · intro e
          simp only [List.count_append, oc, ht1, ht2, List.count_replicate]
          by_cases hef : e = f
          · subst hef; simp; omega
          · have : ¬ f = e := fun hh => hef hh.symm
            simp [hef, this]
        · simp; omega
      · -- s < f
        have e1 : ¬ f ≤ s := by omega
        have e2 : s ≤ f := by omega
        have e3 : ¬ f = s := by omega
        have e4 : ¬ f < s := by omega
        simp only [maxStep, e1, e2, e3, e4, hfs, true_or, or_self, if_true, if_false, Nat.add_zero,
          Bool.false_eq_true, and_self, and_false]
        rw [if_pos (by simp; omega)]
        refine ⟨_, rfl, ⟨?_, n2, ?_, ?_, ?_, ?_, ?_, ?_, ?_⟩, by simp; omega⟩
        · rw [s1.stay]; exact s1
        · simp
        · intro hsf _
          simp only at hsf ⊢
          rw [s1.stay]
          have : j + runLength s (two.drop j) = two.length := n2.fin_iff.mp hsf
          rw [List.getElem?_eq_none (by omega)]
          exact hfs
        · exact pairwise_append_replicate _ os hout2
        · intro a ha b hb
          rcases List.mem_append.mp ha with h5 | h5
          · exact ol1 a h5 b hb
          · have := List.eq_of_mem_replicate h5
            have := s1.rest_ge b hb
            omega
        · intro a ha b hb
          rcases List.mem_append.mp ha with h5 | h5
          · apply ol2 a h5 b
            exact List.drop_subset_drop_left two (Nat.le_add_right _ _) hb
          · have := List.eq_of_mem_replicate h5
            have := hg2 b hb
            omega
        · intro e
          simp only [List.count_append, oc, ht2, List.count_replicate]
          by_cases hef : e = s
          · subst hef; simp; omega
          · have : ¬ s = e := fun hh => hef hh.symm
            simp [hef, this]
        · simp; omega
    | true =>
      have hlen2 := s2.fin_len
      have hsf := c2 rfl rfl
      have e1 : ¬ f = s := by omega
      have hr0 : runLength s (two.drop j) = 0 := by
        rw [List.drop_eq_nil_of_le (by omega)]; rfl
      simp only [maxStep, e1, or_true, if_true, if_false, hr0, ite_self, Nat.add_zero]
      rw [if_pos (by simp; omega)]
      refine ⟨_, rfl, ⟨n1, ?_, ?_, ?_, ?_, ?_, ?_, ?_, ?_⟩, by simp; omega⟩
      · rw [s2.stay]; exact s2
      · simp
      · intro _ hff
        simp only at hff ⊢
        rw [s2.stay]
        rw [hff] at n1
        have h8 := n1.mem_rest
        have h9 := hg1 _ h8
        omega
      · exact pairwise_append_replicate _ os hout1
      · intro a ha b hb
        rcases List.mem_append.mp ha with h5 | h5
        · apply ol1 a h5 b
          exact List.drop_subset_drop_left one (Nat.le_add_right _ _) hb
        · have := List.eq_of_mem_replicate h5
          have := hg1 b hb
          omega
      · intro a ha b hb
        rw [List.drop_eq_nil_of_le (by simp only; omega)] at hb
        simp at hb
      · intro e
        simp only [List.count_append, oc, ht1, List.count_replicate]
        by_cases hef : e = f
        · subst hef; simp; omega
        · have : ¬ f = e := fun hh => hef hh.symm
          simp [hef, this]
      · simp; omega
  | true =>
    have hsf : sf = false := by
      cases sf with
      | false => rfl
      | true => simp at hnf
    subst hsf
    have hmem2 := s2.mem_rest
    have hlt2 := s2.lt_of_not_fin
    have hout2 : ∀ a ∈ out, a < s := fun a ha => ol2 a ha s hmem2
    have hz2 : max ((one.take i).count s) ((two.take j).count s) = 0 := by
      rw [← oc]; exact count_zero_of_lt hout2
    obtain ⟨n2, hc2, hp2, hg2, ht2⟩ := s2.consume hlt2
    have hle2 := n2.le
    have hlen1 := s1.fin_len
    have hfs := c1 rfl rfl
    have e1 : ¬ f = s := by omega
    have hr0 : runLength f (one.drop i) = 0 := by
      rw [List.drop_eq_nil_of_le (by omega)]; rfl
    simp only [maxStep, e1, or_true, or_false, if_true, if_false, hr0, ite_self, Nat.add_zero,
      Bool.true_eq_false, false_and, Bool.false_eq_true]
    rw [if_pos (by simp; omega)]
    refine ⟨_, rfl, ⟨?_, n2, ?_, ?_, ?_, ?_, ?_, ?_, ?_⟩, by simp; omega⟩
    · rw [s1.stay]; exact s1
    · intro _ hsf
      simp only at hsf ⊢
      rw [s1.stay]
      rw [hsf] at n2
      have h8 := n2.mem_rest
      have h9 := hg2 _ h8
      omega
    · simp
    · exact pairwise_append_replicate _ os hout2
    · intro a ha b hb
      rw [List.drop_eq_nil_of_le (by simp only; omega)] at hb
      simp at hb
    · intro a ha b hb
      rcases List.mem_append.mp ha with h5 | h5
      · apply ol2 a h5 b
        exact List.drop_subset_drop_left two (Nat.le_add_right _ _) hb
      · have := List.eq_of_mem_replicate h5
        have := hg2 b hb
        omega
    · intro e
      simp only [List.count_append, oc, ht2, List.count_replicate]
      by_cases hef : e = s
      · subst hef; simp; omega
      · have : ¬ s = e := fun hh => hef hh.symm
        simp [hef, this]
    · simp; omega

theorem maxLoop_spec (one two : List Int) (fl sl : Int) (st : MaxState) (h : MaxInv one two fl sl st)
    (n : Nat) (hn : one.length + two.length - (st.i + st.j) ≤ n) :
    ∃ r, maxLoop one two fl sl (one.length + two.length) st = some (.ok r) ∧ r.Pairwise (· ≤ ·) ∧
      ∀ e, r.count e = max (one.count e) (two.count e) := by
  induction n generalizing st with
  | zero =>
    rw [maxLoop]
    by_cases hd : st.ff = true ∧ st.sf = true
    · rw [if_pos hd]
      refine ⟨_, rfl, h.outSorted, fun e => ?_⟩
      have h1 := h.s1.fin_iff.mp hd.1
      have h2 := h.s2.fin_iff.mp hd.2
      rw [h.outCount, h1, h2, List.take_length, List.take_length]
    · obtain ⟨st', -, h', hlt⟩ := maxStep_spec one two fl sl st h hd
      have := h'.s1.le
      have := h'.s2.le
      omega
  | succ n ih =>
    rw [maxLoop]
    by_cases hd : st.ff = true ∧ st.sf = true
    · rw [if_pos hd]
      refine ⟨_, rfl, h.outSorted, fun e => ?_⟩
      have h1 := h.s1.fin_iff.mp hd.1
      have h2 := h.s2.fin_iff.mp hd.2
      rw [h.outCount, h1, h2, List.take_length, List.take_length]
    · obtain ⟨st', hs, h', hlt⟩ := maxStep_spec one two fl sl st h hd
      rw [if_neg hd, hs]
      exact ih st' h' (by omega)

theorem maxInv_init (one two : List Int) (f s fl sl : Int) (h1 : one.Pairwise (· ≤ ·)) (h2 : two.Pairwise (· ≤ ·))
    (hf : one.head? = some f) (hs : two.head? = some s) (hfl : one.getLast? = some fl)
    (hsl : two.getLast? = some sl) : MaxInv one two fl sl ⟨f, s, 0, 0, false, false, []⟩ := by
  have hl1 : 0 < one.length := by cases one <;> simp_all
  have hl2 : 0 < two.length := by cases two <;> simp_all
  refine ⟨⟨h1, hfl, by simp, ?_, ?_, by simp⟩, ⟨h2, hsl, by simp, ?_, ?_, by simp⟩, by simp, by simp, by simp,
    by simp, by simp, by simp, by simp⟩
  · simp; omega
  · intro hh; cases one with
    | nil => simp at hh
    | cons a r => simpa using hf
  · simp; omega
  · intro hh; cases two with
    | nil => simp at hh
    | cons a r => simpa using hs

end BTA
