import Verif.Lemmas.EventArrays

namespace BTA
open Spec

/-! ### take/drop while on sorted lists -/

theorem takeWhile_lt_sorted {ev : β → Int} {l : List β} (h : SortedBy ev l) (v : Int) :
    l.takeWhile (fun b => decide (ev b < v)) = l.filter (fun b => decide (ev b < v)) := by
  induction l with
  | nil => rfl
  | cons a r ih =>
    have h' := List.pairwise_cons.mp h
    by_cases ha : ev a < v
    · simp [ha, ih h'.2]
    · have : (a :: r).filter (fun b => decide (ev b < v)) = [] := by
        rw [List.filter_eq_nil_iff]
        intro c hc
        rcases List.mem_cons.mp hc with h1 | h1
        · subst h1; simpa using ha
        · have := h'.1 c h1
          simp; omega
      rw [this]
      simp [ha]

theorem dropWhile_lt_sorted {ev : β → Int} {l : List β} (h : SortedBy ev l) (v : Int) :
    l.dropWhile (fun b => decide (ev b < v)) = l.filter (fun b => decide (v ≤ ev b)) := by
  induction l with
  | nil => rfl
  | cons a r ih =>
    have h' := List.pairwise_cons.mp h
    by_cases ha : ev a < v
    · have : ¬ v ≤ ev a := by omega
      simp [ha, this, ih h'.2]
    · have : (a :: r).filter (fun b => decide (v ≤ ev b)) = a :: r := by
        rw [List.filter_eq_self]
        intro c hc
        rcases List.mem_cons.mp hc with h1 | h1
        · subst h1; simp; omega
        · have := h'.1 c h1
          simp; omega
      rw [this]
      simp [ha]

theorem drop_takeWhile_length (p : β → Bool) (l : List β) :
    l.drop (l.takeWhile p).length = l.dropWhile p := by
  induction l with
  | nil => rfl
  | cons a r ih => by_cases h : p a <;> simp [h, ih]

/-! ### correlate_hits_on_event_range -/

theorem corrInner_eq (hits : List IHit) (cur : IHit) (corr : Nat) (s : Hist2 × Hist2)
    (hex : ∃ b ∈ hits.drop corr, ¬ b.ev < cur.ev) :
    corrInner hits cur corr s = some (((hits.drop corr).takeWhile fun b => decide (b.ev < cur.ev)).foldl
      (fun s b => (s.1.inc b.x cur.x, s.2.inc b.y cur.y)) s) := by
  fun_induction corrInner hits cur corr s with
  | case1 corr s h hlt ih =>
    rw [List.drop_eq_getElem_cons h] at hex ⊢
    rw [ih]
    · rw [List.takeWhile_cons_of_pos (by simpa using hlt)]; rfl
    · rcases hex with ⟨b, hb, hb'⟩
      rcases List.mem_cons.mp hb with h1 | h1
      · subst h1; exact absurd hlt hb'
      · exact ⟨b, h1, hb'⟩
  | case2 corr s h hlt =>
    rw [List.drop_eq_getElem_cons h, List.takeWhile_cons_of_neg (by simpa using hlt)]; rfl
  | case3 corr s h =>
    rw [List.drop_eq_nil_of_le (by omega)] at hex
    simp at hex

/-- Pairs (earlier hit, current hit) visited for the hits in `l`. -/
def corrPairs (hits : List IHit) (r : Nat) (l : List IHit) : List (IHit × IHit) :=
  l.flatMap fun q => (hits.filter fun p => decide (q.ev - (r : Int) ≤ p.ev) && decide (p.ev < q.ev)).map
    fun p => (p, q)

theorem corrOuter_eq (hits : List IHit) (r : Nat) (hs : SortedBy IHit.ev hits) (l : List IHit) (last : Int)
    (start : Option Nat) (s : Hist2 × Hist2) (hmem : ∀ q ∈ l, q ∈ hits)
    (hlast : ∀ q ∈ l.head?, q.ev = last →
      start = some (searchsortedLeft (hits.map IHit.ev) (last - r)))
    (hsl : SortedBy IHit.ev l) :
    corrOuter hits r l last start s = some ((corrPairs hits r l).foldl
      (fun s p => (s.1.inc p.1.x p.2.x, s.2.inc p.1.y p.2.y)) s) := by
  induction l generalizing last start s with
  | nil => rfl
  | cons q rest ih =>
    have hsl' := List.pairwise_cons.mp hsl
    have hstart : (if q.ev ≠ last then
        some (searchsortedLeft (hits.map IHit.ev) (q.ev - r)) else start)
        = some (searchsortedLeft (hits.map IHit.ev) (q.ev - r)) := by
      by_cases hq : q.ev = last
      · simp only [hq, ne_eq, not_true_eq_false, if_false]
        exact hlast q (by simp) hq
      · simp [hq]
    unfold corrOuter
    simp only [hstart]
    have hdrop : hits.drop (searchsortedLeft (hits.map IHit.ev) (q.ev - r))
        = hits.filter (fun p => decide (q.ev - (r : Int) ≤ p.ev)) := by
      unfold searchsortedLeft
      rw [List.takeWhile_map, List.length_map, ← dropWhile_lt_sorted hs, ← drop_takeWhile_length]
      rfl
    rw [corrInner_eq]
    · simp only []
      rw [ih]
      · unfold corrPairs
        rw [List.flatMap_cons, List.foldl_append, List.foldl_map, hdrop, takeWhile_lt_sorted]
        · rw [List.filter_filter]
          congr 2
          congr 1
          apply List.filter_congr
          intro p _; rw [Bool.and_comm]
        · exact List.Pairwise.sublist List.filter_sublist hs
      · exact fun c hc => hmem c (by simp [hc])
      · intro c _ _
        rfl
      · exact hsl'.2
    · refine ⟨q, ?_, by omega⟩
      rw [hdrop]
      have := hmem q (by simp)
      simp [this]
      omega

/-! ### seekGE -/

theorem seekGE_spec (two : List Int) (act : Int) (idx j : Nat) :
    (∃ k, ∃ hk : k < two.length, seekGE two act idx j = k ∧ j ≤ k ∧ act ≤ two[k] ∧
      ∀ m (_ : m < two.length), j ≤ m → m < k → two[m] < act) ∨
    (seekGE two act idx j = idx ∧ ∀ m (_ : m < two.length), j ≤ m → two[m] < act) := by
  fun_induction seekGE two act idx j with
  | case1 j h hge => exact .inl ⟨j, h, rfl, Nat.le_refl _, hge, fun m _ h1 h2 => by omega⟩
  | case2 j h hlt ih =>
    have hj : two[j] < act := by omega
    rcases ih with ⟨k, hk, he, h1, h2, h3⟩ | ⟨he, h3⟩
    · refine .inl ⟨k, hk, he, by omega, h2, ?_⟩
      intro m hm h4 h5
      by_cases hmj : m = j
      · subst hmj; exact hj
      · exact h3 m hm (by omega) h5
    · refine .inr ⟨he, ?_⟩
      intro m hm h4
      by_cases hmj : m = j
      · subst hmj; exact hj
      · exact h3 m hm (by omega)
  | case3 j h => exact .inr ⟨rfl, fun m hm h1 => by omega⟩

/-- What one seek establishes on sorted array two. -/
theorem seekGE_mem (two : List Int) (act : Int) (idx : Nat) (hs : two.Pairwise (· ≤ ·))
    (hidx : idx < two.length) (hb : ∀ m (_ : m < two.length), m < idx → two[m] < act) :
    ∃ h : seekGE two act idx idx < two.length,
      (two[seekGE two act idx idx] = act ↔ act ∈ two) ∧
      ∀ m (_ : m < two.length), m < seekGE two act idx idx → two[m] < act := by
  rcases seekGE_spec two act idx idx with ⟨k, hk, he, h1, h2, h3⟩ | ⟨he, h3⟩
  · simp only [he]
    refine ⟨hk, ⟨fun h => ?_, fun h => ?_⟩, ?_⟩
    · rw [← h]; exact List.getElem_mem hk
    · rcases List.mem_iff_getElem.mp h with ⟨m, hm, hme⟩
      by_cases hmk : m < k
      · have : two[m] < act := by
          by_cases hmi : m < idx
          · exact hb m hm hmi
          · exact h3 m hm (by omega) hmk
        omega
      · have : two[k] ≤ two[m] := sorted_getElem (ev := id) (l := two) hs hk hm (by omega)
        omega
    · intro m hm hmk
      by_cases hmi : m < idx
      · exact hb m hm hmi
      · exact h3 m hm (by omega) hmk
  · simp only [he]
    refine ⟨hidx, ⟨fun h => ?_, fun h => ?_⟩, hb⟩
    · rw [← h]; exact List.getElem_mem hidx
    · rcases List.mem_iff_getElem.mp h with ⟨m, hm, hme⟩
      have : two[m] < act := by
        by_cases hmi : m < idx
        · exact hb m hm hmi
        · exact h3 m hm (by omega)
      omega

theorem in1dLoop_eq (two : List Int) (h2 : two.Pairwise (· ≤ ·)) (one : List Int) (idx : Nat)
    (h1 : one.Pairwise (· ≤ ·)) (hidx : idx < two.length)
    (hb : ∀ e ∈ one, ∀ m (_ : m < two.length), m < idx → two[m] < e) :
    in1dLoop two one idx = some (one.map fun e => decide (e ∈ two)) := by
  induction one generalizing idx with
  | nil => rfl
  | cons e rest ih =>
    have h1' := List.pairwise_cons.mp h1
    rcases seekGE_mem two e idx h2 hidx (hb e (by simp)) with ⟨hlt, hiff, hbef⟩
    unfold in1dLoop
    simp only [List.getElem?_eq_getElem hlt]
    rw [ih _ h1'.2 hlt]
    · simp [hiff]
    · intro c hc m hm hmi
      have := hbef m hm hmi
      have := h1'.1 c hc
      omega

theorem eventsInBothLoop_eq (two : List Int) (h2 : two.Pairwise (· ≤ ·)) (one : List Int) (act : Int)
    (idx : Nat) (h1 : one.Pairwise (· ≤ ·)) (hact : ∀ e ∈ one, act ≤ e) (hidx : idx < two.length)
    (hb : ∀ e ∈ one, ∀ m (_ : m < two.length), m < idx → two[m] < e) :
    ∃ r, eventsInBothLoop two one act idx = some r ∧ r.Pairwise (· < ·) ∧
      ∀ e, e ∈ r ↔ e ≠ act ∧ e ∈ one ∧ e ∈ two := by
  induction one generalizing act idx with
  | nil => exact ⟨[], rfl, .nil, by simp⟩
  | cons a rest ih =>
    have h1' := List.pairwise_cons.mp h1
    unfold eventsInBothLoop
    by_cases ha : a = act
    · rw [if_pos ha]
      rcases ih act idx h1'.2 (fun e he => hact e (by simp [he])) hidx
        (fun e he => hb e (by simp [he])) with ⟨r, hr, hp, hm⟩
      refine ⟨r, hr, hp, fun e => ?_⟩
      rw [hm]
      simp only [List.mem_cons]
      constructor
      · rintro ⟨h3, h4, h5⟩; exact ⟨h3, .inr h4, h5⟩
      · rintro ⟨h3, h4 | h4, h5⟩
        · exact absurd (h4.trans ha) h3
        · exact ⟨h3, h4, h5⟩
    · rw [if_neg ha]
      rcases seekGE_mem two a idx h2 hidx (hb a (by simp)) with ⟨hlt, hiff, hbef⟩
      simp only [List.getElem?_eq_getElem hlt]
      have haa := hact a (by simp)
      rcases ih a (seekGE two a idx idx) h1'.2 h1'.1 hlt (by
        intro c hc m hm hmi
        have := hbef m hm hmi
        have := h1'.1 c hc
        omega) with ⟨r, hr, hp, hm⟩
      by_cases hv : two[seekGE two a idx idx] = a
      · rw [if_pos hv, hr]
        refine ⟨a :: r, rfl, ?_, fun e => ?_⟩
        · refine List.pairwise_cons.mpr ⟨fun c hc => ?_, hp⟩
          have := (hm c).mp hc
          have := h1'.1 c this.2.1
          omega
        · simp only [List.mem_cons, hm]
          constructor
          · rintro (h3 | ⟨h3, h4, h5⟩)
            · subst h3; exact ⟨ha, .inl rfl, hiff.mp hv⟩
            · have := h1'.1 e h4
              exact ⟨by omega, .inr h4, h5⟩
          · rintro ⟨h3, h4 | h4, h5⟩
            · exact .inl h4
            · by_cases hea : e = a
              · exact .inl hea
              · exact .inr ⟨hea, h4, h5⟩
      · rw [if_neg hv, hr]
        refine ⟨r, rfl, hp, fun e => ?_⟩
        have hna : a ∉ two := fun h => hv (hiff.mpr h)
        simp only [List.mem_cons, hm]
        constructor
        · rintro ⟨h3, h4, h5⟩
          have := h1'.1 e h4
          exact ⟨by omega, .inr h4, h5⟩
        · rintro ⟨h3, h4 | h4, h5⟩
          · subst h4; exact absurd h5 hna
          · refine ⟨fun h => ?_, h4, h5⟩
            subst h; exact hna h5

/-! ### map_cluster -/

/-- Number of clusters already consumed or skipped for event `e` equals what the rank formula says. -/
theorem filter_getElem?_drop (ev : β → Int) (l : List β) (hs : SortedBy ev l) (e : Int) (j : Nat)
    (hge : ∀ (hk : j < l.length), e ≤ ev l[j]) (hj : j ≤ l.length) :
    (l.filter fun b => ev b = e)[((l.take j).filter fun b => ev b = e).length]?
      = (l[j]?).filter (fun b => ev b = e) := by
  conv => lhs; arg 1; rw [← List.take_append_drop j l, List.filter_append]
  rw [List.getElem?_append_right (Nat.le_refl _), Nat.sub_self]
  by_cases h : j < l.length
  · rw [List.drop_eq_getElem_cons h, List.getElem?_eq_getElem h]
    by_cases he : ev l[j] = e
    · rw [List.filter_cons_of_pos (by simpa using he)]; simp [Option.filter, he]
    · have : (l[j] :: l.drop (j + 1)).filter (fun b => decide (ev b = e)) = [] := by
        rw [← List.drop_eq_getElem_cons h, List.filter_eq_nil_iff]
        intro c hc
        have h3 := sorted_drop_ge hs j (ev l[j]) (fun _ => by omega) c hc
        have := hge h
        simp; omega
      rw [this]
      simp [Option.filter, he]
  · rw [List.drop_eq_nil_of_le (by omega), List.getElem?_eq_none (l := l) (by omega)]
    rfl

theorem mapClusterLoop_length (ev : β → Int) (events : List Int) (clusters : List β) (i j : Nat)
    (mapped : List β) : (mapClusterLoop ev events clusters i j mapped).length = mapped.length := by
  fun_induction mapClusterLoop ev events clusters i j mapped <;> simp_all

/-- Rows before the loop index are not touched. -/
theorem mapClusterLoop_before (ev : β → Int) (events : List Int) (clusters : List β) (i j : Nat)
    (mapped : List β) (m : Nat) (hm : m < i) :
    (mapClusterLoop ev events clusters i j mapped)[m]? = mapped[m]? := by
  fun_induction mapClusterLoop ev events clusters i j mapped with
  | case1 i j mapped h j' hj he ih =>
    rw [ih (by omega), List.getElem?_set_ne (by omega)]
  | case2 i j mapped h j' hj he ih => exact ih (by omega)
  | case3 => rfl
  | case4 => rfl

theorem take_filter_length_catchUp (ev : β → Int) (l : List β) (e e' : Int) (j : Nat) (he : e ≤ e') :
    ((l.take (catchUp ev l e j)).filter fun b => ev b = e').length
      = ((l.take j).filter fun b => ev b = e').length := by
  fun_induction catchUp ev l e j with
  | case1 j h hlt ih =>
    rw [ih, List.take_succ_eq_append_getElem h, List.filter_append]
    have : ¬ ev l[j] = e' := by omega
    simp [this]
  | case2 => rfl
  | case3 => rfl

theorem catchUp_le (ev : β → Int) (d2 : List β) (e : Int) (i : Nat) (h : i ≤ d2.length) :
    catchUp ev d2 e i ≤ d2.length := by
  fun_induction catchUp ev d2 e i with
  | case1 i h' _ ih => exact ih (by omega)
  | case2 => omega
  | case3 => omega

theorem mapClusterLoop_spec (ev : β → Int) (events : List Int) (clusters : List β)
    (hse : events.Pairwise (· ≤ ·)) (hsc : SortedBy ev clusters) (i j : Nat) (mapped : List β)
    (hj : j ≤ clusters.length)
    (hcnt : ∀ e, (∀ (hi : i < events.length), events[i] ≤ e) →
      ((clusters.take j).filter fun b => ev b = e).length
        = min ((events.take i).count e) ((clusters.filter fun b => ev b = e).length))
    (m : Nat) (hm : i ≤ m) (hmE : m < events.length) (hmM : m < mapped.length) :
    (mapClusterLoop ev events clusters i j mapped)[m]? =
      some (((clusters.filter fun b => ev b = events[m])[(events.take m).count events[m]]?).getD mapped[m]) := by
  fun_induction mapClusterLoop ev events clusters i j mapped with
  | case1 i j mapped h j' hj' heq ih =>
    have hc := hcnt events[i] (fun _ => by omega)
    have hj'1 : j' = catchUp ev clusters events[i] j := rfl
    have htf := take_filter_length_catchUp ev clusters events[i] events[i] j (by omega)
    have hat := catchUp_at ev clusters events[i] j
    have hget := filter_getElem?_drop ev clusters hsc events[i] j' hat (by omega)
    rw [← hj'1] at htf
    by_cases hmi : m = i
    · subst hmi
      rw [mapClusterLoop_before _ _ _ _ _ _ _ (by omega), List.getElem?_set_self hmM]
      rw [List.getElem?_eq_getElem hj'] at hget
      simp only [Option.filter, heq, decide_true, if_true] at hget
      rw [htf, hc] at hget
      have hlt := (List.getElem?_eq_some_iff.mp hget).1
      have : min ((events.take m).count events[m])
          ((clusters.filter fun b => decide (ev b = events[m])).length) = (events.take m).count events[m] := by
        omega
      rw [this] at hget
      rw [hget]
      rfl
    · rw [ih (by omega) ?_ (by omega) (by simpa using hmM)]
      · rw [List.getElem_set_ne (by omega)]
      · intro e he
        have hie : events[i] ≤ e := by
          by_cases h5 : i + 1 < events.length
          · have := he h5
            have := sorted_getElem (ev := id) (l := events) hse h h5 (by omega)
            simp at this; omega
          · omega
        have hc' := hcnt e (fun _ => hie)
        have htf' := take_filter_length_catchUp ev clusters events[i] e j hie
        rw [← hj'1] at htf'
        rw [List.take_succ_eq_append_getElem hj', List.filter_append, List.length_append, htf', hc',
          List.take_succ_eq_append_getElem h, List.count_append]
        by_cases hee : events[i] = e
        · have hlt : ((clusters.take j').filter fun b => decide (ev b = e)).length
              < (clusters.filter fun b => decide (ev b = e)).length := by
            conv => rhs; rw [← List.take_append_drop j' clusters, List.filter_append, List.length_append]
            rw [List.drop_eq_getElem_cons hj']
            have : ev clusters[j'] = e := by omega
            rw [List.filter_cons_of_pos (by simpa using this)]
            simp only [List.length_cons]
            omega
          rw [htf', hc'] at hlt
          have : ev clusters[j'] = e := by omega
          simp [hee, this]
          omega
        · have : ¬ ev clusters[j'] = e := by omega
          simp [hee, this]
  | case2 i j mapped h j' hj' hne ih =>
    have hj'1 : j' = catchUp ev clusters events[i] j := rfl
    have hat := catchUp_at ev clusters events[i] j
    rw [← hj'1] at hat
    have hat' := hat hj'
    have htf := take_filter_length_catchUp ev clusters events[i] events[i] j (by omega)
    rw [← hj'1] at htf
    have hc := hcnt events[i] (fun _ => by omega)
    have hall : ((clusters.take j').filter fun b => decide (ev b = events[i])).length
        = (clusters.filter fun b => decide (ev b = events[i])).length := by
      conv => rhs; rw [← List.take_append_drop j' clusters, List.filter_append, List.length_append]
      have : (clusters.drop j').filter (fun b => decide (ev b = events[i])) = [] := by
        rw [List.filter_eq_nil_iff]
        intro c hc
        have := sorted_drop_ge hsc j' (ev clusters[j']) (fun _ => by omega) c hc
        simp; omega
      simp [this]
    by_cases hmi : m = i
    · subst hmi
      rw [mapClusterLoop_before _ _ _ _ _ _ _ (by omega)]
      have : (clusters.filter fun b => decide (ev b = events[m])).length ≤ (events.take m).count events[m] := by
        omega
      rw [List.getElem?_eq_none this, List.getElem?_eq_getElem hmM]
      rfl
    · refine ih (by omega) ?_ (by omega) hmM
      intro e he
      have hie : events[i] ≤ e := by
        by_cases h5 : i + 1 < events.length
        · have := he h5
          have := sorted_getElem (ev := id) (l := events) hse h h5 (by omega)
          simp at this; omega
        · omega
      have hc' := hcnt e (fun _ => hie)
      have htf' := take_filter_length_catchUp ev clusters events[i] e j hie
      rw [← hj'1] at htf'
      rw [htf', hc', List.take_succ_eq_append_getElem h, List.count_append]
      by_cases hee : events[i] = e
      · subst hee
        simp
        omega
      · simp [hee]
  | case3 i j mapped h j' hj' =>
    have hj'1 : j' = catchUp ev clusters events[i] j := rfl
    have hie : events[i] ≤ events[m] := sorted_getElem (ev := id) (l := events) hse h hmE hm
    have htf := take_filter_length_catchUp ev clusters events[i] events[m] j hie
    rw [← hj'1] at htf
    have hc := hcnt events[m] (fun _ => hie)
    rw [List.take_of_length_le (by omega)] at htf
    have hcount : (events.take i).count events[m] ≤ (events.take m).count events[m] := by
      apply List.Sublist.count_le
      exact List.take_sublist_take_left hm
    have hle : (clusters.filter fun b => decide (ev b = events[m])).length ≤ (events.take m).count events[m] := by
      omega
    rw [List.getElem?_eq_none hle, List.getElem?_eq_getElem hmM]
    rfl
  | case4 i j mapped h => omega

end BTA
