import Verif.Spec.Simulate
import Mathlib.Data.List.Perm.Basic
import Mathlib.Tactic.Linarith
/-
Lemmas about `shuffle_event_hits`.
-/
namespace BTA.Sim
open Spec

/-- Events with increasing numbers. -/
def eventsFrom (k : Int) : List Nat → List Int
  | [] => []
  | c :: cs => List.replicate c k ++ eventsFrom (k + 1) cs

theorem eventsFrom_eq (start : Int) (counts : List Nat) : trackEvents start counts = eventsFrom start counts := by
  unfold trackEvents
  have h : ∀ (cs : List Nat) (n : Nat), ((cs.zipIdx n).map fun p => List.replicate p.1 ((p.2 : Int) + start)).flatten =
      eventsFrom ((n : Int) + start) cs := by
    intro cs
    induction cs with
    | nil => intro n; rfl
    | cons c cs ih =>
      intro n
      rw [List.zipIdx_cons, List.map_cons, List.flatten_cons, ih, eventsFrom]
      congr 2
      push_cast
      ring
  have := h counts 0
  simpa using this

theorem eventsFrom_ge (k : Int) (cs : List Nat) : ∀ e ∈ eventsFrom k cs, k ≤ e ∧ e < k + cs.length := by
  induction cs generalizing k with
  | nil => intro e he; cases he
  | cons c cs ih =>
    intro e he
    rw [eventsFrom] at he
    rw [List.length_cons]
    push_cast
    rcases List.mem_append.mp he with h | h
    · have := List.eq_of_mem_replicate h
      omega
    · have := ih (k + 1) e h
      omega

theorem eventsFrom_sorted (k : Int) (cs : List Nat) : (eventsFrom k cs).Pairwise (· ≤ ·) := by
  induction cs generalizing k with
  | nil => exact List.Pairwise.nil
  | cons c cs ih =>
    rw [eventsFrom, List.pairwise_append]
    refine ⟨?_, ih _, ?_⟩
    · rw [List.pairwise_replicate]
      exact Or.inr (le_refl _)
    · intro a ha b hb
      have h1 := List.eq_of_mem_replicate ha
      have h2 := (eventsFrom_ge (k + 1) cs b hb).1
      omega

theorem eventsFrom_length (k : Int) (cs : List Nat) : (eventsFrom k cs).length = cs.sum := by
  induction cs generalizing k with
  | nil => rfl
  | cons c cs ih => rw [eventsFrom, List.length_append, List.length_replicate, ih, List.sum_cons]

/-- The lists are permutations of each other in blocks of the given sizes. -/
def GroupPerm {α : Type} : List Nat → List α → List α → Prop
  | [], a, b => a = b
  | c :: cs, a, b => (a.take c).Perm (b.take c) ∧ GroupPerm cs (a.drop c) (b.drop c)

theorem GroupPerm.map {α β : Type} (f : α → β) : ∀ {cs : List Nat} {a b : List α}, GroupPerm cs a b → GroupPerm cs (a.map f) (b.map f) := by
  intro cs
  induction cs with
  | nil => intro a b h; exact congrArg (List.map f) h
  | cons c cs ih =>
    intro a b h
    refine ⟨?_, ?_⟩
    · rw [← List.map_take, ← List.map_take]
      exact h.1.map f
    · rw [← List.map_drop, ← List.map_drop]
      exact ih h.2

theorem GroupPerm.perm {α : Type} : ∀ {cs : List Nat} {a b : List α}, GroupPerm cs a b → a.Perm b := by
  intro cs
  induction cs with
  | nil => intro a b h; rw [show a = b from h]
  | cons c cs ih =>
    intro a b h
    rw [← List.take_append_drop c a, ← List.take_append_drop c b]
    exact h.1.append (ih h.2)

/-- The last index of an event. -/
theorem eventEnd_eq (pre post : List Int) (e : Int) (hpost : ∀ x ∈ post, x ≠ e) : ∀ (fuel m j : Nat), j + m + 1 = j + 1 + m → m ≤ fuel →
    ∀ n, n = j + m + 1 → eventEnd (pre ++ (List.replicate n e ++ post)) fuel (pre.length + j) = pre.length + j + m := by
  intro fuel
  induction fuel with
  | zero =>
    intro m j _ hm n _
    have : m = 0 := by omega
    subst this
    rfl
  | succ fuel ih =>
    intro m j _ hm n hn
    have get (i : Nat) (hi : i < n) : (pre ++ (List.replicate n e ++ post))[pre.length + i]? = some e := by
      rw [List.getElem?_append_right (by omega), List.getElem?_append_left (by simp; omega), Nat.add_sub_cancel_left,
        List.getElem?_replicate, if_pos hi]
    unfold eventEnd
    rw [get j (by omega)]
    cases m with
    | zero =>
      split_ifs with h1 h2
      · rfl
      · exfalso
        rw [not_not, Nat.add_assoc, List.getElem?_append_right (by omega),
          List.getElem?_append_right (by simp; omega)] at h2
        have h3 := List.mem_of_getElem? h2.symm
        exact hpost e h3 rfl
      · rfl
    | succ m =>
      rw [if_pos (by simp; omega)]
      rw [Nat.add_assoc, get (j + 1) (by omega), if_neg (by simp)]
      have := ih m (j + 1) (by omega) (by omega) n (by omega)
      rw [this]
      omega

theorem multiplicity_cons (c : Nat) (cs : List Nat) : trackMultiplicity (c :: cs) = List.replicate c c ++ trackMultiplicity cs := by
  unfold trackMultiplicity
  rw [List.map_cons, List.flatten_cons]

/-- The loop shuffles in each event. -/
theorem shuffleLoop_groups {shuffle : Nat → List Nat → List Nat} (hs : ∀ i, Shuffles (shuffle i)) : ∀ (cs : List Nat) (k : Int)
    (pre : List Int) (preM : List Nat) (a b : List Nat) (fuel : Nat), preM.length = pre.length → a.length = pre.length →
    b.length = cs.sum → cs.sum ≤ fuel →
    ∃ b', shuffleLoop shuffle (pre ++ eventsFrom k cs) (preM ++ trackMultiplicity cs) fuel pre.length (a ++ b) = a ++ b' ∧
      GroupPerm cs b b' := by
  intro cs
  induction cs with
  | nil =>
    intro k pre preM a b fuel h1 h2 h3 h4
    refine ⟨b, ?_, rfl⟩
    cases fuel with
    | zero => rfl
    | succ fuel =>
      unfold shuffleLoop
      rw [if_neg (by simp [eventsFrom])]
  | cons c cs ih =>
    intro k pre preM a b fuel h1 h2 h3 h4
    rw [List.sum_cons] at h3 h4
    rw [eventsFrom, multiplicity_cons]
    by_cases hc : c = 0
    · subst hc
      obtain ⟨b', hb1, hb2⟩ := ih (k + 1) pre preM a b fuel h1 h2 (by omega) (by omega)
      refine ⟨b', by simpa using hb1, ?_, ?_⟩
      · simp
      · simpa using hb2
    obtain ⟨fuel, rfl⟩ : ∃ f, fuel = f + 1 := ⟨fuel - 1, by omega⟩
    unfold shuffleLoop
    have hget : (preM ++ (List.replicate c c ++ trackMultiplicity cs))[pre.length]? = some c := by
      rw [← h1, List.getElem?_append_right (le_refl _), Nat.sub_self, List.getElem?_append_left (by simp; omega)]
      rw [List.getElem?_replicate]
      simp
      omega
    rw [if_pos (by simp; omega), hget]
    dsimp only
    have hpre : (pre ++ List.replicate c k).length = pre.length + c := by simp
    split_ifs with h5
    · subst h5
      obtain ⟨x, b, rfl⟩ : ∃ x t, b = x :: t := by
        cases b with
        | nil =>
          exfalso
          rw [List.length_nil] at h3
          omega
        | cons x t => exact ⟨x, t, rfl⟩
      obtain ⟨b', hb1, hb2⟩ := ih (k + 1) (pre ++ List.replicate 1 k) (preM ++ List.replicate 1 1) (a ++ [x]) b fuel (by simp [h1]) (by simp [h2])
        (by simpa [Nat.add_comm] using h3) (by omega)
      rw [hpre] at hb1
      refine ⟨x :: b', ?_, ?_, ?_⟩
      · simpa [List.append_assoc] using hb1
      · simp
      · simpa using hb2
    · have hee : eventEnd (pre ++ (List.replicate c k ++ eventsFrom (k + 1) cs)) (pre ++ (List.replicate c k ++ eventsFrom (k + 1) cs)).length
          pre.length = pre.length + (c - 1) := by
        have := eventEnd_eq pre (eventsFrom (k + 1) cs) k (fun x hx => by
          have := (eventsFrom_ge (k + 1) cs x hx).1
          omega) (pre ++ (List.replicate c k ++ eventsFrom (k + 1) cs)).length (c - 1) 0 (by omega) (by simp; omega) c (by omega)
        simpa using this
      rw [hee]
      have e1 : (a ++ b).take pre.length = a := by rw [← h2, List.take_left]
      have e2 : (a ++ b).drop pre.length = b := by rw [← h2, List.drop_left]
      have e3 : (a ++ b).drop (pre.length + c) = b.drop c := by rw [← List.drop_drop, e2]
      rw [e1, e2, e3]
      have hp := hs pre.length (b.take c)
      have hl : (shuffle pre.length (b.take c)).length = c := by
        rw [hp.length_eq, List.length_take]
        omega
      obtain ⟨b', hb1, hb2⟩ := ih (k + 1) (pre ++ List.replicate c k) (preM ++ List.replicate c c) (a ++ shuffle pre.length (b.take c)) (b.drop c)
        fuel (by simp [h1]) (by simp [h2, hl]) (by rw [List.length_drop]; omega) (by omega)
      rw [hpre] at hb1
      refine ⟨shuffle pre.length (b.take c) ++ b', ?_, ?_, ?_⟩
      · rw [show pre.length + (c - 1) + 1 = pre.length + c by omega]
        simpa [List.append_assoc] using hb1
      · rw [List.take_left' hl]
        exact hp.symm
      · rw [List.drop_left' hl]
        exact hb2

theorem shuffleHits_groups {H : Type} {shuffle : Nat → List Nat → List Nat} (hs : ∀ i, Shuffles (shuffle i)) (start : Int) (counts : List Nat)
    (hits : List H) (hl : hits.length = counts.sum) :
    GroupPerm counts hits (shuffleHits shuffle (trackEvents start counts) (trackMultiplicity counts) hits) := by
  unfold shuffleHits
  rw [eventsFrom_eq]
  obtain ⟨b', h1, h2⟩ := shuffleLoop_groups hs counts start [] [] [] (List.range hits.length) hits.length rfl rfl (by simp [hl]) (by omega)
  rw [List.nil_append, List.nil_append, List.nil_append, List.nil_append, List.length_nil] at h1
  rw [h1]
  cases hits with
  | nil =>
    have hb := h2.perm
    rw [List.length_nil, List.range_zero] at hb
    have := hb.symm.eq_nil
    subst this
    have h3 := h2.map (fun _ : Nat => (0 : Nat))
    rw [List.length_nil, List.range_zero] at h2
    show GroupPerm counts [] []
    clear h1 h2 h3 hl hb
    induction counts with
    | nil => rfl
    | cons c cs ih => exact ⟨by simp, by simpa using ih⟩
  | cons h0 t =>
    have key : ∀ l : List Nat, (∀ i ∈ l, i < (h0 :: t).length) → (l.filterMap fun i => (h0 :: t)[i]?) = l.map fun i => (h0 :: t).getD i h0 := by
      intro l hl
      induction l with
      | nil => rfl
      | cons i l ih =>
        have hi := hl i (List.mem_cons_self ..)
        rw [List.filterMap_cons_some (List.getElem?_eq_getElem hi), List.map_cons, ih fun j hj => hl j (List.mem_cons_of_mem _ hj)]
        congr 1
        rw [List.getD_eq_getElem?_getD, List.getElem?_eq_getElem hi]
        rfl
    have hmem : ∀ i ∈ b', i < (h0 :: t).length := fun i hi => List.mem_range.mp (h2.perm.symm.subset hi)
    rw [key b' hmem]
    have h3 := h2.map fun i => (h0 :: t).getD i h0
    rw [← key _ fun i hi => List.mem_range.mp hi] at h3
    have : (List.range (h0 :: t).length).filterMap (fun i => (h0 :: t)[i]?) = h0 :: t := by
      rw [key _ fun i hi => List.mem_range.mp hi]
      refine List.ext_getElem (by simp) fun i hi hi' => ?_
      rw [List.getElem_map, List.getElem_range, List.getD_eq_getElem?_getD, List.getElem?_eq_getElem hi']
      rfl
    rw [this] at h3
    exact h3

theorem ofEvent_append {H : Type} (e1 e2 : List Int) (h1 h2 : List H) (h : e1.length = h1.length) (e : Int) :
    ofEvent (e1 ++ e2) (h1 ++ h2) e = ofEvent e1 h1 e ++ ofEvent e2 h2 e := by
  unfold ofEvent
  rw [List.zip_append h, List.filter_append, List.map_append]

theorem ofEvent_replicate {H : Type} (k e : Int) (l : List H) : ofEvent (List.replicate l.length k) l e = if k = e then l else [] := by
  unfold ofEvent
  induction l with
  | nil => simp
  | cons x l ih =>
    rw [List.length_cons, List.replicate_succ, List.zip_cons_cons]
    by_cases h : k = e
    · rw [if_pos h] at ih ⊢
      rw [List.filter_cons_of_pos (by simpa using h), List.map_cons, ih]
    · rw [if_neg h] at ih ⊢
      rw [List.filter_cons_of_neg (by simpa using h), ih]

theorem groupPerm_ofEvent {H : Type} : ∀ {cs : List Nat} {a b : List H} (k : Int), a.length = cs.sum → GroupPerm cs a b → ∀ e,
    (ofEvent (eventsFrom k cs) a e).Perm (ofEvent (eventsFrom k cs) b e) := by
  intro cs
  induction cs with
  | nil =>
    intro a b k _ h e
    rw [show a = b from h]
  | cons c cs ih =>
    intro a b k hl h e
    rw [List.sum_cons] at hl
    have hb : b.length = a.length := h.perm.length_eq.symm
    rw [eventsFrom]
    have ha1 : (a.take c).length = c := by rw [List.length_take]; omega
    have hb1 : (b.take c).length = c := by rw [List.length_take]; omega
    rw [← List.take_append_drop c a, ← List.take_append_drop c b, ofEvent_append _ _ _ _ (by rw [ha1, List.length_replicate]),
      ofEvent_append _ _ _ _ (by rw [hb1, List.length_replicate])]
    refine List.Perm.append ?_ (ih (k + 1) (by rw [List.length_drop]; omega) h.2 e)
    have r1 := ofEvent_replicate k e (a.take c)
    have r2 := ofEvent_replicate k e (b.take c)
    rw [ha1] at r1
    rw [hb1] at r2
    rw [r1, r2]
    split_ifs
    · exact h.1
    · exact List.Perm.refl _

end BTA.Sim
