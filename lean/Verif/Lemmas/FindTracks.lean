import Verif.Model.FindTracks
import Mathlib.Algebra.Group.End
import Mathlib.Order.Basic
import Mathlib.Data.List.Nodup
import Mathlib.Tactic.Common
/-
Lemmas about the model of the track finding: termination, and every step permutes the hits of one DUT within an event.
-/
namespace BTA.Find

variable {F : Type} (S : Setup F)

/-! ### Positions -/

theorem sortedPos_foldl (l : List Nat) (k : Nat) (d : Nat) (p : Int) (hd : d ∉ l) :
    (l.zipIdx k).foldl (fun (p : Int) v => if v.1 = d then (v.2 : Int) else p) p = p := by
  induction l generalizing k p with
  | nil => rfl
  | cons a l ih =>
    simp only [List.mem_cons, not_or] at hd
    rw [List.zipIdx_cons, List.foldl_cons, if_neg (Ne.symm hd.1)]
    exact ih _ _ hd.2

theorem sortedPos_foldl_mem (l : List Nat) (hn : l.Nodup) (k : Nat) (p : Int) (i : Nat) (hi : i < l.length) :
    (l.zipIdx k).foldl (fun (p : Int) v => if v.1 = l[i] then (v.2 : Int) else p) p = (k + i : Nat) := by
  induction l generalizing k p i with
  | nil => simp at hi
  | cons a l ih =>
    rw [List.zipIdx_cons, List.foldl_cons]
    obtain ⟨ha, hn'⟩ := List.nodup_cons.mp hn
    cases i with
    | zero =>
      simp only [List.getElem_cons_zero, if_true]
      rw [sortedPos_foldl _ _ _ _ ha]
      simp
    | succ i =>
      simp only [List.getElem_cons_succ]
      rw [ih hn' (k + 1) _ i (by simpa using hi)]
      congr 1
      omega

theorem sortedPos_getElem (zs : List Nat) (hn : zs.Nodup) (i : Nat) (hi : i < zs.length) :
    sortedPos zs zs[i] = i := by
  unfold sortedPos
  rw [sortedPos_foldl_mem zs hn 0 (-1) i hi]
  simp

/-! ### Termination of the search for reference DUTs -/

theorem refDuts_total (hn : S.zs.Nodup) (x : Nat → Nat → F) (track : Nat) (i : Nat) (hi : i < S.zs.length)
    (found : List Nat) : ∃ f, refDuts S x track S.zs[i] found = some f := by
  induction i using Nat.strongRecOn generalizing found with
  | _ i ih =>
    rw [refDuts]
    by_cases h2 : found.length < 2
    · rw [if_pos h2]
      simp only [sortedPos_getElem S.zs hn i hi]
      by_cases h0 : (i : Int) = 0
      · rw [if_pos h0]; exact ⟨_, rfl⟩
      · rw [if_neg h0]
        simp only [slicePrefix, Int.natCast_nonneg, if_true, Int.toNat_natCast]
        cases hl : lastDut S x track (S.zs.take i) with
        | none => exact ⟨_, rfl⟩
        | some r =>
          simp only [pure_bind]
          have hr : r ∈ S.zs.take i := by
            have := List.mem_of_find?_eq_some hl
            simpa using this
          obtain ⟨j, hj, rfl⟩ := List.getElem_of_mem hr
          rw [List.length_take] at hj
          rw [List.getElem_take]
          exact ih j (by omega) (by omega) _
    · rw [if_neg h2]; exact ⟨_, rfl⟩

theorem reference_total (hn : S.zs.Nodup) (t : Tracks F) (track d first : Nat) (hd : d ∈ S.zs) :
    ∃ r, reference S t track d first = some r := by
  obtain ⟨i, hi, rfl⟩ := List.getElem_of_mem hd
  obtain ⟨f, hf⟩ := refDuts_total S hn t.x track i hi []
  unfold reference
  rw [hf]
  simp only [Option.bind_eq_bind, Option.bind_some]
  split
  · exact ⟨_, rfl⟩
  · exact ⟨_, rfl⟩

theorem hitLoop_total (hn : S.zs.Nodup) (t : Tracks F) (start track d : Nat) (hd : d ∈ S.zs) (ref : F × F) (hit : Nat)
    (best : Option Nat) (bd : F) : ∃ b, hitLoop S t start track d ref hit best bd = some b := by
  induction hm : S.ev.length - hit using Nat.strongRecOn generalizing hit best bd with
  | _ m ih =>
    rw [hitLoop]
    by_cases hlt : hit < S.ev.length
    · have next : ∀ best bd, ∃ b, hitLoop S t start track d ref (hit + 1) best bd = some b := fun best bd =>
        ih (S.ev.length - (hit + 1)) (by omega) _ _ _ rfl
      rw [if_pos hlt]
      split
      · exact ⟨_, rfl⟩
      split
      · exact next _ _
      split
      · exact next _ _
      simp only []
      split
      · exact next _ _
      split
      · split
        · obtain ⟨r, hr⟩ := reference_total S hn t hit d ‹_› hd
          rw [hr]
          simp only []
          split
          · exact next _ _
          · exact next _ _
        · exact next _ _
      · exact next _ _
    · rw [if_neg hlt]; exact ⟨_, rfl⟩

/-- The row that is swapped is another row of the event with a hit on the DUT. -/
theorem hitLoop_some (t : Tracks F) (start track d : Nat) (ref : F × F) (hit : Nat) (best : Option Nat) (bd : F)
    (hb : ∀ b, best = some b → b < S.ev.length ∧ S.ev[b]? = S.ev[start]? ∧ b ≠ track ∧ S.fl.isnan (t.x b d) = false)
    (b : Nat) (h : hitLoop S t start track d ref hit best bd = some (some b)) :
    b < S.ev.length ∧ S.ev[b]? = S.ev[start]? ∧ b ≠ track ∧ S.fl.isnan (t.x b d) = false := by
  induction hm : S.ev.length - hit using Nat.strongRecOn generalizing hit best bd with
  | _ m ih =>
    rw [hitLoop] at h
    by_cases hlt : hit < S.ev.length
    · have keep : ∀ bd, hitLoop S t start track d ref (hit + 1) best bd = some (some b) → _ := fun bd h' =>
        ih (S.ev.length - (hit + 1)) (by omega) (hit + 1) best bd hb h' rfl
      rw [if_pos hlt] at h
      split at h
      · exact hb b (by simpa using h)
      next hev =>
      split at h
      · exact keep _ h
      next hne =>
      split at h
      · exact keep _ h
      next hnan =>
      have take : ∀ bd, hitLoop S t start track d ref (hit + 1) (some hit) bd = some (some b) → _ := fun bd h' =>
        ih (S.ev.length - (hit + 1)) (by omega) (hit + 1) (some hit) bd (by
          intro b hb'
          cases hb'
          exact ⟨hlt, by simpa using hev, fun e => hne e.symm, by simpa using hnan⟩) h' rfl
      simp only [] at h
      split at h
      · exact keep _ h
      split at h
      · split at h
        · split at h
          · cases h
          · split at h
            · exact keep _ h
            · exact take _ h
        · exact take _ h
      · exact take _ h
    · rw [if_neg hlt] at h
      exact hb b (by simpa using h)

/-! ### Permutations -/

/-- `t'` is obtained from `t` by the permutations `σ d` of the rows within events. -/
structure Permuted (ev : List Int) (t t' : Tracks F) (σ : Nat → Equiv.Perm Nat) : Prop where
  x : ∀ r d, t'.x r d = t.x (σ d r) d
  y : ∀ r d, t'.y r d = t.y (σ d r) d
  z : ∀ r d, t'.z r d = t.z (σ d r) d
  idx : ∀ r d, t'.idx r d = t.idx (σ d r) d
  event : ∀ r d, ev[σ d r]? = ev[r]?

theorem Permuted.refl (ev : List Int) (t : Tracks F) : Permuted ev t t (fun _ => 1) :=
  ⟨fun _ _ => rfl, fun _ _ => rfl, fun _ _ => rfl, fun _ _ => rfl, fun _ _ => rfl⟩

theorem Permuted.trans {ev : List Int} {t t' t'' : Tracks F} {σ τ : Nat → Equiv.Perm Nat} (h : Permuted ev t t' σ)
    (h' : Permuted ev t' t'' τ) : Permuted ev t t'' (fun d => (τ d).trans (σ d)) := by
  refine ⟨?_, ?_, ?_, ?_, ?_⟩
  · intro r d; rw [h'.x, h.x]; rfl
  · intro r d; rw [h'.y, h.y]; rfl
  · intro r d; rw [h'.z, h.z]; rfl
  · intro r d; rw [h'.idx, h.idx]; rfl
  · intro r d; rw [Equiv.trans_apply, h.event, h'.event]

theorem set2_swap (a : Nat → Nat → E) (i j d r d' : Nat) :
    set2 (set2 a i d (a j d)) j d (a i d) r d' = a ((if d' = d then Equiv.swap i j else 1) r) d' := by
  unfold set2
  by_cases hd : d' = d
  · subst hd
    simp only [and_true, if_true]
    by_cases hj : r = j
    · subst hj; rw [if_pos rfl, Equiv.swap_apply_right]
    · rw [if_neg hj]
      by_cases hi : r = i
      · subst hi; rw [if_pos rfl, Equiv.swap_apply_left]
      · rw [if_neg hi, Equiv.swap_apply_of_ne_of_ne hi hj]
  · simp [hd]

theorem swapHits_permuted (ev : List Int) (t : Tracks F) (a b d : Nat) (h : ev[a]? = ev[b]?) :
    Permuted ev t (swapHits t a b d) (fun d' => if d' = d then Equiv.swap a b else 1) := by
  refine ⟨fun r d' => set2_swap t.x a b d r d', fun r d' => set2_swap t.y a b d r d', fun r d' => set2_swap t.z a b d r d',
    fun r d' => set2_swap t.idx a b d r d', ?_⟩
  intro r d'
  by_cases hd : d' = d
  · subst hd
    simp only [if_true]
    by_cases ha : r = a
    · subst ha; rw [Equiv.swap_apply_left, h]
    · by_cases hb : r = b
      · subst hb; rw [Equiv.swap_apply_right, h]
      · rw [Equiv.swap_apply_of_ne_of_ne ha hb]
  · simp [hd]

/-- `_find_tracks` ends, and permutes the hits of DUT `d` within events. -/
theorem findTracks_spec (hn : S.zs.Nodup) (start d : Nat) (hd : d ∈ S.zs) (track : Nat) (t : Tracks F)
    (hev : S.ev[track]? = S.ev[start]?) :
    ∃ t' σ, findTracks S start d track t = some t' ∧ Permuted S.ev t t' σ ∧ ∀ d' ≠ d, σ d' = 1 := by
  induction track using Nat.strongRecOn generalizing t with
  | _ track ih =>
    have same : ∃ t' σ, some t = some t' ∧ Permuted S.ev t t' σ ∧ ∀ d' ≠ d, σ d' = 1 :=
      ⟨t, fun _ => 1, rfl, Permuted.refl _ _, fun _ _ => rfl⟩
    rw [findTracks]
    cases hf : firstDut S t.x track S.zs with
    | none => exact same
    | some first =>
      simp only []
      split
      · exact same
      obtain ⟨r, hr⟩ := reference_total S hn t track d first hd
      rw [hr]
      simp only [Option.bind_eq_bind, Option.bind_some]
      obtain ⟨b, hb⟩ := hitLoop_total S hn t start track d hd r start none
        (if S.fl.isnan (t.x track d) then S.fl.minusOne else distance S (t.x track d) (t.y track d) r)
      rw [hb]
      simp only [Option.bind_some]
      cases b with
      | none => exact same
      | some best =>
        obtain ⟨hbl, hbe, hbt, -⟩ := hitLoop_some S t start track d r start none _ (by simp) best hb
        have hp := swapHits_permuted S.ev t track best d (by rw [hev, hbe])
        simp only []
        split
        next hcond =>
          obtain ⟨t', σ, h1, h2, h3⟩ := ih best hcond.1 (swapHits t track best d) hbe
          refine ⟨t', _, h1, hp.trans h2, ?_⟩
          intro d' hd'
          rw [h3 d' hd', if_neg hd']
          rfl
        · refine ⟨_, _, rfl, hp, ?_⟩
          intro d' hd'
          rw [if_neg hd']

theorem rowLoop_spec (hn : S.zs.Nodup) (start d : Nat) (hd : d ∈ S.zs) (a : Int) (ha : S.ev[start]? = some a) (row : Nat)
    (t : Tracks F) :
    ∃ t' σ, rowLoop S start d a row t = some t' ∧ Permuted S.ev t t' σ ∧ ∀ d' ≠ d, σ d' = 1 := by
  induction hm : S.ev.length - row using Nat.strongRecOn generalizing row t with
  | _ m ih =>
    have same : ∃ t' σ, some t = some t' ∧ Permuted S.ev t t' σ ∧ ∀ d' ≠ d, σ d' = 1 :=
      ⟨t, fun _ => 1, rfl, Permuted.refl _ _, fun _ _ => rfl⟩
    rw [rowLoop]
    split
    · split
      · exact same
      next hlt hev =>
        obtain ⟨t1, σ1, h1, p1, q1⟩ := findTracks_spec S hn start d hd row t (by rw [ha]; simpa using hev)
        rw [h1]
        simp only [Option.bind_eq_bind, Option.bind_some]
        obtain ⟨t2, σ2, h2, p2, q2⟩ := ih (S.ev.length - (row + 1)) (by omega) (row + 1) t1 rfl
        refine ⟨t2, _, h2, p1.trans p2, ?_⟩
        intro d' hd'
        rw [q1 d' hd', q2 d' hd']
        rfl
    · exact same

theorem dutLoop_spec (hn : S.zs.Nodup) (start : Nat) (a : Int) (ha : S.ev[start]? = some a) (ds : List Nat)
    (hds : ∀ d ∈ ds, d ∈ S.zs) (t : Tracks F) :
    ∃ t' σ, dutLoop S start a ds t = some t' ∧ Permuted S.ev t t' σ ∧ ∀ d' ∉ ds, σ d' = 1 := by
  induction ds generalizing t with
  | nil => exact ⟨t, fun _ => 1, rfl, Permuted.refl _ _, fun _ _ => rfl⟩
  | cons d ds ih =>
    obtain ⟨t1, σ1, h1, p1, q1⟩ := rowLoop_spec S hn start d (hds d (by simp)) a ha start t
    obtain ⟨t2, σ2, h2, p2, q2⟩ := ih (fun d hd => hds d (by simp [hd])) t1
    rw [dutLoop, h1]
    refine ⟨t2, _, h2, p1.trans p2, ?_⟩
    intro d' hd'
    simp only [List.mem_cons, not_or] at hd'
    rw [q1 d' hd'.1, q2 d' hd'.2]
    rfl

theorem findLoop_spec (hn : S.zs.Nodup) (analyze : Int) (row : Nat) (t : Tracks F) :
    ∃ t' σ, findLoop S analyze row t = some t' ∧ Permuted S.ev t t' σ ∧ ∀ d' ∉ S.zs.tail, σ d' = 1 := by
  induction hm : S.ev.length - row using Nat.strongRecOn generalizing row t analyze with
  | _ m ih =>
    rw [findLoop]
    split
    next hlt =>
      split
      · obtain ⟨t1, σ1, h1, p1, q1⟩ := dutLoop_spec S hn row S.ev[row] (List.getElem?_eq_getElem hlt) S.zs.tail
          (fun d hd => List.mem_of_mem_tail hd) t
        rw [h1]
        simp only []
        obtain ⟨t2, σ2, h2, p2, q2⟩ := ih (S.ev.length - (row + 1)) (by omega) S.ev[row] (row + 1) t1 rfl
        refine ⟨t2, _, h2, p1.trans p2, ?_⟩
        intro d' hd'
        rw [q1 d' hd', q2 d' hd']
        rfl
      · exact ih (S.ev.length - (row + 1)) (by omega) _ (row + 1) t rfl
    · exact ⟨t, fun _ => 1, rfl, Permuted.refl _ _, fun _ _ => rfl⟩

end BTA.Find
