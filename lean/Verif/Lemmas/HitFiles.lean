import Verif.Spec.HitFiles
import Verif.Lemmas.ConvertCoordinates
/-
Lemmas on the wrappers `check`, `mask` and `cluster`.
-/
namespace BTA.HitFiles
open BTA.HitFiles.Spec

theorem bind_ok {α β : Type} {x : Except Err α} {f : α → Except Err β} {b : β} (h : (x >>= f) = .ok b) : ∃ a, x = .ok a ∧ f a = .ok b := by
  cases x with
  | error e => cases h
  | ok a => exact ⟨a, rfl, h⟩

theorem ok_bind {α β : Type} {x : Except Err α} {a : α} (h : x = .ok a) (f : α → Except Err β) : (x >>= f) = f a := by
  subst h
  rfl

theorem perDut_ok {V : Type} {n : Nat} {s : Setting V} {l : List V} (h : perDut n s = .ok l) :
    Fits n s ∧ l.length = n ∧ ∀ (k : Nat) v, l[k]? = some v → ValueAt s k v := by
  cases s with
  | one v =>
    simp only [perDut, Except.ok.injEq] at h
    subst h
    refine ⟨trivial, by simp, fun k v' hv => ?_⟩
    rw [List.getElem?_replicate] at hv
    split at hv
    · injection hv with hv
      exact hv.symm
    · cases hv
  | many m =>
    simp only [perDut] at h
    split at h
    · cases h
    · next hn =>
      injection h with h
      subst h
      have hn : n = m.length := by simpa using hn
      exact ⟨hn.symm, hn.symm, fun k v hv => hv⟩

theorem perDut_fits {V : Type} {n : Nat} {s : Setting V} (h : Fits n s) : ∃ l, perDut n s = .ok l := by
  cases s with
  | one v => exact ⟨_, rfl⟩
  | many m =>
    have h : m.length = n := h
    exact ⟨m, by simp [perDut, h]⟩

theorem perFile_ok {n : Nat} {s : Option (List String)} {l : List (Option String)} (h : perFile n s = .ok l) :
    FitsNames n s ∧ l.length = n ∧ ∀ (k : Nat) v, l[k]? = some v → NameAt s k v := by
  cases s with
  | none =>
    simp only [perFile, Except.ok.injEq] at h
    subst h
    refine ⟨trivial, by simp, fun k v' hv => ?_⟩
    rw [List.getElem?_replicate] at hv
    split at hv
    · injection hv with hv
      exact hv.symm
    · cases hv
  | some m =>
    simp only [perFile] at h
    split at h
    · cases h
    · next hn =>
      injection h with h
      subst h
      have hn : n = m.length := by simpa using hn
      refine ⟨hn.symm, by simp [hn], fun k v hv => ?_⟩
      rw [List.getElem?_map] at hv
      cases hk : m[k]? with
      | none => rw [hk] at hv; cases hv
      | some f =>
        rw [hk] at hv
        exact ⟨f, hk, by simpa using hv.symm⟩

theorem perFile_fits {n : Nat} {s : Option (List String)} (h : FitsNames n s) : ∃ l, perFile n s = .ok l := by
  cases s with
  | none => exact ⟨_, rfl⟩
  | some m =>
    have h : m.length = n := h
    exact ⟨m.map some, by simp [perFile, h]⟩

theorem checkSelection_ok {n : Nat} {sel : List Int} : checkSelection n sel = .ok () ↔ sel ≠ [] ∧ ∀ s ∈ sel, 0 ≤ s ∧ s ≤ n := by
  unfold checkSelection
  split
  · next h => simp [h]
  · next h =>
    split
    · next h' =>
      simp only [reduceCtorEq, false_iff, not_and]
      intro _ hall
      rw [Bool.or_eq_true, List.any_eq_true, List.any_eq_true] at h'
      rcases h' with ⟨s, hs, h'⟩ | ⟨s, hs, h'⟩
      · have := hall s hs
        simp only [decide_eq_true_eq] at h'
        omega
      · have := hall s hs
        simp only [decide_eq_true_eq] at h'
        omega
    · next h' =>
      simp only [true_iff]
      refine ⟨h, fun s hs => ?_⟩
      rw [Bool.or_eq_true, List.any_eq_true, List.any_eq_true] at h'
      push Not at h'
      have h1 := h'.1 s hs
      have h2 := h'.2 s hs
      simp only [decide_eq_true_eq, ne_eq, not_lt] at h1 h2
      exact ⟨h2, h1⟩

theorem checkFiles_ok {sel : List Int} {files : List String} : checkFiles sel files = .ok () ↔ files.length = sel.length := by
  unfold checkFiles
  split
  · next h => simp only [reduceCtorEq, false_iff]; exact fun h' => h h'.symm
  · next h => simp only [true_iff]; exact (not_not.mp h).symm

theorem loop_ok {D C : Type} {call : D → Nat → Option C} : ∀ (ds : List D) (i : Nat) {cs : List C}, loop call ds i = .ok cs →
    cs.length = ds.length ∧ ∀ (k : Nat) d, ds[k]? = some d → ∃ c, cs[k]? = some c ∧ call d (i + k) = some c
  | [], i, cs, h => by
    injection h with h
    subst h
    exact ⟨rfl, fun k d hd => by simp at hd⟩
  | d :: ds, i, cs, h => by
    rw [loop] at h
    split at h
    · cases h
    · next c hc =>
      split at h
      · cases h
      · next cs' hcs =>
        injection h with h
        subst h
        obtain ⟨h1, h2⟩ := loop_ok ds (i + 1) hcs
        refine ⟨by simp [h1], fun k d' hd => ?_⟩
        cases k with
        | zero =>
          simp only [List.getElem?_cons_zero, Option.some.injEq] at hd
          subst hd
          exact ⟨c, rfl, hc⟩
        | succ k =>
          obtain ⟨c', h3, h4⟩ := h2 k d' hd
          exact ⟨c', h3, by rw [← h4]; congr 1; omega⟩

theorem loop_succeeds {D C : Type} {call : D → Nat → Option C} : ∀ (ds : List D) (i : Nat), (∀ d k, i ≤ k → k < i + ds.length → call d k ≠ none) →
    ∃ cs, loop call ds i = .ok cs
  | [], i, _ => ⟨[], rfl⟩
  | d :: ds, i, h => by
    obtain ⟨cs, hcs⟩ := loop_succeeds ds (i + 1) fun d k h1 h2 => h d k (by omega) (by simp only [List.length_cons]; omega)
    cases hc : call d i with
    | none => exact absurd hc (h d i le_rfl (by simp))
    | some c => exact ⟨c :: cs, by rw [loop, hc, hcs]⟩

theorem selected_length' {D : Type} (telescope : List D) (sel : List Int) :
    (selected telescope sel).length = ((List.range' 0 telescope.length).filter fun i : Nat => (i : Int) ∈ sel).length := by
  unfold selected
  rw [List.length_map]
  exact Convert.selected_length 0 telescope sel

theorem selected_le {D : Type} (telescope : List D) (sel : List Int) : (selected telescope sel).length ≤ sel.length := by
  rw [selected_length']
  exact Convert.distinct_le _ _

theorem selected_lt {D : Type} (telescope : List D) (sel : List Int) (h : ¬(sel.Nodup ∧ ∀ s ∈ sel, 0 ≤ s ∧ s < telescope.length)) :
    (selected telescope sel).length < sel.length := by
  refine lt_of_le_of_ne (selected_le telescope sel) fun he => h ?_
  rw [selected_length'] at he
  exact Convert.distinct_eq _ _ he

theorem selected_at {D : Type} (telescope : List D) (sel : List Int) (h : Increasing telescope.length sel) :
    (selected telescope sel).length = sel.length ∧ ∀ (k : Nat) s, sel[k]? = some s →
      ∃ d, telescope[s.toNat]? = some d ∧ (selected telescope sel)[k]? = some d := by
  have hmap := Convert.selectedFrom_sorted 0 telescope sel h.1 (by simpa using h.2)
  have hmap : (selected telescope sel).map some = sel.map fun s => telescope[s.toNat]? := by simpa [selected] using hmap
  refine ⟨by simpa using congrArg List.length hmap, fun k s hs => ?_⟩
  have hk := congrArg (fun l : List (Option D) => l[k]?) hmap
  simp only [List.getElem?_map, hs, Option.map_some] at hk
  cases hd : (selected telescope sel)[k]? with
  | none => rw [hd] at hk; cases hk
  | some d =>
    rw [hd] at hk
    exact ⟨d, by simpa using hk.symm, rfl⟩

theorem isSelection (n : Nat) (select : Option (List Int)) : IsSelection n select (selection n select) := by
  cases select with
  | some s => rfl
  | none =>
    refine ⟨by simp [selection], fun k hk => ?_⟩
    simp [selection, hk]

theorem selection_eq {n : Nat} {select : Option (List Int)} {sel : List Int} (h : IsSelection n select sel) : selection n select = sel := by
  cases select with
  | some s => exact h.symm
  | none =>
    obtain ⟨h1, h2⟩ := h
    refine List.ext_getElem? fun k => ?_
    by_cases hk : k < n
    · rw [h2 k hk]
      simp [selection, hk]
    · rw [List.getElem?_eq_none_iff.mpr (by simp [selection]; omega), List.getElem?_eq_none_iff.mpr (by omega)]

end BTA.HitFiles
