import Verif.Spec.YamlFile
import Mathlib.Data.List.Nodup
import Mathlib.Data.List.Perm.Subperm
import Mathlib.Tactic.Tauto
import Mathlib.Tactic.NormNum
/-
Lemmas for C236.
-/
namespace BTA.YamlFile
open BTA.YamlFile.Spec

/-- One scalar for all scalars that mean the same. -/
def canon (s : Scalar) : Scalar :=
  match number s with
  | some x => .flt x
  | none => s

theorem scalarEq_canon (a b : Scalar) : scalarEq a b = true ↔ canon a = canon b := by
  cases a <;> cases b <;> simp [scalarEq, canon, number]

theorem same_canon (a b : Scalar) : SameScalar a b ↔ canon a = canon b := by
  constructor
  · intro h
    induction h with
    | refl => rfl
    | boolInt => simp [canon, number]
    | boolInt0 => simp [canon, number]
    | intFlt i => simp [canon, number]
    | symm _ ih => exact ih.symm
    | trans _ _ ih₁ ih₂ => exact ih₁.trans ih₂
  · intro h
    have key : ∀ s, SameScalar s (canon s) := by
      intro s
      cases s with
      | bool b =>
        cases b
        · simpa [canon, number] using SameScalar.boolInt0.trans (SameScalar.intFlt 0)
        · simpa [canon, number] using SameScalar.boolInt.trans (SameScalar.intFlt 1)
      | int i => exact SameScalar.intFlt i
      | _ => exact SameScalar.refl _
    exact ((key a).trans (h ▸ SameScalar.refl _)).trans (key b).symm

theorem scalarEq_same (a b : Scalar) : scalarEq a b = true ↔ SameScalar a b := by
  rw [scalarEq_canon, same_canon]

/-- The keys of a dictionary, one scalar for all that mean the same. -/
def keys : Es → List Scalar
  | .nil => []
  | .cons k _ m => canon k :: keys m

theorem keys_length (m : Es) : (keys m).length = m.size := by
  match m with
  | .nil => rfl
  | .cons k y m => simp [keys, Es.size, keys_length m]

theorem mem_keys (m : Es) (c : Scalar) : c ∈ keys m ↔ ∃ k v, Item m k v ∧ canon k = c := by
  match m with
  | .nil =>
    simp only [keys, List.not_mem_nil, false_iff]
    rintro ⟨k, v, h, -⟩
    cases h
  | .cons k y m =>
    simp only [keys, List.mem_cons]
    rw [mem_keys m c]
    constructor
    · rintro (rfl | ⟨k', v, h, e⟩)
      · exact ⟨k, y, .head _ _ _, rfl⟩
      · exact ⟨k', v, .tail _ _ _ _ _ h, e⟩
    · rintro ⟨k', v, h, e⟩
      cases h with
      | head => exact .inl e.symm
      | tail _ _ _ _ _ h => exact .inr ⟨k', v, h, e⟩

theorem keys_nodup (m : Es) (h : ValidMap m) : (keys m).Nodup := by
  match m with
  | .nil => exact List.nodup_nil
  | .cons k y m =>
    simp only [ValidMap] at h
    refine List.nodup_cons.2 ⟨?_, keys_nodup m h.2.2⟩
    rw [mem_keys]
    rintro ⟨k', v, hi, e⟩
    exact h.1 k' v hi ((same_canon _ _).2 e.symm)

theorem get_has (m : Es) (h : ValidMap m) (k : Scalar) (v : Y) : m.get k = some v ↔ Has m k v := by
  match m with
  | .nil =>
    simp only [Es.get, reduceCtorEq, false_iff]
    rintro ⟨k', hi, -⟩
    cases hi
  | .cons k' y m =>
    simp only [ValidMap] at h
    simp only [Es.get]
    split
    · next e =>
      rw [scalarEq_same] at e
      constructor
      · intro e'
        cases e'
        exact ⟨k', .head _ _ _, e.symm⟩
      · rintro ⟨k'', hi, e'⟩
        cases hi with
        | head => rfl
        | tail _ _ _ _ _ hi => exact absurd (e.trans e') (h.1 _ _ hi)
    · next e =>
      rw [scalarEq_same] at e
      rw [get_has m h.2.2 k v]
      constructor
      · rintro ⟨k'', hi, e'⟩
        exact ⟨k'', .tail _ _ _ _ _ hi, e'⟩
      · rintro ⟨k'', hi, e'⟩
        cases hi with
        | head => exact absurd e'.symm e
        | tail _ _ _ _ _ hi => exact ⟨k'', hi, e'⟩

theorem has_unique (m : Es) (h : ValidMap m) (k : Scalar) (v w : Y) (hv : Has m k v) (hw : Has m k w) : v = w := by
  rw [← get_has m h] at hv hw
  exact Option.some.inj (hv.symm.trans hw)

theorem valid_item (m : Es) (h : ValidMap m) (k : Scalar) (v : Y) (hi : Item m k v) : Valid v := by
  match m, hi with
  | .cons _ _ _, .head _ _ _ => simp only [ValidMap] at h; exact h.2.1
  | .cons _ _ m, .tail _ _ _ _ _ hi => simp only [ValidMap] at h; exact valid_item m h.2.2 k v hi

theorem has_key (m : Es) (k : Scalar) : (∃ v, Has m k v) ↔ canon k ∈ keys m := by
  rw [mem_keys]
  constructor
  · rintro ⟨v, k', hi, e⟩
    exact ⟨k', v, hi, ((same_canon _ _).1 e).symm⟩
  · rintro ⟨k', v, hi, e⟩
    exact ⟨v, k', hi, (same_canon _ _).2 e.symm⟩

theorem atIndex_unique {l : Ys} {i : ℕ} {v w : Y} (hv : AtIndex l i v) (hw : AtIndex l i w) : v = w := by
  induction hv with
  | head => cases hw; rfl
  | tail _ _ _ _ _ ih => cases hw with | tail _ _ _ _ h => exact ih h

theorem alike_here (a b : Y) (h : SameContent a b) : Alike a b := by
  obtain ⟨w, hw, hal⟩ := (h []).1 a (.here a)
  cases hw
  exact hal

theorem content_scalar (a b : Scalar) : SameContent (.scalar a) (.scalar b) ↔ SameScalar a b := by
  constructor
  · intro h; exact alike_here _ _ h
  · intro h p
    constructor
    · intro v hv
      cases hv
      exact ⟨_, .here _, h⟩
    · intro v hv
      cases hv
      exact ⟨_, .here _, h⟩

theorem content_list (a b : Ys) : SameContent (.list a) (.list b) ↔
    ∀ i, (∀ x, AtIndex a i x → ∃ y, AtIndex b i y ∧ SameContent x y) ∧ (∀ y, AtIndex b i y → ∃ x, AtIndex a i x ∧ SameContent x y) := by
  constructor
  · intro h i
    have core : ∀ x y, AtIndex a i x → AtIndex b i y → SameContent x y := by
      intro x y hx hy p
      constructor
      · intro v hv
        obtain ⟨w, hw, hal⟩ := (h (.index i :: p)).1 v (.index _ _ _ _ _ hx hv)
        cases hw with
        | index _ _ y' _ _ hy' hw =>
          rw [atIndex_unique hy hy']
          exact ⟨w, hw, hal⟩
      · intro v hv
        obtain ⟨w, hw, hal⟩ := (h (.index i :: p)).2 v (.index _ _ _ _ _ hy hv)
        cases hw with
        | index _ _ y' _ _ hy' hw =>
          rw [atIndex_unique hx hy']
          exact ⟨w, hw, hal⟩
    constructor
    · intro x hx
      obtain ⟨w, hw, -⟩ := (h [.index i]).1 x (.index _ _ _ _ _ hx (.here x))
      cases hw with
      | index _ _ y' _ _ hy' hw => exact ⟨y', hy', core _ _ hx hy'⟩
    · intro y hy
      obtain ⟨w, hw, -⟩ := (h [.index i]).2 y (.index _ _ _ _ _ hy (.here y))
      cases hw with
      | index _ _ y' _ _ hy' hw => exact ⟨y', hy', core _ _ hy' hy⟩
  · intro h p
    constructor
    · intro v hv
      cases hv with
      | here => exact ⟨_, .here _, trivial⟩
      | index _ i x p _ hx hv =>
        obtain ⟨y, hy, hc⟩ := (h i).1 x hx
        obtain ⟨w, hw, hal⟩ := (hc p).1 v hv
        exact ⟨w, .index _ _ _ _ _ hy hw, hal⟩
    · intro v hv
      cases hv with
      | here => exact ⟨_, .here _, trivial⟩
      | index _ i x p _ hx hv =>
        obtain ⟨y, hy, hc⟩ := (h i).2 x hx
        obtain ⟨w, hw, hal⟩ := (hc p).2 v hv
        exact ⟨w, .index _ _ _ _ _ hy hw, hal⟩

/-- Two functions from keys to values with the same content. -/
def SameItems (f g : Scalar → Y → Prop) : Prop :=
  ∀ k, (∀ x, f k x → ∃ y, g k y ∧ SameContent x y) ∧ (∀ y, g k y → ∃ x, f k x ∧ SameContent x y)

theorem items_paths (f g : Scalar → Y → Prop) (hf : ∀ k x y, f k x → f k y → x = y) (hg : ∀ k x y, g k x → g k y → x = y) :
    SameItems f g ↔ ∀ k p, (∀ v, (∃ x, f k x ∧ Found x p v) → ∃ w, (∃ y, g k y ∧ Found y p w) ∧ Alike v w) ∧
      (∀ w, (∃ y, g k y ∧ Found y p w) → ∃ v, (∃ x, f k x ∧ Found x p v) ∧ Alike v w) := by
  constructor
  · intro h k p
    constructor
    · rintro v ⟨x, hx, hv⟩
      obtain ⟨y, hy, hc⟩ := (h k).1 x hx
      obtain ⟨w, hw, hal⟩ := (hc p).1 v hv
      exact ⟨w, ⟨y, hy, hw⟩, hal⟩
    · rintro v ⟨x, hx, hv⟩
      obtain ⟨y, hy, hc⟩ := (h k).2 x hx
      obtain ⟨w, hw, hal⟩ := (hc p).2 v hv
      exact ⟨w, ⟨y, hy, hw⟩, hal⟩
  · intro h k
    have core : ∀ x y, f k x → g k y → SameContent x y := by
      intro x y hx hy p
      constructor
      · intro v hv
        obtain ⟨w, ⟨y', hy', hw⟩, hal⟩ := (h k p).1 v ⟨x, hx, hv⟩
        rw [hg k y y' hy hy']
        exact ⟨w, hw, hal⟩
      · intro v hv
        obtain ⟨w, ⟨y', hy', hw⟩, hal⟩ := (h k p).2 v ⟨y, hy, hv⟩
        rw [hf k x y' hx hy']
        exact ⟨w, hw, hal⟩
    constructor
    · intro x hx
      obtain ⟨w, ⟨y', hy', hw⟩, hal⟩ := (h k []).1 x ⟨x, hx, .here x⟩
      exact ⟨y', hy', core _ _ hx hy'⟩
    · intro y hy
      obtain ⟨w, ⟨y', hy', hw⟩, hal⟩ := (h k []).2 y ⟨y, hy, .here y⟩
      exact ⟨y', hy', core _ _ hy' hy⟩

theorem found_map (m : Es) (k : Scalar) (p : List Step) (v : Y) : Found (.map m) (.key k :: p) v ↔ ∃ x, Has m k x ∧ Found x p v := by
  constructor
  · intro h
    cases h with
    | key _ _ k' y _ _ hi e hv => exact ⟨y, ⟨k', hi, e⟩, hv⟩
  · rintro ⟨x, ⟨k', hi, e⟩, hv⟩
    exact .key _ _ _ _ _ _ hi e hv

theorem content_map (a b : Es) (ha : ValidMap a) (hb : ValidMap b) : SameContent (.map a) (.map b) ↔ SameItems (Has a) (Has b) := by
  rw [items_paths _ _ (fun k x y => has_unique a ha k x y) (fun k x y => has_unique b hb k x y)]
  simp only [← found_map]
  constructor
  · intro h k p
    exact h (.key k :: p)
  · intro h p
    constructor
    · intro v hv
      cases hv with
      | here => exact ⟨_, .here _, trivial⟩
      | key _ k k' y p _ hi e hv => exact (h k p).1 v (.key _ _ _ _ _ _ hi e hv)
    · intro v hv
      cases hv with
      | here => exact ⟨_, .here _, trivial⟩
      | key _ k k' y p _ hi e hv => exact (h k p).2 v (.key _ _ _ _ _ _ hi e hv)

theorem sizes (a b : Es) (ha : ValidMap a) (hb : ValidMap b) (h : SameItems (Has a) (Has b)) : a.size = b.size := by
  rw [← keys_length, ← keys_length]
  apply List.Perm.length_eq
  rw [List.perm_ext_iff_of_nodup (keys_nodup a ha) (keys_nodup b hb)]
  intro c
  constructor
  · intro hc
    obtain ⟨k, v, hi, rfl⟩ := (mem_keys a c).1 hc
    obtain ⟨y, hy, -⟩ := (h k).1 v ⟨k, hi, .refl k⟩
    exact (has_key b k).1 ⟨y, hy⟩
  · intro hc
    obtain ⟨k, v, hi, rfl⟩ := (mem_keys b c).1 hc
    obtain ⟨y, hy, -⟩ := (h k).2 v ⟨k, hi, .refl k⟩
    exact (has_key a k).1 ⟨y, hy⟩

/-- Every key of the second dictionary is a key of the first one, if these are as many and each key of the first one is in the second one. -/
theorem all_keys (a b : Es) (ha : ValidMap a) (hs : a.size = b.size)
    (h : ∀ k x, Item a k x → ∃ y, Has b k y) (k : Scalar) (y : Y) (hy : Has b k y) : ∃ x, Has a k x := by
  have hsub : keys a ⊆ keys b := by
    intro c hc
    obtain ⟨k, v, hi, rfl⟩ := (mem_keys a c).1 hc
    exact (has_key b k).1 (h k v hi)
  have hp : (keys a).Perm (keys b) := by
    refine ((keys_nodup a ha).subperm hsub).perm_of_length_le ?_
    rw [keys_length, keys_length, hs]
  exact (has_key a k).2 (hp.mem_iff.2 ((has_key b k).1 ⟨y, hy⟩))

mutual
theorem eqY_iff : ∀ a b : Y, Valid a → Valid b → (eqY a b = true ↔ SameContent a b)
  | .scalar a, .scalar b, _, _ => by rw [content_scalar, ← scalarEq_same]; simp only [eqY]
  | .list a, .list b, ha, hb => by
    simp only [Valid] at ha hb
    rw [content_list, ← eqYs_iff a b ha hb]; simp only [eqY]
  | .map a, .map b, ha, hb => by
    simp only [Valid] at ha hb
    have key := eqEs_iff a b ha hb
    rw [content_map a b ha hb]
    simp only [eqY, Bool.and_eq_true, decide_eq_true_eq]
    rw [key]
    constructor
    · rintro ⟨hs, h⟩ k
      have fwd : ∀ x, Has a k x → ∃ y, Has b k y ∧ SameContent x y := by
        rintro x ⟨k', hi, e⟩
        obtain ⟨y, ⟨k'', hi', e'⟩, hc⟩ := h k' x hi
        exact ⟨y, ⟨k'', hi', e.trans e'⟩, hc⟩
      refine ⟨fwd, ?_⟩
      intro y hy
      obtain ⟨x, hx⟩ := all_keys a b ha hs (fun k x hi => (h k x hi).imp fun _ h => h.1) k y hy
      obtain ⟨y', hy', hc⟩ := fwd x hx
      rw [has_unique b hb k y y' hy hy']
      exact ⟨x, hx, hc⟩
    · intro h
      exact ⟨sizes a b ha hb h, fun k x hi => (h k).1 x ⟨k, hi, .refl k⟩⟩
  | .scalar a, .list b, _, _ | .scalar a, .map b, _, _ | .list a, .scalar b, _, _ | .list a, .map b, _, _ | .map a, .scalar b, _, _ | .map a, .list b, _, _ => by
    simp only [eqY, Bool.false_eq_true, false_iff]
    intro h
    exact alike_here _ _ h
theorem eqYs_iff : ∀ a b : Ys, ValidList a → ValidList b → (eqYs a b = true ↔
    ∀ i, (∀ x, AtIndex a i x → ∃ y, AtIndex b i y ∧ SameContent x y) ∧ (∀ y, AtIndex b i y → ∃ x, AtIndex a i x ∧ SameContent x y))
  | .nil, .nil, _, _ => by
    simp only [eqYs, true_iff]
    intro i
    exact ⟨fun x h => (by cases h), fun x h => (by cases h)⟩
  | .nil, .cons y b, _, _ => by
    simp only [eqYs, Bool.false_eq_true, false_iff]
    intro h
    obtain ⟨x, hx, -⟩ := (h 0).2 y (.head _ _)
    cases hx
  | .cons x a, .nil, _, _ => by
    simp only [eqYs, Bool.false_eq_true, false_iff]
    intro h
    obtain ⟨x, hx, -⟩ := (h 0).1 x (.head _ _)
    cases hx
  | .cons x a, .cons y b, ha, hb => by
    simp only [ValidList] at ha hb
    simp only [eqYs, Bool.and_eq_true]
    rw [eqY_iff x y ha.1 hb.1, eqYs_iff a b ha.2 hb.2]
    constructor
    · rintro ⟨h0, h⟩ i
      constructor
      · intro v hv
        cases hv with
        | head => exact ⟨y, .head _ _, h0⟩
        | tail _ _ i _ hv =>
          obtain ⟨w, hw, hc⟩ := (h i).1 v hv
          exact ⟨w, .tail _ _ _ _ hw, hc⟩
      · intro v hv
        cases hv with
        | head => exact ⟨x, .head _ _, h0⟩
        | tail _ _ i _ hv =>
          obtain ⟨w, hw, hc⟩ := (h i).2 v hv
          exact ⟨w, .tail _ _ _ _ hw, hc⟩
    · intro h
      constructor
      · obtain ⟨w, hw, hc⟩ := (h 0).1 x (.head _ _)
        cases hw
        exact hc
      · intro i
        constructor
        · intro v hv
          obtain ⟨w, hw, hc⟩ := (h (i + 1)).1 v (.tail _ _ _ _ hv)
          cases hw with
          | tail _ _ _ _ hw => exact ⟨w, hw, hc⟩
        · intro v hv
          obtain ⟨w, hw, hc⟩ := (h (i + 1)).2 v (.tail _ _ _ _ hv)
          cases hw with
          | tail _ _ _ _ hw => exact ⟨w, hw, hc⟩
theorem eqEs_iff : ∀ a b : Es, ValidMap a → ValidMap b → (eqEs a b = true ↔ ∀ k x, Item a k x → ∃ y, Has b k y ∧ SameContent x y)
  | .nil, b, _, _ => by
    simp only [eqEs, true_iff]
    intro k x h
    cases h
  | .cons k x a, b, ha, hb => by
    simp only [ValidMap] at ha
    simp only [eqEs, Bool.and_eq_true]
    rw [eqEs_iff a b ha.2.2 hb]
    have head : (match b.get k with | none => false | some y => eqY x y) = true ↔ ∃ y, Has b k y ∧ SameContent x y := by
      cases hg : b.get k with
      | none =>
        simp only [Bool.false_eq_true, false_iff]
        rintro ⟨y, hy, -⟩
        rw [← get_has b hb, hg] at hy
        cases hy
      | some y =>
        have hy := (get_has b hb k y).1 hg
        have hvy : Valid y := by
          obtain ⟨k', hi, -⟩ := hy
          exact valid_item b hb k' y hi
        simp only
        rw [eqY_iff x y ha.2.1 hvy]
        constructor
        · intro h; exact ⟨y, hy, h⟩
        · rintro ⟨y', hy', h⟩
          rw [has_unique b hb k y y' hy hy']
          exact h
    refine Iff.trans (and_congr head Iff.rfl) ?_
    constructor
    · rintro ⟨h0, h⟩ k' v hi
      cases hi with
      | head => exact h0
      | tail _ _ _ _ _ hi => exact h k' v hi
    · intro h
      exact ⟨h k x (.head _ _ _), fun k' v hi => h k' v (.tail _ _ _ _ _ hi)⟩
end

end BTA.YamlFile
