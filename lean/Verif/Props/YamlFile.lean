import Verif.Lemmas.YamlFile
/-
C236: comparison of YAML files.
-/
namespace BTA.YamlFile
open BTA.YamlFile.Spec

theorem item_set (d : Es) (key : Scalar) (v : Y) : ∀ k w, Item (d.set key v) k w → (w = v ∧ SameScalar key k) ∨ ∃ w', Item d k w' ∧ (w' = w ∨ w = v) := by
  match d with
  | .nil =>
    intro k w h
    simp only [Es.set] at h
    cases h with
    | head => exact .inl ⟨rfl, .refl _⟩
    | tail _ _ _ _ _ h => cases h
  | .cons k' y m =>
    intro k w h
    simp only [Es.set] at h
    split at h
    · next e =>
      cases h with
      | head => exact .inl ⟨rfl, ((scalarEq_same _ _).1 e).symm⟩
      | tail _ _ _ _ _ h => exact .inr ⟨w, .tail _ _ _ _ _ h, .inl rfl⟩
    · cases h with
      | head => exact .inr ⟨_, .head _ _ _, .inl rfl⟩
      | tail _ _ _ _ _ h =>
        rcases item_set m key v k w h with h | ⟨w', h, e⟩
        · exact .inl h
        · exact .inr ⟨w', .tail _ _ _ _ _ h, e⟩

theorem valid_set (d : Es) (key : Scalar) (v : Y) (hd : ValidMap d) (hv : Valid v) : ValidMap (d.set key v) := by
  match d with
  | .nil =>
    simp only [Es.set, ValidMap, and_true]
    exact ⟨fun k' w h => (by cases h), hv⟩
  | .cons k y m =>
    simp only [ValidMap] at hd
    simp only [Es.set]
    split
    · simp only [ValidMap]
      exact ⟨hd.1, hv, hd.2.2⟩
    · next e =>
      rw [scalarEq_same] at e
      simp only [ValidMap]
      refine ⟨?_, hd.2.1, valid_set m key v hd.2.2 hv⟩
      intro k' w h hs
      rcases item_set m key v k' w h with ⟨-, e'⟩ | ⟨w', h', -⟩
      · exact e (hs.trans e'.symm)
      · exact hd.1 k' w' h' hs

theorem get_set (d : Es) (key : Scalar) (v : Y) (k : Scalar) : (d.set key v).get k = if scalarEq key k then some v else d.get k := by
  match d with
  | .nil => simp only [Es.set, Es.get]
  | .cons k' y m =>
    simp only [Es.set]
    by_cases e : scalarEq k' key = true
    · rw [if_pos e]
      simp only [Es.get]
      have : scalarEq k' k = scalarEq key k := by
        rw [Bool.eq_iff_iff, scalarEq_canon, scalarEq_canon, (scalarEq_canon _ _).1 e]
      rw [this]
      split <;> rfl
    · rw [if_neg e]
      simp only [Es.get]
      rw [get_set m key v k]
      by_cases e' : scalarEq k' k = true
      · have : ¬ scalarEq key k = true := by
          intro e''
          rw [scalarEq_canon] at e e' e''
          exact e (e'.trans e''.symm)
        rw [if_pos e', if_pos e', if_neg this]
      · rw [if_neg e', if_neg e']

theorem valid_update (d m : Es) (hd : ValidMap d) (hm : ValidMap m) : ValidMap (update d m) := by
  match m with
  | .nil => exact hd
  | .cons k v m =>
    simp only [ValidMap] at hm
    simp only [update]
    exact valid_update _ m (valid_set d k v hd hm.2.1) hm.2.2

theorem get_update (d m : Es) (hm : ValidMap m) (k : Scalar) : (update d m).get k = (m.get k).or (d.get k) := by
  match m with
  | .nil => simp only [update, Es.get, Option.none_or]
  | .cons k' v m =>
    simp only [ValidMap] at hm
    simp only [update, Es.get]
    rw [get_update _ m hm.2.2 k, get_set]
    by_cases e : scalarEq k' k = true
    · rw [if_pos e, if_pos e]
      have hn : m.get k = none := by
        cases hg : m.get k with
        | none => rfl
        | some w =>
          obtain ⟨k'', hi, e'⟩ := (get_has m hm.2.2 k w).1 hg
          exact absurd (((scalarEq_same _ _).1 e).trans e') (hm.1 k'' w hi)
      rw [hn]
      simp
    · rw [if_neg e, if_neg e]

/-- Loading raises if and only if a document is no dictionary. -/
theorem load_ok (docs : List Y) : ∀ d, (∃ r, loadLoop d docs = .ok r) ↔ AllMaps docs := by
  induction docs with
  | nil =>
    intro d
    exact ⟨fun _ y h => (by cases h), fun _ => ⟨d, rfl⟩⟩
  | cons y docs ih =>
    intro d
    cases y with
    | map m =>
      simp only [loadLoop]
      rw [ih]
      constructor
      · intro h y hy
        rcases List.mem_cons.1 hy with rfl | hy
        · exact ⟨m, rfl⟩
        · exact h y hy
      · intro h y hy
        exact h y (List.mem_cons_of_mem _ hy)
    | scalar s =>
      simp only [loadLoop, reduceCtorEq, exists_false, false_iff]
      intro h
      obtain ⟨m, hm⟩ := h _ List.mem_cons_self
      cases hm
    | list s =>
      simp only [loadLoop, reduceCtorEq, exists_false, false_iff]
      intro h
      obtain ⟨m, hm⟩ := h _ List.mem_cons_self
      cases hm

theorem load_valid (docs : List Y) (hv : ∀ y ∈ docs, Valid y) : ∀ d r, ValidMap d → loadLoop d docs = .ok r → ValidMap r := by
  induction docs with
  | nil =>
    intro d r hd h
    simp only [loadLoop] at h
    cases h
    exact hd
  | cons y docs ih =>
    intro d r hd h
    have hy := hv y List.mem_cons_self
    cases y with
    | map m =>
      simp only [loadLoop] at h
      simp only [Valid] at hy
      exact ih (fun y hy => hv y (List.mem_cons_of_mem _ hy)) _ r (valid_update d m hd hy) h
    | scalar s => simp only [loadLoop] at h; cases h
    | list s => simp only [loadLoop] at h; cases h

theorem fileHas_cons (m : Es) (docs : List Y) (k : Scalar) (v : Y) :
    FileHas (.map m :: docs) k v ↔ FileHas docs k v ∨ Has m k v ∧ ∀ m', Y.map m' ∈ docs → ∀ w, ¬ Has m' k w := by
  constructor
  · rintro ⟨before, m', after, e, h, hn⟩
    cases before with
    | nil =>
      simp only [List.nil_append, List.cons.injEq, Y.map.injEq] at e
      obtain ⟨rfl, rfl⟩ := e
      exact .inr ⟨h, hn⟩
    | cons b before =>
      simp only [List.cons_append, List.cons.injEq] at e
      exact .inl ⟨before, m', after, e.2, h, hn⟩
  · rintro (⟨before, m', after, e, h, hn⟩ | ⟨h, hn⟩)
    · exact ⟨.map m :: before, m', after, by rw [e]; rfl, h, hn⟩
    · exact ⟨[], m, docs, rfl, h, hn⟩

theorem load_get (docs : List Y) (hv : ∀ y ∈ docs, Valid y) : ∀ d r, loadLoop d docs = .ok r → ∀ k v,
    (r.get k = some v ↔ FileHas docs k v ∨ d.get k = some v ∧ ∀ m', Y.map m' ∈ docs → ∀ w, ¬ Has m' k w) := by
  induction docs with
  | nil =>
    intro d r h k v
    simp only [loadLoop] at h
    cases h
    constructor
    · intro h
      exact .inr ⟨h, fun m' hm => (by cases hm)⟩
    · rintro (⟨before, m', after, e, -⟩ | h)
      · exact absurd e.symm (List.append_ne_nil_of_right_ne_nil _ (List.cons_ne_nil _ _))
      · exact h.1
  | cons y docs ih =>
    intro d r h k v
    have hy := hv y List.mem_cons_self
    cases y with
    | scalar s => simp only [loadLoop] at h; cases h
    | list s => simp only [loadLoop] at h; cases h
    | map m =>
      simp only [loadLoop] at h
      simp only [Valid] at hy
      rw [ih (fun y hy => hv y (List.mem_cons_of_mem _ hy)) _ r h k v, fileHas_cons, get_update d m hy]
      have hmem : (∀ m', Y.map m' ∈ Y.map m :: docs → ∀ w, ¬ Has m' k w) ↔ (∀ w, ¬ Has m k w) ∧ ∀ m', Y.map m' ∈ docs → ∀ w, ¬ Has m' k w := by
        constructor
        · intro h
          exact ⟨h m List.mem_cons_self, fun m' hm => h m' (List.mem_cons_of_mem _ hm)⟩
        · rintro ⟨h₁, h₂⟩ m' hm
          rcases List.mem_cons.1 hm with e | hm
          · cases e; exact h₁
          · exact h₂ m' hm
      rw [hmem]
      have hg : ((m.get k).or (d.get k) = some v) ↔ (Has m k v ∨ d.get k = some v ∧ ∀ w, ¬ Has m k w) := by
        cases e : m.get k with
        | none =>
          have hn : ∀ w, ¬ Has m k w := by
            intro w hw
            rw [← get_has m hy, e] at hw
            cases hw
          simp only [Option.none_or]
          exact ⟨fun h => .inr ⟨h, hn⟩, fun h => h.elim (fun h => absurd h (hn v)) fun h => h.1⟩
        | some y =>
          have hm := (get_has m hy k y).1 e
          simp only [Option.some_or, Option.some.injEq]
          constructor
          · rintro rfl; exact .inl hm
          · rintro (h | ⟨-, h⟩)
            · exact has_unique m hy k y v hm h
            · exact absurd hm (h y)
      rw [hg]
      tauto

theorem load_has (docs : List Y) (hv : ∀ y ∈ docs, Valid y) (r : Es) (h : load docs = .ok r) (k : Scalar) (v : Y) : Has r k v ↔ FileHas docs k v := by
  have hr : ValidMap r := load_valid docs hv .nil r (by simp only [ValidMap]) h
  rw [← get_has r hr, load_get docs hv .nil r h k v]
  simp only [Es.get, reduceCtorEq, false_and, or_false]

/-- **C236**: the comparison raises if and only if a document of one of the files is no dictionary (for example an empty document). -/
theorem C236_raises (first second : List Y) : (∃ e, compareFiles first second = .error e) ↔ ¬ (AllMaps first ∧ AllMaps second) := by
  have h₁ := load_ok first .nil
  have h₂ := load_ok second .nil
  rw [← h₁, ← h₂]
  simp only [compareFiles, load]
  cases e₁ : loadLoop .nil first with
  | error e => simpa using ⟨e⟩
  | ok d₁ =>
    cases e₂ : loadLoop .nil second with
    | error e => simpa using ⟨e⟩
    | ok d₂ => simp

/-- **C236**: files of dictionaries are reported to be equal if and only if whatever is found in one of them is found at the same place of the other one. -/
theorem C236_equal (first second : List Y) (hf : AllMaps first) (hs : AllMaps second) (vf : ∀ y ∈ first, Valid y) (vs : ∀ y ∈ second, Valid y) :
    ∃ b, compareFiles first second = .ok b ∧ (b = true ↔ SameFile first second) := by
  obtain ⟨d₁, e₁⟩ := (load_ok first .nil).2 hf
  obtain ⟨d₂, e₂⟩ := (load_ok second .nil).2 hs
  have v₁ : ValidMap d₁ := load_valid first vf .nil d₁ (by simp only [ValidMap]) e₁
  have v₂ : ValidMap d₂ := load_valid second vs .nil d₂ (by simp only [ValidMap]) e₂
  refine ⟨eqY (.map d₁) (.map d₂), ?_, ?_⟩
  · simp only [compareFiles, load, e₁, e₂]
  · rw [eqY_iff _ _ (by simpa only [Valid] using v₁) (by simpa only [Valid] using v₂), content_map d₁ d₂ v₁ v₂,
      items_paths _ _ (fun k x y => has_unique d₁ v₁ k x y) (fun k x y => has_unique d₂ v₂ k x y)]
    simp only [load_has first vf d₁ e₁, load_has second vs d₂ e₂]
    rfl

theorem alike_symm (a b : Y) (h : Alike a b) : Alike b a := by
  cases a <;> cases b <;> simp only [Alike] at h ⊢
  exact h.symm

theorem alike_refl (a : Y) : Alike a a := by
  cases a <;> simp only [Alike]
  exact .refl _

theorem alike_trans (a b c : Y) (h : Alike a b) (h' : Alike b c) : Alike a c := by
  cases a <;> cases b <;> cases c <;> simp only [Alike] at h h' ⊢
  exact h.trans h'

/-- **C236**: a file is equal to itself, also with NaN. -/
theorem C236_self (file : List Y) (hf : AllMaps file) (vf : ∀ y ∈ file, Valid y) : compareFiles file file = .ok true := by
  obtain ⟨b, hb, h⟩ := C236_equal file file hf hf vf vf
  rw [hb, h.2]
  exact fun k p => ⟨fun v hv => ⟨v, hv, alike_refl v⟩, fun v hv => ⟨v, hv, alike_refl v⟩⟩

/-- **C236**: the order of the two files does not matter. -/
theorem C236_order (first second : List Y) (vf : ∀ y ∈ first, Valid y) (vs : ∀ y ∈ second, Valid y) (b : Bool) :
    compareFiles first second = .ok b → compareFiles second first = .ok b := by
  intro h
  have hm : AllMaps first ∧ AllMaps second := by
    by_contra hn
    obtain ⟨e, he⟩ := (C236_raises first second).2 hn
    rw [he] at h
    cases h
  obtain ⟨b₁, hb₁, h₁⟩ := C236_equal first second hm.1 hm.2 vf vs
  obtain ⟨b₂, hb₂, h₂⟩ := C236_equal second first hm.2 hm.1 vs vf
  have e : b₁ = b := Except.ok.inj (hb₁.symm.trans h)
  rw [hb₂, ← e]
  congr 1
  rw [Bool.eq_iff_iff, h₁, h₂]
  have swap : ∀ f s : List Y, SameFile f s → SameFile s f := by
    intro f s h k p
    refine ⟨fun v hv => ?_, fun v hv => ?_⟩
    · obtain ⟨w, hw, ha⟩ := (h k p).2 v hv
      exact ⟨w, hw, alike_symm _ _ ha⟩
    · obtain ⟨w, hw, ha⟩ := (h k p).1 v hv
      exact ⟨w, hw, alike_symm _ _ ha⟩
  exact ⟨swap _ _, swap _ _⟩

/-- **C236**: files that are equal to the same file are equal. -/
theorem C236_transitive (first second third : List Y) (vf : ∀ y ∈ first, Valid y) (vs : ∀ y ∈ second, Valid y) (vt : ∀ y ∈ third, Valid y)
    (h : compareFiles first second = .ok true) (h' : compareFiles second third = .ok true) : compareFiles first third = .ok true := by
  have maps : ∀ f s : List Y, compareFiles f s = .ok true → AllMaps f ∧ AllMaps s := by
    intro f s h
    by_contra hn
    obtain ⟨e, he⟩ := (C236_raises f s).2 hn
    rw [he] at h
    cases h
  obtain ⟨m₁, m₂⟩ := maps _ _ h
  obtain ⟨-, m₃⟩ := maps _ _ h'
  obtain ⟨b₁, hb₁, h₁⟩ := C236_equal first second m₁ m₂ vf vs
  obtain ⟨b₂, hb₂, h₂⟩ := C236_equal second third m₂ m₃ vs vt
  obtain ⟨b₃, hb₃, h₃⟩ := C236_equal first third m₁ m₃ vf vt
  have s₁ := h₁.1 (Except.ok.inj (hb₁.symm.trans h))
  have s₂ := h₂.1 (Except.ok.inj (hb₂.symm.trans h'))
  rw [hb₃, h₃.2]
  intro k p
  refine ⟨fun v hv => ?_, fun v hv => ?_⟩
  · obtain ⟨w, hw, ha⟩ := (s₁ k p).1 v hv
    obtain ⟨x, hx, ha'⟩ := (s₂ k p).1 w hw
    exact ⟨x, hx, alike_trans _ _ _ ha ha'⟩
  · obtain ⟨w, hw, ha⟩ := (s₂ k p).2 v hv
    obtain ⟨x, hx, ha'⟩ := (s₁ k p).2 w hw
    exact ⟨x, hx, alike_trans _ _ _ ha' ha⟩

/-! A concrete case: keys in another order, `1` and `1.0`, a list, NaN, and two documents instead of one. -/

/-- `{a: 1, b: [true, .nan]}` -/
def exFirst : List Y := [.map (.cons (.str "a") (.scalar (.int 1)) (.cons (.str "b") (.list (.cons (.scalar (.bool true)) (.cons (.scalar .nan) .nil))) .nil))]

/-- `{b: [1, .nan], a: 2}` and `{a: 1.0}` -/
def exSecond : List Y := [.map (.cons (.str "b") (.list (.cons (.scalar (.int 1)) (.cons (.scalar .nan) .nil))) (.cons (.str "a") (.scalar (.int 2)) .nil)),
  .map (.cons (.str "a") (.scalar (.flt 1)) .nil)]

theorem exItem (k k' : Scalar) (y v : Y) (h : Item (.cons k y .nil) k' v) : k' = k ∧ v = y := by
  cases h with
  | head => exact ⟨rfl, rfl⟩
  | tail _ _ _ _ _ h => cases h

example : AllMaps exFirst ∧ AllMaps exSecond ∧ (∀ y ∈ exFirst, Valid y) ∧ (∀ y ∈ exSecond, Valid y) := by
  refine ⟨?_, ?_, ?_, ?_⟩
  · intro d hd; simp only [exFirst, List.mem_singleton] at hd; exact ⟨_, hd⟩
  · intro d hd; simp only [exSecond, List.mem_cons, List.not_mem_nil, or_false] at hd; rcases hd with h | h <;> exact ⟨_, h⟩
  · intro d hd
    simp only [exFirst, List.mem_singleton] at hd
    subst hd
    simp only [Valid, ValidMap, ValidList, and_true, true_and]
    exact ⟨fun k v h => by obtain ⟨rfl, -⟩ := exItem _ _ _ _ h; rw [same_canon]; decide, fun k v h => (by cases h)⟩
  · intro d hd
    simp only [exSecond, List.mem_cons, List.not_mem_nil, or_false] at hd
    rcases hd with rfl | rfl <;> simp only [Valid, ValidMap, ValidList, and_true, true_and]
    · exact ⟨fun k v h => by obtain ⟨rfl, -⟩ := exItem _ _ _ _ h; rw [same_canon]; decide, fun k v h => (by cases h)⟩
    · exact fun k v h => (by cases h)

example : compareFiles exFirst exSecond = .ok true := by decide +kernel

example : compareFiles exFirst [.map (.cons (.str "a") (.scalar (.int 1)) .nil)] = .ok false := by decide +kernel

example : compareFiles exFirst (exFirst ++ [.scalar .null]) = .error .attributeError := by decide +kernel

end BTA.YamlFile
