import Verif.Lemmas.AlignDriver
import Verif.Spec.AlignDriver
/-
Lemmas about the arguments of `align`.
-/
namespace BTA.Align
open BTA.Dut BTA.Transformation BTA.Align.Spec

theorem allOne_iff {α : Type} (items : List (Item α)) (l : List α) : allOne items = some l ↔ items = l.map .one := by
  induction items generalizing l with
  | nil => cases l <;> simp [allOne]
  | cons x r ih =>
    cases x with
    | one a =>
      simp only [allOne, Option.map_eq_some_iff]
      cases l with
      | nil => simp
      | cons b m => simp [ih, and_comm]
    | many a => cases l <;> simp [allOne]

theorem allMany_iff {α : Type} (items : List (Item α)) (l : List (List α)) : allMany items = some l ↔ items = l.map .many := by
  induction items generalizing l with
  | nil => cases l <;> simp [allMany]
  | cons x r ih =>
    cases x with
    | one a => cases l <;> simp [allMany]
    | many a =>
      simp only [allMany, Option.map_eq_some_iff]
      cases l with
      | nil => simp
      | cons b m => simp [ih, and_comm]

theorem one_many {α : Type} {l : List α} {ls : List (List α)} (h : l.map Item.one = ls.map Item.many) : l = [] ∧ ls = [] := by
  cases l with
  | nil => cases ls <;> simp at h ⊢
  | cons a r => cases ls <;> simp at h

theorem sameLength_iff {α : Type} (ls : List (List α)) : sameLength ls = true ↔ ∃ n, ∀ l ∈ ls, l.length = n := by
  unfold sameLength
  rw [List.all_eq_true]
  constructor
  · intro h
    exact ⟨_, fun l hl => by simpa using h l hl⟩
  · rintro ⟨n, h⟩ l hl
    cases ls with
    | nil => cases hl
    | cons a r =>
      simp [h l hl, h a (by simp)]

theorem groupsOf_iff (legacy : Bool) (select : Option (List (Item Nat))) (gs : List (List Nat)) :
    groupsOf legacy select = .ok gs ↔ IsGroups legacy select gs := by
  unfold groupsOf IsGroups
  split
  · simp
  · constructor
    · intro h; cases h
    · rintro ⟨⟨duts, h1, h2⟩ | ⟨h1, h2, -⟩, h3⟩
      · have : duts = [] := by cases duts <;> simp at h1 ⊢
        exact absurd this (h3 duts (by simp [h2]))
      · have : gs = [] := by cases gs <;> simp at h1 ⊢
        exact absurd this h2
  · next items hne =>
    have hne' : items ≠ [] := fun h => hne h
    cases h1 : allOne items with
    | some duts =>
      have e := (allOne_iff _ _).mp h1
      have hd : duts ≠ [] := by rintro rfl; exact hne' e
      have hr : rectangular items = true := by simp [rectangular, h1]
      simp only [hr, Bool.not_true, Bool.and_false, Bool.false_eq_true, if_false]
      constructor
      · intro h
        injection h with h
        subst h
        exact ⟨.inl ⟨duts, by rw [e], rfl⟩, by simpa using hd⟩
      · rintro ⟨⟨d, a1, rfl⟩ | ⟨a1, a2, -⟩, -⟩
        · injection a1 with a1
          rw [a1] at h1
          have := (allOne_iff _ _).mp h1
          rw [List.map_injective_iff.mpr (fun x y h => by injection h) this]
        · injection a1 with a1
          rw [e] at a1
          exact absurd (one_many a1).2 a2
    | none =>
      have hno : ∀ d : List Nat, items ≠ d.map .one := fun d hd => by rw [(allOne_iff _ _).mpr hd] at h1; cases h1
      cases h2 : allMany items with
      | none =>
        have hno2 : ∀ d : List (List Nat), items ≠ d.map .many := fun d hd => by rw [(allMany_iff _ _).mpr hd] at h2; cases h2
        constructor
        · intro h
          dsimp only at h
          split at h <;> cases h
        · rintro ⟨⟨d, a1, -⟩ | ⟨a1, -⟩, -⟩
          · injection a1 with a1; exact absurd a1 (hno d)
          · injection a1 with a1; exact absurd a1 (hno2 gs)
      | some ls =>
        have e := (allMany_iff _ _).mp h2
        have hr : rectangular items = sameLength ls := by simp [rectangular, h1, h2]
        have hls : ls ≠ [] := by rintro rfl; exact hne' e
        rw [hr]
        dsimp only
        by_cases hany : ls.any List.isEmpty = true
        · have : ¬ ∀ g ∈ ls, g ≠ [] := by
            rw [List.any_eq_true] at hany
            obtain ⟨x, hx, hx2⟩ := hany
            exact fun h => h x hx (List.isEmpty_iff.mp hx2)
          constructor
          · intro h
            rw [if_pos hany] at h
            split at h <;> cases h
          · rintro ⟨⟨d, a1, -⟩ | ⟨a1, -⟩, a3⟩
            · injection a1 with a1; exact absurd a1 (hno d)
            · injection a1 with a1
              rw [e] at a1
              rw [← List.map_injective_iff.mpr (fun x y h => by injection h) a1] at a3
              exact absurd a3 this
        · have hall : ∀ g ∈ ls, g ≠ [] := by
            intro g hg hge
            exact hany (List.any_eq_true.mpr ⟨g, hg, by simp [hge]⟩)
          rw [if_neg hany]
          constructor
          · intro h
            split at h
            · cases h
            · next hc =>
              injection h with h
              subst h
              refine ⟨.inr ⟨by rw [e], hls, ?_⟩, hall⟩
              rw [← sameLength_iff]
              cases legacy <;> simp_all
          · rintro ⟨⟨d, a1, -⟩ | ⟨a1, a2, a3⟩, -⟩
            · injection a1 with a1; exact absurd a1 (hno d)
            · injection a1 with a1
              rw [e] at a1
              have := List.map_injective_iff.mpr (fun x y h => by injection h) a1
              subst this
              rw [← sameLength_iff] at a3
              rw [if_neg]
              rcases a3 with a3 | a3 <;> simp [a3]

theorem perGroup_iff (e : Err) (n : Nat) (items : List (Item Nat)) (out : List (List Nat)) :
    perGroup e n items = .ok out ↔ items ≠ [] ∧ ((∃ l, items = l.map .one ∧ out = List.replicate n l) ∨
      (items = out.map .many ∧ out.length = n)) := by
  unfold perGroup
  split
  · simp
  · next hne =>
    have hne' : items ≠ [] := fun h => hne h
    cases h1 : allOne items with
    | some l =>
      have e1 := (allOne_iff _ _).mp h1
      constructor
      · intro h
        injection h with h
        exact ⟨hne', .inl ⟨l, e1, h.symm⟩⟩
      · rintro ⟨-, ⟨l', a1, rfl⟩ | ⟨a1, -⟩⟩
        · rw [a1] at e1
          rw [List.map_injective_iff.mpr (fun x y h => by injection h) e1]
        · rw [e1] at a1
          obtain ⟨rfl, -⟩ := one_many a1
          exact absurd e1 hne'
    | none =>
      have hno : ∀ d : List Nat, items ≠ d.map .one := fun d hd => by rw [(allOne_iff _ _).mpr hd] at h1; cases h1
      cases h2 : allMany items with
      | none =>
        have hno2 : ∀ d : List (List Nat), items ≠ d.map .many := fun d hd => by rw [(allMany_iff _ _).mpr hd] at h2; cases h2
        constructor
        · intro h; cases h
        · rintro ⟨-, ⟨l', a1, rfl⟩ | ⟨a1, -⟩⟩
          · exact absurd a1 (hno _)
          · exact absurd a1 (hno2 _)
      | some ls =>
        have e2 := (allMany_iff _ _).mp h2
        dsimp only
        constructor
        · intro h
          split at h
          · next hl =>
            injection h with h
            subst h
            exact ⟨hne', .inr ⟨e2, hl⟩⟩
          · cases h
        · rintro ⟨-, ⟨l', a1, rfl⟩ | ⟨a1, a2⟩⟩
          · exact absurd a1 (hno _)
          · rw [e2] at a1
            have := List.map_injective_iff.mpr (fun x y h => by injection h) a1
            subst this
            rw [if_pos a2]

theorem givenOr_iff (e : Err) (d : List (List Nat)) (arg : Option (List (Item Nat))) (out : List (List Nat)) :
    givenOr e d.length d arg = .ok out ↔ IsPerGroup d arg out := by
  unfold givenOr IsPerGroup
  cases arg with
  | none =>
    simp only [Except.ok.injEq]
    exact eq_comm
  | some items => exact perGroup_iff _ _ _ _

theorem givenOr_length {e : Err} {n : Nat} {d : List (List Nat)} (hd : d.length = n) {arg : Option (List (Item Nat))} {out : List (List Nat)}
    (h : givenOr e n d arg = .ok out) : out.length = n := by
  subst hd
  have := (givenOr_iff _ _ _ _).mp h
  unfold IsPerGroup at this
  cases arg with
  | none => simp [this]
  | some items =>
    rcases this with ⟨-, ⟨l, -, rfl⟩ | ⟨-, h2⟩⟩
    · simp
    · exact h2

theorem hitDutsOf_iff (gs : List (List Nat)) (arg : Option (List (Item Nat))) (out : List (List Nat)) :
    hitDutsOf gs arg = .ok out ↔ IsPerGroup gs arg out ∧ ∀ l ∈ out, 2 ≤ l.length := by
  unfold hitDutsOf
  cases h : givenOr .hitDuts gs.length gs arg with
  | error e =>
    constructor
    · intro h'; cases h'
    · rintro ⟨h1, -⟩
      rw [(givenOr_iff _ _ _ _).mpr h1] at h
      cases h
  | ok ls =>
    dsimp only
    constructor
    · intro h'
      split at h'
      · cases h'
      · next hc =>
        injection h' with h'
        subst h'
        refine ⟨(givenOr_iff _ _ _ _).mp h, fun l hl => ?_⟩
        by_contra hlt
        exact hc (List.any_eq_true.mpr ⟨l, hl, by simpa using hlt⟩)
    · rintro ⟨h1, h2⟩
      rw [(givenOr_iff _ _ _ _).mpr h1] at h
      injection h with h
      subst h
      rw [if_neg]
      intro hc
      obtain ⟨l, hl, hl2⟩ := List.any_eq_true.mp hc
      have := h2 l hl
      simp at hl2
      omega

theorem forall_zip {α β : Type} (P : α → β → Prop) : ∀ (l : List α) (m : List β), l.length = m.length →
    ((∀ q ∈ l.zip m, P q.1 q.2) ↔ List.Forall₂ P l m)
  | [], [], _ => by simp
  | [], _ :: _, h => by simp at h
  | _ :: _, [], h => by simp at h
  | a :: l, b :: m, h => by
    have := forall_zip P l m (by simpa using h)
    simp [← this]

theorem fitDutsOf_iff (gs hit : List (List Nat)) (hl : hit.length = gs.length) (arg : Option (List (Item Nat))) (out : List (List Nat)) :
    fitDutsOf gs hit arg = .ok out ↔ IsPerGroup hit arg out ∧ List.Forall₂ (fun f h => 2 ≤ f.length ∧ ∀ d ∈ f, d ∈ h) out hit := by
  unfold fitDutsOf
  rw [← hl]
  have key : ∀ ls : List (List Nat), ls.length = hit.length →
      (((ls.zip hit).any fun q => decide (q.1.length < 2) || q.1.any fun d => decide (d ∉ q.2)) = false ↔
        List.Forall₂ (fun f h => 2 ≤ f.length ∧ ∀ d ∈ f, d ∈ h) ls hit) := by
    intro ls hls
    rw [← forall_zip _ ls hit hls, List.any_eq_false]
    refine forall₂_congr fun q _ => ?_
    simp only [Bool.or_eq_true, decide_eq_true_eq, List.any_eq_true, not_or, not_lt, not_exists, not_and, not_not]
  cases h : givenOr .fitDuts hit.length hit arg with
  | error e =>
    constructor
    · intro h'; cases h'
    · rintro ⟨h1, -⟩
      rw [(givenOr_iff _ _ _ _).mpr h1] at h
      cases h
  | ok ls =>
    dsimp only
    have hlen := givenOr_length rfl h
    constructor
    · intro h'
      split at h'
      · cases h'
      · next hc =>
        injection h' with h'
        subst h'
        exact ⟨(givenOr_iff _ _ _ _).mp h, (key _ hlen).mp (by simpa using hc)⟩
    · rintro ⟨h1, h2⟩
      rw [(givenOr_iff _ _ _ _).mpr h1] at h
      injection h with h
      subst h
      rw [if_neg]
      rw [(key _ hlen).mpr h2]
      simp

/-! ### Settings of each DUT of each group -/

theorem zipWith_iff {α γ : Type} (F : α → List Nat → γ) (proj : Group → γ) : ∀ (l : List α) (gs : List Group), l.length = gs.length →
    (List.zipWith F l (gs.map Group.duts) = gs.map proj ↔ List.Forall₂ (fun a g => F a g.duts = proj g) l gs)
  | [], [], _ => by simp
  | [], _ :: _, h => by simp at h
  | _ :: _, [], h => by simp at h
  | a :: l, g :: gs, h => by
    have := zipWith_iff F proj l gs (by simpa using h)
    simp [this]

theorem all_length {γ : Type} (proj : Group → List γ) (gs : List Group) :
    (((gs.map proj).zip (gs.map Group.duts)).all fun q => decide (q.1.length = q.2.length)) = true ↔
      ∀ g ∈ gs, (proj g).length = g.duts.length := by
  induction gs with
  | nil => simp
  | cons g gs ih => simp [ih]

theorem forall₂_and_right {α β : Type} {P : α → β → Prop} {Q : β → Prop} : ∀ {l : List α} {m : List β},
    (List.Forall₂ P l m ∧ ∀ b ∈ m, Q b) ↔ List.Forall₂ (fun a b => P a b ∧ Q b) l m
  | [], [] => by simp
  | [], _ :: _ => by simp
  | _ :: _, [] => by simp
  | a :: l, b :: m => by
    have := @forall₂_and_right α β P Q l m
    simp only [List.forall₂_cons, List.mem_cons, forall_eq_or_imp, ← this]
    constructor
    · rintro ⟨⟨h1, h2⟩, h3, h4⟩; exact ⟨⟨h1, h3⟩, h2, h4⟩
    · rintro ⟨⟨h1, h3⟩, h2, h4⟩; exact ⟨⟨h1, h2⟩, h3, h4⟩

theorem forall₂_congr_mem {α β : Type} {P Q : α → β → Prop} : ∀ {l : List α} {m : List β}, (∀ a, ∀ b ∈ m, P a b ↔ Q a b) →
    (List.Forall₂ P l m ↔ List.Forall₂ Q l m)
  | [], [], _ => by simp
  | [], _ :: _, _ => by simp
  | _ :: _, [], _ => by simp
  | a :: l, b :: m, h => by
    have := @forall₂_congr_mem α β P Q l m (fun a b hb => h a b (by simp [hb]))
    simp only [List.forall₂_cons, this, h a b (by simp)]

/-- The check of the lengths at the end of `parametersOf` and `chi2Of`. -/
theorem checked_iff {α γ : Type} (e : Err) (F : α → List Nat → List γ) (proj : Group → List γ) (l : List α) (gs : List Group)
    (hl : l.length = gs.length) :
    (if ((List.zipWith F l (gs.map Group.duts)).zip (gs.map Group.duts)).all fun q => decide (q.1.length = q.2.length) then
      Except.ok (List.zipWith F l (gs.map Group.duts)) else Except.error e) = Except.ok (gs.map proj) ↔
    List.Forall₂ (fun a g => F a g.duts = proj g ∧ (proj g).length = g.duts.length) l gs := by
  rw [← forall₂_and_right, ← zipWith_iff F proj l gs hl]
  constructor
  · intro h
    split at h
    · next hc =>
      injection h with h
      rw [h] at hc
      exact ⟨h, (all_length _ _).mp hc⟩
    · cases h
  · rintro ⟨h1, h2⟩
    rw [h1, if_pos ((all_length _ _).mpr h2)]

theorem parametersOf_iff (gs : List Group) (hne : gs ≠ []) (arg : Option (List (Option (List (Option (List String)))))) :
    parametersOf (gs.map Group.duts) arg = .ok (gs.map Group.parameters) ↔ IsParameters arg gs := by
  unfold parametersOf IsParameters
  split
  · simp only [Except.ok.injEq, List.map_map, List.map_inj_left, Function.comp]
    exact forall₂_congr fun g _ => eq_comm
  · constructor
    · intro h; cases h
    · intro h
      cases gs with
      | nil => exact absurd rfl hne
      | cons g gs => cases h
  · next l _ =>
    dsimp only
    rw [List.length_map]
    by_cases hl : l.length = gs.length
    · rw [if_neg (by simpa using hl), checked_iff _ _ _ _ _ hl]
      have : ∀ (p : Option (List (Option (List String)))) (g : Group),
          (p.getD (List.replicate g.duts.length none) = g.parameters ∧ g.parameters.length = g.duts.length) ↔
          (match p with
            | none => g.parameters = List.replicate g.duts.length none
            | some p => g.parameters = p ∧ p.length = g.duts.length) := by
        intro p g
        cases p with
        | none =>
          simp only [Option.getD_none]
          constructor
          · rintro ⟨h, -⟩; exact h.symm
          · intro h; rw [h]; simp
        | some p =>
          simp only [Option.getD_some]
          constructor
          · rintro ⟨h, h2⟩; exact ⟨h.symm, by rw [h]; exact h2⟩
          · rintro ⟨h, h2⟩; exact ⟨h.symm, by rw [h]; exact h2⟩
      exact forall₂_congr_mem fun c g _ => this c g
    · rw [if_pos (by simpa using hl)]
      constructor
      · intro h; cases h
      · intro h; exact absurd h.length_eq hl

theorem parametersOf_length {ds : List (List Nat)} {arg : Option (List (Option (List (Option (List String)))))}
    {ps : List (List (Option (List String)))} (h : parametersOf ds arg = .ok ps) : ps.length = ds.length := by
  unfold parametersOf at h
  split at h
  · injection h with h; subst h; simp
  · cases h
  · split at h
    · cases h
    · next hl =>
      dsimp only at h
      split at h
      · injection h with h; subst h; simp only [List.length_zipWith]; omega
      · cases h

theorem chi2_all (c : Option ℝ) (gs : List Group) :
    List.Forall₂ (fun (a : Item (Option ℝ)) (g : Group) => expandChi2 a g.duts = g.chi2 ∧ g.chi2.length = g.duts.length)
      (List.replicate gs.length (.one c)) gs ↔ ∀ g ∈ gs, g.chi2 = List.replicate g.duts.length c := by
  induction gs with
  | nil => simp
  | cons g gs ih =>
    simp only [List.length_cons, List.replicate_succ, List.forall₂_cons, ih, List.mem_cons, forall_eq_or_imp]
    refine and_congr_left fun _ => ?_
    constructor
    · rintro ⟨h, -⟩; exact h.symm
    · intro h; rw [h]; exact ⟨rfl, by simp⟩

theorem chi2Of_iff (gs : List Group) (arg : Chi2) : chi2Of (gs.map Group.duts) arg = .ok (gs.map Group.chi2) ↔ IsChi2 arg gs := by
  unfold chi2Of IsChi2 checkChi2
  cases arg with
  | one c =>
    dsimp only
    rw [List.length_map, if_neg (by simp), checked_iff _ _ _ _ _ (by simp)]
    exact chi2_all c gs
  | many l =>
    dsimp only
    rw [List.length_map]
    by_cases hl : l.length = gs.length
    · rw [if_neg (by simpa using hl), checked_iff _ _ _ _ _ hl]
      have : ∀ (c : Item (Option ℝ)) (g : Group), (expandChi2 c g.duts = g.chi2 ∧ g.chi2.length = g.duts.length) ↔
          (match c with
            | .one c => g.chi2 = List.replicate g.duts.length c
            | .many cs => g.chi2 = cs ∧ cs.length = g.duts.length) := by
        intro c g
        cases c with
        | one c =>
          simp only [expandChi2]
          constructor
          · rintro ⟨h, -⟩; exact h.symm
          · intro h; rw [h]; simp
        | many p =>
          simp only [expandChi2]
          constructor
          · rintro ⟨h, h2⟩; exact ⟨h.symm, by rw [h]; exact h2⟩
          · rintro ⟨h, h2⟩; exact ⟨h.symm, by rw [h]; exact h2⟩
      exact forall₂_congr_mem fun c g _ => this c g
    · rw [if_pos (by simpa using hl)]
      constructor
      · intro h; cases h
      · intro h; exact absurd h.length_eq hl

theorem chi2Of_length {ds : List (List Nat)} {arg : Chi2} {cs : List (List (Option ℝ))} (h : chi2Of ds arg = .ok cs) :
    cs.length = ds.length := by
  have : ∀ l, checkChi2 ds l = .ok cs → cs.length = ds.length := by
    intro l h
    unfold checkChi2 at h
    split at h
    · cases h
    · next hl =>
      dsimp only at h
      split at h
      · injection h with h; subst h; simp only [List.length_zipWith]; omega
      · cases h
  unfold chi2Of at h
  split at h <;> exact this _ h

/-! ### Cluster shapes -/

theorem argNumbers_iff (l : List ShapeArg) (ns : List Nat) : argNumbers l = some ns ↔ l = ns.map .num := by
  induction l generalizing ns with
  | nil => cases ns <;> simp [argNumbers]
  | cons x r ih =>
    cases x with
    | num a =>
      simp only [argNumbers, Option.map_eq_some_iff]
      cases ns with
      | nil => simp
      | cons b m => simp [ih, and_comm]
    | none => cases ns <;> simp [argNumbers]
    | list a => cases ns <;> simp [argNumbers]

theorem numbers_iff (l : List Shape) (ns : List Nat) : numbers l = some ns ↔ l = ns.map .num := by
  induction l generalizing ns with
  | nil => cases ns <;> simp [numbers]
  | cons x r ih =>
    cases x with
    | num a =>
      simp only [numbers, Option.map_eq_some_iff]
      cases ns with
      | nil => simp
      | cons b m => simp [ih, and_comm]
    | none => cases ns <;> simp [numbers]
    | list a => cases ns <;> simp [numbers]

theorem shapeLists_iff (l : List Shape) (s : List (Option (List Nat))) : shapeLists l = some s ↔ l = s.map asShape := by
  induction l generalizing s with
  | nil => cases s <;> simp [shapeLists]
  | cons x r ih =>
    cases x with
    | num a =>
      cases s with
      | nil => simp [shapeLists]
      | cons b m => cases b <;> simp [shapeLists, asShape]
    | none =>
      simp only [shapeLists, Option.map_eq_some_iff]
      cases s with
      | nil => simp
      | cons b m => cases b <;> simp [ih, asShape]
    | list a =>
      simp only [shapeLists, Option.map_eq_some_iff]
      cases s with
      | nil => simp
      | cons b m => cases b <;> simp [ih, asShape, and_comm]

theorem numbers_lists {ns : List Nat} {s : List (Option (List Nat))} (h : ns.map Shape.num = s.map asShape) : s = [] := by
  cases s with
  | nil => rfl
  | cons b m => cases ns <;> cases b <;> simp [asShape] at h

theorem groupShapes_iff (a : ShapeArg) (g : Group) (hd : g.duts ≠ []) : groupShapes a g.duts = some g.shapes ↔ IsGroupShapes a g := by
  have hpos : 0 < g.duts.length := List.length_pos_iff.mpr hd
  unfold groupShapes IsGroupShapes
  cases a with
  | num n => simp
  | none =>
    simp only [Option.some.injEq]
    exact eq_comm
  | list l =>
    dsimp only
    cases h1 : numbers l with
    | some ns =>
      have e := (numbers_iff _ _).mp h1
      simp only [Option.some.injEq]
      constructor
      · intro h; exact .inl ⟨ns, e, h.symm⟩
      · rintro (⟨ns', a1, a2⟩ | ⟨a1, a2⟩)
        · rw [e] at a1
          rw [a2, List.map_injective_iff.mpr (fun x y h => by injection h) a1]
        · rw [e] at a1
          rw [numbers_lists a1] at a2
          simp at a2
          omega
    | none =>
      have hno : ∀ ns : List Nat, l ≠ ns.map .num := fun d hd => by rw [(numbers_iff _ _).mpr hd] at h1; cases h1
      cases h2 : shapeLists l with
      | none =>
        constructor
        · intro h; cases h
        · rintro (⟨ns', a1, a2⟩ | ⟨a1, a2⟩)
          · exact absurd a1 (hno _)
          · rw [(shapeLists_iff _ _).mpr a1] at h2; cases h2
      | some s =>
        dsimp only
        constructor
        · intro h
          split at h
          · next hs =>
            injection h with h
            subst h
            exact .inr ⟨(shapeLists_iff _ _).mp h2, hs⟩
          · cases h
        · rintro (⟨ns', a1, a2⟩ | ⟨a1, a2⟩)
          · exact absurd a1 (hno _)
          · rw [(shapeLists_iff _ _).mpr a1] at h2
            injection h2 with h2
            subst h2
            rw [if_pos a2]

theorem sequence_iff {α : Type} (l : List (Option α)) (m : List α) : sequence l = some m ↔ l = m.map some := by
  induction l generalizing m with
  | nil => cases m <;> simp [sequence]
  | cons x r ih =>
    cases x with
    | none => cases m <;> simp [sequence]
    | some a =>
      simp only [sequence, Option.map_eq_some_iff]
      cases m with
      | nil => simp
      | cons b k => simp [ih, and_comm]

theorem forall₂_replicate {α β : Type} {P : α → β → Prop} (a : α) : ∀ (m : List β),
    List.Forall₂ P (List.replicate m.length a) m ↔ ∀ b ∈ m, P a b
  | [] => by simp
  | b :: m => by simp [List.replicate_succ, forall₂_replicate a m]

/-- L771-796 for the list with one item per group. -/
theorem shapes_checked (l : List ShapeArg) (gs : List Group) (hd : ∀ g ∈ gs, g.duts ≠ []) :
    checkShapes (gs.map Group.duts) l = Except.ok (gs.map Group.shapes) ↔ List.Forall₂ IsGroupShapes l gs := by
  unfold checkShapes
  rw [List.length_map]
  by_cases hl : l.length = gs.length
  · rw [if_neg (by simpa using hl), ← forall₂_congr_mem (fun a g hg => groupShapes_iff a g (hd g hg)),
      ← zipWith_iff groupShapes (fun g => some g.shapes) l gs hl]
    have : gs.map (fun g => some g.shapes) = (gs.map Group.shapes).map some := by simp
    rw [this, ← sequence_iff]
    cases sequence (List.zipWith groupShapes l (gs.map Group.duts)) <;> simp
  · rw [if_pos (by simpa using hl)]
    constructor
    · intro h; cases h
    · intro h; exact absurd h.length_eq hl

theorem shapesOf_iff (gs : List Group) (hne : gs ≠ []) (hd : ∀ g ∈ gs, g.duts ≠ []) (arg : Option (List ShapeArg)) :
    shapesOf (gs.map Group.duts) arg = .ok (gs.map Group.shapes) ↔ IsShapes arg gs := by
  unfold shapesOf IsShapes
  cases arg with
  | none =>
    dsimp only
    rw [shapes_checked _ _ hd, List.length_map, forall₂_replicate]
    rfl
  | some l =>
    dsimp only
    cases h1 : argNumbers l with
    | some ns =>
      have e := (argNumbers_iff _ _).mp h1
      dsimp only
      rw [shapes_checked _ _ hd, List.length_map, forall₂_replicate]
      constructor
      · intro h
        refine .inl ⟨ns, e, fun g hg => ?_⟩
        rcases h g hg with ⟨ns', a1, a2⟩ | ⟨a1, a2⟩
        · rw [a2, List.map_injective_iff.mpr (fun x y h => by injection h) a1]
        · rw [numbers_lists a1] at a2
          exact absurd (List.length_eq_zero_iff.mp a2.symm) (hd g hg)
      · rintro (⟨ns', a1, a2⟩ | h)
        · rw [e] at a1
          have := List.map_injective_iff.mpr (fun x y h => by injection h) a1
          subst this
          exact fun g hg => .inl ⟨ns, rfl, a2 g hg⟩
        · cases gs with
          | nil => exact absurd rfl hne
          | cons g gs =>
            cases ns with
            | nil => rw [e] at h; cases h
            | cons n ns =>
              rw [e] at h
              cases h with
              | cons h _ => cases h
    | none =>
      have hno : ∀ ns : List Nat, l ≠ ns.map .num := fun d hd => by rw [(argNumbers_iff _ _).mpr hd] at h1; cases h1
      dsimp only
      rw [shapes_checked _ _ hd]
      constructor
      · intro h; exact .inr h
      · rintro (⟨ns', a1, a2⟩ | h)
        · exact absurd a1 (hno _)
        · exact h

theorem shapesOf_length {ds : List (List Nat)} {arg : Option (List ShapeArg)} {ss : List (List (Option (List Nat)))}
    (h : shapesOf ds arg = .ok ss) : ss.length = ds.length := by
  have : ∀ l, checkShapes ds l = .ok ss → ss.length = ds.length := by
    intro l h
    unfold checkShapes at h
    split at h
    · cases h
    · next hl =>
      split at h
      · cases h
      · next s hs =>
        injection h with h
        subst h
        have := congrArg List.length ((sequence_iff _ _).mp hs)
        simp only [List.length_zipWith, List.length_map] at this
        omega
  unfold shapesOf at h
  split at h
  · exact this _ h
  · split at h <;> exact this _ h

/-! ### The other arguments -/

theorem distancesOf_iff (e : Err) (n : Nat) (arg : Distances) (v : List (Option (ℝ × ℝ))) :
    distancesOf e n arg = .ok v ↔ IsDistances n arg v := by
  unfold distancesOf IsDistances
  cases arg with
  | same d =>
    dsimp only
    rw [List.length_replicate]
    by_cases hn : n = 0
    · simp [hn]
    · rw [if_neg (by simp [hn])]
      simp only [Except.ok.injEq, hn, ne_eq, not_false_eq_true, true_and]
      exact eq_comm
  | each l =>
    dsimp only
    constructor
    · intro h
      split at h
      · cases h
      · next hc =>
        injection h with h
        subst h
        exact ⟨by omega, rfl, by omega⟩
    · rintro ⟨h1, rfl, h3⟩
      rw [if_neg (by omega)]

theorem eachGroup_iff {α : Type} (e : Err) (arg : Item α) (values : List α) :
    eachGroup e values.length arg = .ok values ↔ IsEach arg values := by
  unfold eachGroup IsEach
  cases arg with
  | one a =>
    simp only [Except.ok.injEq]
    rw [eq_comm, List.eq_replicate_iff]
    simp
  | many l =>
    dsimp only
    constructor
    · intro h
      split at h
      · injection h with h; exact h.symm
      · cases h
    · rintro rfl; rw [if_pos rfl]

theorem eachGroup_length {α : Type} {e : Err} {n : Nat} {arg : Item α} {values : List α} (h : eachGroup e n arg = .ok values) :
    values.length = n := by
  unfold eachGroup at h
  split at h
  · injection h with h; subst h; simp
  · split at h
    · next hl => injection h with h; subst h; exact hl
    · cases h

/-! ### All settings -/

theorem zipGroups_maps : ∀ (gs : List Group), zipGroups (gs.map Group.duts) (gs.map Group.parameters) (gs.map Group.hitDuts)
    (gs.map Group.fitDuts) (gs.map Group.iterations) (gs.map Group.maxEvents) (gs.map Group.chi2) (gs.map Group.shapes) = gs
  | [] => rfl
  | g :: gs => by simp [zipGroups, zipGroups_maps gs]

theorem zipGroups_spec : ∀ (n : Nat) (ds : List (List Nat)) (ps : List (List (Option (List String)))) (hs fs : List (List Nat)) (is : List Nat)
    (ms : List (Option Nat)) (cs : List (List (Option ℝ))) (ss : List (List (Option (List Nat)))),
    ds.length = n → ps.length = n → hs.length = n → fs.length = n → is.length = n → ms.length = n → cs.length = n → ss.length = n →
    (zipGroups ds ps hs fs is ms cs ss).map Group.duts = ds ∧ (zipGroups ds ps hs fs is ms cs ss).map Group.parameters = ps ∧
    (zipGroups ds ps hs fs is ms cs ss).map Group.hitDuts = hs ∧ (zipGroups ds ps hs fs is ms cs ss).map Group.fitDuts = fs ∧
    (zipGroups ds ps hs fs is ms cs ss).map Group.iterations = is ∧ (zipGroups ds ps hs fs is ms cs ss).map Group.maxEvents = ms ∧
    (zipGroups ds ps hs fs is ms cs ss).map Group.chi2 = cs ∧ (zipGroups ds ps hs fs is ms cs ss).map Group.shapes = ss
  | 0, ds, ps, hs, fs, is, ms, cs, ss, h1, h2, h3, h4, h5, h6, h7, h8 => by
    rw [List.length_eq_zero_iff] at h1 h2 h3 h4 h5 h6 h7 h8
    subst h1 h2 h3 h4 h5 h6 h7 h8
    simp [zipGroups]
  | n + 1, d :: ds, p :: ps, h :: hs, f :: fs, i :: is, m :: ms, c :: cs, s :: ss, h1, h2, h3, h4, h5, h6, h7, h8 => by
    simp only [List.length_cons, Nat.add_right_cancel_iff] at h1 h2 h3 h4 h5 h6 h7 h8
    obtain ⟨a1, a2, a3, a4, a5, a6, a7, a8⟩ := zipGroups_spec n ds ps hs fs is ms cs ss h1 h2 h3 h4 h5 h6 h7 h8
    simp [zipGroups, a1, a2, a3, a4, a5, a6, a7, a8]

theorem isGroups_ne {legacy : Bool} {select : Option (List (Item Nat))} {ds : List (List Nat)} (h : IsGroups legacy select ds) : ds ≠ [] := by
  rcases h.1 with ⟨_, _, rfl⟩ | ⟨_, h, _⟩
  · simp
  · exact h

theorem isPerGroup_length {d : List (List Nat)} {arg : Option (List (Item Nat))} {v : List (List Nat)} (h : IsPerGroup d arg v) :
    v.length = d.length := by
  unfold IsPerGroup at h
  cases arg with
  | none => simp [h]
  | some items =>
    rcases h with ⟨-, ⟨l, -, rfl⟩ | ⟨-, h2⟩⟩
    · simp
    · exact h2

theorem forall₂_groups {P : List Nat → List Nat → Prop} (gs : List Group) :
    List.Forall₂ P (gs.map Group.fitDuts) (gs.map Group.hitDuts) ↔ ∀ g ∈ gs, P g.fitDuts g.hitDuts := by
  induction gs with
  | nil => simp
  | cons g gs ih => simp [ih]

theorem settings_iff (legacy : Bool) (n : Nat) (a : Args) (gs : List Group) (q : List (Option (ℝ × ℝ))) :
    settings legacy n a = .ok (gs, q) ↔ Settings legacy n a gs q := by
  constructor
  · intro h
    unfold settings at h
    obtain ⟨ds, h1, i1⟩ := bind_ok h
    obtain ⟨ps, h2, i2⟩ := bind_ok i1
    obtain ⟨hs, h3, i3⟩ := bind_ok i2
    obtain ⟨fs, h4, i4⟩ := bind_ok i3
    obtain ⟨cs, h5, i5⟩ := bind_ok i4
    obtain ⟨ss, h6, i6⟩ := bind_ok i5
    obtain ⟨q', h7, i7⟩ := bind_ok i6
    obtain ⟨v, h8, i8⟩ := bind_ok i7
    obtain ⟨is, h9, i9⟩ := bind_ok i8
    obtain ⟨ms, h10, i10⟩ := bind_ok i9
    injection i10 with i10
    injection i10 with e1 e2
    subst e2
    clear h i1 i2 i3 i4 i5 i6 i7 i8 i9
    have k1 := (groupsOf_iff _ _ _).mp h1
    have k3 := (hitDutsOf_iff _ _ _).mp h3
    have l3 := isPerGroup_length k3.1
    have k4 := (fitDutsOf_iff _ _ l3 _ _).mp h4
    have l4 := isPerGroup_length k4.1
    obtain ⟨m1, m2, m3, m4, m5, m6, m7, m8⟩ := zipGroups_spec ds.length ds ps hs fs is ms cs ss rfl (parametersOf_length h2) l3
      (l4.trans l3) (eachGroup_length h9) (eachGroup_length h10) (chi2Of_length h5) (shapesOf_length h6)
    rw [e1] at m1 m2 m3 m4 m5 m6 m7 m8
    clear e1
    subst m1 m2 m3 m4 m5 m6 m7 m8
    have hne : gs ≠ [] := by
      rintro rfl
      exact isGroups_ne k1 rfl
    have hd : ∀ g ∈ gs, g.duts ≠ [] := fun g hg => k1.2 _ (List.mem_map_of_mem hg)
    rw [List.length_map] at h9 h10
    refine ⟨k1, (parametersOf_iff _ hne _).mp h2, k3.1, k4.1, fun g hg => ?_, (chi2Of_iff _ _).mp h5, (shapesOf_iff _ hne hd _).mp h6,
      (distancesOf_iff _ _ _ _).mp h7, ⟨v, (distancesOf_iff _ _ _ _).mp h8⟩, (eachGroup_iff .iterations _ _).mp (by rw [List.length_map]; exact h9),
      (eachGroup_iff .events _ _).mp (by rw [List.length_map]; exact h10)⟩
    have := (forall₂_groups _).mp k4.2 g hg
    exact ⟨k3.2 _ (List.mem_map_of_mem hg), this.1, this.2⟩
  · rintro ⟨k1, k2, k3, k4, k5, k6, k7, k8, ⟨v, k9⟩, k10, k11⟩
    have hne : gs ≠ [] := by
      rintro rfl
      exact isGroups_ne k1 rfl
    have hd : ∀ g ∈ gs, g.duts ≠ [] := fun g hg => k1.2 _ (List.mem_map_of_mem hg)
    have h1 := (groupsOf_iff _ _ _).mpr k1
    have h2 := (parametersOf_iff _ hne _).mpr k2
    have h3 := (hitDutsOf_iff _ _ _).mpr ⟨k3, fun l hl => by
      obtain ⟨g, hg, rfl⟩ := List.mem_map.mp hl
      exact (k5 g hg).1⟩
    have h4 := (fitDutsOf_iff (gs.map Group.duts) _ (by simp) _ _).mpr ⟨k4, (forall₂_groups _).mpr fun g hg => (k5 g hg).2⟩
    have h5 := (chi2Of_iff _ _).mpr k6
    have h6 := (shapesOf_iff _ hne hd _).mpr k7
    have h7 := (distancesOf_iff .quality _ _ _).mpr k8
    have h8 := (distancesOf_iff .isolation _ _ _).mpr k9
    have h9 := (eachGroup_iff .iterations _ _).mpr k10
    have h10 := (eachGroup_iff .events _ _).mpr k11
    unfold settings
    rw [List.length_map] at h9 h10
    simp only [h1, h2, h3, h4, h5, h6, h7, h8, bind, Except.bind, List.length_map, h9, h10, zipGroups_maps]

end BTA.Align
