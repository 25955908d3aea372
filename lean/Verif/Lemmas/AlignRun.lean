import Verif.Lemmas.AlignSettings
/-
Lemmas about the configuration during `align`.
-/
namespace BTA.Align.Props
open BTA.Dut BTA.Transformation BTA.Transformation.Props BTA.Align BTA.Align.Spec BTA.AlignTel.Props

theorem common_nil (a b : List Nat) : common a b = [] ↔ ∀ d ∈ a, d ∉ b := by
  unfold common
  rw [List.filter_eq_nil_iff]
  simp

theorem mem_common (a b : List Nat) (d : Nat) : d ∈ common a b ↔ d ∈ a ∧ d ∈ b := by simp [common]

theorem sameFrame_refl (d : DutConf) : SameFrame d d := ⟨rfl, rfl, rfl, rfl, rfl, rfl⟩

theorem sameFrame_trans {a b c : DutConf} (h : SameFrame a b) (h' : SameFrame b c) : SameFrame a c :=
  ⟨h'.1.trans h.1, h'.2.1.trans h.2.1, h'.2.2.1.trans h.2.2.1, h'.2.2.2.1.trans h.2.2.2.1, h'.2.2.2.2.1.trans h.2.2.2.2.1,
    h'.2.2.2.2.2.trans h.2.2.2.2.2⟩

theorem toTel_duts (c : Conf) (i : Nat) : (toTel c).duts[i]? = if i < c.n then some (c.duts i).alignment else none := by
  unfold toTel
  by_cases h : i < c.n <;> simp [h]

theorem beamed_kept {o : Oracle} {tel : List Nat} {g : Group} {c c1 : Conf} (h : Beamed o tel g c c1) (i : Nat) :
    SameFrame (c.duts i) (c1.duts i) := by
  rcases h with ⟨-, rfl⟩ | ⟨-, t, ht, rfl⟩
  · exact sameFrame_refl _
  · obtain ⟨h1, h2⟩ := C111_kept _ _ _ _ _ ht
    unfold ofTel
    dsimp only
    by_cases hi : i < c.n
    · have hlen : i < t.duts.length := by rw [h1]; simpa [toTel] using hi
      have hg : t.duts[i]? = some t.duts[i] := List.getElem?_eq_getElem hlen
      obtain ⟨a1, a2, a3, a4⟩ := h2 i (c.duts i).alignment t.duts[i] (by rw [toTel_duts, if_pos hi]) hg
      have e : t.duts.getD i (c.duts i).alignment = t.duts[i] := by rw [List.getD_eq_getElem?_getD, hg]; rfl
      exact ⟨by dsimp only; rw [e, a1], by dsimp only; rw [e, a2], by dsimp only; rw [e, a3], by dsimp only; rw [e, a4], rfl, rfl⟩
    · have hg : t.duts[i]? = none := by
        rw [List.getElem?_eq_none_iff, h1]
        simpa [toTel] using hi
      have e : t.duts.getD i (c.duts i).alignment = (c.duts i).alignment := by rw [List.getD_eq_getElem?_getD, hg]; rfl
      exact ⟨by dsimp only; rw [e], by dsimp only; rw [e], by dsimp only; rw [e], by dsimp only; rw [e], rfl, rfl⟩

theorem beamed_none {o : Oracle} {tel : List Nat} {g : Group} {c c1 : Conf} (h : Beamed o tel g c c1) (hn : ∀ d ∈ g.duts, d ∉ tel) : c1 = c := by
  rcases h with ⟨-, h⟩ | ⟨hne, -⟩
  · exact h
  · exact absurd ((common_nil _ _).mpr hn) hne

theorem beamed_n {o : Oracle} {tel : List Nat} {g : Group} {c c1 : Conf} (h : Beamed o tel g c c1) : c1.n = c.n := by
  rcases h with ⟨-, rfl⟩ | ⟨-, t, ht, rfl⟩ <;> rfl

/-! ### `calculate_transformation` -/

/-- A property of a DUT that is kept by each of its transformations. -/
theorem dutLoop_keep {np : Numpy} {args : Transformation.Args} {fuel : Nat} {tables : Nat → List Row} (P : DutConf → Prop) (d : Nat) :
    ∀ (l : List (Nat × List String)) (conf conf' : Nat → DutConf), dutLoop np args fuel tables l conf = .ok conf' →
    (∀ params, (d, params) ∈ l → ∀ (c : DutConf) (out : Alignment), P c → dutTransformation np args fuel params c (tables d) = .ok out →
      P { c with alignment := out }) →
    P (conf d) → P (conf' d)
  | [], conf, conf', h, _, hp => by
    simp only [dutLoop] at h
    injection h with h
    subst h
    exact hp
  | (i, params) :: r, conf, conf', h, hs, hp => by
    simp only [dutLoop] at h
    split at h
    · cases h
    · next a ha =>
      refine dutLoop_keep P d r _ _ h (fun p hm => hs p (List.mem_cons_of_mem _ hm)) ?_
      by_cases hd : d = i
      · subst hd
        simp only [if_true]
        exact hs params (by simp) _ _ hp ha
      · simp only [if_neg hd]
        exact hp

theorem selectParameters_ok {n : Nat} {l : List (Option (List String))} {ps : List (List String)}
    (h : selectParameters n (some l) = .ok ps) : ps = l.map (fun p => p.getD defaultParameters) ∧ l.length = n ∧
      ∀ p ∈ ps, ∀ x ∈ p, x ∈ defaultParameters := by
  unfold selectParameters at h
  simp only [Option.getD_some] at h
  split at h
  · cases h
  · next hn =>
    split at h
    · next hall =>
      injection h with h
      refine ⟨h.symm, by omega, fun p hp x hx => ?_⟩
      rw [← h] at hp
      obtain ⟨q, hq, rfl⟩ := List.mem_map.mp hp
      rw [List.all_eq_true] at hall
      have := hall q hq
      rw [List.all_eq_true] at this
      simpa using this x hx
    · cases h

theorem zip_params (tel : List Nat) : ∀ (duts : List Nat) (ps : List (Option (List String))) (d : Nat) (params : List String),
    (d, params) ∈ duts.zip ((List.zipWith (fun d p => some (parametersFor tel d p)) duts ps).map fun p => p.getD defaultParameters) →
    ∃ p, (d, p) ∈ duts.zip ps ∧ params = parametersFor tel d p
  | [], _, _, _, h => by simp at h
  | _ :: _, [], _, _, h => by simp at h
  | x :: xs, p :: ps, d, params, h => by
    simp only [List.zipWith_cons_cons, List.map_cons, List.zip_cons_cons, List.mem_cons, Prod.mk.injEq, Option.getD_some] at h
    rcases h with ⟨rfl, rfl⟩ | h
    · exact ⟨p, by simp, rfl⟩
    · obtain ⟨q, hq, e⟩ := zip_params tel xs ps d params h
      exact ⟨q, by simp [hq], e⟩

/-- A property of a DUT that is kept by each of its transformations is kept by `calculate_transformation`. -/
theorem transformed_keep {np : Numpy} {args : Transformation.Args} {fuel : Nat} {tables : Nat → List Row} {tel : List Nat} {g : Group}
    {conf conf' : Nat → DutConf} (h : calculateTransformation np args fuel g.duts (some (paramList tel g)) tables conf = .ok conf')
    (P : DutConf → Prop) (d : Nat)
    (hs : ∀ p, (d, p) ∈ g.duts.zip g.parameters → ∀ (c : DutConf) (out : Alignment), P c →
      dutTransformation np args fuel (parametersFor tel d p) c (tables d) = .ok out → P { c with alignment := out })
    (hp : P (conf d)) : P (conf' d) := by
  unfold calculateTransformation at h
  split at h
  · cases h
  · next ps hps =>
    obtain ⟨rfl, -, -⟩ := selectParameters_ok hps
    refine dutLoop_keep P d _ _ _ h (fun params hm c out hc ho => ?_) hp
    obtain ⟨p, hp', rfl⟩ := zip_params tel _ _ _ _ hm
    exact hs p hp' c out hc ho

/-! ### DUTs that are not selected -/

theorem iterated_other {o : Oracle} {a : Args} {q : List (Option (ℝ × ℝ))} {g : Group} {step : Nat} {w w' : World} {tel : List Nat}
    {c1 c2 : Conf} (h : Iterated o a q g step w w' tel c1 c2) (i : Nat) (hi : i ∉ g.duts) : w'.conf.duts i = c1.duts i := by
  rw [(C76_other_duts _ _ _ _ _ _ _ _ h.transformed).1 i hi, h.duts]

theorem iterated_limits {o : Oracle} {a : Args} {q : List (Option (ℝ × ℝ))} {g : Group} {step : Nat} {w w' : World} {tel : List Nat}
    {c1 c2 : Conf} (h : Iterated o a q g step w w' tel c1 c2) (i : Nat) :
    (w'.conf.duts i).xLimit = (w.conf.duts i).xLimit ∧ (w'.conf.duts i).yLimit = (w.conf.duts i).yLimit := by
  obtain ⟨h1, h2⟩ := (C76_other_duts _ _ _ _ _ _ _ _ h.transformed).2 i
  obtain ⟨-, -, -, -, h5, h6⟩ := beamed_kept h.beamed i
  rw [h1, h2, h.duts, h5, h6]
  exact ⟨rfl, rfl⟩

theorem startConf_other (input : Conf) (existing : Option Conf) (gs : List Group) (i : Nat) (hi : ¬InGroup gs i) :
    (startConf input existing gs).duts i = (existing.getD input).duts i := by
  unfold startConf
  cases existing with
  | none => rfl
  | some e =>
    dsimp only [Option.getD_some]
    rw [if_neg]
    simpa [InGroup] using hi

theorem startConf_in (input : Conf) (existing : Option Conf) (gs : List Group) (i : Nat) (hi : InGroup gs i) :
    (startConf input existing gs).duts i = input.duts i := by
  unfold startConf
  cases existing with
  | none => rfl
  | some e =>
    dsimp only [Option.getD_some]
    rw [if_pos]
    simpa [InGroup] using hi

theorem startConf_rotation (input : Conf) (existing : Option Conf) (gs : List Group) :
    (startConf input existing gs).alpha = (existing.getD input).alpha ∧ (startConf input existing gs).beta = (existing.getD input).beta := by
  cases existing <;> exact ⟨rfl, rfl⟩

/-! ### Lengths -/

theorem chi2_length {arg : Chi2} {gs : List Group} (h : IsChi2 arg gs) : ∀ g ∈ gs, g.chi2.length = g.duts.length := by
  cases arg with
  | one c =>
    intro g hg
    rw [h g hg, List.length_replicate]
  | many l =>
    intro g hg
    obtain ⟨c, -, hc⟩ := forall₂_right (show List.Forall₂ _ l gs from h) g hg
    cases c with
    | one c =>
      dsimp only at hc
      rw [hc, List.length_replicate]
    | many cs =>
      dsimp only at hc
      rw [hc.1, hc.2]

theorem shapes_length {arg : Option (List ShapeArg)} {gs : List Group} (h : IsShapes arg gs) : ∀ g ∈ gs, g.shapes.length = g.duts.length := by
  cases arg with
  | none =>
    intro g hg
    rw [h g hg, List.length_replicate]
  | some l =>
    intro g hg
    rcases h with ⟨ns, -, h⟩ | h
    · rw [h g hg, List.length_replicate]
    · obtain ⟨c, -, hc⟩ := forall₂_right h g hg
      cases c with
      | none =>
        rw [show g.shapes = _ from hc, List.length_replicate]
      | num n => exact hc.elim
      | list l =>
        rcases hc with ⟨ns, -, hc⟩ | ⟨-, hc⟩
        · rw [hc, List.length_replicate]
        · exact hc

end BTA.Align.Props
