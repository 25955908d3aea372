import Verif.Lemmas.AlignSettings
import Verif.Spec.AlignKalman
/-
Lemmas about the model of `align_kalman`.
-/
namespace BTA.KDriver
open BTA.Align (Item)
open BTA.Align.Spec (IsGroups IsPerGroup IsEach)
open BTA.KAlign (Track Record Vec6 Mat6 initialAlignment alignmentLoop parName)
open BTA.Fit (DutCfg sameTracks effectiveFit actualMinHits)
open BTA.KDriver.Spec

theorem lift_ok {α : Type} {x : Except Align.Err α} {a : α} : lift x = .ok a ↔ x = .ok a := by
  cases x <;> simp [lift]

theorem forEach_iff {α : Type} (e : Err) (n : Nat) (x : Item α) (out : List α) :
    forEach e n x = .ok out ↔ out.length = n ∧ IsEach x out := by
  cases x with
  | one a =>
    simp only [forEach, IsEach, Except.ok.injEq]
    constructor
    · rintro rfl; simp
    · rintro ⟨h1, h2⟩; rw [eq_comm, List.eq_replicate_iff]; exact ⟨h1, h2⟩
  | many l =>
    simp only [forEach, IsEach]
    constructor
    · intro h
      split at h
      · rename_i hl; injection h with h; subst h; exact ⟨hl, rfl⟩
      · cases h
    · rintro ⟨h1, rfl⟩
      rw [if_pos h1]

theorem parametersOf_iff (groups : List (List Nat)) (hne : groups ≠ []) (arg : Option (List (Option (List (Option (List String))))))
    (out : List (Option (List (Option (List String))))) :
    parametersOf groups arg = .ok out ↔ out.length = groups.length ∧
      (match arg with
        | none => out = groups.map fun g => some (List.replicate g.length none)
        | some l => out = l) := by
  cases arg with
  | none =>
    simp only [parametersOf, Except.ok.injEq]
    constructor
    · rintro rfl; simp
    · rintro ⟨-, rfl⟩; rfl
  | some l =>
    simp only [parametersOf]
    constructor
    · intro h
      split at h
      · rename_i hl; injection h with h; subst h; exact ⟨hl.1, rfl⟩
      · cases h
    · rintro ⟨h1, rfl⟩
      rw [if_pos ⟨h1, fun h => hne (by subst h; simpa using h1.symm)⟩]

theorem zipGroups_maps : ∀ (gs : List (List Nat)) (ps : List (Option (List (Option (List String))))) (hs fs : List (List Nat))
    (es : List (Option Nat)) (ts : List Nat), ps.length = gs.length → hs.length = gs.length → fs.length = gs.length →
    es.length = gs.length → ts.length = gs.length →
    (zipGroups gs ps hs fs es ts).map Group.duts = gs ∧ (zipGroups gs ps hs fs es ts).map Group.parameters = ps ∧
    (zipGroups gs ps hs fs es ts).map Group.hit = hs ∧ (zipGroups gs ps hs fs es ts).map Group.fit = fs ∧
    (zipGroups gs ps hs fs es ts).map Group.maxEvents = es ∧ (zipGroups gs ps hs fs es ts).map Group.maxTracks = ts
  | [], [], [], [], [], [], _, _, _, _, _ => by simp [zipGroups]
  | g :: gs, p :: ps, h :: hs, f :: fs, e :: es, t :: ts, h1, h2, h3, h4, h5 => by
    obtain ⟨k1, k2, k3, k4, k5, k6⟩ := zipGroups_maps gs ps hs fs es ts (by simpa using h1) (by simpa using h2) (by simpa using h3)
      (by simpa using h4) (by simpa using h5)
    simp [zipGroups, k1, k2, k3, k4, k5, k6]

theorem zipGroups_eta : ∀ gs : List Group, zipGroups (gs.map Group.duts) (gs.map Group.parameters) (gs.map Group.hit) (gs.map Group.fit)
    (gs.map Group.maxEvents) (gs.map Group.maxTracks) = gs
  | [] => rfl
  | g :: gs => by
    simp only [List.map_cons, zipGroups, zipGroups_eta gs]

theorem forall₂_maps {α β γ : Type} (f : α → β) (g : α → γ) (P : β → γ → Prop) : ∀ l : List α,
    (List.Forall₂ P (l.map f) (l.map g) ↔ ∀ a ∈ l, P (f a) (g a))
  | [] => by simp
  | a :: l => by simp [forall₂_maps f g P l]

theorem isGroups_ne {legacy : Bool} {s : Option (List (Item Nat))} {gs : List (List Nat)} (h : IsGroups legacy s gs) : gs ≠ [] := by
  rcases h.1 with ⟨d, -, rfl⟩ | ⟨-, h2, -⟩
  · simp
  · exact h2

theorem isPerGroup_length {d : List (List Nat)} {arg : Option (List (Item Nat))} {v : List (List Nat)} (h : IsPerGroup d arg v) :
    v.length = d.length := by
  cases arg with
  | none => have h : v = d := h; rw [h]
  | some items =>
    rcases h with ⟨-, ⟨l, -, rfl⟩ | ⟨-, h⟩⟩
    · simp
    · exact h

theorem settings_iff (legacy : Bool) (a : Args) (gs : List Group) : settings legacy a = .ok gs ↔ Settings legacy a gs := by
  unfold settings
  constructor
  · intro h
    obtain ⟨groups, h1, h⟩ := Align.bind_ok h
    obtain ⟨ps, h2, h⟩ := Align.bind_ok h
    obtain ⟨hs, h3, h⟩ := Align.bind_ok h
    obtain ⟨fs, h4, h⟩ := Align.bind_ok h
    obtain ⟨es, h5, h⟩ := Align.bind_ok h
    obtain ⟨ts, h6, h⟩ := Align.bind_ok h
    injection h with h
    have k1 := (Align.groupsOf_iff _ _ _).mp (lift_ok.mp h1)
    have hne := isGroups_ne k1
    have k2 := (parametersOf_iff _ hne _ _).mp h2
    have k3 := (Align.hitDutsOf_iff _ _ _).mp (lift_ok.mp h3)
    have l3 := isPerGroup_length k3.1
    have k4 := (Align.fitDutsOf_iff _ _ l3 _ _).mp (lift_ok.mp h4)
    have l4 := isPerGroup_length k4.1
    have k5 := (forEach_iff _ _ _ _).mp h5
    have k6 := (forEach_iff _ _ _ _).mp h6
    obtain ⟨m1, m2, m3, m4, m5, m6⟩ := zipGroups_maps groups ps hs fs es ts k2.1 l3 (l4.trans l3) k5.1 k6.1
    rw [h] at m1 m2 m3 m4 m5 m6
    subst m1 m2 m3 m4 m5 m6
    refine ⟨k1, ?_, k3.1, k4.1, ?_, k5.2, k6.2⟩
    · have := k2.2
      revert this
      cases a.parameters with
      | none =>
        intro this g hg
        rw [List.map_map] at this
        exact List.map_inj_left.mp this g hg
      | some l => exact id
    · intro g hg
      have e1 := (forall₂_maps Group.fit Group.hit _ gs).mp k4.2 g hg
      exact ⟨k3.2 _ (List.mem_map_of_mem hg), e1.1, e1.2⟩
  · intro h
    have hne := isGroups_ne h.duts
    have l3 := isPerGroup_length h.hit
    have h1 := (Align.groupsOf_iff _ _ _).mpr h.duts
    have h2 : parametersOf (gs.map Group.duts) a.parameters = .ok (gs.map Group.parameters) := by
      rw [parametersOf_iff _ hne]
      refine ⟨by simp, ?_⟩
      have := h.parameters
      revert this
      cases a.parameters with
      | none =>
        intro this
        simp only [List.map_map]
        exact List.map_inj_left.mpr this
      | some l => exact id
    have h3 : Align.hitDutsOf (gs.map Group.duts) a.hitDuts = .ok (gs.map Group.hit) := by
      rw [Align.hitDutsOf_iff]
      refine ⟨h.hit, fun l hl => ?_⟩
      obtain ⟨g, hg, rfl⟩ := List.mem_map.mp hl
      exact (h.enough g hg).1
    have h4 : Align.fitDutsOf (gs.map Group.duts) (gs.map Group.hit) a.fitDuts = .ok (gs.map Group.fit) := by
      rw [Align.fitDutsOf_iff _ _ l3, forall₂_maps]
      exact ⟨h.fit, fun g hg => (h.enough g hg).2⟩
    have h5 : forEach .maxEvents (gs.map Group.duts).length a.maxEvents = .ok (gs.map Group.maxEvents) :=
      (forEach_iff _ _ _ _).mpr ⟨by simp, h.maxEvents⟩
    have h6 : forEach .maxTracks (gs.map Group.duts).length a.maxTracks = .ok (gs.map Group.maxTracks) :=
      (forEach_iff _ _ _ _).mpr ⟨by simp, h.maxTracks⟩
    rw [lift_ok.mpr h1]
    dsimp only [bind, Except.bind]
    rw [h2]
    dsimp only
    rw [lift_ok.mpr h3]
    dsimp only
    rw [lift_ok.mpr h4]
    dsimp only
    rw [h5]
    dsimp only
    rw [h6]
    dsimp only
    rw [zipGroups_eta]

theorem settings_ne {legacy : Bool} {a : Args} {gs : List Group} (h : settings legacy a = .ok gs) : gs ≠ [] := by
  have := isGroups_ne ((settings_iff _ _ _).mp h).duts
  intro h'
  subst h'
  exact this rfl

/-- The run after the checks. -/
theorem alignKalman_cases {n : Nat} {T : Type} (legacy : Bool) (root : List Char → List Char) (S : Setup n T) (a : Args) (D : Disk n)
    (input : List Char) (output : Option (List Char)) :
    (Untouched D (alignKalman legacy root S a D input output) ∧ Raises (alignKalman legacy root S a D input output)) ∨
    ∃ conf gs out, D.store input = some conf ∧ settings legacy a = .ok gs ∧ outputName root input output = .ok out ∧
      alignKalman legacy root S a D input output =
        finish D out (alignGroups S a 0 gs ⟨startConf conf (D.store out) gs, D.table, D.files, []⟩) := by
  unfold alignKalman
  cases h1 : D.store input with
  | none => exact .inl ⟨⟨rfl, rfl⟩, _, rfl⟩
  | some conf =>
    dsimp only
    cases h2 : settings legacy a with
    | error e => exact .inl ⟨⟨rfl, rfl⟩, _, rfl⟩
    | ok gs =>
      dsimp only
      cases h3 : outputName root input output with
      | error e => exact .inl ⟨⟨rfl, rfl⟩, _, rfl⟩
      | ok out =>
        dsimp only
        split
        · exact .inl ⟨⟨rfl, rfl⟩, _, rfl⟩
        · exact .inr ⟨conf, gs, out, rfl, rfl, rfl, rfl⟩

theorem finish_returns {n : Nat} {D : Disk n} {out : List Char} {r : World n × Option Err} : Returns (finish D out r) ↔ r.2 = none := by
  obtain ⟨w, e⟩ := r
  unfold Returns finish
  cases e with
  | none => simp
  | some e => simp

theorem raises_iff {n : Nat} (r : Result n) : Raises r ↔ ¬ Returns r := by
  unfold Raises Returns
  cases r.output with
  | ok f => simp
  | error e => simp

theorem returns_cases {n : Nat} {T : Type} {legacy : Bool} {root : List Char → List Char} {S : Setup n T} {a : Args} {D : Disk n}
    {input : List Char} {output : Option (List Char)} (h : Returns (alignKalman legacy root S a D input output)) :
    ∃ conf gs out w, D.store input = some conf ∧ settings legacy a = .ok gs ∧ outputName root input output = .ok out ∧
      alignGroups S a 0 gs ⟨startConf conf (D.store out) gs, D.table, D.files, []⟩ = (w, none) ∧
      alignKalman legacy root S a D input output = finish D out (w, none) := by
  rcases alignKalman_cases legacy root S a D input output with ⟨-, h'⟩ | ⟨conf, gs, out, h1, h2, h3, h4⟩
  · exact absurd h ((raises_iff _).mp h')
  · rw [h4] at h
    have h5 := finish_returns.mp h
    refine ⟨conf, gs, out, _, h1, h2, h3, Prod.ext rfl h5, ?_⟩
    rw [h4]
    congr 1
    exact Prod.ext rfl h5

/-- The first group is aligned without exception. -/
theorem alignGroups_ok {n : Nat} {T : Type} {S : Setup n T} {a : Args} {index : Nat} {g : Group} {gs : List Group} {w w' : World n}
    (h : alignGroups S a index (g :: gs) w = (w', none)) :
    ∃ w₁, alignGroup S a index g w = (w₁, none) ∧ alignGroups S a (index + 1) gs w₁ = (w', none) := by
  rw [alignGroups] at h
  split at h
  · cases h
  · rename_i w₁ h₁
    exact ⟨w₁, h₁, h⟩

/-- The state after the search for tracks. -/
def searched {n : Nat} (index : Nat) (g : Group) (w : World n) : World n :=
  { w with files := index :: w.files, calls := w.calls ++ [(index, g.maxEvents)] }

/-- Without the old alignment file. -/
def cleaned {n : Nat} (index : Nat) (w : World n) : World n := if index = 0 then { w with table := [] } else w

theorem cleaned_conf {n : Nat} (index : Nat) (w : World n) : (cleaned index w).conf = w.conf := by
  unfold cleaned; split <;> rfl

theorem alignGroup_ok {n : Nat} {T : Type} {S : Setup n T} {a : Args} {index : Nat} {g : Group} {w w' : World n}
    (h : alignGroup S a index g w = (w', none)) :
    (∀ d ∈ g.duts ++ g.hit, d < n) ∧ ∃ chi2 exclude minHits w₁, chi2Of a index = .ok chi2 ∧
      forEach .exclude g.duts.length a.exclude = .ok exclude ∧ forEach .minHits g.duts.length a.minHits = .ok minHits ∧
      passes S a index g chi2 (dutCfgs g exclude minHits) (dutCfgs g exclude minHits) [] (cleaned index (searched index g w)) = (w₁, none) ∧
      w' = { w₁ with files := w₁.files.filter fun i => i ≠ index } := by
  unfold alignGroup at h
  dsimp only at h
  split at h
  · cases h
  · rename_i hd
    refine ⟨fun d hd' => ?_, ?_⟩
    · by_contra hlt
      exact hd (List.any_eq_true.mpr ⟨d, hd', by simpa using hlt⟩)
    · split at h
      · cases h
      · rename_i chi2 hc
        unfold alignDuts at h
        split at h
        · cases h
        · rename_i ex he
          split at h
          · cases h
          · rename_i mh hm
            dsimp only at h
            split at h
            · cases h
            · rename_i w₁ hw
              injection h with h _
              exact ⟨chi2, ex, mh, w₁, hc, he, hm, hw, h.symm⟩

/-- The alignment with the tracks of a DUT. -/
theorem pass_ok {n : Nat} {T : Type} {S : Setup n T} {a : Args} {index : Nat} {g : Group} {chi2 : ℝ} {c : DutCfg} {w w' : World n}
    {e : Option Err} (h : pass S a index g chi2 c w = (w', e)) :
    (w' = w ∧ e ≠ none) ∨ (2 ≤ actualMinHits c ∧ actualMinHits c ≤ (effectiveFit c).length ∧ ∃ cov, initial a g = .ok cov ∧
      w' = { w with
        conf := (alignmentLoop (loopConfig S a g chi2 c w.conf) S.chunkSize w.conf cov (S.candidates index g.maxEvents)).saved,
        table := w.table ++ (alignmentLoop (loopConfig S a g chi2 c w.conf) S.chunkSize w.conf cov (S.candidates index g.maxEvents)).table } ∧
      e = (alignmentLoop (loopConfig S a g chi2 c w.conf) S.chunkSize w.conf cov (S.candidates index g.maxEvents)).err.map .loop) := by
  unfold pass at h
  split at h
  · injection h with h1 h2; subst h1 h2; simp
  · split at h
    · injection h with h1 h2; subst h1 h2; simp
    · rename_i k1 k2
      split at h
      · injection h with h1 h2; subst h1 h2; simp
      · rename_i cov hcov
        injection h with h1 h2
        exact .inr ⟨by omega, by omega, cov, hcov, h1.symm, h2.symm⟩

/-- If the loop over the DUTs does not raise, the alignment with the tracks of the first DUT has been done. -/
theorem passes_first {n : Nat} {T : Type} {S : Setup n T} {a : Args} {index : Nat} {g : Group} {chi2 : ℝ} {all rest : List DutCfg}
    {c : DutCfg} {w w' : World n} (h : passes S a index g chi2 all (c :: rest) [] w = (w', none)) :
    ∃ w₁, pass S a index g chi2 c w = (w₁, none) ∧
      passes S a index g chi2 all rest ((all.filter fun x => sameTracks x c).map DutCfg.dut) w₁ = (w', none) := by
  rw [passes, if_neg (by simp)] at h
  split at h
  · cases h
  · rename_i w₁ h₁
    exact ⟨w₁, h₁, by simpa using h⟩

/-- Every alignment that is done preserves the property, so does the loop over the DUTs. -/
theorem passes_conf {n : Nat} {T : Type} {S : Setup n T} {a : Args} {index : Nat} {g : Group} {chi2 : ℝ} {all : List DutCfg}
    (P : Conf n → Prop)
    (hP : ∀ cfg cs conf cov tracks, initial a g = .ok cov → P conf → P (alignmentLoop (T := T) cfg cs conf cov tracks).saved) :
    ∀ (l : List DutCfg) (fitted : List Nat) (w : World n), P w.conf → P (passes S a index g chi2 all l fitted w).1.conf
  | [], _, w, h => by rw [passes]; exact h
  | c :: rest, fitted, w, h => by
    rw [passes]
    split
    · exact passes_conf P hP rest fitted w h
    · have key : ∀ w' e, pass S a index g chi2 c w = (w', e) → P w'.conf := by
        intro w' e he
        rcases pass_ok he with ⟨rfl, -⟩ | ⟨-, -, cov, hc, rfl, -⟩
        · exact h
        · exact hP _ _ _ _ _ hc h
      split
      · rename_i w' e he
        exact key _ _ he
      · rename_i w' he
        exact passes_conf P hP rest _ w' (key _ _ he)

theorem alignGroup_conf {n : Nat} {T : Type} {S : Setup n T} {a : Args} {index : Nat} {g : Group} (P : Conf n → Prop)
    (hP : ∀ cfg cs conf cov tracks, initial a g = .ok cov → P conf → P (alignmentLoop (T := T) cfg cs conf cov tracks).saved)
    (w : World n) (h : P w.conf) : P (alignGroup S a index g w).1.conf := by
  unfold alignGroup
  dsimp only
  split
  · exact h
  · split
    · exact h
    · unfold alignDuts
      split
      · exact h
      · split
        · exact h
        · rename_i chi2 _ _ ex _ _ mh _
          dsimp only
          have h' : P (cleaned index (searched index g w)).conf := by rw [cleaned_conf]; exact h
          have key := passes_conf (S := S) (index := index) (chi2 := chi2) (all := dutCfgs g ex mh) P hP (dutCfgs g ex mh) [] _ h'
          change P (match passes S a index g chi2 (dutCfgs g ex mh) (dutCfgs g ex mh) [] (cleaned index (searched index g w)) with
            | (w', some e) => (w', some e)
            | (w', none) => ({ w' with files := w'.files.filter fun i => i ≠ index }, none) : World n × Option Err).1.conf
          split
          · rename_i w' e he
            rw [he] at key
            exact key
          · rename_i w' he
            rw [he] at key
            exact key

theorem alignGroups_conf {n : Nat} {T : Type} {S : Setup n T} {a : Args} (P : Conf n → Prop) : ∀ (gs : List Group),
    (∀ g ∈ gs, ∀ cfg cs conf cov tracks, initial a g = .ok cov → P conf → P (alignmentLoop (T := T) cfg cs conf cov tracks).saved) →
    ∀ (index : Nat) (w : World n), P w.conf → P (alignGroups S a index gs w).1.conf
  | [], _, _, w, h => by rw [alignGroups]; exact h
  | g :: gs, hP, index, w, h => by
    rw [alignGroups]
    have key := alignGroup_conf (S := S) (index := index) P (hP g (by simp)) w h
    split
    · rename_i w' e he
      rw [he] at key
      exact key
    · rename_i w' he
      rw [he] at key
      exact alignGroups_conf P gs (fun g hg => hP g (by simp [hg])) (index + 1) w' key

theorem initial_ok {n : Nat} {a : Args} {g : Group} {cov : Fin n → Mat6} (h : initial a g = .ok cov) :
    ∃ p errors tel, g.parameters = some p ∧ errorsOf n a g.duts p = .ok errors ∧ a.telescopeDuts = some tel ∧
      initialAlignment g.duts tel p errors = .ok cov := by
  unfold initial at h
  split at h
  · cases h
  · rename_i p hp
    split at h
    · cases h
    · rename_i errors he
      split at h
      · cases h
      · rename_i tel ht
        split at h
        · cases h
        · rename_i c hc
          injection h with h
          subst h
          exact ⟨p, errors, tel, hp, he, ht, hc⟩

end BTA.KDriver
