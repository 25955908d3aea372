import Verif.Props.AlignRun
/-
A complete run of `align`: three DUTs at x = 5, two of them in the telescope and aligned. Used as example for C118 to C125 and as
counterexample for C120 and C121.
-/
namespace BTA.Align.Props
open BTA.Dut BTA.Geo BTA.Transformation BTA.Transformation.Props BTA.Transformation.Spec BTA.Align BTA.Align.Spec BTA.AlignTel BTA.AlignTel.Props BTA.Spec

/-- A DUT without rotation at (x, 0, z). -/
noncomputable def deskDut (x z : ℝ) : DutConf := ⟨⟨x, 0, z, 0, 0, 0⟩, some (none, some 5000), none⟩

/-- Three DUTs, each 10 um behind the other, at x. -/
noncomputable def deskConf (x alpha beta : ℝ) : Conf := ⟨alpha, beta, 3, fun i => deskDut (if i < 3 then x else 0) (10 * i)⟩

theorem desk_onTrack (z : ℝ) : AllOnTrack (deskDut 0 z) true (position (deskDut 0 z).alignment) (caseTable 0 0) := by
  intro r hr h hu
  obtain ⟨h1, t, ht⟩ := case_onTrack 0 0 r hr h hu
  refine ⟨h1, t, ?_⟩
  rw [caseDut_rotated, caseDut_rotated, caseDut_rotated] at ht
  have e : ∀ v, rotated (deskDut 0 z).alignment v = v := fun v => caseDut_rotated 0 0 v
  rw [e, e, e]
  have e2 : position (caseDut 0 0).alignment = 0 := by ext j; fin_cases j <;> simp [position, caseDut]
  rw [e2, add_zero, add_zero] at ht
  rw [ht]
  abel

theorem desk_transformation (z : ℝ) (params : List String) :
    dutTransformation idealNumpy ⟨true, some 100, 1000000⟩ 3 params (deskDut 0 z) (caseTable 0 0) = .ok (deskDut 0 z).alignment := by
  have hp : Principal (deskDut 0 z).alignment := case_principal 0 0
  have hr : Rigid (deskDut 0 z) true (caseTable 0 0) := case_rigid 0 0
  obtain ⟨out, h1, -⟩ := C78_shift idealNumpy idealNumpy_svd idealNumpy_pinv ⟨true, some 100, 1000000⟩ (by simp) (by simp) 3 le_rfl params
    (deskDut 0 z) hp (caseTable 0 0) (by simp [caseTable]) (case_onSensor _ _) _ (desk_onTrack z)
    (by rw [chunksOf_one (caseTable 0 0) _ (by simp [caseTable]) (by simp [caseTable])]; simpa using hr)
  rw [h1, C77_aligned idealNumpy idealNumpy_svd _ 3 le_rfl params (deskDut 0 z) hp (caseTable 0 0) (desk_onTrack z) out h1]

/-- Transformations that change nothing. -/
theorem dutLoop_same {np : Numpy} {args : Transformation.Args} {fuel : Nat} {tables : Nat → List Row} {conf : Nat → DutConf} :
    ∀ (l : List (Nat × List String)), (∀ x ∈ l, dutTransformation np args fuel x.2 (conf x.1) (tables x.1) = .ok (conf x.1).alignment) →
    dutLoop np args fuel tables l conf = .ok conf
  | [], _ => rfl
  | (i, params) :: r, h => by
    rw [dutLoop, h (i, params) (by simp)]
    dsimp only
    have : (fun k => if k = i then { conf i with alignment := (conf i).alignment } else conf k) = conf := by
      funext k
      by_cases hk : k = i
      · subst hk; simp
      · simp [hk]
    rw [this]
    exact dutLoop_same r fun x hx => h x (List.mem_cons_of_mem _ hx)

theorem desk_dut (x al be : ℝ) (i : Nat) (hi : i < 3) : (toTel (deskConf x al be)).duts[i]? = some (deskDut x (10 * i)).alignment := by
  rw [toTel_duts, if_pos (show i < (deskConf x al be).n from hi)]
  simp [deskConf, hi]

theorem desk_onOneLine (x al be : ℝ) : OnOneLine (toTel (deskConf x al be)).duts [0, 1] ![x, 0, 0] ![0, 0, 1] := by
  refine ⟨fun i hi => ?_, 0, by simp, 1, by simp, ![x, 0, 0], ![x, 0, 10], ?_, ?_, fun h => by simpa using congrFun h 2⟩
  · refine ⟨![x, 0, 10 * i], ⟨(deskDut x (10 * i)).alignment, desk_dut x al be i ?_, rfl, rfl, rfl⟩, 10 * i, ?_⟩
    · simp only [List.mem_cons, List.not_mem_nil, or_false] at hi
      omega
    · ext k; fin_cases k <;> simp
  · exact ⟨(deskDut x (10 * (0 : Nat))).alignment, desk_dut x al be 0 (by omega), rfl, rfl, by simp [deskDut]⟩
  · exact ⟨(deskDut x (10 * (1 : Nat))).alignment, desk_dut x al be 1 (by omega), rfl, rfl, by simp [deskDut]⟩

/-- `align_telescope` moves all three DUTs to x = 0. -/
theorem desk_telescope (svd : List Vec3 → Vec3) (hsvd : ∀ rows, IsFirstSingular rows (svd rows)) (x al be : ℝ) :
    ∃ t, AlignTel.alignTelescope svd (toTel (deskConf x al be)) [0, 1] none = .ok t ∧
      ofTel (deskConf x al be) t = deskConf 0 t.alpha t.beta := by
  have hrot : rotationMatrix 0 0 0 = 1 := by
    ext i j
    fin_cases i <;> fin_cases j <;> simp [rotationMatrix, rotX, rotY, rotZ, Matrix.mul_apply, Fin.sum_univ_three]
  obtain ⟨t, ht⟩ := (C111_succeeds_iff svd hsvd (toTel (deskConf x al be)) [0, 1] none ![x, 0, 0] ![0, 0, 1] (desk_onOneLine x al be) (by simp)
    (.inl rfl)).mpr (by
      intro a ha
      simp only [toTel, List.mem_map] at ha
      obtain ⟨i, -, rfl⟩ := ha
      rintro ⟨u, v, huv⟩
      have : (![0, 0, 1] : Vec3) = (rotationMatrix 0 0 0).mulVec ![u, v, 0] := huv
      rw [hrot, Matrix.one_mulVec] at this
      simpa using congrFun this 2)
  refine ⟨t, ht, ?_⟩
  obtain ⟨hlen, -⟩ := C111_kept _ _ _ _ _ ht
  have hlen3 : t.duts.length = 3 := by rw [hlen]; simp [toTel, deskConf]
  have hd : ∀ i, t.duts.getD i ((deskConf x al be).duts i).alignment = (deskDut 0 (10 * i)).alignment := by
    intro i
    by_cases hi : i < 3
    · have ha' : t.duts[i]? = some t.duts[i] := List.getElem?_eq_getElem (by omega)
      obtain ⟨I, h1, -, h3, h4⟩ := moved svd hsvd _ _ _ _ _ _ (desk_onOneLine x al be) (.inl rfl) ht i _ _ (desk_dut x al be i hi) ha'
      obtain ⟨s, hs⟩ := h1
      have hI0 : I 0 = x := by rw [hs]; simp
      have hI1 : I 1 = 0 := by rw [hs]; simp
      rw [List.getD_eq_getElem?_getD, ha', Option.getD_some, h4, hI0, hI1]
      simp [deskDut]
    · have ha' : t.duts[i]? = none := by rw [List.getElem?_eq_none_iff]; omega
      rw [List.getD_eq_getElem?_getD, ha', Option.getD_none]
      simp [deskConf, hi]
  unfold ofTel deskConf
  congr 1
  funext i
  have := hd i
  unfold deskConf at this
  dsimp only at this ⊢
  rw [this]
  simp [deskDut]

/-- Why an iteration can fail. -/
theorem iteration_fails {o : Oracle} {a : Args} {q : List (Option (ℝ × ℝ))} {g : Group} {step : Nat} {w : World} {e : Err} {tel : List Nat}
    (ht : a.telescopeDuts = some tel) (hq : ∀ d ∈ q, d ≠ none) (h : iteration o a q g step w = .error e) :
    e = .missingFile ∨ (common g.duts tel ≠ [] ∧ ∃ e', AlignTel.alignTelescope o.svd (toTel w.conf) (common g.duts tel) none = .error e') ∨
    (∃ c1 calls e', Beamed o tel g w.conf c1 ∧ calculateTransformation o.np ⟨a.useLimits, some 100, a.chunkSize⟩ o.fuel g.duts
      (some (paramList tel g)) (o.tables calls) c1.duts = .error e') := by
  unfold iteration at h
  rw [ht] at h
  dsimp only at h
  rcases bind_error h with h1 | ⟨w1, h1, k1⟩
  · unfold toBeam at h1
    split at h1
    · cases h1
    · next d ds hc =>
      split at h1
      · next e' he =>
        rw [hc]
        exact .inr (.inl ⟨by simp, e', he⟩)
      · cases h1
  obtain ⟨b1, -, -⟩ := toBeam_ok h1
  rcases bind_error k1 with h2 | ⟨w2, h2, k2⟩
  · unfold readQuality at h2
    split at h2
    · cases h2
    · next hn =>
      refine absurd ?_ hn
      rw [List.all_eq_true]
      intro d hd
      exact Option.isSome_iff_ne_none.mpr (hq d hd)
  obtain ⟨rfl, -⟩ := readQuality_ok h2
  rcases bind_error k2 with h3 | ⟨w3, h3, k3⟩
  · unfold findCandidates at h3
    split at h3
    · cases h3
    · split at h3
      · next e' he =>
        injection h3 with h3
        subst h3
        unfold removeCandidates at he
        split at he
        · cases he
        · exact .inl (remove_error he).1
      · cases h3
  obtain ⟨c3, -, -⟩ := findCandidates_ok h3
  rcases bind_error k3 with h4 | ⟨w4, h4, k4⟩
  · unfold angleStep at h4
    split at h4
    · cases h4
    · exact .inl (remove_error h4).1
  obtain ⟨d4, -⟩ := angleStep_ok h4
  rcases bind_error k4 with h5 | ⟨w5, h5, k5⟩
  · unfold residualStep at h5
    split at h5
    · exact .inl (remove_error h5).1
    · cases h5
  obtain ⟨c5, -⟩ := residualStep_ok h5
  rcases bind_error k5 with h6 | ⟨w6, h6, k6⟩
  · unfold transformStep at h6
    split at h6
    · next e' he =>
      refine .inr (.inr ⟨w2.conf, w5.calls, e', b1, ?_⟩)
      have : w5.conf.duts = w2.conf.duts := by
        rw [c5, d4]
        show w3.conf.duts = _
        rw [c3]
      rw [← this]
      exact he
    · cases h6
  rcases bind_error k6 with h7 | ⟨w7, h7, k7⟩
  · exact .inl (remove_error h7).1
  · exact .inl (remove_error k7).1

/-- The group of the case. -/
noncomputable def deskGroup (k : Nat) (ps : List (Option (List String))) : Group :=
  ⟨[0, 1], ps, [0, 1], [0, 1], k, none, [some 10, some 10], [none, none]⟩

/-- Tracks that are exactly on the hits of DUTs at x = y = 0. -/
noncomputable def deskOracle (svd : List Vec3 → Vec3) : Oracle := ⟨fun _ _ => caseTable 0 0, fun _ => some (0, 0), idealNumpy, svd, 3⟩

/-- The arguments. -/
noncomputable def deskArgs (tel : List Nat) (k : Nat) (ps : Option (List (Option (List (Option (List String)))))) : Args :=
  { selectDuts := some [.one 0, .one 1], telescopeDuts := some tel, iterations := .one k, parameters := ps }

theorem desk_calculate (tel : List Nat) (k : Nat) (ps : List (Option (List String))) (hl : ps.length = 2)
    (hp : ∀ p, some p ∈ ps → ∀ n ∈ p, n ∈ defaultParameters) (conf : Nat → DutConf) (h0 : conf 0 = deskDut 0 0) (h1 : conf 1 = deskDut 0 10) :
    calculateTransformation idealNumpy ⟨true, some 100, 1000000⟩ 3 (deskGroup k ps).duts (some (paramList tel (deskGroup k ps)))
      (fun _ => caseTable 0 0) conf = .ok conf := by
  match ps, hl with
  | [p, p'], _ =>
  have hsel : selectParameters 2 (some [some (parametersFor tel 0 p), some (parametersFor tel 1 p')]) =
      .ok [parametersFor tel 0 p, parametersFor tel 1 p'] := by
    have ok : ∀ d q, q ∈ [p, p'] → (parametersFor tel d q).all (fun n => decide (n ∈ defaultParameters)) = true := by
      intro d q hq
      rw [List.all_eq_true]
      intro n hn
      rw [decide_eq_true_eq]
      cases q with
      | some l => exact hp l hq n hn
      | none =>
        unfold parametersFor at hn
        dsimp only at hn
        split at hn
        · simp only [List.mem_cons, List.not_mem_nil, or_false] at hn
          rcases hn with rfl | rfl | rfl | rfl | rfl <;> simp [defaultParameters]
        · exact hn
    unfold selectParameters
    rw [if_neg (by simp), if_pos]
    · rfl
    · simp [ok 0 p (by simp), ok 1 p' (by simp)]
  unfold calculateTransformation
  show (match selectParameters 2 (some [some (parametersFor tel 0 p), some (parametersFor tel 1 p')]) with
    | Except.error e => Except.error e
    | Except.ok ps => dutLoop idealNumpy _ 3 _ ((deskGroup k [p, p']).duts.zip ps) conf) = _
  rw [hsel]
  refine dutLoop_same _ fun x hx => ?_
  simp only [deskGroup, List.zip_cons_cons, List.zip_nil_right, List.mem_cons, List.not_mem_nil, or_false] at hx
  rcases hx with rfl | rfl
  · dsimp only
    rw [h0]
    exact desk_transformation 0 _
  · dsimp only
    rw [h1]
    exact desk_transformation 10 _

theorem desk_iteration (svd : List Vec3 → Vec3) (hsvd : ∀ rows, IsFirstSingular rows (svd rows)) (tel : List Nat) (k : Nat)
    (pa : Option (List (Option (List (Option (List String)))))) (ps : List (Option (List String))) (hl : ps.length = 2)
    (hp : ∀ p, some p ∈ ps → ∀ n ∈ p, n ∈ defaultParameters) (step : Nat) (w : World)
    (hw : 1 < step → .candidates [0, 1] (step - 1) ∈ w.files) (x al be : ℝ) (hc : w.conf = deskConf x al be)
    (ht : tel = [0, 1] ∨ (tel = [2] ∧ x = 0)) :
    ∃ w', iteration (deskOracle svd) (deskArgs tel k pa) (List.replicate 3 (some (250, 250))) (deskGroup k ps) step w = .ok w' ∧
      ∃ al' be', w'.conf = deskConf 0 al' be' := by
  obtain ⟨t, hok, hof⟩ := desk_telescope svd hsvd x al be
  have hb : ∀ c1, Beamed (deskOracle svd) tel (deskGroup k ps) w.conf c1 → ∃ al' be', c1 = deskConf 0 al' be' := by
    intro c1 hb
    rcases ht with rfl | ⟨rfl, rfl⟩
    · rcases hb with ⟨h, -⟩ | ⟨-, t', h1, h2⟩
      · cases h
      · rw [show common (deskGroup k ps).duts [0, 1] = [0, 1] from rfl, hc] at h1
        have : Except.ok t' = Except.ok (ε := AlignTel.Err) t := h1.symm.trans hok
        injection this with this
        exact ⟨_, _, by rw [h2, this, hc, hof]⟩
    · rcases hb with ⟨-, h⟩ | ⟨h, -⟩
      · exact ⟨al, be, h.trans hc⟩
      · exact absurd rfl h
  have hcalc := fun al be => desk_calculate tel k ps hl hp (deskConf 0 al be).duts (by simp [deskConf]) (by simp [deskConf])
  cases hi : iteration (deskOracle svd) (deskArgs tel k pa) (List.replicate 3 (some (250, 250))) (deskGroup k ps) step w with
  | error e =>
    exfalso
    rcases iteration_fails (tel := tel) rfl (by simp) hi with rfl | ⟨hne, e', h1⟩ | ⟨c1, calls, e', h1, h2⟩
    · exact iteration_missing hw hi
    · rcases ht with rfl | ⟨rfl, -⟩
      · rw [show common (deskGroup k ps).duts [0, 1] = [0, 1] from rfl, hc] at h1
        exact absurd (hok.symm.trans h1) (by simp)
      · exact hne rfl
    · obtain ⟨al1, be1, rfl⟩ := hb c1 h1
      exact absurd ((hcalc _ _).symm.trans h2) (by simp)
  | ok w' =>
    refine ⟨w', rfl, ?_⟩
    obtain ⟨tel', c1, c2, it⟩ := iteration_ok hi
    have htel : tel = tel' := by
      have := it.telescope
      injection this
    subst htel
    obtain ⟨al1, be1, hc1⟩ := hb c1 it.beamed
    have htr := it.transformed
    rw [it.duts, hc1] at htr
    have hd : w'.conf.duts = (deskConf 0 al1 be1).duts := by
      have := htr.symm.trans (hcalc al1 be1)
      injection this
    have hn : w'.conf.n = 3 := by rw [it.n', it.n, hc1]; rfl
    refine ⟨w'.conf.alpha, w'.conf.beta, ?_⟩
    cases hw' : w'.conf with
    | mk a b n d =>
      rw [hw'] at hd hn
      dsimp only at hd hn
      subst hd hn
      rfl

theorem desk_iterations (svd : List Vec3 → Vec3) (hsvd : ∀ rows, IsFirstSingular rows (svd rows)) (tel : List Nat) (m : Nat)
    (pa : Option (List (Option (List (Option (List String)))))) (ps : List (Option (List String))) (hl : ps.length = 2)
    (hp : ∀ p, some p ∈ ps → ∀ n ∈ p, n ∈ defaultParameters) : ∀ (k step : Nat) (w : World),
    (1 < step → .candidates [0, 1] (step - 1) ∈ w.files) → ∀ x al be, w.conf = deskConf x al be → (tel = [0, 1] ∨ (tel = [2] ∧ x = 0)) →
    ∃ w', iterations (deskOracle svd) (deskArgs tel m pa) (List.replicate 3 (some (250, 250))) (deskGroup m ps) k step w = .ok w' ∧
      ∃ al' be', w'.conf = deskConf (if k = 0 then x else 0) al' be'
  | 0, step, w, hw, x, al, be, hc, _ => ⟨w, rfl, al, be, by simp [hc]⟩
  | k + 1, step, w, hw, x, al, be, hc, ht => by
    obtain ⟨w1, h1, al1, be1, h2⟩ := desk_iteration svd hsvd tel m pa ps hl hp step w hw x al be hc ht
    obtain ⟨_, c1, c2, it⟩ := iteration_ok h1
    obtain ⟨w2, h3, al2, be2, h4⟩ := desk_iterations svd hsvd tel m pa ps hl hp k (step + 1) w1
      (fun hs => by simpa [deskGroup] using it.candidates (by omega)) 0 al1 be1 h2 (ht.imp id fun h => ⟨h.1, rfl⟩)
    refine ⟨w2, ?_, al2, be2, by simpa using h4⟩
    simp only [iterations, h1]
    exact h3

/-- A store with one file. -/
noncomputable def deskStore (x : ℝ) : Store := fun f => if f = "t.yaml".toList then some (deskConf x 0 0) else none

theorem desk_settings (legacy : Bool) (tel : List Nat) (k : Nat) : Settings legacy 3 (deskArgs tel k none) [deskGroup k [none, none]] (List.replicate 3 (some (250, 250))) := by
  refine ⟨⟨.inl ⟨[0, 1], rfl, rfl⟩, by simp [deskGroup]⟩, ?_, rfl, rfl, by simp [deskGroup], ?_, ?_, ⟨by simp, rfl⟩, ⟨_, by simp, rfl⟩, ?_, ?_⟩ <;>
    intro g hg <;> simp at hg <;> subst hg <;> rfl

theorem desk_settings_given (legacy : Bool) (tel : List Nat) (k : Nat) (p p' : Option (List String)) :
    Settings legacy 3 (deskArgs tel k (some [some [p, p']])) [deskGroup k [p, p']] (List.replicate 3 (some (250, 250))) := by
  refine ⟨⟨.inl ⟨[0, 1], rfl, rfl⟩, by simp [deskGroup]⟩, .cons ⟨rfl, rfl⟩ .nil, rfl, rfl, by simp [deskGroup], ?_, ?_, ⟨by simp, rfl⟩,
    ⟨_, by simp, rfl⟩, ?_, ?_⟩ <;>
    intro g hg <;> simp at hg <;> subst hg <;> rfl

theorem desk_align (legacy : Bool) (root : List Char → List Char) (svd : List Vec3 → Vec3) (hsvd : ∀ rows, IsFirstSingular rows (svd rows))
    (tel : List Nat) (k : Nat) (pa : Option (List (Option (List (Option (List String)))))) (ps : List (Option (List String))) (hl : ps.length = 2)
    (hp : ∀ p, some p ∈ ps → ∀ n ∈ p, n ∈ defaultParameters)
    (hs : Settings legacy 3 (deskArgs tel k pa) [deskGroup k ps] (List.replicate 3 (some (250, 250)))) (x : ℝ)
    (ht : tel = [0, 1] ∨ (tel = [2] ∧ x = 0)) :
    ∃ r, align legacy root (deskOracle svd) (deskArgs tel k pa) (deskStore x) "t.yaml".toList (some "o.yaml".toList) [] = .ok r ∧
      ∃ al be, r.store "o.yaml".toList = some (deskConf (if k = 0 then x else 0) al be) := by
  have hne : "o.yaml".toList ≠ "t.yaml".toList := by decide
  have hst : deskStore x "t.yaml".toList = some (deskConf x 0 0) := by simp [deskStore]
  have hno : deskStore x "o.yaml".toList = none := by unfold deskStore; rw [if_neg hne]
  have hout : outputName root "t.yaml".toList (some "o.yaml".toList) = .ok "o.yaml".toList := by unfold outputName; dsimp only; rw [if_neg hne]
  obtain ⟨w1, h1, al, be, h2⟩ := desk_iterations svd hsvd tel k pa ps hl hp k 0
    (findPrealigned (deskConf x 0 0) ⟨deskConf x 0 0, [], []⟩) (by omega) x 0 0 (findPrealigned_conf _ _) ht
  have hg : ∃ w2, alignGroup (deskOracle svd) (deskArgs tel k pa) (List.replicate 3 (some (250, 250))) (deskGroup k ps)
      (findPrealigned (deskConf x 0 0) ⟨deskConf x 0 0, [], []⟩) = .ok w2 ∧ w2.conf = w1.conf := by
    cases hg : alignGroup (deskOracle svd) (deskArgs tel k pa) (List.replicate 3 (some (250, 250))) (deskGroup k ps)
      (findPrealigned (deskConf x 0 0) ⟨deskConf x 0 0, [], []⟩) with
    | error e =>
      exfalso
      have hg' := hg
      unfold alignGroup at hg'
      rcases bind_error hg' with h3 | ⟨w3, h3, h4⟩
      · exact absurd (h1.symm.trans h3) (by simp)
      · unfold removeCandidates at h4
        split at h4
        · cases h4
        · have := (remove_error h4).1
          subst this
          exact alignGroup_missing hg
    | ok w2 =>
      obtain ⟨w3, h3, h4⟩ := alignGroup_ok hg
      have : w3 = w1 := by
        have := h3.symm.trans h1
        injection this
      subst this
      exact ⟨w2, rfl, (removeCandidates_ok h4).1⟩
  obtain ⟨w2, h3, h4⟩ := hg
  have hrun : runAlign (deskOracle svd) (deskArgs tel k pa) (deskConf x 0 0) none [] ([deskGroup k ps], List.replicate 3 (some (250, 250))) = .ok (cleanUp w2) := by
    unfold runAlign
    simp only [Option.isSome_none, Bool.false_and, Bool.false_eq_true, if_false]
    simp only [alignGroups]
    rw [if_neg (by simp [deskGroup, deskConf])]
    show ((alignGroup _ _ _ _ _ >>= _) >>= _) = _
    have e : (startConf (deskConf x 0 0) none [deskGroup k ps]) = deskConf x 0 0 := rfl
    simp only [List.filter_nil, e, h3]
    rfl
  unfold align
  rw [hst]
  dsimp only
  rw [show settings legacy (deskConf x 0 0).n (deskArgs tel k pa) = _ from (settings_iff _ _ _ _ _).mpr hs, hout]
  refine ⟨⟨"o.yaml".toList, fun f => if f = "o.yaml".toList then some (cleanUp w2).conf else deskStore x f, cleanUp w2⟩, ?_, al, be, ?_⟩
  · show (runAlign _ _ _ (deskStore x "o.yaml".toList) _ _ >>= _) = _
    rw [hno, hrun]
    rfl
  · simp only [if_true]
    show some w2.conf = _
    rw [h4, h2]

/-- C120, refuted by a concrete run: DUT 2 is not selected, and is moved by 5 um. -/
theorem C120_counterexample (legacy : Bool) (root : List Char → List Char) :
    ∃ (o : Oracle) (a : Args) (store : Store) (input output : List Char) (r : Result) (conf final : Conf) (gs : List Group)
      (q : List (Option (ℝ × ℝ))),
      (∀ rows, IsFirstSingular rows (o.svd rows)) ∧ SvdCorrect o.np ∧ align legacy root o a store input (some output) [] = .ok r ∧
      store input = some conf ∧ store output = none ∧ Settings legacy conf.n a gs q ∧ r.store output = some final ∧
      ¬InGroup gs 2 ∧ (conf.duts 2).alignment.x = 5 ∧ (final.duts 2).alignment.x = 0 := by
  obtain ⟨svd, hsvd⟩ := exists_svd
  obtain ⟨r, h1, al, be, h2⟩ := desk_align legacy root svd hsvd [0, 1] 1 none [none, none] rfl (by simp) (desk_settings legacy [0, 1] 1) 5 (.inl rfl)
  refine ⟨deskOracle svd, _, deskStore 5, _, _, r, deskConf 5 0 0, _, [deskGroup 1 [none, none]], List.replicate 3 (some (250, 250)), hsvd,
    idealNumpy_svd, h1, by simp [deskStore], by simp [deskStore], desk_settings legacy [0, 1] 1, h2, ?_, by simp [deskConf, deskDut],
    by simp [deskConf, deskDut]⟩
  rintro ⟨g, hg, h⟩
  simp only [List.mem_singleton] at hg
  subst hg
  simp [deskGroup] at h

/-- C121, refuted by a concrete run: only the rotation about z is to be aligned, and the x position changes by 5 um. -/
theorem C121_counterexample (legacy : Bool) (root : List Char → List Char) :
    ∃ (o : Oracle) (a : Args) (store : Store) (input output : List Char) (r : Result) (conf final : Conf) (gs : List Group)
      (q : List (Option (ℝ × ℝ))) (tel : List Nat),
      (∀ rows, IsFirstSingular rows (o.svd rows)) ∧ SvdCorrect o.np ∧ align legacy root o a store input (some output) [] = .ok r ∧
      store input = some conf ∧ Settings legacy conf.n a gs q ∧ a.telescopeDuts = some tel ∧ r.store output = some final ∧
      InGroup gs 0 ∧ (∀ n, Chosen tel gs 0 n → n = "rotation_gamma") ∧
      (conf.duts 0).alignment.x = 5 ∧ (final.duts 0).alignment.x = 0 := by
  obtain ⟨svd, hsvd⟩ := exists_svd
  obtain ⟨r, h1, al, be, h2⟩ := desk_align legacy root svd hsvd [0, 1] 1 (some [some [some ["rotation_gamma"], some ["rotation_gamma"]]])
    [some ["rotation_gamma"], some ["rotation_gamma"]] rfl (by simp [defaultParameters]) (desk_settings_given legacy [0, 1] 1 _ _) 5 (.inl rfl)
  refine ⟨deskOracle svd, _, deskStore 5, _, _, r, deskConf 5 0 0, _, [deskGroup 1 [some ["rotation_gamma"], some ["rotation_gamma"]]],
    List.replicate 3 (some (250, 250)), [0, 1], hsvd,
    idealNumpy_svd, h1, by simp [deskStore], desk_settings_given legacy [0, 1] 1 _ _, rfl, h2, ?_, ?_, by simp [deskConf, deskDut],
    by simp [deskConf, deskDut]⟩
  · exact ⟨_, List.mem_singleton_self _, by simp [deskGroup]⟩
  · rintro n ⟨g, hg, p, hp, hn⟩
    simp only [List.mem_singleton] at hg
    subst hg
    simp only [deskGroup, List.zip_cons_cons, List.zip_nil_right, List.mem_cons, Prod.mk.injEq, List.not_mem_nil, or_false, zero_ne_one,
      false_and, true_and] at hp
    subst hp
    simpa using hn

/-- C118 to C123 and C125: runs with any number of iterations, with the telescope selected for the alignment. -/
example (legacy : Bool) (root : List Char → List Char) (k : Nat) : ∃ o a store input output r, align legacy root o a store input (some output) [] = .ok r ∧
    r.world.calls.reverse.filterMap fitOf = List.replicate k ([0, 1], [0, 1], [[1, 0], [0, 1]]) := by
  obtain ⟨svd, hsvd⟩ := exists_svd
  obtain ⟨r, h1, -⟩ := desk_align legacy root svd hsvd [0, 1] k none [none, none] rfl (by simp) (desk_settings legacy [0, 1] k) 5 (.inl rfl)
  refine ⟨_, _, _, _, _, r, h1, ?_⟩
  obtain ⟨conf, s, h2, h3, -, h4, -⟩ := align_ok h1
  obtain ⟨gs, q⟩ := s
  obtain ⟨w1, h5, h6⟩ := runAlign_ok h4
  have hs : gs = [deskGroup k [none, none]] := by
    have hc : conf = deskConf 5 0 0 := by simpa [deskStore] using h2.symm
    subst hc
    exact (C118_unique _ _ _ _ _ _ _ ((settings_iff _ _ _ _ _).mp h3) (desk_settings legacy [0, 1] k)).1
  subst hs
  rw [h6]
  have := run_calls fitOf (fun g => (g.duts, g.fitDuts, requiredHits g)) (fun _ _ _ => rfl) stepCalls_fit _ _ _ h5
  simp only [List.flatMap_cons, List.flatMap_nil, List.append_nil] at this
  simpa [cleanUp, deskGroup, requiredHits] using this

/-- C120_no_telescope, C121_aligned: a run where no telescope DUT is aligned, and all DUTs are aligned already. -/
example (legacy : Bool) (root : List Char → List Char) (k : Nat) : ∃ (o : Oracle) (a : Args) (store : Store) (input output : List Char)
    (r : Result) (conf : Conf) (gs : List Group) (q : List (Option (ℝ × ℝ))), 3 ≤ o.fuel ∧ SvdCorrect o.np ∧
    align legacy root o a store input (some output) [] = .ok r ∧ store input = some conf ∧ Settings legacy conf.n a gs q ∧
    NoTelescope a.telescopeDuts gs ∧ InGroup gs 0 ∧ ¬InGroup gs 2 ∧ Principal (conf.duts 0).alignment ∧
    ∀ calls, AllOnTrack (conf.duts 0) a.useLimits (position (conf.duts 0).alignment) (o.tables calls 0) := by
  obtain ⟨svd, hsvd⟩ := exists_svd
  obtain ⟨r, h1, -⟩ := desk_align legacy root svd hsvd [2] k none [none, none] rfl (by simp) (desk_settings legacy [2] k) 0 (.inr ⟨rfl, rfl⟩)
  refine ⟨deskOracle svd, _, _, _, _, r, deskConf 0 0 0, [deskGroup k [none, none]], List.replicate 3 (some (250, 250)), le_rfl, idealNumpy_svd, h1,
    by simp [deskStore], desk_settings legacy [2] k, ?_, ⟨_, List.mem_singleton_self _, by simp [deskGroup]⟩, ?_, ?_, fun _ => ?_⟩
  · intro t ht g hg d hd
    simp only [List.mem_singleton] at hg
    subst hg
    have : [2] = t := by injection ht
    subst this
    simp only [deskGroup, List.mem_cons, List.not_mem_nil, or_false] at hd ⊢
    omega
  · rintro ⟨g, hg, h⟩
    simp only [List.mem_singleton] at hg
    subst hg
    simp [deskGroup] at h
  · have h0 : (deskConf 0 0 0).duts 0 = deskDut 0 0 := by simp [deskConf]
    rw [h0]
    exact case_principal 0 0
  · have h0 : (deskConf 0 0 0).duts 0 = deskDut 0 0 := by simp [deskConf]
    rw [h0]
    exact desk_onTrack 0

/-- C122: `os.path.splitext` splits off an extension; here the simplest such function, which leaves the whole name. -/
example : SplitsExtension id := fun _ => .inl rfl

/-- C123_tracks: three tracks of DUT 1, which has to have hits in DUT 0 and 1. The second track has no hit in DUT 1, the third one has a
large chi2. -/
example : (Sel.selectDut (R := Nat) (fun t => t) (fun t => if t = 1 then ⟨1, 3, 3, 3⟩ else ⟨3, 3, 3, 3⟩) (criteriaOf [0, 1])
    (some fun t => decide (t < 2)) ⟨fun _ => none, fun _ l _ => l⟩ 0 10 [0, 1, 2]).1 = [0] := by decide +kernel

end BTA.Align.Props
