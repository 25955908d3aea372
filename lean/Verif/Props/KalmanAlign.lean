import Verif.Lemmas.KalmanAlign
/-
Properties of the alignment with a Kalman filter, beam_telescope_analysis/dut_alignment.py (`align_kalman`): C93 to C101.
-/
namespace BTA.Props
open BTA.Geo BTA.Kalman BTA.KAlign BTA.Spec Matrix

variable {n : Nat} {T : Type}

/-! ### Example: telescope with three planes, the one in the middle is aligned -/

/-- The fit of every track: through the point (0, 1) in every plane, with the slope (1, 0). -/
noncomputable def exFit : Fit 3 :=
  { chi2 := some 0.5, p0 := fun _ => ![0, 1, 1, 0], C0 := fun _ => 0, V := fun _ => 1, H := fun _ => !![1, 0, 0, 0; 0, 1, 0, 0] }

noncomputable def exConfig : Config 3 Unit :=
  { rot0 := fun _ => 1, pos0 := fun _ => 0, fit := fun _ _ _ => some exFit, chi2Cut := 10, annealingFactor := 10000,
    annealingTracks := 5000, maxTracks := 10000, hitMask := hitMask [0, 1, 2] }

/-- A track whose hits are shifted by `m` in x. -/
noncomputable def exTrack (m : ℝ) : Track 3 Unit := { event := 0, flag := 7, hit := fun _ => some ![m, 1], data := () }

/-- The planes are turned around z. -/
def exAl (gamma : ℝ) : Fin 3 → Dut.Alignment := fun d => { x := 0, y := 0, z := 1000 * d.val, alpha := 0, beta := 0, gamma := gamma }

/-- One parameter of the plane in the middle. -/
def exParameters (name : String) : List (Option (List String)) := [some [], some [name], some []]

theorem exSound : SoundFit exConfig := by
  intro al ann t f hf d
  injection hf with hf
  subst hf
  exact ⟨Matrix.PosSemidef.one, Matrix.PosSemidef.zero⟩

theorem exUsual (gamma : ℝ) (h : gamma ∈ Set.Ioc (-Real.pi) Real.pi) (h0 : gamma = 0 ∨ eps < |gamma|) (d : Fin 3) :
    UsualAngles (exAl gamma d) := by
  refine ⟨⟨by simp [exAl, Real.pi_pos], by simp [exAl, Real.pi_pos.le]⟩, h, ⟨by simp [exAl, Real.pi_pos], by simp [exAl, Real.pi_pos]⟩, ?_⟩
  intro t ht
  simp [exAl] at ht
  rcases ht with rfl | rfl
  · exact Or.inl rfl
  · exact h0

theorem exInitial (name : String) : ∃ cov : Fin 3 → Mat6, initialAlignment [1] [0, 2] (exParameters name) (fun _ => 1) = .ok cov ∧
    cov 1 = diagonal (variances [name] fun _ => 1) ∧ cov 0 = 0 ∧ cov 2 = 0 := by
  have h0 : fixFive 0 = 0 := by
    funext i j
    unfold fixFive
    simp
  refine ⟨fun d => if d = 1 then diagonal (variances [name] fun _ => 1) else 0, ?_, by simp, by simp, by simp⟩
  unfold initialAlignment
  have : List.finRange 3 = [0, 1, 2] := by decide
  rw [this]
  simp only [initialCovs, KAlign.initialCov, exParameters]
  simp only [fixPlane]
  simp
  funext d
  fin_cases d <;> simp [h0, Function.update]

theorem exVariances (k : Fin 6) : variances [parName k] (fun _ => 1) = Pi.single k 1 := by
  funext j
  unfold variances
  by_cases h : j = k
  · subst h
    simp
  · rw [Pi.single_eq_of_ne h, if_neg]
    intro hh
    rw [List.mem_singleton] at hh
    revert h hh
    revert j k
    decide

/-- The change of a parameter for which the hit moves by one to the left. -/
theorem exUpdate (D : Matrix (Fin 2) (Fin 6) ℝ) (k : Fin 6) (h0 : D 0 k = -1) (h1 : D 1 k = 0) (m : ℝ) :
    innovation !![1, 0, 0, 0; 0, 1, 0, 0] 1 0 D (diagonal (Pi.single k 1)) = !![2, 0; 0, 1] ∧
    newState (some 0) (diagonal (Pi.single k 1)) D (!![2, 0; 0, 1])⁻¹ (some ![m, 1])
      ((!![1, 0, 0, 0; 0, 1, 0, 0] : ObsMat).mulVec ![0, 1, 1, 0]) = some (Pi.single k (-m / 2)) := by
  have key : ∀ i j, (D * ((diagonal (Pi.single k 1) : Mat6) * Dᵀ)) i j = D i k * D j k := by
    intro i j
    rw [Matrix.mul_apply, Finset.sum_eq_single k]
    · rw [Matrix.diagonal_mul]
      simp
    · intro l _ hl
      rw [Matrix.diagonal_mul, Pi.single_eq_of_ne hl]
      simp
    · simp
  refine ⟨?_, ?_⟩
  · unfold innovation
    ext i j
    rw [Matrix.add_apply, key]
    fin_cases i <;> fin_cases j <;> simp [h0, h1]
    norm_num
  · have hi : (!![2, 0; 0, 1] : ObsCov)⁻¹ = !![1 / 2, 0; 0, 1] := by
      apply Matrix.inv_eq_left_inv
      ext i j
      fin_cases i <;> fin_cases j <;> simp [Matrix.mul_apply, Fin.sum_univ_succ]
    rw [hi]
    unfold newState
    dsimp only
    congr 1
    have hr : (![m, 1] : Obs) - (!![1, 0, 0, 0; 0, 1, 0, 0] : ObsMat).mulVec ![0, 1, 1, 0] = ![m, 0] := by
      ext i
      fin_cases i <;> simp [Matrix.mulVec, dotProduct, Fin.sum_univ_succ]
    rw [hr, zero_add]
    ext i
    rw [Matrix.mulVec, dotProduct, Fin.sum_univ_two, Matrix.diagonal_mul, Matrix.diagonal_mul, Matrix.mul_apply, Fin.sum_univ_two,
      Matrix.transpose_apply, Matrix.transpose_apply]
    by_cases h : i = k
    · subst h
      simp [h0, h1]
      ring
    · rw [Pi.single_eq_of_ne h, Pi.single_eq_of_ne h]
      simp

/-- The first track of the example. -/
theorem exStep (k : Fin 6) (gamma m : ℝ) (hm : |m / 2| ≤ 0.05) (hk : k = 3 ∨ (k = 0 ∧ gamma = 0))
    (hg : gamma ∈ Set.Ioc (-Real.pi) Real.pi) (h0 : gamma = 0 ∨ eps < |gamma|) (cov : Fin 3 → Mat6)
    (hc : cov 1 = diagonal (Pi.single k 1) ∧ cov 0 = 0 ∧ cov 2 = 0) :
    ∃ r s', StepOf (startConfig exConfig (exAl gamma)) (initialDyn cov) (exTrack m) r s' true ∧ r.align = exAl gamma ∧
      s'.state 1 = some (Pi.single k (-m / 2)) ∧ s'.state 0 = some 0 ∧ s'.state 2 = some 0 := by
  have hal : ∀ d, newAlignment ((startConfig exConfig (exAl gamma)).rot0 d) ((startConfig exConfig (exAl gamma)).pos0 d)
      ((initialDyn cov).state d) = .ok (exAl gamma d) := by
    intro d
    have hu := exUsual gamma hg h0 d
    show newAlignment (initialRotation (exAl gamma d)) (initialPosition (exAl gamma d)) (some 0) = _
    unfold newAlignment
    have h1 : rotationMatrix 0 0 0 = 1 := by
      rw [rotationMatrix_eq]
      ext i j
      fin_cases i <;> fin_cases j <;> simp
    have h2 : eulerAngles (initialRotation (exAl gamma d)) = .angles 0 0 gamma := C32_angles _ _ _ hu.1 hu.2.1 hu.2.2.1 hu.2.2.2
    simp only [Pi.zero_apply, h1, Matrix.transpose_one, Matrix.one_mul, h2, initialPosition, zero_add]
    rfl
  have hD : ∀ R : Mat3, k = 3 ∨ (k = 0 ∧ R = 1) → KAlign.jacobian ![0, 1, 1, 0] R 0 k = -1 ∧ KAlign.jacobian ![0, 1, 1, 0] R 1 k = 0 := by
    rintro R (rfl | ⟨rfl, rfl⟩)
    · simp [KAlign.jacobian, extendSix, Matrix.mul_apply, Fin.sum_univ_succ]
    · simp [KAlign.jacobian, extendSix, Matrix.mul_apply, Fin.sum_univ_succ]
  have hR : k = 3 ∨ (k = 0 ∧ (rotationMatrix (exAl gamma 1).alpha (exAl gamma 1).beta (exAl gamma 1).gamma)ᵀ = 1) := by
    rcases hk with hk | ⟨hk, rfl⟩
    · exact Or.inl hk
    · refine Or.inr ⟨hk, ?_⟩
      rw [rotationMatrix_eq]
      ext i j
      fin_cases i <;> fin_cases j <;> simp [exAl]
  obtain ⟨d0, d1⟩ := hD _ hR
  obtain ⟨u1, u2⟩ := exUpdate _ k d0 d1 m
  have hz : ∀ (R : Mat3), innovation !![1, 0, 0, 0; 0, 1, 0, 0] 1 0 (KAlign.jacobian ![0, 1, 1, 0] R) 0 = 1 := by
    intro R
    unfold innovation
    simp
  obtain ⟨s', hs'⟩ := updateLoop_exists (al := exAl gamma) (f := exFit) (t := exTrack m) (List.finRange 3) (List.nodup_finRange 3)
    (initialDyn cov) (fun d _ => by
      apply calculateParameters_exists
      show (innovation !![1, 0, 0, 0; 0, 1, 0, 0] 1 0 (KAlign.jacobian ![0, 1, 1, 0] _) (cov d)).det ≠ 0
      match d with
      | 0 => rw [hc.2.1, hz]; simp
      | 1 => rw [hc.1, u1]; simp [Matrix.det_fin_two]
      | 2 => rw [hc.2.2, hz]; simp)
  refine ⟨record (startConfig exConfig (exAl gamma)) (initialDyn cov) (exAl gamma), s', ⟨⟨hal, rfl⟩, ?_⟩, rfl, ?_⟩
  · have hfit : (startConfig exConfig (exAl gamma)).fit
        (record (startConfig exConfig (exAl gamma)) (initialDyn cov) (exAl gamma)).align
        (record (startConfig exConfig (exAl gamma)) (initialDyn cov) (exAl gamma)).annealing (exTrack m) = some exFit := rfl
    have hb : badChi2 exFit.chi2 (startConfig exConfig (exAl gamma)).chi2Cut = false := by
      show badChi2 (some 0.5) 10 = false
      unfold badChi2
      rw [decide_eq_false_iff_not]
      norm_num
    unfold useTrack
    rw [hfit]
    dsimp only
    rw [hb, if_neg (by simp)]
    have : updateLoop (record (startConfig exConfig (exAl gamma)) (initialDyn cov) (exAl gamma)).align exFit (exTrack m)
        (List.finRange 3) (initialDyn cov) = .ok s' := hs'
    rw [this]
  · have hloop := (updateLoop_ok _ (List.nodup_finRange 3) hs').1
    have hzero : ∀ d : Fin 3, cov d = 0 → s'.state d = some 0 := by
      intro d hd
      obtain ⟨a1, E1, hcp, hh⟩ := hloop d (List.mem_finRange d)
      rcases hh with ⟨-, e, -⟩ | ⟨-, e, -⟩
      · rw [e]; rfl
      · rw [e, (calculateParameters_ok hcp).2.1]
        have : (initialDyn cov).cov d = 0 := hd
        rw [this]
        show newState (some 0) 0 _ _ (some ![m, 1]) _ = some 0
        simp [newState]
    refine ⟨?_, hzero 0 hc.2.1, hzero 2 hc.2.2⟩
    obtain ⟨a1, E1, hcp, hh⟩ := hloop 1 (List.mem_finRange 1)
    have ha : a1 = some (Pi.single k (-m / 2)) := by
      rw [(calculateParameters_ok hcp).2.1]
      have : (initialDyn cov).cov 1 = diagonal (Pi.single k 1) := hc.1
      rw [this, ← u2, ← u1]
      rfl
    rcases hh with ⟨hl, -, -, -⟩ | ⟨-, e, -⟩
    · exfalso
      rw [ha] at hl
      have hs : (initialDyn cov).state 1 = some 0 := rfl
      have hcv : (initialDyn cov).cov 1 = diagonal (Pi.single k 1) := hc.1
      rw [hs, hcv] at hl
      unfold changeTooLarge at hl
      dsimp only at hl
      rw [List.any_eq_true] at hl
      obtain ⟨j, -, hj⟩ := hl
      rw [decide_eq_true_iff, Matrix.diagonal_apply_eq] at hj
      have hj2 := hj.2
      by_cases h : j = k
      · subst h
        simp [deviationCuts] at hj2
        rw [neg_div, abs_neg] at hj2
        norm_num at hm hj2
        linarith
      · rw [Pi.single_eq_of_ne h, Pi.single_eq_of_ne h] at hj2
        simp at hj2
    · rw [e, ha]

/-- The second line of the output file of the example. -/
theorem exRun (k : Fin 6) (gamma m m' : ℝ) (hm : |m / 2| ≤ 0.05) (hk : k = 3 ∨ (k = 0 ∧ gamma = 0))
    (hg : gamma ∈ Set.Ioc (-Real.pi) Real.pi) (h0 : gamma = 0 ∨ eps < |gamma|) (cov : Fin 3 → Mat6)
    (hi : initialAlignment [1] [0, 2] (exParameters (parName k)) (fun _ => 1) = .ok cov)
    (hc : cov 1 = diagonal (Pi.single k 1) ∧ cov 0 = 0 ∧ cov 2 = 0) (a : Dut.Alignment)
    (ha : newAlignment (initialRotation (exAl gamma 1)) (initialPosition (exAl gamma 1)) (some (Pi.single k (-m / 2))) = .ok a) :
    (alignmentLoop exConfig 100 (exAl gamma) cov [exTrack m, exTrack m']).err = none ∧
    (alignmentLoop exConfig 100 (exAl gamma) cov [exTrack m, exTrack m']).table.length = 2 ∧
    (alignmentLoop exConfig 100 (exAl gamma) cov [exTrack m, exTrack m']).saved 1 = a := by
  obtain ⟨r, s', h1, hr, g1, g0, g2⟩ := exStep k gamma m hm hk hg h0 cov hc
  have hd : dataAligned Track.event [exTrack m, exTrack m'] { chunkSize := 100 } = ⟨[([exTrack m, exTrack m'], 2)], none⟩ :=
    BTA.Check.single_chunk Track.event [exTrack m, exTrack m'] 100 (by simp) (by simp)
  have hrun : ∃ c, trackLoop (startConfig exConfig (exAl gamma)) [exTrack m, exTrack m'] (initialDyn cov) (exAl gamma) = .ok c ∧
      c.recs.length = 2 ∧ c.al 1 = a ∧ c.stop = false := by
    have hps : ∀ d, (s'.cov d).PosSemidef := fun d => (psd_step (cfg := startConfig exConfig (exAl gamma)) exSound d _ _ _ _ _
      (initial_psd hi d) h1).1
    have hz : ∀ d, newAlignment ((startConfig exConfig (exAl gamma)).rot0 d) ((startConfig exConfig (exAl gamma)).pos0 d) (some 0) =
        .ok (exAl gamma d) := fun d => by
      have := h1.1.1 d
      rw [hr] at this
      exact this
    obtain ⟨al', hal'⟩ := setAlignments_exists (cfg := startConfig exConfig (exAl gamma)) (s := s') (List.finRange 3) r.align (fun d _ => by
      match d with
      | 0 => rw [g0]; exact ⟨_, hz 0⟩
      | 1 => rw [g1]; exact ⟨_, ha⟩
      | 2 => rw [g2]; exact ⟨_, hz 2⟩)
    have hal1 : al' 1 = a := by
      have := (setAlignments_ok _ (List.nodup_finRange 3) hal').1 1 (List.mem_finRange 1)
      rw [g1] at this
      have ha' : newAlignment ((startConfig exConfig (exAl gamma)).rot0 1) ((startConfig exConfig (exAl gamma)).pos0 1)
        (some (Pi.single k (-m / 2))) = .ok a := ha
      rw [ha'] at this
      injection this with this
      exact this.symm
    obtain ⟨s2, u, hu⟩ := useTrack_exists (cfg := startConfig exConfig (exAl gamma)) exSound (fun _ _ _ f hf d => by
      injection hf with hf
      subst hf
      exact Matrix.PosDef.one) s' hps al' (exTrack m')
      ((startConfig exConfig (exAl gamma)).fit al' (record (startConfig exConfig (exAl gamma)) s' al').annealing (exTrack m'))
      (fun f hf => ⟨_, hf⟩)
    have hst : StepOf (startConfig exConfig (exAl gamma)) s' (exTrack m') (record (startConfig exConfig (exAl gamma)) s' al') s2 u :=
      ⟨⟨fun d => (setAlignments_ok _ (List.nodup_finRange 3) hal').1 d (List.mem_finRange d), rfl⟩, hu⟩
    have htr := Trace.cons h1 (Trace.cons hst (Trace.nil _))
    have := trackLoop_of_trace 1 htr (by
      show 0 + 2 ≤ 10000
      norm_num) (exAl gamma)
    exact ⟨_, this, rfl, hal1, rfl⟩
  obtain ⟨c, h2, h3, h4, h5⟩ := hrun
  have hv : [exTrack m, exTrack m'].filter (valid (startConfig exConfig (exAl gamma)).hitMask) = [exTrack m, exTrack m'] := by
    have h7 : ∀ x : ℝ, valid (startConfig exConfig (exAl gamma)).hitMask (exTrack x) = true := by
      intro x
      show ((7 &&& hitMask [0, 1, 2]) == hitMask [0, 1, 2]) = true
      decide
    simp [h7]
  have hout : alignmentLoop exConfig 100 (exAl gamma) cov [exTrack m, exTrack m'] =
      chunkLoop (startConfig exConfig (exAl gamma)) none [[exTrack m, exTrack m']] (initialDyn cov) (exAl gamma) (exAl gamma) [] := by
    unfold alignmentLoop
    rw [hd]
    rfl
  rw [hout, chunkLoop, hv, h2]
  dsimp only
  rw [h5, if_neg (by simp), chunkLoop]
  exact ⟨rfl, by simp [h3], h4⟩

/-! ### C93 -/

/-- C93: a parameter which is excluded from the alignment has the error zero, and a translation which is excluded is the same as before
the alignment, in every line of the output file and in the new telescope configuration.

What is missing for the full statement: `C93_rotation_changes`, rotations around single axes. -/
theorem C93_excluded_partial (cfg : Config n T) (cs : Nat) (al : Fin n → Dut.Alignment) (cov : Fin n → Mat6) (tracks : List (Track n T))
    (select tel : List Nat) (parameters : List (Option (List String))) (errors : Vec6)
    (h : initialAlignment select tel parameters errors = .ok cov) (d : Fin n) (k : Fin 6) (hk : Excluded select tel parameters d k) :
    (∀ r ∈ (alignmentLoop cfg cs al cov tracks).table, r.err d k = 0 ∧ (k.val < 3 → par (r.align d) k = par (al d) k)) ∧
    (k.val < 3 → par ((alignmentLoop cfg cs al cov tracks).saved d) k = par (al d) k) := by
  obtain ⟨l, sf, htr, htab, -⟩ := alignmentLoop_trace cfg cs al cov tracks
  have hinv := htr.invariant (Fixed d k) (fun _ => True) (fun s t r s' u h1 _ h2 => fixed_step d k s t r s' u h1 h2)
    (initial_fixed h d k hk) (fun _ _ => trivial)
  have hall : ∀ r ∈ (alignmentLoop cfg cs al cov tracks).table, r.err d k = 0 ∧ (k.val < 3 → par (r.align d) k = par (al d) k) := by
    intro r hr
    rw [htab, List.mem_map] at hr
    obtain ⟨p, hp, rfl⟩ := hr
    obtain ⟨s, hs, hrec⟩ := hinv.2 p hp
    refine ⟨?_, fun hk3 => ?_⟩
    · rw [hrec.2]
      show Real.sqrt (s.cov d k k) = 0
      rw [hs.2, Real.sqrt_zero]
    · obtain ⟨v, hv, e0, e1, e2, -⟩ := newAlignment_ok (hrec.1 d)
      have hz := hs.1 v hv
      have hp0 : (startConfig cfg al).pos0 d = ![(al d).x, (al d).y, (al d).z] := rfl
      rw [hp0] at e0 e1 e2
      match k, hk3 with
      | 0, _ => show (p.2.align d).x = (al d).x; rw [e0, hz]; simp
      | 1, _ => show (p.2.align d).y = (al d).y; rw [e1, hz]; simp
      | 2, _ => show (p.2.align d).z = (al d).z; rw [e2, hz]; simp
  refine ⟨hall, fun hk3 => ?_⟩
  rcases saved_mem cfg cs al cov tracks with h1 | ⟨r, hr, h1⟩
  · rw [h1]
  · rw [h1]
    exact (hall r hr).2 hk3

/-- C93: if all rotations of a DUT are excluded, the angles do not change. -/
theorem C93_no_rotation (cfg : Config n T) (cs : Nat) (al : Fin n → Dut.Alignment) (cov : Fin n → Mat6) (tracks : List (Track n T))
    (select tel : List Nat) (parameters : List (Option (List String))) (errors : Vec6)
    (h : initialAlignment select tel parameters errors = .ok cov) (d : Fin n) (hu : UsualAngles (al d))
    (hk : ∀ k : Fin 6, 3 ≤ k.val → Excluded select tel parameters d k) (k : Fin 6) (h3 : 3 ≤ k.val) :
    (∀ r ∈ (alignmentLoop cfg cs al cov tracks).table, par (r.align d) k = par (al d) k) ∧
    par ((alignmentLoop cfg cs al cov tracks).saved d) k = par (al d) k := by
  obtain ⟨l, sf, htr, htab, -⟩ := alignmentLoop_trace cfg cs al cov tracks
  have hinv := htr.invariant (fun s => Fixed d 3 s ∧ Fixed d 4 s ∧ Fixed d 5 s) (fun _ => True)
    (fun s t r s' u h1 _ h2 => ⟨fixed_step d 3 s t r s' u h1.1 h2, fixed_step d 4 s t r s' u h1.2.1 h2,
      fixed_step d 5 s t r s' u h1.2.2 h2⟩)
    ⟨initial_fixed h d 3 (hk 3 (by decide)), initial_fixed h d 4 (hk 4 (by decide)), initial_fixed h d 5 (hk 5 (by decide))⟩
    (fun _ _ => trivial)
  have hall : ∀ r ∈ (alignmentLoop cfg cs al cov tracks).table, par (r.align d) k = par (al d) k := by
    intro r hr
    rw [htab, List.mem_map] at hr
    obtain ⟨p, hp, rfl⟩ := hr
    obtain ⟨s, ⟨s3, s4, s5⟩, hrec⟩ := hinv.2 p hp
    have h1 := hrec.1 d
    obtain ⟨v, hv, -⟩ := newAlignment_ok h1
    rw [hv] at h1
    obtain ⟨e1, e2, e3⟩ := newAlignment_same hu (s3.1 v hv) (s4.1 v hv) (s5.1 v hv) h1
    match k, h3 with
    | 3, _ => exact e1
    | 4, _ => exact e2
    | 5, _ => exact e3
  refine ⟨hall, ?_⟩
  rcases saved_mem cfg cs al cov tracks with h1 | ⟨r, hr, h1⟩
  · rw [h1]
  · rw [h1]
    exact hall r hr

/-- C93: if the rotations around x and y are excluded, these angles do not change. So the first and the last telescope plane can be turned
around z only. -/
theorem C93_only_around_z (cfg : Config n T) (cs : Nat) (al : Fin n → Dut.Alignment) (cov : Fin n → Mat6) (tracks : List (Track n T))
    (select tel : List Nat) (parameters : List (Option (List String))) (errors : Vec6)
    (h : initialAlignment select tel parameters errors = .ok cov) (d : Fin n) (hu : UsualAngles (al d))
    (h3 : Excluded select tel parameters d 3) (h4 : Excluded select tel parameters d 4) :
    (∀ r ∈ (alignmentLoop cfg cs al cov tracks).table, (r.align d).alpha = (al d).alpha ∧ (r.align d).beta = (al d).beta) ∧
    ((alignmentLoop cfg cs al cov tracks).saved d).alpha = (al d).alpha ∧
    ((alignmentLoop cfg cs al cov tracks).saved d).beta = (al d).beta := by
  obtain ⟨l, sf, htr, htab, -⟩ := alignmentLoop_trace cfg cs al cov tracks
  have hinv := htr.invariant (fun s => Fixed d 3 s ∧ Fixed d 4 s) (fun _ => True)
    (fun s t r s' u h1 _ h2 => ⟨fixed_step d 3 s t r s' u h1.1 h2, fixed_step d 4 s t r s' u h1.2 h2⟩)
    ⟨initial_fixed h d 3 h3, initial_fixed h d 4 h4⟩ (fun _ _ => trivial)
  have hall : ∀ r ∈ (alignmentLoop cfg cs al cov tracks).table, (r.align d).alpha = (al d).alpha ∧ (r.align d).beta = (al d).beta := by
    intro r hr
    rw [htab, List.mem_map] at hr
    obtain ⟨p, hp, rfl⟩ := hr
    obtain ⟨s, ⟨s3, s4⟩, hrec⟩ := hinv.2 p hp
    have h1 := hrec.1 d
    obtain ⟨v, hv, -⟩ := newAlignment_ok h1
    rw [hv] at h1
    exact newAlignment_gamma hu (s3.1 v hv) (s4.1 v hv) h1
  refine ⟨hall, ?_⟩
  rcases saved_mem cfg cs al cov tracks with h1 | ⟨r, hr, h1⟩
  · rw [h1]
    exact ⟨rfl, rfl⟩
  · rw [h1]
    exact hall r hr

/-- C93: excluding the rotation around a single axis does not keep the angle. In the example, the plane in the middle is turned by 90 degrees
around z, and only the rotation around x is aligned; the telescope configuration afterwards has another rotation around y. -/
theorem C93_rotation_changes : ∃ (al : Fin 3 → Dut.Alignment) (cov : Fin 3 → Mat6) (cfg : Config 3 Unit) (tracks : List (Track 3 Unit)),
    SoundFit cfg ∧ UsualAngles (al 1) ∧
    initialAlignment [1] [0, 2] [some [], some ["rotation_alpha"], some []] (fun _ => 1) = .ok cov ∧
    Excluded [1] [0, 2] [some [], some ["rotation_alpha"], some []] 1 4 ∧
    (alignmentLoop cfg 100 al cov tracks).err = none ∧
    ((alignmentLoop cfg 100 al cov tracks).saved 1).alpha = (al 1).alpha ∧
    ((alignmentLoop cfg 100 al cov tracks).saved 1).beta ≠ (al 1).beta := by
  obtain ⟨cov, hi, hc1, hc0, hc2⟩ := exInitial (parName 3)
  rw [exVariances] at hc1
  have heps : eps < 1 / 100 := by
    unfold eps
    norm_num
  have hpi := Real.two_le_pi
  have hg : Real.pi / 2 ∈ Set.Ioc (-Real.pi) Real.pi := ⟨by linarith, by linarith⟩
  have hg0 : Real.pi / 2 = 0 ∨ eps < |Real.pi / 2| := Or.inr (by
    rw [abs_of_pos (by linarith)]
    linarith)
  have ha : newAlignment (initialRotation (exAl (Real.pi / 2) 1)) (initialPosition (exAl (Real.pi / 2) 1))
      (some (Pi.single 3 (-(-(1 / 50)) / 2))) = .ok { x := 0, y := 0, z := 1000, alpha := 0, beta := 1 / 100, gamma := Real.pi / 2 } := by
    unfold newAlignment
    have hm : (rotationMatrix (1 / 100) 0 0)ᵀ * initialRotation (exAl (Real.pi / 2) 1) =
        !![0, -1, 0; Real.cos (1 / 100), 0, Real.sin (1 / 100); -Real.sin (1 / 100), 0, Real.cos (1 / 100)] := by
      unfold initialRotation
      rw [rotationMatrix_eq, rotationMatrix_eq]
      ext i j
      fin_cases i <;> fin_cases j <;> simp [exAl, Matrix.mul_apply, Fin.sum_univ_succ]
    have hcos : 0 < Real.cos (1 / 100) := Real.cos_pos_of_mem_Ioo ⟨by linarith, by linarith⟩
    have ho : (!![0, -1, 0; Real.cos (1 / 100), 0, Real.sin (1 / 100); -Real.sin (1 / 100), 0, Real.cos (1 / 100)] : Mat3)ᵀ *
        !![0, -1, 0; Real.cos (1 / 100), 0, Real.sin (1 / 100); -Real.sin (1 / 100), 0, Real.cos (1 / 100)] = 1 := by
      rw [← hm]
      exact delta_orth _ _ _ _ (rotationMatrix_orth _ _ _)
    have he : eulerAngles !![0, -1, 0; Real.cos (1 / 100), 0, Real.sin (1 / 100); -Real.sin (1 / 100), 0, Real.cos (1 / 100)] =
        .angles 0 (1 / 100) (Real.pi / 2) := by
      rw [eulerAngles_eq _ ho (by
        show (-Real.sin (1 / 100)) ^ 2 < 1
        have := cs (1 / 100)
        nlinarith [pow_pos hcos 2])]
      have e1 : arctan2 0 (Real.cos (1 / 100)) = 0 := by
        unfold arctan2
        have : (⟨Real.cos (1 / 100), 0⟩ : ℂ) = ((Real.cos (1 / 100) : ℝ) : ℂ) := rfl
        rw [this, Complex.arg_ofReal_of_nonneg hcos.le]
      have e2 : -Real.arcsin (-Real.sin (1 / 100)) = 1 / 100 := by
        rw [Real.arcsin_neg, neg_neg, Real.arcsin_sin (by linarith) (by linarith)]
      have e3 : arctan2 (Real.cos (1 / 100)) 0 = Real.pi / 2 := by
        unfold arctan2
        have : (⟨0, Real.cos (1 / 100)⟩ : ℂ) = ((Real.cos (1 / 100) : ℝ) : ℂ) * Complex.I := by
          generalize Real.cos (1 / 100) = c
          apply Complex.ext <;> simp
        rw [this, Complex.arg_real_mul _ hcos, Complex.arg_I]
      show Euler.angles (snap (arctan2 0 (Real.cos (1 / 100)))) (snap (-Real.arcsin (-Real.sin (1 / 100))))
        (snap (arctan2 (Real.cos (1 / 100)) 0)) = _
      rw [e1, e2, e3, snap_eq 0 (Or.inl rfl), snap_eq (1 / 100) (Or.inr (by rw [abs_of_pos (by norm_num)]; exact heps)),
        snap_eq (Real.pi / 2) hg0]
    have hs : (-(-(1 / 50)) / 2 : ℝ) = 1 / 100 := by norm_num
    rw [hs]
    have p0 : (Pi.single 3 (1 / 100) : Vec6) 0 = 0 := Pi.single_eq_of_ne (by decide) _
    have p1 : (Pi.single 3 (1 / 100) : Vec6) 1 = 0 := Pi.single_eq_of_ne (by decide) _
    have p2 : (Pi.single 3 (1 / 100) : Vec6) 2 = 0 := Pi.single_eq_of_ne (by decide) _
    have p3 : (Pi.single 3 (1 / 100) : Vec6) 3 = 1 / 100 := Pi.single_eq_same _ _
    have p4 : (Pi.single 3 (1 / 100) : Vec6) 4 = 0 := Pi.single_eq_of_ne (by decide) _
    have p5 : (Pi.single 3 (1 / 100) : Vec6) 5 = 0 := Pi.single_eq_of_ne (by decide) _
    simp only [p0, p1, p2, p3, p4, p5, hm, he, zero_add]
    simp [initialPosition, exAl]
  obtain ⟨h1, -, h2⟩ := exRun 3 (Real.pi / 2) (-(1 / 50)) 0 (by rw [abs_le]; norm_num) (Or.inl rfl) hg hg0 cov hi ⟨hc1, hc0, hc2⟩ _ ha
  refine ⟨exAl (Real.pi / 2), cov, exConfig, [exTrack (-(1 / 50)), exTrack 0], exSound, exUsual _ hg hg0 1, hi,
    Or.inr (Or.inl ⟨["rotation_alpha"], rfl, by decide⟩), h1, ?_, ?_⟩
  · rw [h2]
    rfl
  · rw [h2]
    show (1 / 100 : ℝ) ≠ 0
    norm_num

/-- A plane of which only the translation in x is aligned: all hypotheses are met, and the translation does change. -/
theorem exShift : ∃ cov : Fin 3 → Mat6,
    initialAlignment [1] [0, 2] [some [], some ["translation_x"], some []] (fun _ => 1) = .ok cov ∧
    (∀ k : Fin 6, k ≠ 0 → Excluded [1] [0, 2] [some [], some ["translation_x"], some []] 1 k) ∧
    ∀ m', (alignmentLoop exConfig 100 (exAl 0) cov [exTrack (-(1 / 50)), exTrack m']).err = none ∧
      (alignmentLoop exConfig 100 (exAl 0) cov [exTrack (-(1 / 50)), exTrack m']).table.length = 2 ∧
      ((alignmentLoop exConfig 100 (exAl 0) cov [exTrack (-(1 / 50)), exTrack m']).saved 1).x = 1 / 100 := by
  obtain ⟨cov, hi, hc1, hc0, hc2⟩ := exInitial (parName 0)
  rw [exVariances] at hc1
  have hg : (0 : ℝ) ∈ Set.Ioc (-Real.pi) Real.pi := ⟨by linarith [Real.pi_pos], Real.pi_pos.le⟩
  have ha : newAlignment (initialRotation (exAl 0 1)) (initialPosition (exAl 0 1))
      (some (Pi.single 0 (-(-(1 / 50)) / 2))) = .ok { x := 1 / 100, y := 0, z := 1000, alpha := 0, beta := 0, gamma := 0 } := by
    unfold newAlignment
    have h1 : rotationMatrix 0 0 0 = 1 := by
      rw [rotationMatrix_eq]
      ext i j
      fin_cases i <;> fin_cases j <;> simp
    have hu := exUsual 0 hg (Or.inl rfl) 1
    have h2 : eulerAngles (initialRotation (exAl 0 1)) = .angles 0 0 0 := C32_angles _ _ _ hu.1 hu.2.1 hu.2.2.1 hu.2.2.2
    have hs : (-(-(1 / 50)) / 2 : ℝ) = 1 / 100 := by norm_num
    rw [hs]
    have p0 : (Pi.single 0 (1 / 100) : Vec6) 0 = 1 / 100 := Pi.single_eq_same _ _
    have p1 : (Pi.single 0 (1 / 100) : Vec6) 1 = 0 := Pi.single_eq_of_ne (by decide) _
    have p2 : (Pi.single 0 (1 / 100) : Vec6) 2 = 0 := Pi.single_eq_of_ne (by decide) _
    have p3 : (Pi.single 0 (1 / 100) : Vec6) 3 = 0 := Pi.single_eq_of_ne (by decide) _
    have p4 : (Pi.single 0 (1 / 100) : Vec6) 4 = 0 := Pi.single_eq_of_ne (by decide) _
    have p5 : (Pi.single 0 (1 / 100) : Vec6) 5 = 0 := Pi.single_eq_of_ne (by decide) _
    simp only [p0, p1, p2, p3, p4, p5, h1, Matrix.transpose_one, Matrix.one_mul, h2, zero_add]
    simp [initialPosition, exAl]
  refine ⟨cov, hi, ?_, fun m' => ?_⟩
  · intro k hk
    refine Or.inr (Or.inl ⟨["translation_x"], rfl, ?_⟩)
    revert k
    decide
  · obtain ⟨h1, h3, h2⟩ := exRun 0 0 (-(1 / 50)) m' (by rw [abs_le]; norm_num) (Or.inr ⟨rfl, rfl⟩) hg (Or.inl rfl) cov hi ⟨hc1, hc0, hc2⟩ _ ha
    exact ⟨h1, h3, by rw [h2]⟩

example : ∃ cov : Fin 3 → Mat6, initialAlignment [1] [0, 2] [some [], some ["translation_x"], some []] (fun _ => 1) = .ok cov ∧
    Excluded [1] [0, 2] [some [], some ["translation_x"], some []] (1 : Fin 3) 1 ∧
    (∀ k : Fin 6, 3 ≤ k.val → Excluded [1] [0, 2] [some [], some ["translation_x"], some []] (1 : Fin 3) k) ∧ UsualAngles (exAl 0 1) ∧
    (alignmentLoop exConfig 100 (exAl 0) cov [exTrack (-(1 / 50)), exTrack 3]).table.length = 2 ∧
    (alignmentLoop exConfig 100 (exAl 0) cov [exTrack (-(1 / 50)), exTrack 3]).saved ≠ exAl 0 := by
  obtain ⟨cov, h1, h2, h3⟩ := exShift
  refine ⟨cov, h1, h2 1 (by decide), fun k hk => h2 k (by rintro rfl; simp at hk),
    exUsual 0 ⟨by linarith [Real.pi_pos], Real.pi_pos.le⟩ (Or.inl rfl) 1, (h3 3).2.1, fun h => ?_⟩
  have := (h3 3).2.2
  rw [h] at this
  simp [exAl] at this

/-! ### C94 -/

/-- C94: the errors of the alignment parameters never increase from track to track, they are never larger than the given initial errors. -/
theorem C94_errors (cfg : Config n T) (hS : SoundFit cfg) (cs : Nat) (al : Fin n → Dut.Alignment) (cov : Fin n → Mat6)
    (tracks : List (Track n T)) (select tel : List Nat) (parameters : List (Option (List String))) (errors : Vec6)
    (h : initialAlignment select tel parameters errors = .ok cov) (d : Fin n) (k : Fin 6) (i j : Nat) (hij : i ≤ j) (r r' : Record n)
    (hr : (alignmentLoop cfg cs al cov tracks).table[i]? = some r) (hr' : (alignmentLoop cfg cs al cov tracks).table[j]? = some r') :
    0 ≤ r'.err d k ∧ r'.err d k ≤ r.err d k ∧ r.err d k ≤ |errors k| := by
  obtain ⟨l, sf, htr, htab, -⟩ := alignmentLoop_trace cfg cs al cov tracks
  rw [htab, List.getElem?_map, Option.map_eq_some_iff] at hr hr'
  obtain ⟨p, hp, rfl⟩ := hr
  obtain ⟨q, hq, rfl⟩ := hr'
  have hS' : SoundFit (startConfig cfg al) := hS
  obtain ⟨si, sj, -, -, r1, r2, k1, k2⟩ := htr.pairs (fun s => (s.cov d).PosSemidef) (fun s s' => ∀ k, s'.cov d k k ≤ s.cov d k k)
    (fun _ _ => le_refl _) (fun _ _ _ h1 h2 k => (h2 k).trans (h1 k)) (fun s t r s' u h1 h2 => psd_step hS' d s t r s' u h1 h2)
    (initial_psd h d) i j hij p q hp hq
  have e1 : p.2.err d k = Real.sqrt (si.cov d k k) := by rw [k1.2]; rfl
  have e2 : q.2.err d k = Real.sqrt (sj.cov d k k) := by rw [k2.2]; rfl
  rw [e1, e2]
  refine ⟨Real.sqrt_nonneg _, Real.sqrt_le_sqrt (r2 k), ?_⟩
  obtain ⟨v, hv, hv2, -⟩ := initial_diagonal h d
  have : si.cov d k k ≤ errors k ^ 2 := by
    refine (r1 k).trans ?_
    show cov d k k ≤ _
    rw [hv, Matrix.diagonal_apply_eq]
    exact (hv2 k).2
  rw [← Real.sqrt_sq_eq_abs]
  exact Real.sqrt_le_sqrt this

/-! ### C95 -/

theorem annealing_bounds (factor : ℝ) (hf : 1 ≤ factor) (k tracks : Nat) :
    1 ≤ annealing k factor tracks ∧ annealing k factor tracks ≤ factor := by
  unfold annealing
  split
  · rename_i h
    have h0 : (0 : ℝ) < tracks := by exact_mod_cast Nat.lt_of_le_of_lt (Nat.zero_le k) h
    have hk : (k : ℝ) < tracks := by exact_mod_cast h
    have h1 : 0 ≤ ((tracks : ℝ) - k) / tracks := div_nonneg (by linarith) h0.le
    have h2 : ((tracks : ℝ) - k) / tracks ≤ 1 := by
      rw [div_le_one h0]
      have : (0 : ℝ) ≤ k := Nat.cast_nonneg k
      linarith
    refine ⟨Real.one_le_rpow hf h1, ?_⟩
    calc factor ^ (((tracks : ℝ) - k) / tracks) ≤ factor ^ (1 : ℝ) := Real.rpow_le_rpow_of_exponent_le hf h2
      _ = factor := Real.rpow_one _
  · exact ⟨le_refl _, hf⟩

theorem annealing_anti (factor : ℝ) (hf : 1 ≤ factor) (k k' tracks : Nat) (hk : k ≤ k') :
    annealing k' factor tracks ≤ annealing k factor tracks := by
  by_cases h' : k' < tracks
  · have h : k < tracks := Nat.lt_of_le_of_lt hk h'
    unfold annealing
    rw [if_pos h', if_pos h]
    refine Real.rpow_le_rpow_of_exponent_le hf ?_
    have : (k : ℝ) ≤ k' := by exact_mod_cast hk
    exact div_le_div_of_nonneg_right (by linarith) (Nat.cast_nonneg _)
  · have e : annealing k' factor tracks = 1 := by unfold annealing; rw [if_neg h']
    rw [e]
    exact (annealing_bounds factor hf k tracks).1

/-- C95: the annealing factor is the given one for the first track, it never increases and stays between one and the given factor. It is the
geometric sequence which reaches one after `annealing_tracks` tracks, taken at the number of tracks that changed the alignment of the DUT,
which is at most the number of the track. -/
theorem C95_annealing (cfg : Config n T) (hf : 1 ≤ cfg.annealingFactor) (cs : Nat) (al : Fin n → Dut.Alignment) (cov : Fin n → Mat6)
    (tracks : List (Track n T)) (d : Fin n) (i j : Nat) (hij : i ≤ j) (r r' : Record n)
    (hr : (alignmentLoop cfg cs al cov tracks).table[i]? = some r) (hr' : (alignmentLoop cfg cs al cov tracks).table[j]? = some r') :
    r'.annealing d ≤ r.annealing d ∧ 1 ≤ r'.annealing d ∧ r.annealing d ≤ cfg.annealingFactor ∧
    (i = 0 → 0 < cfg.annealingTracks → r.annealing d = cfg.annealingFactor) ∧
    ∃ k ≤ i, r.annealing d =
      if k < cfg.annealingTracks then cfg.annealingFactor ^ (1 - (k : ℝ) / cfg.annealingTracks) else 1 := by
  obtain ⟨l, sf, htr, htab, -⟩ := alignmentLoop_trace cfg cs al cov tracks
  rw [htab, List.getElem?_map, Option.map_eq_some_iff] at hr hr'
  obtain ⟨p, hp, rfl⟩ := hr
  obtain ⟨q, hq, rfl⟩ := hr'
  obtain ⟨si, sj, -, -, -, r2, k1, k2⟩ := htr.pairs (fun s => True) (fun s s' => s.count d ≤ s'.count d)
    (fun _ => le_refl _) (fun _ _ _ h1 h2 => h1.trans h2) (fun s t r s' u _ h2 => ⟨trivial, (count_step d s t r s' u h2).1⟩)
    trivial i j hij p q hp hq
  have e1 : p.2.annealing d = annealing (si.count d) cfg.annealingFactor cfg.annealingTracks := by rw [k1.2]; rfl
  have e2 : q.2.annealing d = annealing (sj.count d) cfg.annealingFactor cfg.annealingTracks := by rw [k2.2]; rfl
  obtain ⟨si', s', used, m1, m2, -⟩ := htr.get i p hp
  have e3 : p.2.annealing d = annealing (si'.count d) cfg.annealingFactor cfg.annealingTracks := by rw [m2.1.2]; rfl
  have hcount : si'.count d ≤ i := by
    have := count_trace d m1
    have h0 : (initialDyn cov).count d = 0 := rfl
    have h1 : (l.take i).length ≤ i := by rw [List.length_take]; omega
    omega
  refine ⟨?_, ?_, ?_, ?_, si'.count d, hcount, ?_⟩
  · rw [e1, e2]
    exact annealing_anti _ hf _ _ _ r2
  · rw [e2]
    exact (annealing_bounds _ hf _ _).1
  · rw [e1]
    exact (annealing_bounds _ hf _ _).2
  · intro hi ht
    have hz : si'.count d = 0 := by omega
    rw [e3, hz]
    unfold annealing
    rw [if_pos ht, Nat.cast_zero, sub_zero, div_self (by exact_mod_cast ht.ne'), Real.rpow_one]
  · rw [e3]
    unfold annealing
    by_cases hlt : si'.count d < cfg.annealingTracks
    · rw [if_pos hlt, if_pos hlt]
      have h0 : (cfg.annealingTracks : ℝ) ≠ 0 := by
        have : 0 < cfg.annealingTracks := by omega
        exact_mod_cast this.ne'
      rw [sub_div, div_self h0]
    · rw [if_neg hlt, if_neg hlt]

example : SoundFit exConfig ∧ 1 ≤ exConfig.annealingFactor ∧ 0 < exConfig.annealingTracks := ⟨exSound, by norm_num [exConfig], by decide⟩

/-! ### C96 -/

theorem prefix_getElem {α : Type} {a b : List α} (h : a <+: b) (i : Nat) (hi : i < a.length) : a[i]? = b[i]? := by
  obtain ⟨c, rfl⟩ := h
  rw [List.getElem?_append_left hi]

/-- C96: as long as all tracks that are used have hits in all DUTs, the alignment runs through the whole file, except that it stops if a DUT
is turned by exactly 90 degrees around y.

What is missing for the full statement: `C96_missing_hit`. -/
theorem C96_complete_partial (cfg : Config n T) (hS : SoundFit cfg)
    (hV : ∀ al ann t f, cfg.fit al ann t = some f → ∀ d, (f.V d).PosDef) (cs : Nat) (al : Fin n → Dut.Alignment) (cov : Fin n → Mat6)
    (tracks : List (Track n T)) (hread : ReadableTracks cs tracks) (hitDuts : List Nat) (hm : cfg.hitMask = hitMask hitDuts)
    (hh : ∀ t ∈ usable hitDuts tracks, ∀ d, ∃ m, t.hit d = some m)
    (select tel : List Nat) (parameters : List (Option (List String))) (errors : Vec6)
    (h : initialAlignment select tel parameters errors = .ok cov) :
    (alignmentLoop cfg cs al cov tracks).err = none ∨ (alignmentLoop cfg cs al cov tracks).err = some .unbound := by
  obtain ⟨he, hv⟩ := tracks_read hread hitDuts
  have key := chunkLoop_error (cfg := startConfig cfg al) (fun d => rotationMatrix_orth _ _ _) hS hV
    ((dataAligned Track.event tracks { chunkSize := cs }).items.map Prod.fst)
    (by
      show ∀ t ∈ List.filter (valid cfg.hitMask) _, _
      rw [hm, hv]
      exact hh) (initialDyn cov) (fun d => ⟨0, rfl⟩) (initial_psd h) al al []
  unfold alignmentLoop
  dsimp only
  rw [he]
  exact key

/-- C96: the statement is false for tracks without a hit in one of the DUTs, which are used if the DUT is not among the DUTs required to have
hits: after such a track, there are no further lines, and if it is not the last track, the alignment ends with an exception. -/
theorem C96_missing_hit (cfg : Config n T) (cs : Nat) (al : Fin n → Dut.Alignment) (cov : Fin n → Mat6) (tracks : List (Track n T))
    (hread : ReadableTracks cs tracks) (hitDuts : List Nat) (hm : cfg.hitMask = hitMask hitDuts) (i : Nat) (t : Track n T)
    (ht : (usable hitDuts tracks)[i]? = some t) (d : Fin n) (hd : t.hit d = none)
    (hf : ∀ al ann, ∃ f c, cfg.fit al ann t = some f ∧ f.chi2 = some c ∧ c ≤ cfg.chi2Cut) :
    (alignmentLoop cfg cs al cov tracks).table.length ≤ i + 1 ∧
    (i + 1 < (usable hitDuts tracks).length → (usable hitDuts tracks).length ≤ cfg.maxTracks →
      (alignmentLoop cfg cs al cov tracks).err ≠ none) := by
  obtain ⟨l, sf, htr, htab, -, hpre, hcomp⟩ := alignmentLoop_trace cfg cs al cov tracks
  rw [hm, (tracks_read hread hitDuts).2] at hpre hcomp
  have hlen : l.length ≤ i + 1 := by
    by_contra hlt
    obtain ⟨p, hp⟩ : ∃ p, l[i]? = some p := ⟨_, List.getElem?_eq_getElem (by omega)⟩
    have hpt : p.1 = t := by
      have h1 : (l.map Prod.fst)[i]? = some p.1 := by rw [List.getElem?_map, hp]; rfl
      have h2 := prefix_getElem hpre i (by rw [List.length_map]; omega)
      rw [h1, ht] at h2
      injection h2
    have := htr.missing i p hp d (by rw [hpt]; exact hd) (fun al' ann => by
      obtain ⟨f, c, h1, h2, h3⟩ := hf al' ann
      rw [hpt]
      refine ⟨f, h1, ?_⟩
      show badChi2 f.chi2 cfg.chi2Cut = false
      unfold badChi2
      rw [h2]
      dsimp only
      rw [decide_eq_false_iff_not]
      exact not_lt.mpr h3)
    omega
  refine ⟨by rw [htab, List.length_map]; exact hlen, fun h1 h2 he => ?_⟩
  rcases hcomp he with h3 | h3
  · have := congrArg List.length h3
    rw [List.length_map] at this
    omega
  · unfold reached at h3
    rw [decide_eq_true_iff] at h3
    have h4 := h3 d
    have h5 := count_trace d htr
    have h6 : (initialDyn cov).count d = 0 := rfl
    omega

/-- Two tracks, the first one without hit in the second plane, which is not required. -/
example : ∃ (cfg : Config 3 Unit) (tracks : List (Track 3 Unit)) (t : Track 3 Unit), ReadableTracks 100 tracks ∧
    cfg.hitMask = hitMask [0, 2] ∧ (usable [0, 2] tracks)[0]? = some t ∧ t.hit 1 = none ∧
    (∀ al ann, ∃ f c, cfg.fit al ann t = some f ∧ f.chi2 = some c ∧ c ≤ cfg.chi2Cut) ∧ 0 + 1 < (usable [0, 2] tracks).length ∧
    (usable [0, 2] tracks).length ≤ cfg.maxTracks := by
  let t : Track 3 Unit := { event := 0, flag := 5, hit := fun d => if d = 1 then none else some ![0, 1], data := () }
  have h1 : HasHits [0, 2] t := by
    intro d hd
    rcases List.mem_cons.mp hd with rfl | hd
    · show Nat.testBit 5 0 = true
      decide
    · rw [List.mem_singleton.mp hd]
      show Nat.testBit 5 2 = true
      decide
  have hu : usable [0, 2] [t, t] = [t, t] := by
    unfold usable
    rw [List.filter_cons_of_pos (by rw [decide_eq_true_iff]; exact h1), List.filter_cons_of_pos (by rw [decide_eq_true_iff]; exact h1)]
    rfl
  refine ⟨{ exConfig with hitMask := hitMask [0, 2] }, [t, t], t, ⟨?_, ?_⟩, rfl, by rw [hu]; rfl, rfl, ?_, by rw [hu]; simp, by rw [hu]; show 2 ≤ 10000; norm_num⟩
  · simp [SortedBy]
  · intro e
    unfold BTA.Spec.multiplicity
    refine Nat.lt_of_le_of_lt (List.length_filter_le _ _) ?_
    simp
  · intro al ann
    refine ⟨exFit, 0.5, rfl, rfl, ?_⟩
    show (0.5 : ℝ) ≤ 10
    norm_num

/-! ### C97 -/

/-- C97: the output file has one line for every track that is used, and the new telescope configuration is the alignment of the last line.

What is missing for the full statement: `C97_last_track`. -/
theorem C97_saved_partial (cfg : Config n T) (d0 : Fin n) (cs : Nat) (al : Fin n → Dut.Alignment) (cov : Fin n → Mat6)
    (tracks : List (Track n T)) (hread : ReadableTracks cs tracks) (hitDuts : List Nat) (hm : cfg.hitMask = hitMask hitDuts)
    (hmax : (usable hitDuts tracks).length ≤ cfg.maxTracks) (he : (alignmentLoop cfg cs al cov tracks).err = none) :
    (alignmentLoop cfg cs al cov tracks).table.length = (usable hitDuts tracks).length ∧
    (alignmentLoop cfg cs al cov tracks).saved =
      (((alignmentLoop cfg cs al cov tracks).table.getLast?.map Record.align).getD al) := by
  obtain ⟨l, sf, htr, htab, hsaved, hpre, hcomp⟩ := alignmentLoop_trace cfg cs al cov tracks
  rw [hm, (tracks_read hread hitDuts).2] at hpre hcomp
  refine ⟨?_, hsaved⟩
  rw [htab, List.length_map]
  rcases hcomp he with h3 | h3
  · have := congrArg List.length h3
    rw [List.length_map] at this
    exact this
  · exfalso
    unfold reached at h3
    rw [decide_eq_true_iff] at h3
    have h4 := h3 d0
    have h5 := count_trace d0 htr
    have h6 : (initialDyn cov).count d0 = 0 := rfl
    have h7 := hpre.length_le
    rw [List.length_map] at h7
    omega

/-- The trace of a complete run. -/
theorem complete_trace (cfg : Config n T) (d0 : Fin n) (cs : Nat) (al : Fin n → Dut.Alignment) (cov : Fin n → Mat6)
    (tracks : List (Track n T)) (hread : ReadableTracks cs tracks) (hitDuts : List Nat) (hm : cfg.hitMask = hitMask hitDuts)
    (hmax : (usable hitDuts tracks).length ≤ cfg.maxTracks) (he : (alignmentLoop cfg cs al cov tracks).err = none) :
    ∃ l sf, Trace (startConfig cfg al) (initialDyn cov) l sf ∧ (alignmentLoop cfg cs al cov tracks).table = l.map Prod.snd ∧
      (alignmentLoop cfg cs al cov tracks).saved = lastAl al (l.map Prod.snd) ∧ l.map Prod.fst = usable hitDuts tracks := by
  have hlen := (C97_saved_partial cfg d0 cs al cov tracks hread hitDuts hm hmax he).1
  obtain ⟨l, sf, htr, htab, hsaved, hpre, -⟩ := alignmentLoop_trace cfg cs al cov tracks
  rw [hm, (tracks_read hread hitDuts).2] at hpre
  refine ⟨l, sf, htr, htab, by rw [hsaved, htab], ?_⟩
  apply hpre.eq_of_length
  rw [List.length_map, ← hlen, htab, List.length_map]

/-- C97: the last track has no influence: if two files differ in the last track only, the new telescope configurations and the output files
are the same. -/
theorem C97_last_track (cfg : Config n T) (d0 : Fin n) (cs : Nat) (al : Fin n → Dut.Alignment) (cov : Fin n → Mat6)
    (tracks tracks' : List (Track n T)) (hread : ReadableTracks cs tracks) (hread' : ReadableTracks cs tracks') (hitDuts : List Nat)
    (hm : cfg.hitMask = hitMask hitDuts) (vs : List (Track n T)) (t t' : Track n T) (ht : usable hitDuts tracks = vs ++ [t])
    (ht' : usable hitDuts tracks' = vs ++ [t']) (hmax : vs.length + 1 ≤ cfg.maxTracks)
    (he : (alignmentLoop cfg cs al cov tracks).err = none) (he' : (alignmentLoop cfg cs al cov tracks').err = none) :
    (alignmentLoop cfg cs al cov tracks).saved = (alignmentLoop cfg cs al cov tracks').saved ∧
    (alignmentLoop cfg cs al cov tracks).table = (alignmentLoop cfg cs al cov tracks').table := by
  obtain ⟨l, sf, h1, h2, h3, h4⟩ := complete_trace cfg d0 cs al cov tracks hread hitDuts hm (by rw [ht]; simpa using hmax) he
  obtain ⟨l', sf', h1', h2', h3', h4'⟩ := complete_trace cfg d0 cs al cov tracks' hread' hitDuts hm (by rw [ht']; simpa using hmax) he'
  have := h1.records_eq h1' vs t t' (by rw [h4, ht]) (by rw [h4', ht'])
  exact ⟨by rw [h3, h3', this], by rw [h2, h2', this]⟩

/-- C97: a single track does not change the alignment at all. -/
theorem C97_single_track (cfg : Config n T) (d0 : Fin n) (cs : Nat) (al : Fin n → Dut.Alignment) (cov : Fin n → Mat6)
    (tracks : List (Track n T)) (hread : ReadableTracks cs tracks) (hitDuts : List Nat) (hm : cfg.hitMask = hitMask hitDuts)
    (t : Track n T) (ht : usable hitDuts tracks = [t]) (hmax : 1 ≤ cfg.maxTracks) (hu : ∀ d, UsualAngles (al d))
    (he : (alignmentLoop cfg cs al cov tracks).err = none) : (alignmentLoop cfg cs al cov tracks).saved = al := by
  obtain ⟨l, sf, h1, h2, h3, h4⟩ := complete_trace cfg d0 cs al cov tracks hread hitDuts hm (by rw [ht]; simpa using hmax) he
  rw [ht] at h4
  cases h1 with
  | nil => simp at h4
  | cons g1 g2 =>
    rename_i r used l
    rw [List.map_cons, List.cons.injEq, List.map_eq_nil_iff] at h4
    rw [h3, List.map_cons, lastAl_cons, h4.2]
    show r.align = al
    funext d
    have k := g1.1.1 d
    obtain ⟨v, hv, e0, e1, e2, -⟩ := newAlignment_ok k
    have hv0 : v = 0 := by
      have : (initialDyn cov).state d = some 0 := rfl
      rw [this] at hv
      injection hv with hv
      exact hv.symm
    subst hv0
    rw [hv] at k
    obtain ⟨e3, e4, e5⟩ := newAlignment_same (hu d) (v := 0) rfl rfl rfl k
    have hp0 : (startConfig cfg al).pos0 d = ![(al d).x, (al d).y, (al d).z] := rfl
    rw [hp0] at e0 e1 e2
    simp only [Pi.zero_apply, zero_add] at e0 e1 e2
    change (r.align d).x = (al d).x at e0
    change (r.align d).y = (al d).y at e1
    change (r.align d).z = (al d).z at e2
    generalize r.align d = A at e0 e1 e2 e3 e4 e5
    generalize al d = B at e0 e1 e2 e3 e4 e5
    cases A
    cases B
    simp_all

/-- C97: the result does not depend on how the file is read. -/
theorem C97_chunk_size (cfg : Config n T) (d0 : Fin n) (cs cs' : Nat) (al : Fin n → Dut.Alignment) (cov : Fin n → Mat6)
    (tracks : List (Track n T)) (hread : ReadableTracks cs tracks) (hread' : ReadableTracks cs' tracks) (hitDuts : List Nat)
    (hm : cfg.hitMask = hitMask hitDuts) (hmax : (usable hitDuts tracks).length ≤ cfg.maxTracks)
    (he : (alignmentLoop cfg cs al cov tracks).err = none) (he' : (alignmentLoop cfg cs' al cov tracks).err = none) :
    (alignmentLoop cfg cs al cov tracks).saved = (alignmentLoop cfg cs' al cov tracks).saved ∧
    (alignmentLoop cfg cs al cov tracks).table = (alignmentLoop cfg cs' al cov tracks).table := by
  obtain ⟨l, sf, h1, h2, h3, h4⟩ := complete_trace cfg d0 cs al cov tracks hread hitDuts hm hmax he
  obtain ⟨l', sf', h1', h2', h3', h4'⟩ := complete_trace cfg d0 cs' al cov tracks hread' hitDuts hm hmax he'
  have := (h1.deterministic h1' (by rw [h4, h4'])).1
  subst this
  exact ⟨by rw [h3, h3'], by rw [h2, h2']⟩

/-- Two files which differ in the last track; the alignment runs through and does change the telescope. -/
example (m m' : ℝ) : ∃ cov, let ts := fun m => [exTrack (-(1 / 50)), exTrack m]
    ReadableTracks 100 (ts m) ∧ ReadableTracks 100 (ts m') ∧ usable [0, 1, 2] (ts m) = [exTrack (-(1 / 50))] ++ [exTrack m] ∧
    usable [0, 1, 2] (ts m') = [exTrack (-(1 / 50))] ++ [exTrack m'] ∧ (alignmentLoop exConfig 100 (exAl 0) cov (ts m)).err = none ∧
    (alignmentLoop exConfig 100 (exAl 0) cov (ts m')).err = none ∧
    (alignmentLoop exConfig 100 (exAl 0) cov (ts m)).saved ≠ exAl 0 := by
  obtain ⟨cov, -, -, h3⟩ := exShift
  have hu : ∀ x, HasHits [0, 1, 2] (exTrack x) := by
    intro x d hd
    simp at hd
    show Nat.testBit 7 d = true
    rcases hd with rfl | rfl | rfl <;> decide
  have hr : ∀ x, ReadableTracks 100 [exTrack (-(1 / 50)), exTrack x] := fun x =>
    ⟨by simp [SortedBy, exTrack], fun e => by
      unfold BTA.Spec.multiplicity
      refine Nat.lt_of_le_of_lt (List.length_filter_le _ _) ?_
      simp⟩
  have hus : ∀ x, usable [0, 1, 2] [exTrack (-(1 / 50)), exTrack x] = [exTrack (-(1 / 50))] ++ [exTrack x] := by
    intro x
    unfold usable
    rw [List.filter_cons_of_pos (by rw [decide_eq_true_iff]; exact hu _), List.filter_cons_of_pos (by rw [decide_eq_true_iff]; exact hu _)]
    rfl
  refine ⟨cov, hr m, hr m', hus m, hus m', (h3 m).1, (h3 m').1, fun h => ?_⟩
  have := (h3 m).2.2
  rw [h] at this
  simp [exAl] at this

/-! ### C98 -/

/-- C98: from one track to the next, a translation changes by at most 5 % of its current error. -/
theorem C98_step (cfg : Config n T) (cs : Nat) (al : Fin n → Dut.Alignment) (cov : Fin n → Mat6) (tracks : List (Track n T)) (d : Fin n)
    (k : Fin 6) (hk : k.val < 3) (i : Nat) (r r' : Record n) (hr : (alignmentLoop cfg cs al cov tracks).table[i]? = some r)
    (hr' : (alignmentLoop cfg cs al cov tracks).table[i + 1]? = some r') :
    |par (r'.align d) k - par (r.align d) k| ≤ 0.05 * r.err d k := by
  obtain ⟨l, sf, htr, htab, -⟩ := alignmentLoop_trace cfg cs al cov tracks
  rw [htab, List.getElem?_map, Option.map_eq_some_iff] at hr hr'
  obtain ⟨p, hp, rfl⟩ := hr
  obtain ⟨q, hq, rfl⟩ := hr'
  obtain ⟨s, s', used, -, hst, hrec⟩ := htr.next (fun _ => True) (fun _ _ _ _ _ _ _ => trivial) trivial i p q hp hq
  obtain ⟨v, hv, e0, e1, e2, -⟩ := newAlignment_ok (hst.1.1 d)
  obtain ⟨w, hw, f0, f1, f2, -⟩ := newAlignment_ok (hrec.1 d)
  have he : p.2.err d k = Real.sqrt (s.cov d k k) := by rw [hst.1.2]; rfl
  have key := state_step d s p.1 p.2 s' used hst v w hv hw k
  rw [he]
  match k, hk with
  | 0, _ =>
    show |(q.2.align d).x - (p.2.align d).x| ≤ _
    rw [e0, f0, add_sub_add_right_eq_sub]
    exact key
  | 1, _ =>
    show |(q.2.align d).y - (p.2.align d).y| ≤ _
    rw [e1, f1, add_sub_add_right_eq_sub]
    exact key
  | 2, _ =>
    show |(q.2.align d).z - (p.2.align d).z| ≤ _
    rw [e2, f2, add_sub_add_right_eq_sub]
    exact key

theorem table_first (cfg : Config n T) (cs : Nat) (al : Fin n → Dut.Alignment) (cov : Fin n → Mat6) (tracks : List (Track n T)) (d : Fin n)
    (k : Fin 6) (hk : k.val < 3) (r : Record n) (hr : (alignmentLoop cfg cs al cov tracks).table[0]? = some r) :
    par (r.align d) k = par (al d) k := by
  obtain ⟨l, sf, htr, htab, -⟩ := alignmentLoop_trace cfg cs al cov tracks
  rw [htab, List.getElem?_map, Option.map_eq_some_iff] at hr
  obtain ⟨p, hp, rfl⟩ := hr
  obtain ⟨s, s', used, h1, hst, -⟩ := htr.get 0 p hp
  rw [List.take_zero] at h1
  cases h1
  obtain ⟨v, hv, e0, e1, e2, -⟩ := newAlignment_ok (hst.1.1 d)
  have hv0 : v = 0 := by
    have : (initialDyn cov).state d = some 0 := rfl
    rw [this] at hv
    injection hv with hv
    exact hv.symm
  subst hv0
  have hp0 : (startConfig cfg al).pos0 d = ![(al d).x, (al d).y, (al d).z] := rfl
  rw [hp0] at e0 e1 e2
  match k, hk with
  | 0, _ => show (p.2.align d).x = (al d).x; rw [e0]; simp
  | 1, _ => show (p.2.align d).y = (al d).y; rw [e1]; simp
  | 2, _ => show (p.2.align d).z = (al d).z; rw [e2]; simp

/-- C98: so after `i` tracks, a translation differs from the initial one by at most 5 % of its initial error for every track. -/
theorem C98_total (cfg : Config n T) (hS : SoundFit cfg) (cs : Nat) (al : Fin n → Dut.Alignment) (cov : Fin n → Mat6)
    (tracks : List (Track n T)) (select tel : List Nat) (parameters : List (Option (List String))) (errors : Vec6)
    (h : initialAlignment select tel parameters errors = .ok cov) (d : Fin n) (k : Fin 6) (hk : k.val < 3) (i : Nat) (r : Record n)
    (hr : (alignmentLoop cfg cs al cov tracks).table[i]? = some r) :
    |par (r.align d) k - par (al d) k| ≤ 0.05 * i * |errors k| := by
  induction i generalizing r with
  | zero =>
    rw [table_first cfg cs al cov tracks d k hk r hr]
    simp
  | succ i ih =>
    have hlt := (List.getElem?_eq_some_iff.mp hr).1
    obtain ⟨r0, hr0⟩ : ∃ r0, (alignmentLoop cfg cs al cov tracks).table[i]? = some r0 := ⟨_, List.getElem?_eq_getElem (by omega)⟩
    have h1 := ih r0 hr0
    have h2 := C98_step cfg cs al cov tracks d k hk i r0 r hr0 hr
    have h3 := (C94_errors cfg hS cs al cov tracks select tel parameters errors h d k i i (le_refl _) r0 r0 hr0 hr0).2.2
    have h4 : |par (r.align d) k - par (al d) k| ≤ |par (r.align d) k - par (r0.align d) k| + |par (r0.align d) k - par (al d) k| :=
      abs_sub_le _ _ _
    push_cast
    nlinarith

/-! ### C99 -/

/-- C99: if all DUTs are selected in order, each DUT has the parameters of its entry in the list.

What is missing for the full statement: `C99_subset`. -/
theorem C99_all_partial (parameters : List (List String)) (tel : List Nat) (errors : Vec6) (cov : Fin n → Mat6)
    (hlen : parameters.length = n)
    (h : initialAlignment (List.range n) tel (parameters.map some) errors = .ok cov) (d : Fin n)
    (hd : tel.head? ≠ some d.val ∧ tel.getLast? ≠ some d.val) (k : Fin 6) :
    cov d k k = if parName k ∈ parameters[d.val]'(by rw [hlen]; exact d.isLt) then errors k ^ 2 else 0 := by
  obtain ⟨C, hC, hc⟩ := initialAlignment_ok h d
  rw [if_neg (not_or.mpr hd)] at hc
  rcases initialCov_cases hC with ⟨hn, -⟩ | ⟨names, -, hn, rfl⟩
  · exact absurd (List.mem_range.mpr d.isLt) hn
  · rw [hc, Matrix.diagonal_apply_eq]
    rw [List.getElem?_map, List.getElem?_eq_getElem (by rw [hlen]; exact d.isLt)] at hn
    injection hn with hn
    injection hn with hn
    rw [hn]
    rfl

/-- C99: but the entry is taken by the number of the DUT and not by its place in `select_duts`: if a selected DUT has a number which is not
smaller than the number of selected DUTs, there is an exception. -/
theorem C99_subset (select tel : List Nat) (parameters : List (Option (List String))) (errors : Vec6)
    (hlen : parameters.length = select.length) (d : Fin n) (hd : d.val ∈ select) (hlt : select.length ≤ d.val) (cov : Fin n → Mat6) :
    initialAlignment select tel parameters errors ≠ .ok cov := by
  intro h
  unfold initialAlignment at h
  split at h
  · simp at h
  · rename_i c hc
    exact initialCovs_error (List.finRange n) d (List.mem_finRange d) (fun C hC => by
      rcases initialCov_cases hC with ⟨hn, -⟩ | ⟨names, -, hn, -⟩
      · exact hn hd
      · rw [List.getElem?_eq_none (by omega)] at hn
        simp at hn) _ c hc

/-- C99: and for DUTs in another order, the parameters of the other DUT are used. -/
theorem C99_order : ∃ cov : Fin 3 → Mat6,
    initialAlignment [1, 0] [2] [some ["translation_x"], some ["translation_y"]] (fun _ => 1) = .ok cov ∧
    cov 1 0 0 = 0 ∧ cov 1 1 1 = 1 ∧ cov 0 0 0 = 1 ∧ cov 0 1 1 = 0 := by
  have h0 : fixFive 0 = 0 := by
    funext i j
    unfold fixFive
    simp
  have hx : ∀ k : Fin 6, parName k ∈ ["translation_x"] ↔ k = 0 := by decide
  have hy : ∀ k : Fin 6, parName k ∈ ["translation_y"] ↔ k = 1 := by decide
  refine ⟨fun d => if d = 0 then diagonal (variances ["translation_x"] fun _ => 1) else
    if d = 1 then diagonal (variances ["translation_y"] fun _ => 1) else 0, ?_, ?_, ?_, ?_, ?_⟩
  · unfold initialAlignment
    have : List.finRange 3 = [0, 1, 2] := by decide
    rw [this]
    simp only [initialCovs, KAlign.initialCov]
    simp only [fixPlane]
    simp
    funext d
    fin_cases d <;> simp [h0, Function.update]
  · simp [variances, hx, hy]
  · simp [variances, hx, hy]
  · simp [variances, hx, hy]
  · simp [variances, hx, hy]

/-! ### C100 -/

/-- C100: the alignment does not end before `max_tracks` tracks were used.

The full statement is that it then ends. This is false, and shown here as well: if the alignment ends before the end of the file, there is at
least one track more than `max_tracks`. -/
theorem C100_max_tracks_partial (cfg : Config n T) (d0 : Fin n) (cs : Nat) (al : Fin n → Dut.Alignment) (cov : Fin n → Mat6)
    (tracks : List (Track n T)) (hread : ReadableTracks cs tracks) (hitDuts : List Nat) (hm : cfg.hitMask = hitMask hitDuts)
    (he : (alignmentLoop cfg cs al cov tracks).err = none)
    (hstop : (alignmentLoop cfg cs al cov tracks).table.length < (usable hitDuts tracks).length) :
    cfg.maxTracks < (alignmentLoop cfg cs al cov tracks).table.length := by
  obtain ⟨l, sf, htr, htab, hsaved, hpre, hcomp⟩ := alignmentLoop_trace cfg cs al cov tracks
  rw [hm, (tracks_read hread hitDuts).2] at hpre hcomp
  rw [htab, List.length_map] at hstop ⊢
  rcases hcomp he with h3 | h3
  · have := congrArg List.length h3
    rw [List.length_map] at this
    omega
  · unfold reached at h3
    rw [decide_eq_true_iff] at h3
    have h4 := h3 d0
    have h5 := count_trace d0 htr
    have h6 : (initialDyn cov).count d0 = 0 := rfl
    have h7 : (startConfig cfg al).maxTracks = cfg.maxTracks := rfl
    omega

/-! ### C101 -/

/-- C101: a track whose chi2 is above the limit changes nothing: the next line of the output file is the same.

What is missing for the full statement: `C101_zero`. -/
theorem C101_cut_partial (cfg : Config n T) (d0 : Fin n) (cs : Nat) (al : Fin n → Dut.Alignment) (cov : Fin n → Mat6)
    (tracks : List (Track n T)) (hread : ReadableTracks cs tracks) (hitDuts : List Nat) (hm : cfg.hitMask = hitMask hitDuts)
    (i : Nat) (t : Track n T) (ht : (usable hitDuts tracks)[i]? = some t) (r r' : Record n)
    (hr : (alignmentLoop cfg cs al cov tracks).table[i]? = some r) (hr' : (alignmentLoop cfg cs al cov tracks).table[i + 1]? = some r')
    (f : Fit n) (c : ℝ) (hf : cfg.fit r.align r.annealing t = some f) (hc : f.chi2 = some c) (hcut : cfg.chi2Cut < c) : r' = r := by
  obtain ⟨l, sf, htr, htab, -, hpre, -⟩ := alignmentLoop_trace cfg cs al cov tracks
  rw [hm, (tracks_read hread hitDuts).2] at hpre
  rw [htab, List.getElem?_map, Option.map_eq_some_iff] at hr hr'
  obtain ⟨p, hp, rfl⟩ := hr
  obtain ⟨q, hq, rfl⟩ := hr'
  obtain ⟨s, s', used, -, hst, hrec⟩ := htr.next (fun _ => True) (fun _ _ _ _ _ _ _ => trivial) trivial i p q hp hq
  have hpt : p.1 = t := by
    have hlt := (List.getElem?_eq_some_iff.mp hp).1
    have h1 : (l.map Prod.fst)[i]? = some p.1 := by rw [List.getElem?_map, hp]; rfl
    have h2 := prefix_getElem hpre i (by rw [List.length_map]; omega)
    rw [h1, ht] at h2
    injection h2
  have h2 := hst.2
  have hf' : (startConfig cfg al).fit p.2.align p.2.annealing p.1 = some f := by rw [hpt]; exact hf
  have hb : badChi2 f.chi2 (startConfig cfg al).chi2Cut = true := by
    rw [hc]
    unfold badChi2
    rw [decide_eq_true_iff]
    exact hcut
  unfold useTrack at h2
  rw [hf'] at h2
  dsimp only at h2
  rw [hb, if_pos rfl] at h2
  injection h2 with h2
  injection h2 with h2 _
  subst h2
  exact hrec.unique hst.1

/-- C101: according to the documentation, there is no cut if the limit is zero. In fact no track is used then: the alignment stays as it is,
whatever the tracks are. -/
theorem C101_zero (cfg : Config n T) (hcut : cfg.chi2Cut = 0) (hpos : ∀ al ann t f, cfg.fit al ann t = some f → ∃ c, f.chi2 = some c ∧ 0 < c)
    (cs : Nat) (al : Fin n → Dut.Alignment) (hu : ∀ d, UsualAngles (al d)) (cov : Fin n → Mat6) (tracks : List (Track n T)) :
    (alignmentLoop cfg cs al cov tracks).saved = al := by
  obtain ⟨l, sf, htr, htab, hsaved, -, -⟩ := alignmentLoop_trace cfg cs al cov tracks
  have hinv := htr.invariant (fun s => ∀ d, s.state d = some 0) (fun _ => True) (fun s t r s' u h1 _ h2 d => by
    rcases h2.dut d with ⟨e, -, -⟩ | ⟨f, hf, hb, -⟩
    · rw [e]; exact h1 d
    · exfalso
      obtain ⟨c, hc, hp⟩ := hpos _ _ _ _ hf
      rw [hc] at hb
      unfold badChi2 at hb
      rw [decide_eq_false_iff_not] at hb
      apply hb
      show cfg.chi2Cut < c
      rw [hcut]
      exact hp) (fun d => rfl) (fun _ _ => trivial)
  rcases saved_mem cfg cs al cov tracks with h1 | ⟨r, hr, h1⟩
  · exact h1
  · rw [h1]
    rw [htab, List.mem_map] at hr
    obtain ⟨p, hp, rfl⟩ := hr
    obtain ⟨s, hs, hrec⟩ := hinv.2 p hp
    funext d
    have k := hrec.1 d
    rw [hs d] at k
    obtain ⟨v, hv, e0, e1, e2, -⟩ := newAlignment_ok k
    injection hv with hv
    subst hv
    obtain ⟨e3, e4, e5⟩ := newAlignment_same (hu d) (v := 0) rfl rfl rfl k
    have hp0 : (startConfig cfg al).pos0 d = ![(al d).x, (al d).y, (al d).z] := rfl
    rw [hp0] at e0 e1 e2
    simp only [Pi.zero_apply, zero_add] at e0 e1 e2
    change (p.2.align d).x = (al d).x at e0
    change (p.2.align d).y = (al d).y at e1
    change (p.2.align d).z = (al d).z at e2
    generalize p.2.align d = A at e0 e1 e2 e3 e4 e5
    generalize al d = B at e0 e1 e2 e3 e4 e5
    cases A
    cases B
    simp_all

example : ∀ al ann t f, ({ exConfig with chi2Cut := 0 } : Config 3 Unit).fit al ann t = some f → ∃ c, f.chi2 = some c ∧ 0 < c := by
  intro al ann t f hf
  injection hf with hf
  subst hf
  exact ⟨0.5, rfl, by norm_num⟩

end BTA.Props
