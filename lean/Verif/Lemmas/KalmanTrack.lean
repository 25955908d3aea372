import Verif.Spec.Kalman
import Verif.Lemmas.Geometry
import Mathlib.Analysis.Calculus.FDeriv.Mul
import Mathlib.Analysis.Calculus.FDeriv.Add
import Mathlib.Analysis.Calculus.FDeriv.Pi
import Mathlib.Analysis.Calculus.FDeriv.Comp
import Mathlib.Analysis.Calculus.Deriv.Inv
import Mathlib.Analysis.Normed.Module.FiniteDimension
/-
Track extrapolation and its derivative.
-/
namespace BTA.Kalman
open BTA.Geo BTA.Spec Matrix

theorem vec3_eta (v : Vec3) : ![v 0, v 1, v 2] = v := by
  ext i; fin_cases i <;> rfl

theorem state_eta (v : State) : ![v 0, v 1, v 2, v 3] = v := by
  ext i; fin_cases i <;> rfl

theorem crosses_iff (A B : Plane) (p : State) :
    Crosses B (trackDir A p) ↔ ((B.rot.transpose * A.rot).mulVec ![p 2, p 3, 1]) 2 ≠ 0 := by
  unfold Crosses planeNormalOf trackDir
  rw [← Matrix.mulVec_mulVec]
  generalize A.rot.mulVec ![p 2, p 3, 1] = d
  have : dot (B.rot.mulVec ![0, 0, 1]) d = (B.rot.transpose.mulVec d) 2 := by
    simp [dot, Matrix.mulVec, dotProduct, Fin.sum_univ_succ, Matrix.transpose_apply]; ring
  rw [this]

theorem rot_orth (P : Plane) : P.rot.transpose * P.rot = 1 := rotationMatrix_orth _ _ _
theorem rot_orth' (P : Plane) : P.rot * P.rot.transpose = 1 := rotationMatrix_orth' _ _ _

/-- The extrapolated state has the global position and direction of the track. -/
theorem extrapolate_spec (A B : Plane) (p : State) (h : Crosses B (trackDir A p)) :
    ∃ s c : ℝ, c ≠ 0 ∧ trackPoint B (extrapolate A B p) = trackPoint A p + s • trackDir A p ∧
      trackDir B (extrapolate A B p) = c • trackDir A p := by
  rw [crosses_iff] at h
  set M := B.rot.transpose * A.rot with hM
  set d : Vec3 := ![p 2, p 3, 1] with hd
  set x : Vec3 := ![p 0, p 1, 0] with hx
  set x0 := A.rot.transpose.mulVec (B.pos - A.pos) with hx0
  set s := (M.mulVec (x0 - x) ⬝ᵥ (![0, 0, 1] : Vec3)) / (M.mulVec d) 2 with hs
  have hBM : B.rot * M = A.rot := by rw [hM, ← Matrix.mul_assoc, rot_orth', Matrix.one_mul]
  have hz : (M.mulVec (x + s • d - x0)) 2 = 0 := by
    have e : (M.mulVec (x + s • d - x0)) 2 = s * (M.mulVec d) 2 - (M.mulVec (x0 - x)) 2 := by
      rw [show x + s • d - x0 = s • d - (x0 - x) by abel, Matrix.mulVec_sub, Matrix.mulVec_smul]; simp
    have e2 : s * (M.mulVec d) 2 = (M.mulVec (x0 - x)) 2 := by
      rw [hs, div_mul_cancel₀ _ h]; simp [dotProduct, Fin.sum_univ_succ]
    rw [e, e2, sub_self]
  refine ⟨s, ((M.mulVec d) 2)⁻¹, inv_ne_zero h, ?_, ?_⟩
  · have e : (![(extrapolate A B p) 0, (extrapolate A B p) 1, 0] : Vec3) = M.mulVec (x + s • d - x0) := by
      rw [← vec3_eta (M.mulVec (x + s • d - x0)), hz]; rfl
    unfold trackPoint globalPoint
    rw [e, Matrix.mulVec_mulVec, hBM, Matrix.mulVec_sub, Matrix.mulVec_add, Matrix.mulVec_smul, hx0, Matrix.mulVec_mulVec, rot_orth',
      Matrix.one_mulVec]
    unfold trackDir
    abel
  · have e : (![(extrapolate A B p) 2, (extrapolate A B p) 3, 1] : Vec3) = ((M.mulVec d) 2)⁻¹ • M.mulVec d := by
      rw [← vec3_eta (M.mulVec d)]
      ext i
      fin_cases i
      · show _ / _ = _; simp; rw [div_eq_inv_mul]
      · show _ / _ = _; simp; rw [div_eq_inv_mul]
      · simp [h]
    unfold trackDir
    rw [e, Matrix.mulVec_smul, Matrix.mulVec_mulVec, hBM]

/-- A state is given by the position and the direction up to a factor. -/
theorem state_unique (P : Plane) (p q : State) (c : ℝ) (h1 : trackPoint P p = trackPoint P q) (h2 : trackDir P p = c • trackDir P q) :
    p = q := by
  have i1 : (![p 0, p 1, 0] : Vec3) = ![q 0, q 1, 0] := by
    have := congrArg (fun v => P.rot.transpose.mulVec (v - P.pos)) h1
    simpa only [trackPoint, globalPoint, add_sub_cancel_right, Matrix.mulVec_mulVec, rot_orth, Matrix.one_mulVec] using this
  have i2 : (![p 2, p 3, 1] : Vec3) = c • ![q 2, q 3, 1] := by
    have := congrArg (fun v => P.rot.transpose.mulVec v) h2
    simpa only [trackDir, Matrix.mulVec_smul, Matrix.mulVec_mulVec, rot_orth, Matrix.one_mulVec] using this
  have hc : c = 1 := by have := congrFun i2 2; simpa using this.symm
  subst hc
  rw [one_smul] at i2
  ext i
  fin_cases i
  · exact congrFun i1 0
  · exact congrFun i1 1
  · exact congrFun i2 0
  · exact congrFun i2 1

/-- The point of a track on the plane is the only one. -/
theorem point_unique (P : Plane) (u : Vec3) (d : Vec3) (hd : Crosses P d) (p q : State) (s t : ℝ)
    (h1 : trackPoint P p = u + s • d) (h2 : trackPoint P q = u + t • d) : s = t := by
  have key : ∀ r : State, dot (planeNormalOf P) (trackPoint P r - P.pos) = 0 := by
    intro r
    have e : ∀ v w : Vec3, dot (P.rot.mulVec v) (P.rot.mulVec w) = dot v w := by
      intro v w
      have e1 : dot (P.rot.mulVec v) (P.rot.mulVec w) = dot v (P.rot.transpose.mulVec (P.rot.mulVec w)) := by
        simp [dot, Matrix.mulVec, dotProduct, Fin.sum_univ_succ, Matrix.transpose_apply]; ring
      rw [e1, Matrix.mulVec_mulVec, rot_orth, Matrix.one_mulVec]
    unfold planeNormalOf trackPoint globalPoint
    rw [add_sub_cancel_right, e]; simp [dot]
  have k1 := key p
  have k2 := key q
  rw [h1] at k1; rw [h2] at k2
  have : (s - t) * dot (planeNormalOf P) d = 0 := by
    simp only [dot, Pi.sub_apply, Pi.add_apply, Pi.smul_apply, smul_eq_mul] at k1 k2 ⊢
    linear_combination k1 - k2
  rcases mul_eq_zero.mp this with h | h
  · linarith
  · exact absurd h hd

/-- The direction of a state crosses its own plane. -/
theorem crosses_self (P : Plane) (p : State) : Crosses P (trackDir P p) := by
  rw [crosses_iff, rot_orth, Matrix.one_mulVec]; simp

theorem crosses_smul (P : Plane) (d : Vec3) (c : ℝ) (hc : c ≠ 0) : Crosses P (c • d) ↔ Crosses P d := by
  unfold Crosses
  have : dot (planeNormalOf P) (c • d) = c * dot (planeNormalOf P) d := by simp [dot]; ring
  rw [this]; simp [hc]

/-- Two states with the same line are the same. -/
theorem same_line_unique (A P : Plane) (a p q : State) (c e s t : ℝ) (hc : c ≠ 0) (he : e ≠ 0)
    (h1 : trackPoint P p = trackPoint A a + s • trackDir A a) (h2 : trackDir P p = c • trackDir A a)
    (h3 : trackPoint P q = trackPoint A a + t • trackDir A a) (h4 : trackDir P q = e • trackDir A a) : p = q := by
  have hx : Crosses P (trackDir A a) := by
    have := crosses_self P p; rw [h2, crosses_smul P _ c hc] at this; exact this
  have hst := point_unique P _ _ hx p q s t h1 h3
  subst hst
  refine state_unique P p q (c * e⁻¹) (by rw [h1, h3]) ?_
  rw [h2, h4, smul_smul]
  congr 1
  field_simp

/-! ### Derivative -/

/-- The extrapolation in terms of the relative rotation and shift. -/
noncomputable def extra (M : Mat3) (x0 : Vec3) (p : State) : State :=
  let D := M 2 0 * p 2 + M 2 1 * p 3 + M 2 2
  let s := (M 2 0 * (x0 0 - p 0) + M 2 1 * (x0 1 - p 1) + M 2 2 * x0 2) * D⁻¹
  ![M 0 0 * (p 0 - x0 0) + M 0 1 * (p 1 - x0 1) - M 0 2 * x0 2 + s * (M 0 0 * p 2 + M 0 1 * p 3 + M 0 2),
    M 1 0 * (p 0 - x0 0) + M 1 1 * (p 1 - x0 1) - M 1 2 * x0 2 + s * (M 1 0 * p 2 + M 1 1 * p 3 + M 1 2),
    (M 0 0 * p 2 + M 0 1 * p 3 + M 0 2) * D⁻¹,
    (M 1 0 * p 2 + M 1 1 * p 3 + M 1 2) * D⁻¹]

theorem extrapolateState_eq (p : State) (pos tpos : Vec3) (R Rt : Mat3) :
    extrapolateState p pos tpos R Rt = extra (Rt.transpose * R) (R.transpose.mulVec (tpos - pos)) p := by
  unfold extrapolateState extra
  generalize Rt.transpose * R = M
  generalize R.transpose.mulVec (tpos - pos) = x0
  ext i
  fin_cases i <;>
    simp [Matrix.mulVec, dotProduct, Fin.sum_univ_succ, div_eq_mul_inv] <;> ring

/-- Derivative of a linear function of the state. -/
theorem hasFDerivAt_lin (a b c d e : ℝ) (p : State) :
    HasFDerivAt (fun q : State => a * q 0 + b * q 1 + c * q 2 + d * q 3 + e)
      (a • ContinuousLinearMap.proj (R := ℝ) (φ := fun _ : Fin 4 => ℝ) 0 + b • ContinuousLinearMap.proj (R := ℝ) (φ := fun _ : Fin 4 => ℝ) 1 +
        c • ContinuousLinearMap.proj (R := ℝ) (φ := fun _ : Fin 4 => ℝ) 2 + d • ContinuousLinearMap.proj (R := ℝ) (φ := fun _ : Fin 4 => ℝ) 3) p := by
  have h := fun i : Fin 4 => (ContinuousLinearMap.proj (R := ℝ) (φ := fun _ : Fin 4 => ℝ) i).hasFDerivAt (x := p)
  exact (((((h 0).const_mul a).add ((h 1).const_mul b)).add ((h 2).const_mul c)).add ((h 3).const_mul d)).add_const e

theorem hasFDerivAt_inv' (f : State → ℝ) (f' : State →L[ℝ] ℝ) (p : State) (h : HasFDerivAt f f' p) (h0 : f p ≠ 0) :
    HasFDerivAt (fun q => (f q)⁻¹) (-((f p) ^ 2)⁻¹ • f') p := by
  have := (hasDerivAt_inv h0).comp_hasFDerivAt p h
  exact this

/-- The Jacobian in terms of the relative rotation and shift. -/
noncomputable def jac (M : Mat3) (x0 : Vec3) (p : State) : Cov :=
  let D := M 2 0 * p 2 + M 2 1 * p 3 + M 2 2
  let s := (M 2 0 * (x0 0 - p 0) + M 2 1 * (x0 1 - p 1) + M 2 2 * x0 2) / D
  let up := (M 0 0 * p 2 + M 0 1 * p 3 + M 0 2) / D
  let vp := (M 1 0 * p 2 + M 1 1 * p 3 + M 1 2) / D
  !![M 0 0 - M 2 0 * up, M 0 1 - M 2 1 * up, s * (M 0 0 - M 2 0 * up), s * (M 0 1 - M 2 1 * up);
     M 1 0 - M 2 0 * vp, M 1 1 - M 2 1 * vp, s * (M 1 0 - M 2 0 * vp), s * (M 1 1 - M 2 1 * vp);
     0, 0, (M 0 0 - M 2 0 * up) / D, (M 0 1 - M 2 1 * up) / D;
     0, 0, (M 1 0 - M 2 0 * vp) / D, (M 1 1 - M 2 1 * vp) / D]

theorem trackJacobian_eq (p : State) (pos tpos : Vec3) (R Rt : Mat3)
    (h : ((Rt * R.transpose).mulVec ![p 2, p 3, 1]) 2 ≠ 0) :
    trackJacobian p pos tpos R Rt = jac (Rt * R.transpose) (R.mulVec (tpos - pos)) p := by
  unfold trackJacobian jac
  revert h
  generalize Rt * R.transpose = M
  generalize R.mulVec (tpos - pos) = x0
  intro h
  have hD : (M.mulVec ![p 2, p 3, 1]) 2 = M 2 0 * p 2 + M 2 1 * p 3 + M 2 2 := by
    simp [Matrix.mulVec, dotProduct, Fin.sum_univ_succ]; ring
  have h0 : (M.mulVec ![p 2, p 3, 1]) 0 = M 0 0 * p 2 + M 0 1 * p 3 + M 0 2 := by
    simp [Matrix.mulVec, dotProduct, Fin.sum_univ_succ]; ring
  have h1 : (M.mulVec ![p 2, p 3, 1]) 1 = M 1 0 * p 2 + M 1 1 * p 3 + M 1 2 := by
    simp [Matrix.mulVec, dotProduct, Fin.sum_univ_succ]; ring
  have hN : M.mulVec (x0 - ![p 0, p 1, 0]) ⬝ᵥ ![0, 0, 1] = M 2 0 * (x0 0 - p 0) + M 2 1 * (x0 1 - p 1) + M 2 2 * x0 2 := by
    simp [Matrix.mulVec, dotProduct, Fin.sum_univ_succ]; ring
  rw [hD] at h
  simp only [hD, h0, h1, hN]
  congr! 1
  ext i j
  fin_cases i <;> fin_cases j <;> simp <;> field_simp

theorem extra_jacobian (M : Mat3) (x0 : Vec3) (p : State) (h : (M.mulVec ![p 2, p 3, 1]) 2 ≠ 0) :
    IsJacobian (extra M x0) (jac M x0 p) p := by
  have hD : M 2 0 * p 2 + M 2 1 * p 3 + M 2 2 ≠ 0 := by
    intro h0; apply h; simp [Matrix.mulVec, dotProduct, Fin.sum_univ_succ]; linarith
  have dD : HasFDerivAt (fun q : State => M 2 0 * q 2 + M 2 1 * q 3 + M 2 2) _ p :=
    (hasFDerivAt_lin 0 0 (M 2 0) (M 2 1) (M 2 2) p).congr_of_eventuallyEq (Filter.Eventually.of_forall fun q => by ring)
  have dI := hasFDerivAt_inv' _ _ p dD hD
  have dN : HasFDerivAt (fun q : State => M 2 0 * (x0 0 - q 0) + M 2 1 * (x0 1 - q 1) + M 2 2 * x0 2) _ p :=
    (hasFDerivAt_lin (-M 2 0) (-M 2 1) 0 0 (M 2 0 * x0 0 + M 2 1 * x0 1 + M 2 2 * x0 2) p).congr_of_eventuallyEq
      (Filter.Eventually.of_forall fun q => by ring)
  have dS := dN.mul dI
  have dA : ∀ i : Fin 3, HasFDerivAt (fun q : State => M i 0 * q 2 + M i 1 * q 3 + M i 2) _ p := fun i =>
    (hasFDerivAt_lin 0 0 (M i 0) (M i 1) (M i 2) p).congr_of_eventuallyEq (Filter.Eventually.of_forall fun q => by ring)
  have dB : ∀ i : Fin 3, HasFDerivAt (fun q : State => M i 0 * (q 0 - x0 0) + M i 1 * (q 1 - x0 1) - M i 2 * x0 2) _ p := fun i =>
    (hasFDerivAt_lin (M i 0) (M i 1) 0 0 (-(M i 0 * x0 0 + M i 1 * x0 1 + M i 2 * x0 2)) p).congr_of_eventuallyEq
      (Filter.Eventually.of_forall fun q => by ring)
  unfold IsJacobian
  rw [hasFDerivAt_pi']
  intro i
  fin_cases i
  · refine ((dB 0).add (dS.mul (dA 0))).congr_fderiv (ContinuousLinearMap.ext fun v => ?_)
    simp [jac, Matrix.mulVec, dotProduct, Fin.sum_univ_succ]
    field_simp
    ring
  · refine ((dB 1).add (dS.mul (dA 1))).congr_fderiv (ContinuousLinearMap.ext fun v => ?_)
    simp [jac, Matrix.mulVec, dotProduct, Fin.sum_univ_succ]
    field_simp
    ring
  · refine ((dA 0).mul dI).congr_fderiv (ContinuousLinearMap.ext fun v => ?_)
    simp [jac, Matrix.mulVec, dotProduct, Fin.sum_univ_succ]
    generalize hE : M 2 0 * p 2 + M 2 1 * p 3 + M 2 2 = E at hD ⊢
    field_simp
    rw [← hE]
    ring
  · refine ((dA 1).mul dI).congr_fderiv (ContinuousLinearMap.ext fun v => ?_)
    simp [jac, Matrix.mulVec, dotProduct, Fin.sum_univ_succ]
    generalize hE : M 2 0 * p 2 + M 2 1 * p 3 + M 2 2 = E at hD ⊢
    field_simp
    rw [← hE]
    ring

/-- The Jacobian is the derivative of the extrapolation. -/
theorem jacobianOf_spec (A B : Plane) (p : State) (h : Crosses B (trackDir A p)) :
    IsJacobian (extrapolate A B) (jacobianOf A B p) p := by
  rw [crosses_iff] at h
  have e : extrapolate A B = extra (B.rot.transpose * A.rot) (A.rot.transpose.mulVec (B.pos - A.pos)) := by
    funext q; exact extrapolateState_eq _ _ _ _ _
  have e2 : jacobianOf A B p = jac (B.rot.transpose * A.rot) (A.rot.transpose.mulVec (B.pos - A.pos)) p := by
    unfold jacobianOf
    rw [trackJacobian_eq _ _ _ _ _ (by rwa [Matrix.transpose_transpose]), Matrix.transpose_transpose]
  rw [e, e2]
  exact extra_jacobian _ _ _ h

/-- A track close to a crossing track also crosses the plane. -/
theorem crosses_eventually (A B : Plane) (p : State) (h : Crosses B (trackDir A p)) :
    ∀ᶠ q in nhds p, Crosses B (trackDir A q) := by
  have hc : Continuous fun q : State => dot (planeNormalOf B) (trackDir A q) := by
    unfold dot trackDir
    have : ∀ i : Fin 3, Continuous fun q : State => (A.rot.mulVec ![q 2, q 3, 1]) i := by
      intro i
      have e : (fun q : State => (A.rot.mulVec ![q 2, q 3, 1]) i) = fun q => A.rot i 0 * q 2 + A.rot i 1 * q 3 + A.rot i 2 := by
        funext q; simp [Matrix.mulVec, dotProduct, Fin.sum_univ_succ]; ring
      rw [e]; fun_prop
    have h0 := this 0; have h1 := this 1; have h2 := this 2
    fun_prop
  exact hc.continuousAt.eventually_ne h

theorem extrapolate_back (A B : Plane) (p : State) (h : Crosses B (trackDir A p)) : extrapolate B A (extrapolate A B p) = p := by
  obtain ⟨s, c, hc, h1, h2⟩ := extrapolate_spec A B p h
  have hx : Crosses A (trackDir B (extrapolate A B p)) := by
    rw [h2, crosses_smul _ _ _ hc]; exact crosses_self A p
  obtain ⟨t, e, he, h3, h4⟩ := extrapolate_spec B A _ hx
  refine same_line_unique A A p _ _ (e * c) 1 (s + t * c) 0 (mul_ne_zero he hc) one_ne_zero ?_ ?_ (by simp) (by simp)
  · rw [h3, h1, h2, smul_smul, add_assoc, ← add_smul]
  · rw [h4, h2, smul_smul]

theorem extrapolate_trans (A B C : Plane) (p : State) (h : Crosses B (trackDir A p)) (h' : Crosses C (trackDir A p)) :
    extrapolate B C (extrapolate A B p) = extrapolate A C p := by
  obtain ⟨s, c, hc, h1, h2⟩ := extrapolate_spec A B p h
  have hx : Crosses C (trackDir B (extrapolate A B p)) := by rwa [h2, crosses_smul _ _ _ hc]
  obtain ⟨t, e, he, h3, h4⟩ := extrapolate_spec B C _ hx
  obtain ⟨r, f, hf, h5, h6⟩ := extrapolate_spec A C p h'
  refine same_line_unique A C p _ _ (e * c) f (s + t * c) r (mul_ne_zero he hc) hf ?_ ?_ h5 h6
  · rw [h3, h1, h2, smul_smul, add_assoc, ← add_smul]
  · rw [h4, h2, smul_smul]

/-- Chain rule for Jacobians. -/
theorem isJacobian_comp {l m n : Nat} (f : (Fin n → ℝ) → (Fin m → ℝ)) (g : (Fin m → ℝ) → (Fin l → ℝ)) (J : Matrix (Fin m) (Fin n) ℝ)
    (K : Matrix (Fin l) (Fin m) ℝ) (p : Fin n → ℝ) (hf : IsJacobian f J p) (hg : IsJacobian g K (f p)) : IsJacobian (g ∘ f) (K * J) p := by
  refine (HasFDerivAt.comp p hg hf).congr_fderiv (ContinuousLinearMap.ext fun v => ?_)
  simp [Matrix.mulVec_mulVec]

theorem isJacobian_unique {m n : Nat} (f g : (Fin n → ℝ) → (Fin m → ℝ)) (J K : Matrix (Fin m) (Fin n) ℝ) (p : Fin n → ℝ)
    (hf : IsJacobian f J p) (hg : IsJacobian g K p) (h : ∀ᶠ q in nhds p, f q = g q) : J = K := by
  have := (hf.congr_of_eventuallyEq (Filter.EventuallyEq.symm h)).unique hg
  have e : J.mulVecLin = K.mulVecLin := by
    refine LinearMap.ext fun v => ?_
    have := congrArg (fun L => L v) this
    simpa using this
  exact Matrix.ext fun i j => by
    have := congrFun (congrArg (fun L => L (Pi.single j 1)) e) i
    simpa using this

theorem isJacobian_id (p : State) : IsJacobian id (1 : Cov) p := by
  refine (hasFDerivAt_id p).congr_fderiv (ContinuousLinearMap.ext fun v => ?_)
  simp

theorem jacobian_back (A B : Plane) (p : State) (h : Crosses B (trackDir A p)) :
    jacobianOf B A (extrapolate A B p) * jacobianOf A B p = 1 := by
  obtain ⟨s, c, hc, h1, h2⟩ := extrapolate_spec A B p h
  have hx : Crosses A (trackDir B (extrapolate A B p)) := by
    rw [h2, crosses_smul _ _ _ hc]; exact crosses_self A p
  have k := isJacobian_comp _ _ _ _ p (jacobianOf_spec A B p h) (jacobianOf_spec B A _ hx)
  refine isJacobian_unique _ _ _ _ p k (isJacobian_id p) ?_
  filter_upwards [crosses_eventually A B p h] with q hq
  exact extrapolate_back A B q hq

theorem jacobian_trans (A B C : Plane) (p : State) (h : Crosses B (trackDir A p)) (h' : Crosses C (trackDir A p)) :
    jacobianOf B C (extrapolate A B p) * jacobianOf A B p = jacobianOf A C p := by
  obtain ⟨s, c, hc, h1, h2⟩ := extrapolate_spec A B p h
  have hx : Crosses C (trackDir B (extrapolate A B p)) := by rwa [h2, crosses_smul _ _ _ hc]
  have k := isJacobian_comp _ _ _ _ p (jacobianOf_spec A B p h) (jacobianOf_spec B C _ hx)
  refine isJacobian_unique _ _ _ _ p k (jacobianOf_spec A C p h') ?_
  filter_upwards [crosses_eventually A B p h, crosses_eventually A C p h'] with q hq hq'
  exact extrapolate_trans A B C q hq hq'
end BTA.Kalman
