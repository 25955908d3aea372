import Verif.Lemmas.KalmanTrack
/-
Multiple scattering: directions and derivative of the slopes.
-/
namespace BTA.Kalman
open BTA.Geo BTA.Spec Matrix

theorem dot3 (a b : Vec3) : a ⬝ᵥ b = a 0 * b 0 + a 1 * b 1 + a 2 * b 2 := by
  simp [dotProduct, Fin.sum_univ_succ]; ring

/-- Explicit directions. -/
theorem trackAxes_eq (p : State) : ∃ N L : ℝ, 0 < N ∧ 0 < L ∧ N ^ 2 = p 2 ^ 2 + p 3 ^ 2 + 1 ∧ L ^ 2 = p 3 ^ 2 + 1 ∧
    trackAxes p = (![p 2 / N, p 3 / N, 1 / N], ![L / N, -(p 2 * p 3) / (L * N), -p 2 / (L * N)], ![0, 1 / L, -p 3 / L]) := by
  have hN0 : 0 < p 2 ^ 2 + p 3 ^ 2 + 1 := by positivity
  have hL0 : 0 < p 3 ^ 2 + 1 := by positivity
  set N := Real.sqrt (p 2 ^ 2 + p 3 ^ 2 + 1) with hN
  set L := Real.sqrt (p 3 ^ 2 + 1) with hL
  have hNp : 0 < N := Real.sqrt_pos.mpr hN0
  have hLp : 0 < L := Real.sqrt_pos.mpr hL0
  have hN2 : N ^ 2 = p 2 ^ 2 + p 3 ^ 2 + 1 := Real.sq_sqrt hN0.le
  have hL2 : L ^ 2 = p 3 ^ 2 + 1 := Real.sq_sqrt hL0.le
  refine ⟨N, L, hNp, hLp, hN2, hL2, ?_⟩
  have h1 : normalise ![p 2, p 3, 1] = ![p 2 / N, p 3 / N, 1 / N] := by
    unfold normalise
    have e : (![p 2, p 3, 1] : Vec3) ⬝ᵥ ![p 2, p 3, 1] = p 2 ^ 2 + p 3 ^ 2 + 1 := by rw [dot3]; simp; ring
    rw [e, ← hN]
    ext i; fin_cases i <;> simp [div_eq_inv_mul]
  have h2 : normalise (cross ![p 2 / N, p 3 / N, 1 / N] ![1, 0, 0]) = ![0, 1 / L, -p 3 / L] := by
    have e : cross ![p 2 / N, p 3 / N, 1 / N] ![1, 0, 0] = ![0, 1 / N, -p 3 / N] := by
      ext i; fin_cases i <;> simp [cross]; ring
    rw [e]
    unfold normalise
    have e : (![0, 1 / N, -p 3 / N] : Vec3) ⬝ᵥ ![0, 1 / N, -p 3 / N] = (L / N) ^ 2 := by
      rw [dot3]; simp; field_simp; rw [hL2]; ring
    rw [e, Real.sqrt_sq (by positivity)]
    ext i; fin_cases i <;> simp <;> field_simp
  have h3 : normalise (cross ![0, 1 / L, -p 3 / L] ![p 2 / N, p 3 / N, 1 / N]) = ![L / N, -(p 2 * p 3) / (L * N), -p 2 / (L * N)] := by
    have e : cross ![0, 1 / L, -p 3 / L] ![p 2 / N, p 3 / N, 1 / N] = ![L / N, -(p 2 * p 3) / (L * N), -p 2 / (L * N)] := by
      ext i; fin_cases i <;> simp [cross] <;> field_simp
      rw [hL2]; ring
    rw [e]
    unfold normalise
    have e : (![L / N, -(p 2 * p 3) / (L * N), -p 2 / (L * N)] : Vec3) ⬝ᵥ ![L / N, -(p 2 * p 3) / (L * N), -p 2 / (L * N)] = 1 := by
      rw [dot3]; simp; field_simp
      have : L ^ 4 + p 2 ^ 2 * p 3 ^ 2 + p 2 ^ 2 = L ^ 2 * N ^ 2 := by
        have : L ^ 4 = (L ^ 2) ^ 2 := by ring
        rw [this, hN2, hL2]; ring
      linear_combination this
    rw [e]; simp
  unfold trackAxes
  simp only [h1, h2, h3]

theorem trackAxes_spec (p : State) :
    let (n, u, v) := trackAxes p
    dot n n = 1 ∧ dot u u = 1 ∧ dot v v = 1 ∧ dot n u = 0 ∧ dot n v = 0 ∧ dot u v = 0 ∧ 0 < n 2 ∧ n 0 = p 2 * n 2 ∧ n 1 = p 3 * n 2 := by
  obtain ⟨N, L, hN, hL, hN2, hL2, h⟩ := trackAxes_eq p
  rw [h]
  have h4 : L ^ 4 = (p 3 ^ 2 + 1) ^ 2 := by rw [← hL2]; ring
  refine ⟨?_, ?_, ?_, ?_, ?_, ?_, ?_, ?_, ?_⟩
  · simp [dot]; field_simp; rw [hN2]
  · simp [dot]; field_simp
    linear_combination h4 - N ^ 2 * hL2 - (p 3 ^ 2 + 1) * hN2
  · simp [dot]; field_simp; rw [hL2]; ring
  · simp [dot]; field_simp; linear_combination p 2 * hL2
  · simp [dot]; field_simp; ring
  · simp [dot]; field_simp; ring
  · simp; positivity
  · simp; field_simp
  · simp; field_simp

/-- Derivative of a linear function of the angles. -/
theorem hasFDerivAt_lin2 (a b e : ℝ) (p : Fin 2 → ℝ) :
    HasFDerivAt (fun q : Fin 2 → ℝ => a * q 0 + b * q 1 + e)
      (a • ContinuousLinearMap.proj (R := ℝ) (φ := fun _ : Fin 2 => ℝ) 0 + b • ContinuousLinearMap.proj (R := ℝ) (φ := fun _ : Fin 2 => ℝ) 1) p := by
  have h := fun i : Fin 2 => (ContinuousLinearMap.proj (R := ℝ) (φ := fun _ : Fin 2 => ℝ) i).hasFDerivAt (x := p)
  exact (((h 0).const_mul a).add ((h 1).const_mul b)).add_const e

theorem hasFDerivAt_inv2 (f : (Fin 2 → ℝ) → ℝ) (f' : (Fin 2 → ℝ) →L[ℝ] ℝ) (p : Fin 2 → ℝ) (h : HasFDerivAt f f' p) (h0 : f p ≠ 0) :
    HasFDerivAt (fun q => (f q)⁻¹) (-((f p) ^ 2)⁻¹ • f') p :=
  (hasDerivAt_inv h0).comp_hasFDerivAt p h

theorem scatterGain_eq (p : State) (n u v : Vec3) (h : trackAxes p = (n, u, v)) : scatterGain p =
    !![0, 0; 0, 0;
       (u 0 * n 2 - n 0 * u 2) / (n 2 * n 2), (v 0 * n 2 - n 0 * v 2) / (n 2 * n 2);
       (u 1 * n 2 - n 1 * u 2) / (n 2 * n 2), (v 1 * n 2 - n 1 * v 2) / (n 2 * n 2)] := by
  unfold scatterGain; rw [h]

theorem scatterGain_jacobian (p : State) (n u v : Vec3) (h : trackAxes p = (n, u, v)) :
    IsJacobian (deflected p n u v) (scatterGain p) 0 := by
  have hn : n 2 ≠ 0 := by
    have := trackAxes_spec p; rw [h] at this; exact ne_of_gt this.2.2.2.2.2.2.1
  rw [scatterGain_eq p n u v h]
  have dD := hasFDerivAt_lin2 (u 2) (v 2) (n 2) 0
  have dI := hasFDerivAt_inv2 _ _ 0 dD (by simpa using hn)
  have dA : ∀ i : Fin 3, HasFDerivAt (fun q : Fin 2 → ℝ => u i * q 0 + v i * q 1 + n i) _ 0 := fun i => hasFDerivAt_lin2 (u i) (v i) (n i) 0
  have ev : ∀ i : Fin 3, ∀ q : Fin 2 → ℝ, (n + q 0 • u + q 1 • v) i / (n + q 0 • u + q 1 • v) 2 =
      (u i * q 0 + v i * q 1 + n i) * (u 2 * q 0 + v 2 * q 1 + n 2)⁻¹ := by
    intro i q; simp [div_eq_mul_inv]; ring
  unfold IsJacobian
  rw [hasFDerivAt_pi']
  intro i
  fin_cases i
  · refine (hasFDerivAt_const (p 0) (0 : Fin 2 → ℝ)).congr_fderiv (ContinuousLinearMap.ext fun w => ?_)
    simp [Matrix.mulVec, dotProduct, Fin.sum_univ_succ]
  · refine (hasFDerivAt_const (p 1) (0 : Fin 2 → ℝ)).congr_fderiv (ContinuousLinearMap.ext fun w => ?_)
    simp [Matrix.mulVec, dotProduct, Fin.sum_univ_succ]
  · refine (((dA 0).mul dI).congr_of_eventuallyEq (Filter.Eventually.of_forall fun q => ev 0 q)).congr_fderiv (ContinuousLinearMap.ext fun w => ?_)
    simp [Matrix.mulVec, dotProduct, Fin.sum_univ_succ]
    field_simp
    ring
  · refine (((dA 1).mul dI).congr_of_eventuallyEq (Filter.Eventually.of_forall fun q => ev 1 q)).congr_fderiv (ContinuousLinearMap.ext fun w => ?_)
    simp [Matrix.mulVec, dotProduct, Fin.sum_univ_succ]
    field_simp
    ring

theorem scatterGain_cov (p : State) (t : ℝ) :
    scatterGain p * (!![t, 0; 0, t] * (scatterGain p).transpose) =
      (t * (1 + p 2 ^ 2 + p 3 ^ 2)) • !![0, 0, 0, 0; 0, 0, 0, 0; 0, 0, 1 + p 2 ^ 2, p 2 * p 3; 0, 0, p 2 * p 3, 1 + p 3 ^ 2] := by
  obtain ⟨N, L, hN, hL, hN2, hL2, h⟩ := trackAxes_eq p
  have hG : scatterGain p = !![0, 0; 0, 0; N ^ 2 / L, p 2 * p 3 * N / L; 0, L * N] := by
    rw [scatterGain_eq p _ _ _ h]
    ext i j
    fin_cases i <;> fin_cases j <;> simp <;> field_simp
    · rw [hN2, hL2]; ring
    · left; ring
    · rw [hL2]; ring
  rw [hG]
  have eN : (1 + p 2 ^ 2 + p 3 ^ 2) = N ^ 2 := by rw [hN2]; ring
  rw [eN]
  ext i j
  fin_cases i <;> fin_cases j <;> simp [Matrix.mul_apply, Matrix.vecMul, dotProduct, Fin.sum_univ_succ, Matrix.transpose_apply] <;> field_simp
  · rw [hL2, hN2]; ring
  · rw [hL2]; ring
end BTA.Kalman
