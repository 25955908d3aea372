import Verif.Spec.Kalman
import Mathlib.Tactic.Abel
import Mathlib.Tactic.NoncommRing
/-
One step of the filter: covariances, information form, least squares.
-/
namespace BTA.Kalman
open BTA.Geo BTA.Spec Matrix

section
variable {n m : Nat}

theorem psd_symm {A : Matrix (Fin n) (Fin n) ℝ} (h : A.PosSemidef) : A.transpose = A := by
  have := h.isHermitian
  rwa [Matrix.IsHermitian, conjTranspose_eq_transpose_of_trivial] at this

theorem psd_conj {A : Matrix (Fin n) (Fin n) ℝ} (h : A.PosSemidef) (B : Matrix (Fin m) (Fin n) ℝ) :
    (B * (A * B.transpose)).PosSemidef := by
  have := h.mul_mul_conjTranspose_same B
  rwa [conjTranspose_eq_transpose_of_trivial, Matrix.mul_assoc] at this

theorem matInverse_pd {A : Matrix (Fin n) (Fin n) ℝ} (h : A.PosDef) : matInverse A = A⁻¹ := by
  unfold matInverse
  have : A.det ≠ 0 := by
    have := h.isUnit
    rw [Matrix.isUnit_iff_isUnit_det] at this
    exact this.ne_zero
  rw [if_neg this]

theorem pd_mul_inv {A : Matrix (Fin n) (Fin n) ℝ} (h : A.PosDef) : A * A⁻¹ = 1 :=
  Matrix.mul_nonsing_inv _ ((Matrix.isUnit_iff_isUnit_det _).mp h.isUnit)

theorem pd_inv_mul {A : Matrix (Fin n) (Fin n) ℝ} (h : A.PosDef) : A⁻¹ * A = 1 :=
  Matrix.nonsing_inv_mul _ ((Matrix.isUnit_iff_isUnit_det _).mp h.isUnit)

variable {C : Matrix (Fin n) (Fin n) ℝ} {H : Matrix (Fin m) (Fin n) ℝ} {V : Matrix (Fin m) (Fin m) ℝ}

/-- Covariance of the predicted residual. -/
theorem S_posDef (hC : C.PosSemidef) (hV : V.PosDef) (H : Matrix (Fin m) (Fin n) ℝ) : (H * (C * H.transpose) + V).PosDef :=
  PosDef.posSemidef_add (psd_conj hC H) hV

/-- The gain. -/
noncomputable def gainOf (C : Matrix (Fin n) (Fin n) ℝ) (H : Matrix (Fin m) (Fin n) ℝ) (V : Matrix (Fin m) (Fin m) ℝ) : Matrix (Fin n) (Fin m) ℝ :=
  C * (H.transpose * (H * (C * H.transpose) + V)⁻¹)

theorem gain_S (hC : C.PosSemidef) (hV : V.PosDef) : gainOf C H V * (H * (C * H.transpose) + V) = C * H.transpose := by
  unfold gainOf
  rw [Matrix.mul_assoc, Matrix.mul_assoc, pd_inv_mul (S_posDef hC hV H), Matrix.mul_one]

/-- The filtered covariance. -/
noncomputable def updCov (C : Matrix (Fin n) (Fin n) ℝ) (H : Matrix (Fin m) (Fin n) ℝ) (V : Matrix (Fin m) (Fin m) ℝ) : Matrix (Fin n) (Fin n) ℝ :=
  C - gainOf C H V * (H * C)

theorem upd_joseph (hC : C.PosSemidef) (hV : V.PosDef) :
    updCov C H V = (1 - gainOf C H V * H) * (C * (1 - gainOf C H V * H).transpose) + gainOf C H V * (V * (gainOf C H V).transpose) := by
  have hS := gain_S (H := H) hC hV
  unfold updCov
  set K := gainOf C H V
  have e : K * (H * (C * (H.transpose * K.transpose))) + K * (V * K.transpose) = C * (H.transpose * K.transpose) := by
    have := congrArg (fun X => X * K.transpose) hS
    simp only [Matrix.mul_add, Matrix.add_mul, Matrix.mul_assoc] at this
    exact this
  simp only [transpose_sub, transpose_one, transpose_mul, Matrix.mul_sub, Matrix.sub_mul, Matrix.mul_one, Matrix.one_mul, Matrix.mul_assoc]
  rw [show K * (V * K.transpose) = C * (H.transpose * K.transpose) - K * (H * (C * (H.transpose * K.transpose))) from eq_sub_of_add_eq' e]
  abel

theorem upd_psd (hC : C.PosSemidef) (hV : V.PosDef) : (updCov C H V).PosSemidef := by
  rw [upd_joseph hC hV]
  exact (psd_conj hC _).add (psd_conj hV.posSemidef _)

theorem gain_diff (hC : C.PosSemidef) (hV : V.PosDef) :
    C - updCov C H V = gainOf C H V * ((H * (C * H.transpose) + V) * (gainOf C H V).transpose) := by
  have hS := gain_S (H := H) hC hV
  have hK : (gainOf C H V * (H * (C * H.transpose) + V)).transpose = H * C := by
    rw [hS, transpose_mul, transpose_transpose, psd_symm hC]
  rw [transpose_mul, psd_symm (S_posDef hC hV H).posSemidef] at hK
  unfold updCov
  rw [hK]; abel

theorem atMost_of_psd {A B : Matrix (Fin n) (Fin n) ℝ} (h : (B - A).PosSemidef) : AtMost A B := by
  intro x
  have := h.dotProduct_mulVec_nonneg x
  rw [Matrix.sub_mulVec, dotProduct_sub] at this
  simpa using this

theorem upd_atMost (hC : C.PosSemidef) (hV : V.PosDef) : AtMost (updCov C H V) C := by
  apply atMost_of_psd
  rw [gain_diff hC hV]
  exact psd_conj (S_posDef hC hV H).posSemidef _

theorem upd_residual (hC : C.PosSemidef) (hV : V.PosDef) :
    V - H * (updCov C H V * H.transpose) = V * ((H * (C * H.transpose) + V)⁻¹ * V) := by
  set S := H * (C * H.transpose) + V with hSd
  have hS := S_posDef hC hV H
  rw [← hSd] at hS
  have e1 : H * (C * H.transpose) = S - V := by rw [hSd]; abel
  have e2 : H * (updCov C H V * H.transpose) = (S - V) - (S - V) * (S⁻¹ * (S - V)) := by
    rw [← e1]
    unfold updCov gainOf
    rw [← hSd]
    simp only [Matrix.sub_mul, Matrix.mul_sub, Matrix.mul_assoc]
  rw [e2]
  simp only [Matrix.sub_mul, Matrix.mul_sub, pd_inv_mul hS, Matrix.mul_one]
  rw [← Matrix.mul_assoc S, pd_mul_inv hS, Matrix.one_mul]
  abel

theorem upd_residual_pd (hC : C.PosSemidef) (hV : V.PosDef) : (V - H * (updCov C H V * H.transpose)).PosDef := by
  rw [upd_residual hC hV]
  have h1 := (S_posDef hC hV H).inv
  have h2 := h1.mul_mul_conjTranspose_same (B := V) (by
    intro x y h
    have := congrArg (fun z => z ᵥ* V⁻¹) h
    simpa [Matrix.vecMul_vecMul, pd_mul_inv hV] using this)
  rwa [conjTranspose_eq_transpose_of_trivial, psd_symm hV.posSemidef, Matrix.mul_assoc] at h2

/-- Information form. -/
theorem upd_info (hC : C.PosDef) (hV : V.PosDef) : (updCov C H V)⁻¹ = C⁻¹ + H.transpose * (V⁻¹ * H) := by
  apply Matrix.inv_eq_right_inv
  have hS := gain_S (H := H) hC.posSemidef hV
  have e0 : updCov C H V * C⁻¹ = 1 - gainOf C H V * H := by
    unfold updCov
    rw [Matrix.sub_mul, Matrix.mul_assoc, Matrix.mul_assoc, pd_mul_inv hC, Matrix.mul_one]
  have e1 : updCov C H V * H.transpose = gainOf C H V * V := by
    have : gainOf C H V * (H * (C * H.transpose)) + gainOf C H V * V = C * H.transpose := by
      rw [← Matrix.mul_add]; exact hS
    unfold updCov
    rw [Matrix.sub_mul, ← this]
    simp only [Matrix.mul_assoc]; abel
  rw [Matrix.mul_add, e0, ← Matrix.mul_assoc, e1, Matrix.mul_assoc, ← Matrix.mul_assoc V, pd_mul_inv hV, Matrix.one_mul]
  abel

theorem upd_pd (hC : C.PosDef) (hV : V.PosDef) : (updCov C H V).PosDef := by
  have h1 : (C⁻¹ + H.transpose * (V⁻¹ * H)).PosDef := by
    have := psd_conj hV.inv.posSemidef H.transpose
    rw [transpose_transpose] at this
    exact hC.inv.add_posSemidef this
  have h2 : updCov C H V * (C⁻¹ + H.transpose * (V⁻¹ * H)) = 1 := by
    have hS := gain_S (H := H) hC.posSemidef hV
    have e0 : updCov C H V * C⁻¹ = 1 - gainOf C H V * H := by
      unfold updCov
      rw [Matrix.sub_mul, Matrix.mul_assoc, Matrix.mul_assoc, pd_mul_inv hC, Matrix.mul_one]
    have e1 : updCov C H V * H.transpose = gainOf C H V * V := by
      have : gainOf C H V * (H * (C * H.transpose)) + gainOf C H V * V = C * H.transpose := by
        rw [← Matrix.mul_add]; exact hS
      unfold updCov
      rw [Matrix.sub_mul, ← this]
      simp only [Matrix.mul_assoc]; abel
    rw [Matrix.mul_add, e0, ← Matrix.mul_assoc, e1, Matrix.mul_assoc, ← Matrix.mul_assoc V, pd_mul_inv hV, Matrix.one_mul]
    abel
  rw [← Matrix.inv_eq_left_inv h2]
  exact h1.inv

theorem gain_eq (hC : C.PosSemidef) (hV : V.PosDef) : gainOf C H V = updCov C H V * (H.transpose * V⁻¹) := by
  have hS := gain_S (H := H) hC hV
  have e1 : updCov C H V * H.transpose = gainOf C H V * V := by
    have : gainOf C H V * (H * (C * H.transpose)) + gainOf C H V * V = C * H.transpose := by
      rw [← Matrix.mul_add]; exact hS
    unfold updCov
    rw [Matrix.sub_mul, ← this]
    simp only [Matrix.mul_assoc]; abel
  rw [← Matrix.mul_assoc, e1, Matrix.mul_assoc, pd_mul_inv hV, Matrix.mul_one]

/-- Residual after the update. -/
theorem residual_eq (hC : C.PosSemidef) (hV : V.PosDef) (r : Fin m → ℝ) :
    r - H.mulVec ((gainOf C H V).mulVec r) = V.mulVec ((H * (C * H.transpose) + V)⁻¹.mulVec r) := by
  set S := H * (C * H.transpose) + V with hSd
  have hS := S_posDef hC hV H
  rw [← hSd] at hS
  have e1 : H * gainOf C H V = 1 - V * S⁻¹ := by
    unfold gainOf
    rw [← hSd]
    have : H * (C * (H.transpose * S⁻¹)) = (S - V) * S⁻¹ := by
      rw [hSd, add_sub_cancel_right]; simp only [Matrix.mul_assoc]
    rw [this, Matrix.sub_mul, pd_mul_inv hS]
  rw [Matrix.mulVec_mulVec, e1, Matrix.sub_mulVec, Matrix.one_mulVec, Matrix.mulVec_mulVec]
  abel

theorem quad_nonneg {A : Matrix (Fin n) (Fin n) ℝ} (h : A.PosSemidef) (x : Fin n → ℝ) : 0 ≤ x ⬝ᵥ A.mulVec x := by
  have := h.dotProduct_mulVec_nonneg x
  simpa using this

theorem quad_pos {A : Matrix (Fin n) (Fin n) ℝ} (h : A.PosDef) {x : Fin n → ℝ} (hx : x ≠ 0) : 0 < x ⬝ᵥ A.mulVec x := by
  have := h.dotProduct_mulVec_pos hx
  simpa using this

/-- Chi-square after the update is the one before the update. -/
theorem chi_eq (hC : C.PosSemidef) (hV : V.PosDef) (r : Fin m → ℝ) :
    (r - H.mulVec ((gainOf C H V).mulVec r)) ⬝ᵥ (V - H * (updCov C H V * H.transpose))⁻¹.mulVec (r - H.mulVec ((gainOf C H V).mulVec r)) =
      r ⬝ᵥ (H * (C * H.transpose) + V)⁻¹.mulVec r := by
  rw [residual_eq hC hV, upd_residual hC hV]
  have hS := S_posDef hC hV H
  set S := H * (C * H.transpose) + V with hSd
  have e : (V * (S⁻¹ * V))⁻¹ = V⁻¹ * (S * V⁻¹) := by
    apply Matrix.inv_eq_right_inv
    rw [Matrix.mul_assoc, Matrix.mul_assoc, ← Matrix.mul_assoc V V⁻¹, pd_mul_inv hV, Matrix.one_mul, ← Matrix.mul_assoc S⁻¹, pd_inv_mul hS,
      Matrix.one_mul, pd_mul_inv hV]
  rw [e]
  simp only [Matrix.mulVec_mulVec, Matrix.mul_assoc]
  rw [← Matrix.mul_assoc V⁻¹ V, pd_inv_mul hV, Matrix.one_mul, pd_mul_inv hS, Matrix.mul_one]
  rw [← Matrix.mulVec_mulVec, dotProduct_comm, Matrix.dotProduct_mulVec, ← Matrix.mulVec_transpose, psd_symm hV.posSemidef,
    Matrix.mulVec_mulVec, pd_mul_inv hV, Matrix.one_mulVec]

theorem quad_add {A : Matrix (Fin n) (Fin n) ℝ} (h : A.transpose = A) (x y : Fin n → ℝ) :
    (x + y) ⬝ᵥ A.mulVec (x + y) = x ⬝ᵥ A.mulVec x + 2 * (y ⬝ᵥ A.mulVec x) + y ⬝ᵥ A.mulVec y := by
  have e : x ⬝ᵥ A.mulVec y = y ⬝ᵥ A.mulVec x := by
    rw [Matrix.dotProduct_mulVec, ← Matrix.mulVec_transpose, h, dotProduct_comm]
  rw [Matrix.mulVec_add, dotProduct_add, add_dotProduct, add_dotProduct, e]
  ring

/-- Completing the square. -/
theorem cost_eq (hC : C.PosDef) (hV : V.PosDef) (x y : Fin n → ℝ) (r : Fin m → ℝ) :
    leastSquares C H V x r y = (r - H.mulVec x) ⬝ᵥ (H * (C * H.transpose) + V)⁻¹.mulVec (r - H.mulVec x) +
      (y - (x + (gainOf C H V).mulVec (r - H.mulVec x))) ⬝ᵥ (updCov C H V)⁻¹.mulVec (y - (x + (gainOf C H V).mulVec (r - H.mulVec x))) := by
  set K := gainOf C H V with hK
  set q := r - H.mulVec x with hq
  set d := y - (x + K.mulVec q) with hd
  have hS := S_posDef hC.posSemidef hV H
  set S := H * (C * H.transpose) + V with hSd
  have e1 : y - x = K.mulVec q + d := by rw [hd]; abel
  have e2 : r - H.mulVec y = V.mulVec (S⁻¹.mulVec q) + -(H.mulVec d) := by
    rw [← residual_eq hC.posSemidef hV q, ← hK, hd, hq]
    simp only [Matrix.mulVec_sub, Matrix.mulVec_add]; abel
  have hCs : (C⁻¹).transpose = C⁻¹ := psd_symm hC.inv.posSemidef
  have hVs : (V⁻¹).transpose = V⁻¹ := psd_symm hV.inv.posSemidef
  unfold leastSquares
  rw [e1, e2, quad_add hCs, quad_add hVs, upd_info hC hV, Matrix.add_mulVec, dotProduct_add]
  have a1 : C⁻¹.mulVec (K.mulVec q) = H.transpose.mulVec (S⁻¹.mulVec q) := by
    rw [hK]; unfold gainOf
    rw [← hSd, Matrix.mulVec_mulVec, ← Matrix.mul_assoc, pd_inv_mul hC, Matrix.one_mul, Matrix.mulVec_mulVec]
  have a2 : V⁻¹.mulVec (V.mulVec (S⁻¹.mulVec q)) = S⁻¹.mulVec q := by
    rw [Matrix.mulVec_mulVec, pd_inv_mul hV, Matrix.one_mulVec]
  have a3 : d ⬝ᵥ (H.transpose * (V⁻¹ * H)).mulVec d = (-(H.mulVec d)) ⬝ᵥ V⁻¹.mulVec (-(H.mulVec d)) := by
    rw [Matrix.mulVec_neg, neg_dotProduct_neg, ← Matrix.mulVec_mulVec, ← Matrix.mulVec_mulVec, Matrix.dotProduct_mulVec, Matrix.vecMul_transpose]
  have a4 : d ⬝ᵥ H.transpose.mulVec (S⁻¹.mulVec q) = H.mulVec d ⬝ᵥ S⁻¹.mulVec q := by
    rw [Matrix.dotProduct_mulVec, Matrix.vecMul_transpose]
  have a5 : K.mulVec q ⬝ᵥ H.transpose.mulVec (S⁻¹.mulVec q) + V.mulVec (S⁻¹.mulVec q) ⬝ᵥ S⁻¹.mulVec q = q ⬝ᵥ S⁻¹.mulVec q := by
    rw [Matrix.dotProduct_mulVec, Matrix.vecMul_transpose, ← add_dotProduct, ← residual_eq hC.posSemidef hV q, ← hK]
    congr 1; abel
  rw [a1, a2, a3, a4, ← a5, neg_dotProduct]
  ring
end
end BTA.Kalman
