import Mathlib.LinearAlgebra.Matrix.Adjugate
import Verif.Model.Dut
import Verif.Spec.Geometry
import Mathlib.LinearAlgebra.Matrix.Determinant.Basic
import Mathlib.Analysis.SpecialFunctions.Trigonometric.Bounds
import Mathlib.Tactic.LinearCombination
import Mathlib.Tactic.FieldSimp
import Mathlib.Tactic.FinCases
import Mathlib.Tactic.Positivity
import Mathlib.Tactic.NormNum
/-
Rotations and rigid transformations.
-/
namespace BTA.Geo
open BTA.Spec

theorem cs (t : ℝ) : Real.cos t ^ 2 + Real.sin t ^ 2 = 1 := Real.cos_sq_add_sin_sq t

theorem rotationMatrix_eq (a b c : ℝ) : rotationMatrix a b c =
    !![Real.cos c * Real.cos b, Real.cos c * Real.sin b * Real.sin a - Real.sin c * Real.cos a,
         Real.cos c * Real.sin b * Real.cos a + Real.sin c * Real.sin a;
       Real.sin c * Real.cos b, Real.sin c * Real.sin b * Real.sin a + Real.cos c * Real.cos a,
         Real.sin c * Real.sin b * Real.cos a - Real.cos c * Real.sin a;
       -Real.sin b, Real.cos b * Real.sin a, Real.cos b * Real.cos a] := by
  ext i j
  fin_cases i <;> fin_cases j <;>
    simp [rotationMatrix, rotX, rotY, rotZ, Matrix.mul_apply, Fin.sum_univ_succ] <;> ring

theorem rotX_orth (a : ℝ) : (rotX a).transpose * rotX a = 1 := by
  ext i j
  fin_cases i <;> fin_cases j <;> simp [rotX, Matrix.mul_apply, Fin.sum_univ_succ] <;> first | ring1 | linear_combination cs a

theorem rotY_orth (a : ℝ) : (rotY a).transpose * rotY a = 1 := by
  ext i j
  fin_cases i <;> fin_cases j <;> simp [rotY, Matrix.mul_apply, Fin.sum_univ_succ] <;> first | ring1 | linear_combination cs a

theorem rotZ_orth (a : ℝ) : (rotZ a).transpose * rotZ a = 1 := by
  ext i j
  fin_cases i <;> fin_cases j <;> simp [rotZ, Matrix.mul_apply, Fin.sum_univ_succ] <;> first | ring1 | linear_combination cs a

theorem rotationMatrix_orth (a b c : ℝ) : (rotationMatrix a b c).transpose * rotationMatrix a b c = 1 := by
  unfold rotationMatrix
  rw [Matrix.transpose_mul, Matrix.transpose_mul]
  calc (rotX a).transpose * ((rotY b).transpose * (rotZ c).transpose) * (rotZ c * rotY b * rotX a)
      = (rotX a).transpose * ((rotY b).transpose * ((rotZ c).transpose * rotZ c) * rotY b) * rotX a := by
        simp only [Matrix.mul_assoc]
    _ = 1 := by rw [rotZ_orth, Matrix.mul_one, rotY_orth, Matrix.mul_one, rotX_orth]

theorem rotationMatrix_orth' (a b c : ℝ) : rotationMatrix a b c * (rotationMatrix a b c).transpose = 1 :=
  mul_eq_one_comm.mp (rotationMatrix_orth a b c)

theorem rotationMatrix_det (a b c : ℝ) : (rotationMatrix a b c).det = 1 := by
  unfold rotationMatrix
  rw [Matrix.det_mul, Matrix.det_mul]
  have h1 : (rotX a).det = 1 := by simp [rotX, Matrix.det_fin_three]; linear_combination cs a
  have h2 : (rotY b).det = 1 := by simp [rotY, Matrix.det_fin_three]; linear_combination cs b
  have h3 : (rotZ c).det = 1 := by simp [rotZ, Matrix.det_fin_three]; linear_combination cs c
  rw [h1, h2, h3]
  norm_num

theorem apply_localToGlobal (x y z a b c : ℝ) (p : Vec3) :
    applyTransformation (localToGlobalMatrix x y z a b c) p = (rotationMatrix a b c).mulVec p + ![x, y, z] := by
  ext i
  fin_cases i <;>
    simp [applyTransformation, localToGlobalMatrix, translationMatrix, extend, Matrix.mul_apply, Fin.sum_univ_succ, Matrix.mulVec,
      dotProduct, Matrix.transpose_apply] <;> ring

theorem apply_globalToLocal (x y z a b c : ℝ) (p : Vec3) :
    applyTransformation (globalToLocalMatrix x y z a b c) p = (rotationMatrix a b c).transpose.mulVec (p - ![x, y, z]) := by
  ext i
  fin_cases i <;>
    simp [applyTransformation, globalToLocalMatrix, translationMatrix, extend, Matrix.mul_apply, Fin.sum_univ_succ, Matrix.mulVec,
      dotProduct, Matrix.transpose_apply] <;> ring

theorem global_local (x y z a b c : ℝ) (p : Vec3) :
    applyTransformation (globalToLocalMatrix x y z a b c) (applyTransformation (localToGlobalMatrix x y z a b c) p) = p := by
  rw [apply_globalToLocal, apply_localToGlobal, add_sub_cancel_right, Matrix.mulVec_mulVec, rotationMatrix_orth, Matrix.one_mulVec]

theorem local_global (x y z a b c : ℝ) (p : Vec3) :
    applyTransformation (localToGlobalMatrix x y z a b c) (applyTransformation (globalToLocalMatrix x y z a b c) p) = p := by
  rw [apply_globalToLocal, apply_localToGlobal, Matrix.mulVec_mulVec, rotationMatrix_orth', Matrix.one_mulVec, sub_add_cancel]

/-! ### Euler angles -/

theorem proper_adjugate {R : Mat3} (h : Proper R) : R.adjugate = R.transpose := by
  have h1 : R * R.adjugate = 1 := by rw [Matrix.mul_adjugate, h.det, one_smul]
  calc R.adjugate = R.transpose * R * R.adjugate := by rw [h.orth, Matrix.one_mul]
    _ = R.transpose := by rw [Matrix.mul_assoc, h1, Matrix.mul_one]

theorem arctan2_div {y x c : ℝ} (hc : 0 < c) : arctan2 (y / c) (x / c) = arctan2 y x := by
  unfold arctan2
  have : (⟨x, y⟩ : ℂ) = (c : ℂ) * ⟨x / c, y / c⟩ := by
    apply Complex.ext <;> simp <;> field_simp
  rw [this, Complex.arg_real_mul _ hc]

theorem cos_arctan2 {y x : ℝ} (h : x ^ 2 + y ^ 2 = 1) : Real.cos (arctan2 y x) = x := by
  unfold arctan2
  have hn : ‖(⟨x, y⟩ : ℂ)‖ = 1 := by
    rw [Complex.norm_eq_sqrt_sq_add_sq, h, Real.sqrt_one]
  rw [Complex.cos_arg (by intro h0; rw [h0] at hn; simp at hn), hn]
  simp

theorem sin_arctan2 {y x : ℝ} (h : x ^ 2 + y ^ 2 = 1) : Real.sin (arctan2 y x) = y := by
  unfold arctan2
  have hn : ‖(⟨x, y⟩ : ℂ)‖ = 1 := by
    rw [Complex.norm_eq_sqrt_sq_add_sq, h, Real.sqrt_one]
  rw [Complex.sin_arg, hn]
  simp

theorem eps_pos : 0 < eps := by unfold eps; positivity

theorem eps_le_one : eps ≤ 1 := by unfold eps; exact pow_le_one₀ (by norm_num) (by norm_num)

theorem snap_close (t : ℝ) : |snap t - t| ≤ eps := by
  unfold snap
  split
  · rename_i h
    rw [zero_sub, abs_neg, abs_le]
    exact ⟨h.2, h.1⟩
  · simp [eps_pos.le]

theorem snap_eq (t : ℝ) (h : t = 0 ∨ eps < |t|) : snap t = t := by
  unfold snap
  split
  · rename_i h1
    rcases h with h | h
    · rw [h]
    · exact absurd (abs_le.mpr ⟨h1.2, h1.1⟩) (not_le.mpr h)
  · rfl

theorem isRotationMatrix_of (R : Mat3) (h : R.transpose * R = 1) : IsRotationMatrix R := by
  unfold IsRotationMatrix
  rw [h]
  simp
  norm_num

theorem proper_rows {R : Mat3} (h : Proper R) :
    R 0 0 ^ 2 + R 1 0 ^ 2 + R 2 0 ^ 2 = 1 ∧ R 2 0 ^ 2 + R 2 1 ^ 2 + R 2 2 ^ 2 = 1 ∧
    R 0 0 * R 2 0 + R 0 1 * R 2 1 + R 0 2 * R 2 2 = 0 ∧ R 1 0 * R 2 0 + R 1 1 * R 2 1 + R 1 2 * R 2 2 = 0 := by
  have h1 : R * R.transpose = 1 := mul_eq_one_comm.mp h.orth
  have a := congrFun (congrFun h.orth 0) 0
  have b := congrFun (congrFun h1 2) 2
  have c := congrFun (congrFun h1 0) 2
  have d := congrFun (congrFun h1 1) 2
  simp [Matrix.mul_apply, Fin.sum_univ_succ] at a b c d
  refine ⟨by linear_combination a, by linear_combination b, by linear_combination c, by linear_combination d⟩

/-- The exact angles. -/
theorem rotationMatrix_exact (R : Mat3) (h : Proper R) (h1 : R 2 0 ^ 2 < 1) :
    rotationMatrix (arctan2 (R 2 1) (R 2 2)) (-Real.arcsin (R 2 0)) (arctan2 (R 1 0) (R 0 0)) = R := by
  obtain ⟨r1, r2, r3, r4⟩ := proper_rows h
  have hadj := proper_adjugate h
  have e10 : R 1 0 = -(R 0 1 * R 2 2 - R 0 2 * R 2 1) := by
    have := congrFun (congrFun hadj 0) 1
    rw [Matrix.adjugate_fin_three] at this
    simp at this
    linear_combination -this
  have e00 : R 0 0 = R 1 1 * R 2 2 - R 1 2 * R 2 1 := by
    have := congrFun (congrFun hadj 0) 0
    rw [Matrix.adjugate_fin_three] at this
    simp at this
    linear_combination -this
  set c := Real.sqrt (1 - R 2 0 ^ 2) with hc
  have hcpos : 0 < c := Real.sqrt_pos.mpr (by linarith)
  have hc2 : c ^ 2 = 1 - R 2 0 ^ 2 := Real.sq_sqrt (by linarith)
  have habs : -1 ≤ R 2 0 ∧ R 2 0 ≤ 1 := abs_le.mp (by rw [← sq_le_one_iff_abs_le_one]; exact h1.le)
  have cb : Real.cos (-Real.arcsin (R 2 0)) = c := by rw [Real.cos_neg, Real.cos_arcsin]
  have sb : Real.sin (-Real.arcsin (R 2 0)) = -R 2 0 := by rw [Real.sin_neg, Real.sin_arcsin habs.1 habs.2]
  have ha : (R 2 2 / c) ^ 2 + (R 2 1 / c) ^ 2 = 1 := by
    field_simp
    linear_combination r2 - hc2
  have hg : (R 0 0 / c) ^ 2 + (R 1 0 / c) ^ 2 = 1 := by
    field_simp
    linear_combination r1 - hc2
  rw [← arctan2_div hcpos (y := R 2 1), ← arctan2_div hcpos (y := R 1 0), rotationMatrix_eq, cb, sb, cos_arctan2 ha, sin_arctan2 ha,
    cos_arctan2 hg, sin_arctan2 hg]
  have hne : c ≠ 0 := hcpos.ne'
  have m01 : R 0 1 * c ^ 2 = -R 0 0 * R 2 0 * R 2 1 - R 1 0 * R 2 2 := by
    rw [hc2]; linear_combination -R 0 1 * r2 + (R 2 1) * r3 + (R 2 2) * e10
  have m02 : R 0 2 * c ^ 2 = -R 0 0 * R 2 0 * R 2 2 + R 1 0 * R 2 1 := by
    rw [hc2]; linear_combination -R 0 2 * r2 + (R 2 2) * r3 - (R 2 1) * e10
  have m11 : R 1 1 * c ^ 2 = -R 1 0 * R 2 0 * R 2 1 + R 0 0 * R 2 2 := by
    rw [hc2]; linear_combination -R 1 1 * r2 + (R 2 1) * r4 - (R 2 2) * e00
  have m12 : R 1 2 * c ^ 2 = -R 1 0 * R 2 0 * R 2 2 - R 0 0 * R 2 1 := by
    rw [hc2]; linear_combination -R 1 2 * r2 + (R 2 2) * r4 + (R 2 1) * e00
  ext i j
  fin_cases i <;> fin_cases j <;> simp <;> field_simp
  · linear_combination -m01
  · linear_combination -m02
  · linear_combination -m11
  · linear_combination -m12

theorem cos_snap_pos (t : ℝ) (h : 0 < Real.cos t) : 0 < Real.cos (snap t) := by
  unfold snap
  split
  · simp
  · exact h

/-- The result of `euler_angles` outside of the gimbal lock. -/
theorem eulerAngles_eq (R : Mat3) (h : R.transpose * R = 1) (h1 : R 2 0 ^ 2 < 1) :
    eulerAngles R = .angles (snap (arctan2 (R 2 1) (R 2 2))) (snap (-Real.arcsin (R 2 0))) (snap (arctan2 (R 1 0) (R 0 0))) := by
  have habs := (sq_lt_one_iff_abs_lt_one _).mp h1
  have hcos : 0 < Real.cos (-Real.arcsin (R 2 0)) := by
    rw [Real.cos_neg, Real.cos_arcsin]
    exact Real.sqrt_pos.mpr (by linarith)
  have hs := cos_snap_pos _ hcos
  unfold eulerAngles
  rw [if_neg (not_not.mpr (isRotationMatrix_of R h)), if_neg (by intro h0; rw [h0] at h1; norm_num at h1),
    if_neg (by intro h0; rw [h0] at h1; norm_num at h1), if_neg (not_lt.mpr habs.le)]
  simp only [arctan2_div hs]

/-- Products of sines and cosines of close angles are close. -/
theorem mul_close {x y x' y' d e : ℝ} (h1 : |x' - x| ≤ d) (h2 : |y' - y| ≤ e) (hx : |x| ≤ 1) (hy : |y'| ≤ 1) :
    |x' * y' - x * y| ≤ d + e := by
  have : x' * y' - x * y = (x' - x) * y' + x * (y' - y) := by ring
  rw [this]
  calc |(x' - x) * y' + x * (y' - y)| ≤ |(x' - x) * y'| + |x * (y' - y)| := abs_add_le _ _
    _ = |x' - x| * |y'| + |x| * |y' - y| := by rw [abs_mul, abs_mul]
    _ ≤ d * 1 + 1 * e := by
      have hd : 0 ≤ d := (abs_nonneg _).trans h1
      exact add_le_add (mul_le_mul h1 hy (abs_nonneg _) hd) (mul_le_mul hx h2 (abs_nonneg _) zero_le_one)
    _ = d + e := by ring

theorem cos_close (a b : ℝ) : |Real.cos a - Real.cos b| ≤ |a - b| := by
  have h := Real.abs_cos_sub_cos_le a b
  exact h

theorem sin_close (a b : ℝ) : |Real.sin a - Real.sin b| ≤ |a - b| := by
  have h := Real.abs_sin_sub_sin_le a b
  exact h

end BTA.Geo
