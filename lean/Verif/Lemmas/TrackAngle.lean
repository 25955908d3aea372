import Verif.Model.TrackAngle
import Verif.Lemmas.Geometry
import Mathlib.Tactic.Positivity
import Mathlib.Analysis.SpecialFunctions.Trigonometric.Inverse
/-
Lemmas about the track angles.
-/
namespace BTA.Angle
open BTA.Geo

/-- Length. -/
noncomputable def len (v : Vec3) : ℝ := Real.sqrt (dot v v)

theorem dot_self_nonneg (v : Vec3) : 0 ≤ dot v v := by
  unfold dot
  nlinarith [sq_nonneg (v 0), sq_nonneg (v 1), sq_nonneg (v 2)]

theorem len_sq (v : Vec3) : len v ^ 2 = dot v v := Real.sq_sqrt (dot_self_nonneg v)

theorem len_nonneg (v : Vec3) : 0 ≤ len v := Real.sqrt_nonneg _

theorem len_eq_zero (v : Vec3) : len v = 0 ↔ v 0 = 0 ∧ v 1 = 0 ∧ v 2 = 0 := by
  unfold len
  rw [Real.sqrt_eq_zero (dot_self_nonneg v)]
  unfold dot
  constructor
  · intro h
    have h0 := sq_nonneg (v 0)
    have h1 := sq_nonneg (v 1)
    have h2 := sq_nonneg (v 2)
    refine ⟨?_, ?_, ?_⟩ <;> apply pow_eq_zero_iff (two_ne_zero) |>.mp <;> nlinarith
  · rintro ⟨h0, h1, h2⟩
    rw [h0, h1, h2]
    ring

theorem normalize_some (v : Vec3) (h : len v ≠ 0) : normalize v = some ((len v)⁻¹ • v) := by
  unfold normalize
  exact if_neg h

theorem normalize_none (v : Vec3) (h : len v = 0) : normalize v = none := by
  unfold normalize
  exact if_pos h

theorem len_positiveZ (s : Vec3) : len (positiveZ s) = len s := by
  unfold len
  congr 1
  simp [dot, positiveZ]

/-- Length of two components. -/
noncomputable def len2 (a b : ℝ) : ℝ := Real.sqrt (a ^ 2 + b ^ 2)

theorem len2_sq (a b : ℝ) : len2 a b ^ 2 = a ^ 2 + b ^ 2 := Real.sq_sqrt (by positivity)

theorem len2_eq_zero (a b : ℝ) : len2 a b = 0 ↔ a = 0 ∧ b = 0 := by
  unfold len2
  rw [Real.sqrt_eq_zero (by positivity)]
  constructor
  · intro h
    constructor <;> apply pow_eq_zero_iff (two_ne_zero) |>.mp <;> nlinarith [sq_nonneg a, sq_nonneg b]
  · rintro ⟨rfl, rfl⟩; ring

theorem len2_pos (a b : ℝ) (h : a ≠ 0 ∨ b ≠ 0) : 0 < len2 a b := by
  refine lt_of_le_of_ne (Real.sqrt_nonneg _) fun h0 => ?_
  have := (len2_eq_zero a b).mp h0.symm
  tauto

/-- Cosine and sine of `arctan2`. -/
theorem arctan2_spec (y x : ℝ) (h : y ≠ 0 ∨ x ≠ 0) :
    Real.cos (arctan2 y x) * len2 y x = x ∧ Real.sin (arctan2 y x) * len2 y x = y := by
  have hp := len2_pos y x h
  have hne : len2 y x ≠ 0 := hp.ne'
  have h1 : (x / len2 y x) ^ 2 + (y / len2 y x) ^ 2 = 1 := by
    rw [div_pow, div_pow, ← add_div, len2_sq, add_comm (x ^ 2), div_self]
    rw [← len2_sq]
    positivity
  rw [← arctan2_div (y := y) (x := x) hp, cos_arctan2 h1, sin_arctan2 h1]
  exact ⟨div_mul_cancel₀ _ hne, div_mul_cancel₀ _ hne⟩

theorem arctan2_range (y x : ℝ) (hx : 0 ≤ x) : -(Real.pi / 2) ≤ arctan2 y x ∧ arctan2 y x ≤ Real.pi / 2 := by
  unfold arctan2
  have := Complex.abs_arg_le_pi_div_two_iff (z := ⟨x, y⟩)
  exact abs_le.mp (this.mpr hx)

theorem arctan2_neg (y x : ℝ) (hx : 0 < x) : arctan2 (-y) x = -arctan2 y x := by
  have h1 := arctan2_range y x hx.le
  have h2 := arctan2_range (-y) x hx.le
  obtain ⟨c1, s1⟩ := arctan2_spec y x (.inr hx.ne')
  obtain ⟨c2, s2⟩ := arctan2_spec (-y) x (.inr hx.ne')
  have hl : len2 (-y) x = len2 y x := by unfold len2; rw [neg_sq]
  rw [hl] at s2
  have hp := len2_pos y x (.inr hx.ne')
  have : Real.sin (arctan2 (-y) x) = Real.sin (-arctan2 y x) := by
    rw [Real.sin_neg]
    have : (Real.sin (arctan2 (-y) x) + Real.sin (arctan2 y x)) * len2 y x = 0 := by rw [add_mul, s1, s2]; ring
    rcases mul_eq_zero.mp this with h | h
    · linarith
    · exact absurd h hp.ne'
  exact Real.injOn_sin ⟨h2.1, h2.2⟩ ⟨by linarith, by linarith⟩ this

theorem arctan2_zero (x : ℝ) (hx : 0 < x) : arctan2 0 x = 0 := by
  have := arctan2_neg 0 x hx
  rw [neg_zero] at this
  linarith

theorem arctan2_eq_zero (y x : ℝ) (hx : 0 < x) (h : arctan2 y x = 0) : y = 0 := by
  obtain ⟨-, s1⟩ := arctan2_spec y x (.inr hx.ne')
  rw [h, Real.sin_zero, zero_mul] at s1
  exact s1.symm

/-- The angles in terms of the components. -/
theorem trackAngles_none (s : Vec3) (h : len s = 0) : trackAngles s = ⟨none, none, none⟩ := by
  unfold trackAngles getAngles
  rw [normalize_none _ (by rw [len_positiveZ]; exact h)]

theorem project_yz (s : Vec3) : project ![1, 0, 0] s = ![0, s 1, s 2] := by
  ext i
  fin_cases i <;> simp [project, dot]

theorem project_xz (s : Vec3) : project ![0, 1, 0] s = ![s 0, 0, s 2] := by
  ext i
  fin_cases i <;> simp [project, dot]

theorem len_yz (b c : ℝ) : len ![0, b, c] = len2 b c := by
  unfold len len2
  congr 1
  simp [dot]
  ring

theorem len_xz (a c : ℝ) : len ![a, 0, c] = len2 a c := by
  unfold len len2
  congr 1
  simp [dot]
  ring

theorem len2_mul (k a b : ℝ) (hk : 0 ≤ k) : len2 (k * a) (k * b) = k * len2 a b := by
  unfold len2
  rw [mul_pow, mul_pow, ← mul_add, Real.sqrt_mul (sq_nonneg k), Real.sqrt_sq hk]

theorem arctan2_mul (k y x : ℝ) (hk : 0 < k) : arctan2 (k * y) (k * x) = arctan2 y x := by
  have := arctan2_div (y := k * y) (x := k * x) hk
  rw [mul_div_cancel_left₀ _ hk.ne', mul_div_cancel_left₀ _ hk.ne'] at this
  exact this.symm

theorem trackAngles_total (s : Vec3) (h : len s ≠ 0) : (trackAngles s).total = some (Real.arccos (|s 2| / len s)) := by
  unfold trackAngles getAngles
  rw [normalize_some _ (by rw [len_positiveZ]; exact h), len_positiveZ]
  simp [dot, positiveZ]
  congr 1
  ring

theorem trackAngles_alpha (s : Vec3) (h : s 1 ≠ 0 ∨ s 2 ≠ 0) : (trackAngles s).alpha = some (arctan2 (s 1) |s 2|) := by
  have h0 : len s ≠ 0 := fun h0 => by
    have := (len_eq_zero s).mp h0
    tauto
  have hp : 0 < (len s)⁻¹ := inv_pos.mpr (lt_of_le_of_ne (len_nonneg s) (Ne.symm h0))
  unfold trackAngles getAngles
  rw [normalize_some _ (by rw [len_positiveZ]; exact h0), len_positiveZ]
  dsimp only
  rw [project_yz ((len s)⁻¹ • positiveZ s)]
  have e1 : ((len s)⁻¹ • positiveZ s) 1 = (len s)⁻¹ * s 1 := by simp [positiveZ]
  have e2 : ((len s)⁻¹ • positiveZ s) 2 = (len s)⁻¹ * |s 2| := by simp [positiveZ]
  rw [e1, e2]
  have hl := len2_pos (s 1) |s 2| (by simpa using h)
  rw [normalize_some _ (by rw [len_yz, len2_mul _ _ _ hp.le]; positivity), Option.map_some, len_yz, len2_mul _ _ _ hp.le]
  congr 1
  unfold planeAngle
  rw [project_yz]
  have e3 : dot ![1, 0, 0] (planeNormal (((len s)⁻¹ * len2 (s 1) |s 2|)⁻¹ • ![0, (len s)⁻¹ * s 1, (len s)⁻¹ * |s 2|])
      ![0, (![0, 0, 1] : Vec3) 1, (![0, 0, 1] : Vec3) 2]) = (((len s)⁻¹ * len2 (s 1) |s 2|)⁻¹ * (len s)⁻¹) * s 1 := by
    simp [dot, planeNormal]
    ring
  have e4 : dot ![0, (![0, 0, 1] : Vec3) 1, (![0, 0, 1] : Vec3) 2]
      (((len s)⁻¹ * len2 (s 1) |s 2|)⁻¹ • ![0, (len s)⁻¹ * s 1, (len s)⁻¹ * |s 2|]) =
      (((len s)⁻¹ * len2 (s 1) |s 2|)⁻¹ * (len s)⁻¹) * |s 2| := by
    simp [dot]
    ring
  rw [e3, e4, arctan2_mul]
  positivity

theorem trackAngles_beta (s : Vec3) (h : s 0 ≠ 0 ∨ s 2 ≠ 0) : (trackAngles s).beta = some (arctan2 (-s 0) |s 2|) := by
  have h0 : len s ≠ 0 := fun h0 => by
    have := (len_eq_zero s).mp h0
    tauto
  have hp : 0 < (len s)⁻¹ := inv_pos.mpr (lt_of_le_of_ne (len_nonneg s) (Ne.symm h0))
  unfold trackAngles getAngles
  rw [normalize_some _ (by rw [len_positiveZ]; exact h0), len_positiveZ]
  dsimp only
  rw [project_xz ((len s)⁻¹ • positiveZ s)]
  have e1 : ((len s)⁻¹ • positiveZ s) 0 = (len s)⁻¹ * s 0 := by simp [positiveZ]
  have e2 : ((len s)⁻¹ • positiveZ s) 2 = (len s)⁻¹ * |s 2| := by simp [positiveZ]
  rw [e1, e2]
  have hl := len2_pos (s 0) |s 2| (by simpa using h)
  rw [normalize_some _ (by rw [len_xz, len2_mul _ _ _ hp.le]; positivity), Option.map_some, len_xz, len2_mul _ _ _ hp.le]
  congr 1
  unfold planeAngle
  rw [project_xz]
  have e3 : dot ![0, 1, 0] (planeNormal (((len s)⁻¹ * len2 (s 0) |s 2|)⁻¹ • ![(len s)⁻¹ * s 0, 0, (len s)⁻¹ * |s 2|])
      ![(![0, 0, 1] : Vec3) 0, 0, (![0, 0, 1] : Vec3) 2]) = (((len s)⁻¹ * len2 (s 0) |s 2|)⁻¹ * (len s)⁻¹) * (-s 0) := by
    simp [dot, planeNormal]
    ring
  have e4 : dot ![(![0, 0, 1] : Vec3) 0, 0, (![0, 0, 1] : Vec3) 2]
      (((len s)⁻¹ * len2 (s 0) |s 2|)⁻¹ • ![(len s)⁻¹ * s 0, 0, (len s)⁻¹ * |s 2|]) =
      (((len s)⁻¹ * len2 (s 0) |s 2|)⁻¹ * (len s)⁻¹) * |s 2| := by
    simp [dot]
    ring
  rw [e3, e4, arctan2_mul]
  positivity

theorem trackAngles_alpha_none (s : Vec3) (h1 : s 1 = 0) (h2 : s 2 = 0) : (trackAngles s).alpha = none := by
  by_cases h0 : len s = 0
  · rw [trackAngles_none s h0]
  · unfold trackAngles getAngles
    rw [normalize_some _ (by rw [len_positiveZ]; exact h0)]
    dsimp only
    rw [project_yz (_ • positiveZ s), normalize_none]
    · rfl
    · rw [len_yz, len2_eq_zero]
      simp [positiveZ, h1, h2]

theorem trackAngles_beta_none (s : Vec3) (h1 : s 0 = 0) (h2 : s 2 = 0) : (trackAngles s).beta = none := by
  by_cases h0 : len s = 0
  · rw [trackAngles_none s h0]
  · unfold trackAngles getAngles
    rw [normalize_some _ (by rw [len_positiveZ]; exact h0)]
    dsimp only
    rw [project_xz (_ • positiveZ s), normalize_none]
    · rfl
    · rw [len_xz, len2_eq_zero]
      simp [positiveZ, h1, h2]

end BTA.Angle
