import Verif.Lemmas.Geometry
import Mathlib.Tactic.Linarith
/-
Properties of the coordinate transformations, beam_telescope_analysis/tools/geometry_utils.py and telescope/dut.py: C30, C31, C32,
C33, C63, C64. Floating point numbers are real numbers.
-/
namespace BTA.Props
open BTA.Geo BTA.Dut BTA.Spec

/-! ### C31 -/

/-- C31: every rotation matrix is a proper rotation. -/
theorem C31_proper (alpha beta gamma : ℝ) : Proper (rotationMatrix alpha beta gamma) :=
  ⟨rotationMatrix_orth alpha beta gamma, rotationMatrix_det alpha beta gamma⟩

/-- C31: the rotation is right handed and the order is x, y, z: for a single angle, the unit vectors are turned as in the plane. -/
theorem C31_axes (t : ℝ) :
    (rotationMatrix t 0 0).mulVec ![0, 1, 0] = ![0, Real.cos t, Real.sin t] ∧
    (rotationMatrix 0 t 0).mulVec ![0, 0, 1] = ![Real.sin t, 0, Real.cos t] ∧
    (rotationMatrix 0 0 t).mulVec ![1, 0, 0] = ![Real.cos t, Real.sin t, 0] := by
  refine ⟨?_, ?_, ?_⟩ <;> ext i <;> fin_cases i <;> simp [rotationMatrix_eq, Matrix.mulVec, dotProduct, Fin.sum_univ_succ]

/-- C31: a rotation around all axes is the rotation around x followed by the one around y followed by the one around z. -/
theorem C31_order (alpha beta gamma : ℝ) (p : Vec3) :
    (rotationMatrix alpha beta gamma).mulVec p =
      (rotationMatrix 0 0 gamma).mulVec ((rotationMatrix 0 beta 0).mulVec ((rotationMatrix alpha 0 0).mulVec p)) := by
  rw [Matrix.mulVec_mulVec, Matrix.mulVec_mulVec]
  congr 1
  ext i j
  fin_cases i <;> fin_cases j <;> simp [rotationMatrix_eq, Matrix.mul_apply, Fin.sum_univ_succ] <;> ring

theorem dot_mulVec_orth (R : Mat3) (h : R.transpose * R = 1) (u v : Vec3) : dot (R.mulVec u) (R.mulVec v) = dot u v := by
  have e : ∀ a b : Vec3, dot a b = a ⬝ᵥ b := by intro a b; simp [dot, dotProduct, Fin.sum_univ_succ]; ring
  rw [e, e, Matrix.dotProduct_mulVec, ← Matrix.mulVec_transpose, Matrix.mulVec_mulVec, h, Matrix.one_mulVec]

/-- C31: the transformation from local to global coordinates keeps scalar products of differences, so distances and angles. -/
theorem C31_isometry (a : Alignment) (o : Override) (p q r s : Vec3) (out : List Vec3)
    (h : localToGlobal a o [p, q, r, s] = .ok out) :
    ∃ p' q' r' s', out = [p', q', r', s'] ∧ dot (p' - q') (r' - s') = dot (p - q) (r - s) ∧ dist2 p' q' = dist2 p q := by
  unfold localToGlobal at h
  split at h
  · cases h
  · injection h with h
    refine ⟨_, _, _, _, h.symm, ?_, ?_⟩
    · rw [apply_localToGlobal, apply_localToGlobal, apply_localToGlobal, apply_localToGlobal, add_sub_add_right_eq_sub,
        add_sub_add_right_eq_sub, ← Matrix.mulVec_sub, ← Matrix.mulVec_sub, dot_mulVec_orth _ (rotationMatrix_orth _ _ _)]
    · have hd : ∀ u v : Vec3, dist2 u v = dot (u - v) (u - v) := by intro u v; simp [dist2, dot]; ring
      rw [hd, hd, apply_localToGlobal, apply_localToGlobal, add_sub_add_right_eq_sub, ← Matrix.mulVec_sub,
        dot_mulVec_orth _ (rotationMatrix_orth _ _ _)]

example : ∃ out, localToGlobal ⟨1, 2, 3, 0.1, 0.2, 0.3⟩ {} [![1, 2, 0], ![3, 4, 0], ![5, 6, 0], ![7, 8, 0]] = .ok out :=
  ⟨_, by unfold localToGlobal; rw [if_neg]; simp [Override.none?, zClose]⟩

/-! ### C30 -/

theorem map_map_id {α : Type} (f g : α → α) (h : ∀ x, g (f x) = x) (l : List α) : (l.map f).map g = l := by
  rw [List.map_map]
  conv_rhs => rw [← List.map_id l]
  exact List.map_congr_left fun x _ => h x

/-- C30: transforming local positions to global ones and back gives the same positions. -/
theorem C30_there_and_back (a : Alignment) (o : Override) (pos out : List Vec3) (h : localToGlobal a o pos = .ok out) :
    globalToLocal a o out = .ok pos := by
  unfold localToGlobal at h
  split at h
  · cases h
  · rename_i hz
    injection h with h
    subst h
    unfold globalToLocal
    simp only [map_map_id _ _ (global_local _ _ _ _ _ _) pos]
    rw [if_neg hz]

/-- C30: transforming global positions to local ones and back gives the same positions. -/
theorem C30_back_and_there (a : Alignment) (o : Override) (pos out : List Vec3) (h : globalToLocal a o pos = .ok out) :
    localToGlobal a o out = .ok pos := by
  unfold globalToLocal at h
  simp only at h
  split at h
  · cases h
  · rename_i hz
    injection h with h
    subst h
    unfold localToGlobal
    rw [if_neg hz]
    simp only [map_map_id _ _ (local_global _ _ _ _ _ _) pos]

/-- C30: the formula: rotation, then translation; the parameters which are given replace the ones of the DUT. -/
theorem C30_formula (a : Alignment) (o : Override) (pos out : List Vec3) (h : localToGlobal a o pos = .ok out) :
    out = pos.map fun p => (rotationMatrix (o.alpha.getD a.alpha) (o.beta.getD a.beta) (o.gamma.getD a.gamma)).mulVec p +
      ![o.x.getD a.x, o.y.getD a.y, o.z.getD a.z] := by
  unfold localToGlobal at h
  split at h
  · cases h
  · injection h with h
    rw [← h]
    exact List.map_congr_left fun p _ => apply_localToGlobal _ _ _ _ _ _ _

/-- C30: a RuntimeError is raised exactly if no parameter is given and a local position is not on the sensor plane (tolerance
1e-8). -/
theorem C30_error_iff (a : Alignment) (o : Override) (pos : List Vec3) (e : Err) :
    localToGlobal a o pos = .error e ↔
      e = .zNotZero ∧ (o.x = none ∧ o.y = none ∧ o.z = none ∧ o.alpha = none ∧ o.beta = none ∧ o.gamma = none) ∧
      ∃ p ∈ pos, 1 / 10 ^ 8 < |p 2| := by
  unfold localToGlobal
  split
  · rename_i hz
    simp [Override.none?, zClose] at hz
    constructor
    · intro h
      injection h with h
      refine ⟨h.symm, by tauto, ?_⟩
      obtain ⟨_, p, hp, h2⟩ := hz
      exact ⟨p, hp, by simpa using h2⟩
    · rintro ⟨rfl, _⟩
      rfl
  · rename_i hz
    simp only [reduceCtorEq, false_iff]
    rintro ⟨_, ho, p, hp, h2⟩
    apply hz
    simp [Override.none?, zClose, ho]
    exact ⟨p, hp, by simpa using h2⟩

/-- C30: the same for global positions: a RuntimeError is raised exactly if no parameter is given and a position is not on the sensor
plane. -/
theorem C30_global_error_iff (a : Alignment) (o : Override) (pos : List Vec3) (e : Err) :
    globalToLocal a o pos = .error e ↔
      e = .zNotZero ∧ (o.x = none ∧ o.y = none ∧ o.z = none ∧ o.alpha = none ∧ o.beta = none ∧ o.gamma = none) ∧
      ∃ p ∈ pos, 1 / 10 ^ 8 < |((rotationMatrix a.alpha a.beta a.gamma).transpose.mulVec (p - ![a.x, a.y, a.z])) 2| := by
  unfold globalToLocal
  simp only
  split
  · rename_i hz
    simp [Override.none?, zClose] at hz
    obtain ⟨ho, p, hp, h2⟩ := hz
    constructor
    · intro h
      injection h with h
      refine ⟨h.symm, by tauto, p, hp, ?_⟩
      simp [Override.on, ho] at h2
      rw [apply_globalToLocal] at h2
      simpa using h2
    · rintro ⟨rfl, _⟩
      rfl
  · rename_i hz
    simp only [reduceCtorEq, false_iff]
    rintro ⟨_, ho, p, hp, h2⟩
    apply hz
    simp [Override.none?, zClose, ho]
    refine ⟨p, hp, ?_⟩
    simp [Override.on, ho]
    rw [apply_globalToLocal]
    simpa using h2

example : ∃ out, localToGlobal ⟨1, 2, 3, 0.1, 0.2, 0.3⟩ { x := some 0 } [![1, 2, 5]] = .ok out :=
  ⟨_, by unfold localToGlobal; rw [if_neg]; simp [Override.none?, zClose]⟩

/-! ### C32 -/

/-- C32: for every proper rotation which is not at the gimbal lock, `euler_angles` returns angles which are equal to angles of the
rotation, except that angles of at most `eps` (2.2e-16) are set to zero.

What is missing for the full statement: `C32_gimbal_lock`. -/
theorem C32_partial (R : Mat3) (h : Proper R) (h1 : R 2 0 ≠ 1) (h2 : R 2 0 ≠ -1) :
    ∃ alpha beta gamma alpha' beta' gamma' : ℝ,
      rotationMatrix alpha beta gamma = R ∧ eulerAngles R = .angles alpha' beta' gamma' ∧
      (alpha' = alpha ∨ alpha' = 0 ∧ |alpha| ≤ eps) ∧ (beta' = beta ∨ beta' = 0 ∧ |beta| ≤ eps) ∧
      (gamma' = gamma ∨ gamma' = 0 ∧ |gamma| ≤ eps) := by
  have hlt : R 2 0 ^ 2 < 1 := by
    obtain ⟨r1, -, -, -⟩ := proper_rows h
    have hle : R 2 0 ^ 2 ≤ 1 := by nlinarith [sq_nonneg (R 0 0), sq_nonneg (R 1 0)]
    refine lt_of_le_of_ne hle ?_
    intro h0
    have : (R 2 0 - 1) * (R 2 0 + 1) = 0 := by linear_combination h0
    rcases mul_eq_zero.mp this with h0 | h0
    · exact h1 (by linarith)
    · exact h2 (by linarith)
  have hs : ∀ t : ℝ, snap t = t ∨ snap t = 0 ∧ |t| ≤ eps := by
    intro t
    unfold snap
    split
    · rename_i h; exact .inr ⟨rfl, abs_le.mpr ⟨h.2, h.1⟩⟩
    · exact .inl rfl
  exact ⟨_, _, _, _, _, _, rotationMatrix_exact R h hlt, eulerAngles_eq R h.orth hlt, hs _, hs _, hs _⟩

/-- C32: the rotation of the returned angles agrees with the given one up to rounding. -/
theorem C32_close_partial (R : Mat3) (h : Proper R) (h1 : R 2 0 ≠ 1) (h2 : R 2 0 ≠ -1) :
    ∃ alpha beta gamma : ℝ, eulerAngles R = .angles alpha beta gamma ∧
      ∀ i j, |rotationMatrix alpha beta gamma i j - R i j| ≤ 5 * eps := by
  obtain ⟨a, b, c, a', b', c', hR, hE, ha, hb, hc⟩ := C32_partial R h h1 h2
  have hd : ∀ t t' : ℝ, (t' = t ∨ t' = 0 ∧ |t| ≤ eps) → |t' - t| ≤ eps := by
    rintro t t' (rfl | ⟨rfl, h⟩)
    · simp [eps_pos.le]
    · simpa using h
  refine ⟨a', b', c', hE, fun i j => ?_⟩
  have ca := (cos_close a' a).trans (hd _ _ ha)
  have cb := (cos_close b' b).trans (hd _ _ hb)
  have cc := (cos_close c' c).trans (hd _ _ hc)
  have sa := (sin_close a' a).trans (hd _ _ ha)
  have sb := (sin_close b' b).trans (hd _ _ hb)
  have sc := (sin_close c' c).trans (hd _ _ hc)
  have bc := fun t => Real.abs_cos_le_one t
  have bs := fun t => Real.abs_sin_le_one t
  have one : ∀ x y : ℝ, |x| ≤ 1 → |y| ≤ 1 → |x * y| ≤ 1 := fun x y hx hy => by
    rw [abs_mul]; exact mul_le_one₀ hx (abs_nonneg _) hy
  have e0 := eps_pos
  rw [← hR, rotationMatrix_eq, rotationMatrix_eq]
  have two : ∀ x y x' y' d e : ℝ, |x' - x| ≤ d → |y' - y| ≤ e → |(x' + y') - (x + y)| ≤ d + e := by
    intro x y x' y' d e h h'
    have : (x' + y') - (x + y) = (x' - x) + (y' - y) := by ring
    rw [this]
    exact (abs_add_le _ _).trans (add_le_add h h')
  have twos : ∀ x y x' y' d e : ℝ, |x' - x| ≤ d → |y' - y| ≤ e → |(x' - y') - (x - y)| ≤ d + e := by
    intro x y x' y' d e h h'
    have : (x' - y') - (x - y) = (x' - x) + -(y' - y) := by ring
    rw [this]
    exact (abs_add_le _ _).trans (add_le_add h (by rw [abs_neg]; exact h'))
  fin_cases i <;> fin_cases j <;> simp only [Fin.mk_one, Fin.zero_eta, Fin.reduceFinMk, Matrix.of_apply, Matrix.cons_val]
  · exact (mul_close cc cb (bc _) (bc _)).trans (by linarith)
  · exact (twos _ _ _ _ _ _ (mul_close (mul_close cc sb (bc _) (bs _)) sa (one _ _ (bc _) (bs _)) (bs _))
      (mul_close sc ca (bs _) (bc _))).trans (by linarith)
  · exact (two _ _ _ _ _ _ (mul_close (mul_close cc sb (bc _) (bs _)) ca (one _ _ (bc _) (bs _)) (bc _))
      (mul_close sc sa (bs _) (bs _))).trans (by linarith)
  · exact (mul_close sc cb (bs _) (bc _)).trans (by linarith)
  · exact (two _ _ _ _ _ _ (mul_close (mul_close sc sb (bs _) (bs _)) sa (one _ _ (bs _) (bs _)) (bs _))
      (mul_close cc ca (bc _) (bc _))).trans (by linarith)
  · exact (twos _ _ _ _ _ _ (mul_close (mul_close sc sb (bs _) (bs _)) ca (one _ _ (bs _) (bs _)) (bc _))
      (mul_close cc sa (bc _) (bs _))).trans (by linarith)
  · rw [show ∀ x y : ℝ, -x - -y = -(x - y) by intros; ring, abs_neg]
    exact sb.trans (by linarith)
  · exact (mul_close cb sa (bc _) (bs _)).trans (by linarith)
  · exact (mul_close cb ca (bc _) (bc _)).trans (by linarith)

/-- C32: for angles in the principal range, `euler_angles` returns the angles the rotation is made of. -/
theorem C32_angles (alpha beta gamma : ℝ) (ha : alpha ∈ Set.Ioc (-Real.pi) Real.pi) (hg : gamma ∈ Set.Ioc (-Real.pi) Real.pi)
    (hb : beta ∈ Set.Ioo (-(Real.pi / 2)) (Real.pi / 2)) (h0 : ∀ t ∈ [alpha, beta, gamma], t = 0 ∨ eps < |t|) :
    eulerAngles (rotationMatrix alpha beta gamma) = .angles alpha beta gamma := by
  have hc : 0 < Real.cos beta := Real.cos_pos_of_mem_Ioo hb
  have e20 : rotationMatrix alpha beta gamma 2 0 = -Real.sin beta := by rw [rotationMatrix_eq]; rfl
  have e21 : rotationMatrix alpha beta gamma 2 1 = Real.cos beta * Real.sin alpha := by rw [rotationMatrix_eq]; rfl
  have e22 : rotationMatrix alpha beta gamma 2 2 = Real.cos beta * Real.cos alpha := by rw [rotationMatrix_eq]; rfl
  have e10 : rotationMatrix alpha beta gamma 1 0 = Real.sin gamma * Real.cos beta := by rw [rotationMatrix_eq]; rfl
  have e00 : rotationMatrix alpha beta gamma 0 0 = Real.cos gamma * Real.cos beta := by rw [rotationMatrix_eq]; rfl
  have hlt : (rotationMatrix alpha beta gamma) 2 0 ^ 2 < 1 := by
    rw [e20]
    have := cs beta
    nlinarith [pow_pos hc 2]
  have harg : ∀ t ∈ Set.Ioc (-Real.pi) Real.pi, arctan2 (Real.cos beta * Real.sin t) (Real.cos beta * Real.cos t) = t := by
    intro t ht
    unfold arctan2
    have : (⟨Real.cos beta * Real.cos t, Real.cos beta * Real.sin t⟩ : ℂ) =
        (Real.cos beta : ℂ) * (Complex.cos t + Complex.sin t * Complex.I) := by
      apply Complex.ext <;> simp [← Complex.ofReal_cos, ← Complex.ofReal_sin]
    rw [this, Complex.arg_mul_cos_add_sin_mul_I hc ht]
  rw [eulerAngles_eq _ (rotationMatrix_orth _ _ _) hlt, e20, e21, e22, e10, e00, harg alpha ha, mul_comm (Real.sin gamma),
    mul_comm (Real.cos gamma), harg gamma hg, Real.arcsin_neg, neg_neg, Real.arcsin_sin hb.1.le hb.2.le,
    snap_eq alpha (h0 _ (by simp)), snap_eq beta (h0 _ (by simp)), snap_eq gamma (h0 _ (by simp))]

/-- C32: at the gimbal lock, so for every rotation by beta = 90 degrees, the statement is false: the result is not set and an exception
is raised. -/
theorem C32_gimbal_lock (R : Mat3) (h : Proper R) (h1 : R 2 0 = 1 ∨ R 2 0 = -1) : eulerAngles R = .unbound := by
  unfold eulerAngles
  rw [if_neg (not_not.mpr (isRotationMatrix_of R h.orth))]
  rcases h1 with h1 | h1
  · rw [if_neg (by rw [h1]; norm_num), if_pos h1]
  · rw [if_pos h1]

example (alpha gamma : ℝ) : eulerAngles (rotationMatrix alpha (Real.pi / 2) gamma) = .unbound :=
  C32_gimbal_lock _ (C31_proper _ _ _) (.inr (by rw [rotationMatrix_eq]; simp))

/-- C32: an orthogonal matrix which is a reflection is not refused, and the returned angles are then the ones of another matrix. -/
theorem C32_reflection : ∃ R : Mat3, R.det = -1 ∧ ∃ alpha beta gamma : ℝ, eulerAngles R = .angles alpha beta gamma ∧
    rotationMatrix alpha beta gamma ≠ R := by
  let R : Mat3 := !![1, 0, 0; 0, 1, 0; 0, 0, -1]
  have ho : R.transpose * R = 1 := by
    ext i j
    fin_cases i <;> fin_cases j <;> simp [R, Matrix.mul_apply, Fin.sum_univ_succ]
  have hdet : R.det = -1 := by simp [R, Matrix.det_fin_three]
  refine ⟨R, hdet, _, _, _, eulerAngles_eq R ho (by simp [R]), fun h => ?_⟩
  have := rotationMatrix_det (snap (arctan2 (R 2 1) (R 2 2))) (snap (-Real.arcsin (R 2 0))) (snap (arctan2 (R 1 0) (R 0 0)))
  rw [h, hdet] at this
  norm_num at this

/-- The hypotheses of `C32_partial` are met by every rotation with beta between -90 and 90 degrees. -/
example : ∃ R : Mat3, Proper R ∧ R 2 0 ≠ 1 ∧ R 2 0 ≠ -1 ∧ R ≠ 1 :=
  ⟨rotationMatrix (Real.pi / 2) 0 0, C31_proper _ _ _, by rw [rotationMatrix_eq]; simp, by rw [rotationMatrix_eq]; simp, by
    intro h
    have := congrFun (congrFun h 1) 1
    rw [rotationMatrix_eq] at this
    simp at this⟩

/-! ### C33 -/

/-- C33: every returned point is on its line and on the plane, and it is the only such point. -/
theorem C33_intersection (lines : List (Vec3 × Vec3)) (position normal : Vec3) (out : List Vec3)
    (h : intersectPlane lines position normal = some out) :
    out.length = lines.length ∧ ∀ (i : Nat) (l : Vec3 × Vec3) (p : Vec3), lines[i]? = some l → out[i]? = some p →
      OnLine l.1 l.2 p ∧ OnPlane position normal p ∧ ∀ q, OnLine l.1 l.2 q → OnPlane position normal q → q = p := by
  unfold intersectPlane at h
  split at h
  · cases h
  · rename_i hany
    injection h with h
    subst h
    refine ⟨by simp, fun i l p hl hp => ?_⟩
    rw [List.getElem?_map, hl] at hp
    simp only [Option.map_some, Option.some.injEq] at hp
    have hne : dot normal l.2 ≠ 0 := by
      intro h0
      apply hany
      rw [List.any_eq_true]
      exact ⟨l, List.mem_of_getElem? hl, by simpa using h0⟩
    have key : ∀ t : ℝ, dot normal (l.1 + t • l.2 - position) = t * dot normal l.2 - dot normal (position - l.1) := by
      intro t
      simp [dot]
      ring
    refine ⟨⟨_, hp.symm⟩, ?_, ?_⟩
    · unfold OnPlane
      rw [← hp, key, div_mul_cancel₀ _ hne, sub_self]
    · rintro q ⟨t, rfl⟩ hq
      unfold OnPlane at hq
      rw [key] at hq
      rw [← hp]
      congr 2
      rw [eq_div_iff hne]
      linarith

/-- C33: an exception is raised exactly if one of the lines is parallel to the plane. -/
theorem C33_raises_iff (lines : List (Vec3 × Vec3)) (position normal : Vec3) :
    intersectPlane lines position normal = none ↔ ∃ l ∈ lines, dot normal l.2 = 0 := by
  unfold intersectPlane
  split
  · rename_i h
    rw [List.any_eq_true] at h
    simpa using h
  · rename_i h
    rw [List.any_eq_true] at h
    simpa using h

/-- C33: one line which is parallel to the plane is enough that no intersection is returned, though the documentation promises NaN for
this line only. -/
theorem C33_one_parallel (lines lines' : List (Vec3 × Vec3)) (position normal origin direction : Vec3) (h : dot normal direction = 0) :
    intersectPlane (lines ++ (origin, direction) :: lines') position normal = none :=
  (C33_raises_iff _ _ _).mpr ⟨(origin, direction), by simp, h⟩

theorem dutNormal_eq (alpha beta gamma : ℝ) :
    dutNormal alpha beta gamma = (fun i => rotationMatrix alpha beta gamma i 2) ∨
    dutNormal alpha beta gamma = -(fun i => rotationMatrix alpha beta gamma i 2) := by
  have hn : dot (fun i => rotationMatrix alpha beta gamma i 2) (fun i => rotationMatrix alpha beta gamma i 2) = 1 := by
    have := congrFun (congrFun (rotationMatrix_orth alpha beta gamma) 2) 2
    simp [Matrix.mul_apply, Fin.sum_univ_succ] at this
    unfold dot
    linear_combination this
  have hb : ((rotationMatrix alpha beta gamma).transpose * (1 : Mat3)) 2 = fun i => rotationMatrix alpha beta gamma i 2 := by
    rw [Matrix.mul_one]; rfl
  unfold dutNormal
  simp only [hb, hn, Real.sqrt_one, inv_one, one_smul]
  split
  · exact .inr rfl
  · exact .inl rfl

theorem onPlane_dut (a : Alignment) (p : Vec3) : OnPlane ![a.x, a.y, a.z] (dutNormal a.alpha a.beta a.gamma) p ↔
    ((rotationMatrix a.alpha a.beta a.gamma).transpose.mulVec (p - ![a.x, a.y, a.z])) 2 = 0 := by
  unfold OnPlane
  have : ((rotationMatrix a.alpha a.beta a.gamma).transpose.mulVec (p - ![a.x, a.y, a.z])) 2 =
      dot (fun i => rotationMatrix a.alpha a.beta a.gamma i 2) (p - ![a.x, a.y, a.z]) := by
    simp [Matrix.mulVec, dotProduct, Fin.sum_univ_succ, dot]
    ring
  rw [this]
  rcases dutNormal_eq a.alpha a.beta a.gamma with h | h <;> rw [h]
  have : ∀ u v : Vec3, dot (-u) v = -dot u v := by intro u v; simp [dot]; ring
  rw [this, neg_eq_zero]

/-- C33: the intersections with a DUT can be transformed to the local coordinates of the DUT, their local z is zero, and each is the
only point of its line with this property. -/
theorem C33_dut (a : Alignment) (lines : List (Vec3 × Vec3)) (out : List Vec3)
    (h : intersectDut lines a.x a.y a.z a.alpha a.beta a.gamma = some out) :
    (∃ loc, globalToLocal a {} out = .ok loc ∧ ∀ p ∈ loc, p 2 = 0) ∧
      ∀ (i : Nat) (l : Vec3 × Vec3) (p : Vec3), lines[i]? = some l → out[i]? = some p → OnLine l.1 l.2 p ∧
        ∀ q r, OnLine l.1 l.2 q → globalToLocal a {} [q] = .ok [r] → r 2 = 0 → q = p := by
  obtain ⟨hlen, hi⟩ := C33_intersection _ _ _ _ h
  have hz : ∀ p ∈ out, ((rotationMatrix a.alpha a.beta a.gamma).transpose.mulVec (p - ![a.x, a.y, a.z])) 2 = 0 := by
    intro p hp
    obtain ⟨i, hlt, hp⟩ := List.mem_iff_getElem.mp hp
    exact (onPlane_dut a p).mp (hi i lines[i] p (List.getElem?_eq_getElem (hlen ▸ hlt)) (by rw [List.getElem?_eq_getElem hlt, hp])).2.1
  constructor
  · cases hg : globalToLocal a {} out with
    | error e =>
      obtain ⟨-, -, p, hp, h2⟩ := (C30_global_error_iff a {} out e).mp hg
      rw [hz p hp] at h2
      norm_num at h2
    | ok loc =>
      refine ⟨loc, rfl, fun p hp => ?_⟩
      unfold globalToLocal at hg
      simp only at hg
      split at hg
      · cases hg
      · injection hg with hg
        rw [← hg] at hp
        obtain ⟨q, hq, rfl⟩ := List.mem_map.mp hp
        rw [apply_globalToLocal]
        exact hz q hq
  · intro i l p hl hp
    obtain ⟨h1, h2, h3⟩ := hi i l p hl hp
    refine ⟨h1, fun q r hq hg hr => h3 q hq ((onPlane_dut a q).mpr ?_)⟩
    unfold globalToLocal at hg
    simp only at hg
    split at hg
    · cases hg
    · injection hg with hg
      simp only [List.map_cons, List.map_nil, List.cons.injEq, and_true] at hg
      rw [apply_globalToLocal] at hg
      rw [← hr, ← hg]
      rfl

/-- C33: no intersections with a DUT are returned exactly if one of the lines is parallel to the sensor, so if its direction is the
image of a direction without local z component. -/
theorem C33_dut_raises_iff (a : Alignment) (lines : List (Vec3 × Vec3)) :
    intersectDut lines a.x a.y a.z a.alpha a.beta a.gamma = none ↔
      ∃ l ∈ lines, ∃ u v : ℝ, l.2 = (rotationMatrix a.alpha a.beta a.gamma).mulVec ![u, v, 0] := by
  unfold intersectDut
  rw [C33_raises_iff]
  have key : ∀ d : Vec3, dot (dutNormal a.alpha a.beta a.gamma) d = 0 ↔
      ∃ u v : ℝ, d = (rotationMatrix a.alpha a.beta a.gamma).mulVec ![u, v, 0] := by
    intro d
    have h1 : dot (dutNormal a.alpha a.beta a.gamma) d = 0 ↔
        ((rotationMatrix a.alpha a.beta a.gamma).transpose.mulVec d) 2 = 0 := by
      have := onPlane_dut a (d + ![a.x, a.y, a.z])
      unfold OnPlane at this
      rwa [add_sub_cancel_right] at this
    rw [h1]
    constructor
    · intro h0
      refine ⟨((rotationMatrix a.alpha a.beta a.gamma).transpose.mulVec d) 0,
        ((rotationMatrix a.alpha a.beta a.gamma).transpose.mulVec d) 1, ?_⟩
      have : ![((rotationMatrix a.alpha a.beta a.gamma).transpose.mulVec d) 0,
          ((rotationMatrix a.alpha a.beta a.gamma).transpose.mulVec d) 1, 0] =
          (rotationMatrix a.alpha a.beta a.gamma).transpose.mulVec d := by
        ext i
        fin_cases i
        · rfl
        · rfl
        · exact h0.symm
      rw [this, Matrix.mulVec_mulVec, rotationMatrix_orth', Matrix.one_mulVec]
    · rintro ⟨u, v, rfl⟩
      rw [Matrix.mulVec_mulVec, rotationMatrix_orth, Matrix.one_mulVec]
      rfl
  simp only [key]

/-- A track along z and a DUT which is not rotated. -/
example : ∃ out, intersectDut [(![1, 2, 0], ![0, 0, 1])] 0 0 5 0 0 0 = some out := by
  rw [← Option.isSome_iff_exists, ← Option.ne_none_iff_isSome, Ne, C33_dut_raises_iff ⟨0, 0, 5, 0, 0, 0⟩]
  rintro ⟨l, hl, u, v, h⟩
  have := congrFun h 2
  simp only [List.mem_singleton] at hl
  subst hl
  simp [rotationMatrix_eq, Matrix.mulVec, dotProduct, Fin.sum_univ_succ] at this

/-! ### C63 -/

theorem spherical_spec (x y z : ℝ) (hx : x ≠ 0) :
    let p := cartesianToSpherical x y z
    (0 ≤ p.1 ∧ p.1 < 2 * Real.pi) ∧ (0 < p.2.1 ∧ p.2.1 < Real.pi) ∧ 0 < p.2.2 ∧
      p.2.2 * Real.cos p.1 * Real.sin p.2.1 = x ∧ p.2.2 * Real.sin p.1 * Real.sin p.2.1 = y ∧ p.2.2 * Real.cos p.2.1 = z := by
  have hxx : 0 < x ^ 2 + y ^ 2 := by
    have := pow_pos (abs_pos.mpr hx) 2
    rw [sq_abs] at this
    nlinarith [sq_nonneg y]
  have hS : 0 < x * x + y * y + z * z := by nlinarith [sq_nonneg z]
  set ρ := Real.sqrt (x ^ 2 + y ^ 2) with hρ
  have hρ0 : 0 < ρ := Real.sqrt_pos.mpr hxx
  have hρ2 : ρ ^ 2 = x ^ 2 + y ^ 2 := Real.sq_sqrt hxx.le
  set r := Real.sqrt (x * x + y * y + z * z) with hr
  have hr0 : 0 < r := Real.sqrt_pos.mpr hS
  have hr2 : r ^ 2 = x * x + y * y + z * z := Real.sq_sqrt hS.le
  have hlt : |z| < r := abs_lt_of_sq_lt_sq (by nlinarith) hr0.le
  have hz1 : -1 < z / r := by rw [lt_div_iff₀ hr0]; linarith [(abs_lt.mp hlt).1]
  have hz2 : z / r < 1 := by rw [div_lt_iff₀ hr0]; linarith [(abs_lt.mp hlt).2]
  have hnorm : ‖(⟨x, y⟩ : ℂ)‖ = ρ := Complex.norm_eq_sqrt_sq_add_sq _
  have hc : Real.cos (arctan2 y x) = x / ρ := by
    unfold arctan2
    rw [Complex.cos_arg (by intro h; exact hx (congrArg Complex.re h)), hnorm]
  have hs : Real.sin (arctan2 y x) = y / ρ := by
    unfold arctan2
    rw [Complex.sin_arg, hnorm]
  have hsth : Real.sin (Real.arccos (z / r)) = ρ / r := by
    rw [Real.sin_arccos, hρ, hr, ← Real.sqrt_div hxx.le, ← hr]
    congr 1
    field_simp
    rw [hr2]
    ring
  have hphi : ∃ phi, (cartesianToSpherical x y z).1 = phi ∧ (0 ≤ phi ∧ phi < 2 * Real.pi) ∧ Real.cos phi = x / ρ ∧
      Real.sin phi = y / ρ := by
    refine ⟨_, rfl, ?_⟩
    simp only [cartesianToSpherical, ne_eq, hx, not_false_eq_true, if_true]
    have h1 : -Real.pi < arctan2 y x := Complex.neg_pi_lt_arg _
    have h2 : arctan2 y x ≤ Real.pi := Complex.arg_le_pi _
    have hp := Real.pi_pos
    split
    · rw [Real.cos_add_two_pi, Real.sin_add_two_pi]
      exact ⟨⟨by linarith, by linarith⟩, hc, hs⟩
    · exact ⟨⟨by linarith, by linarith⟩, hc, hs⟩
  obtain ⟨phi, h1, h2, h3, h4⟩ := hphi
  have hr' : (cartesianToSpherical x y z).2.2 = r := rfl
  have hth : (cartesianToSpherical x y z).2.1 = Real.arccos (z / r) := by
    simp only [cartesianToSpherical]
    rw [if_pos hr0.ne']
  simp only [h1, hr', hth]
  refine ⟨h2, ⟨Real.arccos_pos.mpr hz2, ?_⟩, hr0, ?_, ?_, ?_⟩
  · refine lt_of_le_of_ne (Real.arccos_le_pi _) fun h => ?_
    rw [Real.arccos_eq_pi] at h
    linarith
  · rw [h3, hsth]; field_simp
  · rw [h4, hsth]; field_simp
  · rw [Real.cos_arccos hz1.le hz2.le]; field_simp

/-- C63: for points with x other than zero, the conversion to spherical coordinates and back gives the same points.

What is missing for the full statement: `C63_x_zero`, `C63_negative_z_axis`. -/
theorem C63_round_trip_partial (points : List (ℝ × ℝ × ℝ)) (h : ∀ p ∈ points, p.1 ≠ 0) :
    sphericalToCartesian (points.map fun p => cartesianToSpherical p.1 p.2.1 p.2.2) = some points := by
  unfold sphericalToCartesian
  rw [if_neg, if_neg, if_neg]
  · rw [List.map_map]
    congr 1
    conv_rhs => rw [← List.map_id points]
    refine List.map_congr_left fun p hp => ?_
    obtain ⟨-, -, -, h1, h2, h3⟩ := spherical_spec p.1 p.2.1 p.2.2 (h p hp)
    simp only [Function.comp, h1, h2, h3, id]
  · simp only [List.any_map, Bool.or_eq_true, List.any_eq_true, Function.comp, decide_eq_true_eq, not_or, not_exists, not_and, not_lt, not_le]
    exact ⟨fun p hp => (spherical_spec p.1 p.2.1 p.2.2 (h p hp)).1.1, fun p hp => (spherical_spec p.1 p.2.1 p.2.2 (h p hp)).1.2⟩
  · simp only [List.any_map, Bool.or_eq_true, List.any_eq_true, Function.comp, decide_eq_true_eq, not_or, not_exists, not_and, not_lt, not_le]
    exact ⟨fun p hp => (spherical_spec p.1 p.2.1 p.2.2 (h p hp)).2.1.1.le, fun p hp => (spherical_spec p.1 p.2.1 p.2.2 (h p hp)).2.1.2⟩
  · simp only [List.any_map, List.any_eq_true, Function.comp, decide_eq_true_eq, not_exists, not_and, not_lt]
    exact fun p hp => (spherical_spec p.1 p.2.1 p.2.2 (h p hp)).2.2.1.le

/-- C63: the angles are in the documented ranges. -/
theorem C63_ranges (x y z : ℝ) :
    0 ≤ (cartesianToSpherical x y z).1 ∧ (cartesianToSpherical x y z).1 < 2 * Real.pi ∧
    0 ≤ (cartesianToSpherical x y z).2.1 ∧ (cartesianToSpherical x y z).2.1 ≤ Real.pi ∧
    (cartesianToSpherical x y z).2.2 = Real.sqrt (x ^ 2 + y ^ 2 + z ^ 2) := by
  have hp := Real.pi_pos
  have h1 : ∀ u v, -Real.pi < arctan2 u v := fun u v => Complex.neg_pi_lt_arg _
  have h2 : ∀ u v, arctan2 u v ≤ Real.pi := fun u v => Complex.arg_le_pi _
  unfold cartesianToSpherical
  refine ⟨?_, ?_, ?_, ?_, by simp [sq]⟩
  · simp only []
    split <;> split
    all_goals linarith [h1 y x, h2 y x]
  · simp only []
    split <;> split
    all_goals linarith [h1 y x, h2 y x]
  · simp only []
    split
    · exact Real.arccos_nonneg _
    · exact le_refl _
  · simp only []
    split
    · exact Real.arccos_le_pi _
    · exact hp.le

/-- C63: for every point with x = 0 and y other than zero the statement is false: the azimuth is set to zero, so the point is rotated
by 90 degrees to the x axis. -/
theorem C63_x_zero (y z : ℝ) (hy : y ≠ 0) :
    let p := cartesianToSpherical 0 y z
    sphericalToCartesian [p] = some [(|y|, 0, z)] := by
  have hyy : 0 < y ^ 2 := by positivity
  have hS : 0 < 0 * 0 + y * y + z * z := by nlinarith [sq_nonneg z]
  set r := Real.sqrt (0 * 0 + y * y + z * z) with hr
  have hr0 : 0 < r := Real.sqrt_pos.mpr hS
  have hr2 : r ^ 2 = 0 * 0 + y * y + z * z := Real.sq_sqrt hS.le
  have hlt : |z| < r := abs_lt_of_sq_lt_sq (by nlinarith) hr0.le
  have hz1 : -1 < z / r := by rw [lt_div_iff₀ hr0]; linarith [(abs_lt.mp hlt).1]
  have hz2 : z / r < 1 := by rw [div_lt_iff₀ hr0]; linarith [(abs_lt.mp hlt).2]
  have hsth : Real.sin (Real.arccos (z / r)) = |y| / r := by
    rw [Real.sin_arccos, ← Real.sqrt_sq_eq_abs, hr, ← Real.sqrt_div hyy.le, ← hr]
    congr 1
    field_simp
    rw [hr2]
    ring
  have hcar : cartesianToSpherical 0 y z = (0, Real.arccos (z / r), r) := by
    simp only [cartesianToSpherical]
    rw [← hr]
    simp [hr0.ne']
  have hpi : Real.arccos (z / r) < Real.pi := by
    refine lt_of_le_of_ne (Real.arccos_le_pi _) fun h => ?_
    rw [Real.arccos_eq_pi] at h
    linarith
  simp only [hcar]
  unfold sphericalToCartesian
  rw [if_neg (by simpa using hr0.le), if_neg (by simpa using ⟨Real.arccos_nonneg _, hpi⟩), if_neg (by simp [Real.pi_pos])]
  simp only [List.map_cons, List.map_nil, Real.cos_zero, Real.sin_zero, hsth, Real.cos_arccos hz1.le hz2.le]
  congr 3
  · field_simp
  · congr 1
    · ring
    · field_simp

/-- C63: a list of points with a point of the negative z axis cannot be converted back: an exception is raised. -/
theorem C63_negative_z_axis (points : List (ℝ × ℝ × ℝ)) (z : ℝ) (hz : z < 0) (h : (0, 0, z) ∈ points) :
    sphericalToCartesian (points.map fun p => cartesianToSpherical p.1 p.2.1 p.2.2) = none := by
  have hcar : cartesianToSpherical 0 0 z = (0, Real.pi, -z) := by
    have hr : Real.sqrt (0 * 0 + 0 * 0 + z * z) = -z := by
      rw [mul_zero, zero_add, zero_add, Real.sqrt_mul_self_eq_abs, abs_of_neg hz]
    simp only [cartesianToSpherical, hr]
    rw [show z / -z = -1 by rw [div_neg, div_self hz.ne], Real.arccos_neg_one]
    simp [hz.ne]
  unfold sphericalToCartesian
  split
  · rfl
  · rw [if_pos]
    rw [Bool.or_eq_true]
    right
    rw [List.any_eq_true]
    exact ⟨_, List.mem_map.mpr ⟨_, h, rfl⟩, by simp [hcar]⟩

example : sphericalToCartesian [cartesianToSpherical 1 2 3, cartesianToSpherical (-1) 0 (-5)] = some [(1, 2, 3), (-1, 0, -5)] :=
  C63_round_trip_partial [(1, 2, 3), (-1, 0, -5)] (by simp)

/-! ### C64 -/

/-- C64: the product with the skew matrix is the vector product, as it is returned by `get_plane_normal`. -/
theorem C64_skew (v w : Vec3) : (skew v).mulVec w = planeNormal v w := by
  have e : (2 : Fin 3) = -1 := rfl
  ext i
  fin_cases i <;> simp [skew, planeNormal, Matrix.mulVec, dotProduct, Fin.sum_univ_succ, Matrix.diagonal, ← e] <;> ring

/-- C64: the plane normal is orthogonal to both directions, and it is zero exactly if these are linearly dependent. -/
theorem C64_normal (a b : Vec3) : dot (planeNormal a b) a = 0 ∧ dot (planeNormal a b) b = 0 ∧
    (planeNormal a b = 0 ↔ ∃ s t : ℝ, (s ≠ 0 ∨ t ≠ 0) ∧ s • a + t • b = 0) := by
  refine ⟨by simp [dot, planeNormal]; ring, by simp [dot, planeNormal]; ring, ?_, ?_⟩
  · intro h
    have h0 := congrFun h 0
    have h1 := congrFun h 1
    have h2 := congrFun h 2
    simp [planeNormal] at h0 h1 h2
    by_cases ha : a = 0
    · exact ⟨1, 0, by simp, by simp [ha]⟩
    · obtain ⟨i, hi⟩ := Function.ne_iff.mp ha
      refine ⟨b i, -a i, .inr (neg_ne_zero.mpr hi), ?_⟩
      ext j
      fin_cases i <;> fin_cases j <;> simp <;> linarith
  · rintro ⟨s, t, hst, h⟩
    have h0 := congrFun h 0
    have h1 := congrFun h 1
    have h2 := congrFun h 2
    simp at h0 h1 h2
    have key : ∀ u v u' v' : ℝ, s * u + t * v = 0 → s * u' + t * v' = 0 → u * v' - u' * v = 0 := by
      intro u v u' v' e e'
      rcases hst with hs | ht
      · exact (mul_eq_zero.mp (show s * (u * v' - u' * v) = 0 by linear_combination v' * e - v * e')).resolve_left hs
      · exact (mul_eq_zero.mp (show t * (u * v' - u' * v) = 0 by linear_combination u * e' - u' * e)).resolve_left ht
    ext i
    fin_cases i <;> simp [planeNormal]
    · exact key _ _ _ _ h1 h2
    · exact key _ _ _ _ h2 h0
    · exact key _ _ _ _ h0 h1

example : planeNormal ![1, 0, 0] ![0, 1, 0] = ![0, 0, 1] := by
  ext i
  fin_cases i <;> simp [planeNormal]

end BTA.Props
