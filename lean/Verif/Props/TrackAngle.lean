import Verif.Lemmas.TrackAngle
/-
C113: the track angles; C114: the rotation of the hits into the beam.
-/
namespace BTA.Angle.Props
open BTA.Geo BTA.Dut BTA.Angle

/-- C113: the total angle is the angle between the track and the z axis, at most 90 degrees. -/
theorem C113_total (s : Vec3) (h : s ≠ 0) : ∃ t, (trackAngles s).total = some t ∧ 0 ≤ t ∧ t ≤ Real.pi / 2 ∧
    Real.cos t * Real.sqrt (s 0 ^ 2 + s 1 ^ 2 + s 2 ^ 2) = |s 2| := by
  have h0 : len s ≠ 0 := fun h0 => h (by
    obtain ⟨h1, h2, h3⟩ := (len_eq_zero s).mp h0
    ext i; fin_cases i <;> assumption)
  have hp : 0 < len s := lt_of_le_of_ne (len_nonneg s) (Ne.symm h0)
  have hl : Real.sqrt (s 0 ^ 2 + s 1 ^ 2 + s 2 ^ 2) = len s := by unfold len dot; congr 1; ring
  have hle : |s 2| ≤ len s := by
    rw [← hl, ← Real.sqrt_sq_eq_abs]
    exact Real.sqrt_le_sqrt (by nlinarith [sq_nonneg (s 0), sq_nonneg (s 1)])
  refine ⟨_, trackAngles_total s h0, Real.arccos_nonneg _, Real.arccos_le_pi_div_two.mpr (by positivity), ?_⟩
  rw [Real.cos_arccos (by have : 0 ≤ |s 2| / len s := by positivity
                          linarith) ((div_le_one hp).mpr hle), hl]
  exact div_mul_cancel₀ _ h0

example : (![3, 4, -5] : Vec3) ≠ 0 := fun h => by simpa using congrFun h 0

/-- C113: the angle alpha is the one of the projection onto the y-z plane, positive towards positive y. -/
theorem C113_alpha (s : Vec3) (h : s 1 ≠ 0 ∨ s 2 ≠ 0) : ∃ t, (trackAngles s).alpha = some t ∧ -(Real.pi / 2) ≤ t ∧ t ≤ Real.pi / 2 ∧
    Real.cos t * Real.sqrt (s 1 ^ 2 + s 2 ^ 2) = |s 2| ∧ Real.sin t * Real.sqrt (s 1 ^ 2 + s 2 ^ 2) = s 1 := by
  obtain ⟨h1, h2⟩ := arctan2_spec (s 1) |s 2| (by simpa using h)
  obtain ⟨h3, h4⟩ := arctan2_range (s 1) |s 2| (abs_nonneg _)
  have hl : len2 (s 1) |s 2| = Real.sqrt (s 1 ^ 2 + s 2 ^ 2) := by unfold len2; rw [sq_abs]
  rw [hl] at h1 h2
  exact ⟨_, trackAngles_alpha s h, h3, h4, h1, h2⟩

/-- C113: the angle beta is the one of the projection onto the x-z plane, positive towards negative x. -/
theorem C113_beta (s : Vec3) (h : s 0 ≠ 0 ∨ s 2 ≠ 0) : ∃ t, (trackAngles s).beta = some t ∧ -(Real.pi / 2) ≤ t ∧ t ≤ Real.pi / 2 ∧
    Real.cos t * Real.sqrt (s 0 ^ 2 + s 2 ^ 2) = |s 2| ∧ Real.sin t * Real.sqrt (s 0 ^ 2 + s 2 ^ 2) = -s 0 := by
  obtain ⟨h1, h2⟩ := arctan2_spec (-s 0) |s 2| (by simpa using h)
  obtain ⟨h3, h4⟩ := arctan2_range (-s 0) |s 2| (abs_nonneg _)
  have hl : len2 (-s 0) |s 2| = Real.sqrt (s 0 ^ 2 + s 2 ^ 2) := by unfold len2; rw [sq_abs, neg_sq]
  rw [hl] at h1 h2
  exact ⟨_, trackAngles_beta s h, h3, h4, h1, h2⟩

example : (![3, 4, -5] : Vec3) 1 ≠ 0 ∨ (![3, 4, -5] : Vec3) 2 ≠ 0 := .inl (by simp)

/-- C113: there is no angle only if the (projected) direction vanishes. -/
theorem C113_nan (s : Vec3) : ((trackAngles s).total = none ↔ s = 0) ∧ ((trackAngles s).alpha = none ↔ s 1 = 0 ∧ s 2 = 0) ∧
    ((trackAngles s).beta = none ↔ s 0 = 0 ∧ s 2 = 0) := by
  refine ⟨⟨fun h => ?_, fun h => ?_⟩, ⟨fun h => ?_, fun h => trackAngles_alpha_none s h.1 h.2⟩,
    ⟨fun h => ?_, fun h => trackAngles_beta_none s h.1 h.2⟩⟩
  · by_contra hs
    obtain ⟨t, ht, -⟩ := C113_total s hs
    rw [h] at ht
    cases ht
  · rw [trackAngles_none s ((len_eq_zero s).mpr (by rw [h]; simp))]
  · by_contra hs
    rw [trackAngles_alpha s (by tauto)] at h
    cases h
  · by_contra hs
    rw [trackAngles_beta s (by tauto)] at h
    cases h

/-- Tangent of the angles. -/
theorem tan_angles (s : Vec3) (h : s 2 ≠ 0) (a b : ℝ) (ha : (trackAngles s).alpha = some a) (hb : (trackAngles s).beta = some b) :
    Real.tan a = s 1 / |s 2| ∧ Real.tan b = -s 0 / |s 2| := by
  rw [trackAngles_alpha s (.inr h)] at ha
  rw [trackAngles_beta s (.inr h)] at hb
  injection ha with ha
  injection hb with hb
  subst ha hb
  have hz : |s 2| ≠ 0 := abs_ne_zero.mpr h
  have key : ∀ y x : ℝ, x ≠ 0 → Real.tan (arctan2 y x) = y / x := by
    intro y x hx
    obtain ⟨h1, h2⟩ := arctan2_spec y x (.inr hx)
    have hp := len2_pos y x (.inr hx)
    rw [Real.tan_eq_sin_div_cos]
    have hc : Real.cos (arctan2 y x) ≠ 0 := fun h0 => hx (by rw [← h1, h0, zero_mul])
    rw [div_eq_div_iff hc hx]
    have : (Real.sin (arctan2 y x) * x - y * Real.cos (arctan2 y x)) * len2 y x = 0 := by
      linear_combination x * h2 - y * h1
    rcases mul_eq_zero.mp this with h | h
    · linarith
    · exact absurd h hp.ne'
  exact ⟨key _ _ hz, key _ _ hz⟩

/-- C113: the three angles belong together: the square of the tangent of the total angle is the sum of the others. -/
theorem C113_tan (s : Vec3) (h : s 2 ≠ 0) (t a b : ℝ) (ht : (trackAngles s).total = some t) (ha : (trackAngles s).alpha = some a)
    (hb : (trackAngles s).beta = some b) : Real.tan t ^ 2 = Real.tan a ^ 2 + Real.tan b ^ 2 := by
  obtain ⟨e1, e2⟩ := tan_angles s h a b ha hb
  obtain ⟨t', ht', -, -, hc⟩ := C113_total s fun h0 => h (by rw [h0]; rfl)
  rw [ht] at ht'
  injection ht' with ht'
  subst ht'
  set L := Real.sqrt (s 0 ^ 2 + s 1 ^ 2 + s 2 ^ 2) with hL
  have hL2 : L ^ 2 = s 0 ^ 2 + s 1 ^ 2 + s 2 ^ 2 := Real.sq_sqrt (by positivity)
  have hz : |s 2| ≠ 0 := abs_ne_zero.mpr h
  have hcos : Real.cos t ≠ 0 := fun h0 => hz (by rw [← hc, h0, zero_mul])
  rw [e1, e2, Real.tan_eq_sin_div_cos, div_pow, div_pow, div_pow, ← add_div, sq_abs, div_eq_div_iff (pow_ne_zero 2 hcos) (pow_ne_zero 2 h)]
  have h1 := Real.sin_sq_add_cos_sq t
  have h2 : Real.cos t ^ 2 * L ^ 2 = s 2 ^ 2 := by rw [← mul_pow, hc, sq_abs]
  rw [hL2] at h2
  have h3 : Real.sin t ^ 2 = 1 - Real.cos t ^ 2 := by linarith
  rw [h3]
  linear_combination -h2

/-- C113: the angles determine the direction: tracks with positive z component and the same angles are parallel. -/
theorem C113_direction (s u : Vec3) (hs : 0 < s 2) (hu : 0 < u 2) (ha : (trackAngles s).alpha = (trackAngles u).alpha)
    (hb : (trackAngles s).beta = (trackAngles u).beta) : ∃ k : ℝ, 0 < k ∧ u = k • s := by
  obtain ⟨a, ha1⟩ : ∃ a, (trackAngles s).alpha = some a := ⟨_, trackAngles_alpha s (.inr hs.ne')⟩
  obtain ⟨b, hb1⟩ : ∃ b, (trackAngles s).beta = some b := ⟨_, trackAngles_beta s (.inr hs.ne')⟩
  obtain ⟨e1, e2⟩ := tan_angles s hs.ne' a b ha1 hb1
  obtain ⟨e3, e4⟩ := tan_angles u hu.ne' a b (ha ▸ ha1) (hb ▸ hb1)
  rw [e1, abs_of_pos hs, abs_of_pos hu] at e3
  rw [e2, abs_of_pos hs, abs_of_pos hu] at e4
  refine ⟨u 2 / s 2, by positivity, ?_⟩
  rw [div_eq_div_iff hs.ne' hu.ne'] at e3 e4
  ext i
  fin_cases i
  · show u 0 = u 2 / s 2 * s 0
    field_simp
    linarith
  · show u 1 = u 2 / s 2 * s 1
    field_simp
    linarith
  · show u 2 = u 2 / s 2 * s 2
    field_simp

/-- C113: the length of the direction vector does not matter. -/
theorem C113_scale (s : Vec3) (k : ℝ) (hk : 0 < k) : trackAngles (k • s) = trackAngles s := by
  have hlen : len (k • s) = k * len s := by
    have : dot (k • s) (k • s) = k ^ 2 * dot s s := by simp [dot]; ring
    unfold len
    rw [this, Real.sqrt_mul (sq_nonneg k), Real.sqrt_sq hk.le]
  have habs : |(k • s) 2| = k * |s 2| := by simp [abs_mul, abs_of_pos hk]
  have h1 : (trackAngles (k • s)).total = (trackAngles s).total := by
    by_cases h : len s = 0
    · rw [trackAngles_none s h, trackAngles_none (k • s) (by rw [hlen, h, mul_zero])]
    · rw [trackAngles_total s h, trackAngles_total (k • s) (by rw [hlen]; exact mul_ne_zero hk.ne' h), hlen, habs,
        mul_div_mul_left _ _ hk.ne']
  have h2 : (trackAngles (k • s)).alpha = (trackAngles s).alpha := by
    by_cases h : s 1 = 0 ∧ s 2 = 0
    · rw [trackAngles_alpha_none s h.1 h.2, trackAngles_alpha_none (k • s) (by simp [h.1]) (by simp [h.2])]
    · have h' : s 1 ≠ 0 ∨ s 2 ≠ 0 := by tauto
      rw [trackAngles_alpha s h', trackAngles_alpha (k • s) (by simpa [hk.ne'] using h'), habs]
      show some (arctan2 (k * s 1) _) = _
      rw [arctan2_mul _ _ _ hk]
  have h3 : (trackAngles (k • s)).beta = (trackAngles s).beta := by
    by_cases h : s 0 = 0 ∧ s 2 = 0
    · rw [trackAngles_beta_none s h.1 h.2, trackAngles_beta_none (k • s) (by simp [h.1]) (by simp [h.2])]
    · have h' : s 0 ≠ 0 ∨ s 2 ≠ 0 := by tauto
      rw [trackAngles_beta s h', trackAngles_beta (k • s) (by simpa [hk.ne'] using h'), habs]
      show some (arctan2 (-(k * s 0)) _) = _
      rw [← mul_neg, arctan2_mul _ _ _ hk]
  cases h4 : trackAngles (k • s)
  cases h5 : trackAngles s
  rw [h4, h5] at h1 h2 h3
  simp_all

/-- The angles of the reversed direction. -/
theorem angles_neg (s : Vec3) (h : s 2 ≠ 0) : (trackAngles (-s)).total = (trackAngles s).total ∧
    (trackAngles (-s)).alpha = (trackAngles s).alpha.map (-·) ∧ (trackAngles (-s)).beta = (trackAngles s).beta.map (-·) := by
  have hz : 0 < |s 2| := abs_pos.mpr h
  have h0 : len s ≠ 0 := fun h0 => h ((len_eq_zero s).mp h0).2.2
  have hl : len (-s) = len s := by unfold len; congr 1; simp [dot]
  refine ⟨?_, ?_, ?_⟩
  · rw [trackAngles_total s h0, trackAngles_total (-s) (by rw [hl]; exact h0), hl]
    simp
  · rw [trackAngles_alpha s (.inr h), trackAngles_alpha (-s) (.inr (by simpa using h))]
    show some (arctan2 (-s 1) |-s 2|) = some (-arctan2 (s 1) |s 2|)
    rw [abs_neg, arctan2_neg _ _ hz]
  · rw [trackAngles_beta s (.inr h), trackAngles_beta (-s) (.inr (by simpa using h))]
    show some (arctan2 (-(-s 0)) |-s 2|) = some (-arctan2 (-s 0) |s 2|)
    rw [abs_neg, arctan2_neg _ _ hz]

/-- The z component of a track in the coordinate system of the DUT. -/
noncomputable def zLocal (a : Alignment) (s : Vec3) : ℝ := ((rotationMatrix a.alpha a.beta a.gamma).transpose.mulVec s) 2

theorem globalSlope_stored (a : Alignment) (s : Vec3) (h : s ≠ 0) : ∃ k : ℝ, 0 < k ∧
    (storedSlope a s).map (globalSlope a) = some ((if zLocal a s < 0 then -k else k) • s) := by
  set R := rotationMatrix a.alpha a.beta a.gamma with hR
  have hl : applyTransformation (globalToLocalMatrix 0 0 0 a.alpha a.beta a.gamma) s = R.transpose.mulVec s := by
    rw [apply_globalToLocal]
    congr 1
    ext i
    fin_cases i <;> simp
  have hg : ∀ p, globalSlope a p = R.mulVec p := by
    intro p
    unfold globalSlope
    rw [apply_localToGlobal]
    ext i
    fin_cases i <;> simp [hR]
  have hback : R.mulVec (R.transpose.mulVec s) = s := by
    rw [Matrix.mulVec_mulVec, hR, rotationMatrix_orth', Matrix.one_mulVec]
  have hne : R.transpose.mulVec s ≠ 0 := fun h0 => h (by rw [← hback, h0, Matrix.mulVec_zero])
  have hlen : ∀ v : Vec3, v ≠ 0 → 0 < len v := fun v hv => lt_of_le_of_ne (len_nonneg v) fun h0 => hv (by
    obtain ⟨h1, h2, h3⟩ := (len_eq_zero v).mp h0.symm
    ext i; fin_cases i <;> assumption)
  unfold storedSlope
  rw [hl]
  unfold forward zLocal
  split
  · have hp := hlen (-R.transpose.mulVec s) (neg_ne_zero.mpr hne)
    refine ⟨(len (-R.transpose.mulVec s))⁻¹, inv_pos.mpr hp, ?_⟩
    rw [normalize_some _ hp.ne', Option.map_some, hg, Matrix.mulVec_smul, Matrix.mulVec_neg, hback]
    congr 1
    rw [smul_neg, neg_smul]
  · have hp := hlen _ hne
    refine ⟨(len (R.transpose.mulVec s))⁻¹, inv_pos.mpr hp, ?_⟩
    rw [normalize_some _ hp.ne', Option.map_some, hg, Matrix.mulVec_smul, hback]

theorem globalAngles_eq (a : Alignment) (s : Vec3) (h : s ≠ 0) :
    globalAngles a s = trackAngles (if zLocal a s < 0 then -s else s) := by
  obtain ⟨k, hk, e⟩ := globalSlope_stored a s h
  unfold globalAngles
  cases hs : storedSlope a s with
  | none => rw [hs] at e; cases e
  | some v =>
    rw [hs, Option.map_some] at e
    injection e with e
    dsimp only
    rw [e]
    split
    · rw [← C113_scale (-s) k hk, smul_neg, neg_smul]
    · exact C113_scale s k hk

/-- C113, true part: the global angles calculated from the track table of a DUT are those of the track, if the DUT does not face backwards
(the track does not go towards negative z in the coordinate system of the DUT). Missing: DUTs facing backwards, `C113_backwards`. -/
theorem C113_global_partial (a : Alignment) (s : Vec3) (h : s ≠ 0) (hf : 0 ≤ zLocal a s) : globalAngles a s = trackAngles s := by
  rw [globalAngles_eq a s h, if_neg (not_lt.mpr hf)]

/-- C113, the claim is false for the others: the global angles alpha and beta calculated from the track table of a DUT facing backwards have
the wrong sign. -/
theorem C113_backwards (a : Alignment) (s : Vec3) (hz : s 2 ≠ 0) (hf : zLocal a s < 0) :
    (globalAngles a s).total = (trackAngles s).total ∧ (globalAngles a s).alpha = (trackAngles s).alpha.map (-·) ∧
    (globalAngles a s).beta = (trackAngles s).beta.map (-·) := by
  rw [globalAngles_eq a s fun h0 => hz (by rw [h0]; rfl), if_pos hf]
  exact angles_neg s hz

/-- A DUT turned by 180 degrees around the y axis faces backwards for every track with positive slope. -/
theorem zLocal_turned (x y z g : ℝ) (s : Vec3) : zLocal ⟨x, y, z, 0, Real.pi, g⟩ s = -s 2 := by
  unfold zLocal
  simp [rotationMatrix_eq, Matrix.mulVec, dotProduct, Fin.sum_univ_succ]

/-- C113: two DUTs, one of them turned by 180 degrees: the global angles of a track differ, unless the track is parallel to the z axis. -/
theorem C113_turned (x y z g : ℝ) (s : Vec3) (hz : 0 < s 2) (hs : s 0 ≠ 0 ∨ s 1 ≠ 0) :
    globalAngles ⟨x, y, z, 0, Real.pi, g⟩ s ≠ globalAngles ⟨x, y, z, 0, 0, g⟩ s := by
  intro h
  have h0 : s ≠ 0 := fun h0 => hz.ne' (by rw [h0]; rfl)
  have e : zLocal ⟨x, y, z, 0, 0, g⟩ s = s 2 := by
    unfold zLocal
    simp [rotationMatrix_eq, Matrix.mulVec, dotProduct, Fin.sum_univ_succ]
  obtain ⟨-, h1, h2⟩ := C113_backwards ⟨x, y, z, 0, Real.pi, g⟩ s hz.ne' (by rw [zLocal_turned]; linarith)
  rw [h, C113_global_partial _ s h0 (by rw [e]; exact hz.le)] at h1 h2
  rw [trackAngles_alpha s (.inr hz.ne')] at h1
  rw [trackAngles_beta s (.inr hz.ne')] at h2
  injection h1 with h1
  injection h2 with h2
  have p := abs_pos.mpr hz.ne'
  rcases hs with hs | hs
  · exact hs (neg_eq_zero.mp (arctan2_eq_zero _ _ p (by linarith)))
  · exact hs (arctan2_eq_zero _ _ p (by linarith))

example : (0 : ℝ) < (![1, 0, 1000] : Vec3) 2 ∧ ((![1, 0, 1000] : Vec3) 0 ≠ 0 ∨ (![1, 0, 1000] : Vec3) 1 ≠ 0) := by
  constructor
  · show (0 : ℝ) < 1000
    norm_num
  · left
    simp

/-- What `find_tracks` gets for a hit. -/
theorem toBeam_eq (a t : Alignment) (p : Vec3) :
    toBeam a t p = .ok [(rotationMatrix t.alpha t.beta t.gamma).mulVec p + ![t.x, t.y, t.z]] := by
  unfold toBeam localToGlobal
  simp [Override.none?, Override.on, apply_localToGlobal]

/-- The direction of the beam after the rotation. -/
theorem rotated_beam (s : Vec3) (hz : 0 < s 2) (alpha beta : ℝ) (ha : (trackAngles s).alpha = some alpha)
    (hb : (trackAngles s).beta = some beta) :
    ((rotationMatrix alpha beta 0).mulVec s) 1 = 0 ∧
    ((rotationMatrix alpha beta 0).mulVec s) 0 * Real.sqrt (s 0 ^ 2 + s 2 ^ 2) = s 0 * (s 2 - Real.sqrt (s 1 ^ 2 + s 2 ^ 2)) := by
  obtain ⟨a', ha', -, -, ca, sa⟩ := C113_alpha s (.inr hz.ne')
  obtain ⟨b', hb', -, -, cb, sb⟩ := C113_beta s (.inr hz.ne')
  rw [ha] at ha'
  rw [hb] at hb'
  injection ha' with ha'
  injection hb' with hb'
  subst ha' hb'
  rw [abs_of_pos hz] at ca cb
  set M := Real.sqrt (s 1 ^ 2 + s 2 ^ 2) with hM
  set L := Real.sqrt (s 0 ^ 2 + s 2 ^ 2) with hL
  have hM2 : M ^ 2 = s 1 ^ 2 + s 2 ^ 2 := Real.sq_sqrt (by positivity)
  have hMp : 0 < M := Real.sqrt_pos.mpr (by positivity)
  have hsum : Real.sin alpha * s 1 + Real.cos alpha * s 2 = M := by
    have : (Real.sin alpha * s 1 + Real.cos alpha * s 2) * M = M * M := by
      linear_combination s 1 * sa + s 2 * ca - hM2
    exact mul_right_cancel₀ hMp.ne' this
  have hy : Real.cos alpha * s 1 - Real.sin alpha * s 2 = 0 := by
    have : (Real.cos alpha * s 1 - Real.sin alpha * s 2) * M = 0 * M := by
      linear_combination s 1 * ca - s 2 * sa
    exact mul_right_cancel₀ hMp.ne' this
  constructor
  · have : ((rotationMatrix alpha beta 0).mulVec s) 1 = Real.cos alpha * s 1 - Real.sin alpha * s 2 := by
      simp [rotationMatrix_eq, Matrix.mulVec, dotProduct, Fin.sum_univ_succ]
      ring
    rw [this, hy]
  · have : ((rotationMatrix alpha beta 0).mulVec s) 0 =
        Real.cos beta * s 0 + Real.sin beta * (Real.sin alpha * s 1 + Real.cos alpha * s 2) := by
      simp [rotationMatrix_eq, Matrix.mulVec, dotProduct, Fin.sum_univ_succ]
      ring
    rw [this, hsum]
    linear_combination s 0 * cb + M * sb

/-- The positions of two hits of a track after the rotation. -/
theorem toBeam_diff (a b t : Alignment) (p q s p' q' : Vec3) (k : ℝ) (hq : q = p + k • s) (h1 : toBeam a t p = .ok [p'])
    (h2 : toBeam b t q = .ok [q']) : q' - p' = k • (rotationMatrix t.alpha t.beta t.gamma).mulVec s := by
  rw [toBeam_eq] at h1 h2
  injection h1 with h1
  injection h2 with h2
  injection h1 with h1
  injection h2 with h2
  subst h1 h2 hq
  rw [Matrix.mulVec_add, Matrix.mulVec_smul]
  abel

/-- C114: the rotation of the telescope is set to the angles of the beam. Then two hits of a particle moving along the beam have the same y
coordinate. -/
theorem C114_y (a b t : Alignment) (p q s p' q' : Vec3) (k : ℝ) (hz : 0 < s 2) (ha : (trackAngles s).alpha = some t.alpha)
    (hb : (trackAngles s).beta = some t.beta) (hg : t.gamma = 0) (hq : q = p + k • s) (h1 : toBeam a t p = .ok [p'])
    (h2 : toBeam b t q = .ok [q']) : q' 1 = p' 1 := by
  have h := congrFun (toBeam_diff a b t p q s p' q' k hq h1 h2) 1
  obtain ⟨h3, -⟩ := rotated_beam s hz _ _ ha hb
  rw [hg] at h
  have h : q' 1 - p' 1 = k * ((rotationMatrix t.alpha t.beta 0).mulVec s) 1 := h
  rw [h3, mul_zero] at h
  linarith

theorem beam_x (a b t : Alignment) (p q s p' q' : Vec3) (k : ℝ) (hz : 0 < s 2) (ha : (trackAngles s).alpha = some t.alpha)
    (hb : (trackAngles s).beta = some t.beta) (hg : t.gamma = 0) (hq : q = p + k • s) (h1 : toBeam a t p = .ok [p'])
    (h2 : toBeam b t q = .ok [q']) :
    (q' 0 - p' 0) * Real.sqrt (s 0 ^ 2 + s 2 ^ 2) = k * (s 0 * (s 2 - Real.sqrt (s 1 ^ 2 + s 2 ^ 2))) := by
  have h := congrFun (toBeam_diff a b t p q s p' q' k hq h1 h2) 0
  obtain ⟨-, h3⟩ := rotated_beam s hz _ _ ha hb
  rw [hg] at h
  have h : q' 0 - p' 0 = k * ((rotationMatrix t.alpha t.beta 0).mulVec s) 0 := h
  rw [h, mul_assoc, h3]

/-- C114, true part: two hits of a particle moving along the beam have nearly the same x coordinate: the difference is at most the distance in z
times |tan beta| times half the square of tan alpha. Missing: equality, which is false (`C114_x_iff`). -/
theorem C114_x_partial (a b t : Alignment) (p q s p' q' : Vec3) (k : ℝ) (hz : 0 < s 2) (ha : (trackAngles s).alpha = some t.alpha)
    (hb : (trackAngles s).beta = some t.beta) (hg : t.gamma = 0) (hq : q = p + k • s) (h1 : toBeam a t p = .ok [p'])
    (h2 : toBeam b t q = .ok [q']) : |q' 0 - p' 0| ≤ |q 2 - p 2| * |Real.tan t.beta| * (Real.tan t.alpha ^ 2 / 2) := by
  have h := beam_x a b t p q s p' q' k hz ha hb hg hq h1 h2
  obtain ⟨e1, e2⟩ := tan_angles s hz.ne' _ _ ha hb
  rw [abs_of_pos hz] at e1 e2
  have hqz : q 2 - p 2 = k * s 2 := by rw [hq]; simp
  rw [e1, e2, hqz]
  set M := Real.sqrt (s 1 ^ 2 + s 2 ^ 2) with hM
  set L := Real.sqrt (s 0 ^ 2 + s 2 ^ 2) with hL
  have hM2 : M ^ 2 = s 1 ^ 2 + s 2 ^ 2 := Real.sq_sqrt (by positivity)
  have hMz : s 2 ≤ M := Real.le_sqrt_of_sq_le (by nlinarith [sq_nonneg (s 1)])
  have hLz : s 2 ≤ L := Real.le_sqrt_of_sq_le (by nlinarith [sq_nonneg (s 0)])
  have hb1 : M - s 2 ≤ s 1 ^ 2 / (2 * s 2) := by
    rw [le_div_iff₀ (by positivity)]
    nlinarith [sq_nonneg (M - s 2)]
  have habs : |q' 0 - p' 0| * L = |k| * (|s 0| * (M - s 2)) := by
    have := congrArg abs h
    rw [abs_mul, abs_mul, abs_mul, abs_of_nonneg (show 0 ≤ L by linarith), abs_of_nonpos (show s 2 - M ≤ 0 by linarith)] at this
    rw [this]; ring
  have hle : |q' 0 - p' 0| * s 2 ≤ |k| * (|s 0| * (s 1 ^ 2 / (2 * s 2))) := by
    calc |q' 0 - p' 0| * s 2 ≤ |q' 0 - p' 0| * L := mul_le_mul_of_nonneg_left hLz (abs_nonneg _)
      _ = |k| * (|s 0| * (M - s 2)) := habs
      _ ≤ _ := mul_le_mul_of_nonneg_left (mul_le_mul_of_nonneg_left hb1 (abs_nonneg _)) (abs_nonneg _)
  rw [abs_mul, abs_div, abs_neg, abs_of_pos hz]
  have : |k| * s 2 * (|s 0| / s 2) * ((s 1 / s 2) ^ 2 / 2) = (|k| * (|s 0| * (s 1 ^ 2 / (2 * s 2)))) / s 2 := by
    field_simp
  rw [this, le_div_iff₀ hz]
  exact hle

/-- C114, the claim is false for x: the hits in two DUTs have the same x coordinate only if the beam is tilted in at most one of the two
directions. -/
theorem C114_x_iff (a b t : Alignment) (p q s p' q' : Vec3) (k : ℝ) (hz : 0 < s 2) (ha : (trackAngles s).alpha = some t.alpha)
    (hb : (trackAngles s).beta = some t.beta) (hg : t.gamma = 0) (hk : k ≠ 0) (hq : q = p + k • s) (h1 : toBeam a t p = .ok [p'])
    (h2 : toBeam b t q = .ok [q']) : q' 0 = p' 0 ↔ s 0 = 0 ∨ s 1 = 0 := by
  have h := beam_x a b t p q s p' q' k hz ha hb hg hq h1 h2
  have hLp : 0 < Real.sqrt (s 0 ^ 2 + s 2 ^ 2) := Real.sqrt_pos.mpr (by positivity)
  have hM2 : Real.sqrt (s 1 ^ 2 + s 2 ^ 2) ^ 2 = s 1 ^ 2 + s 2 ^ 2 := Real.sq_sqrt (by positivity)
  constructor
  · intro hx
    rw [hx, sub_self, zero_mul] at h
    rcases mul_eq_zero.mp h.symm with h | h
    · exact absurd h hk
    · rcases mul_eq_zero.mp h with h | h
      · exact .inl h
      · right
        have : Real.sqrt (s 1 ^ 2 + s 2 ^ 2) = s 2 := by linarith
        rw [this] at hM2
        exact pow_eq_zero_iff (two_ne_zero) |>.mp (by linarith)
  · intro hs
    have : k * (s 0 * (s 2 - Real.sqrt (s 1 ^ 2 + s 2 ^ 2))) = 0 := by
      rcases hs with hs | hs
      · rw [hs]; ring
      · rw [hs, zero_pow two_ne_zero, zero_add, Real.sqrt_sq hz.le]; ring
    rw [this] at h
    rcases mul_eq_zero.mp h with h | h
    · linarith
    · exact absurd h hLp.ne'

/-- A beam, a telescope with the angles of the beam and two hits. -/
example : ∃ (t : Alignment) (p' q' : Vec3), (0 : ℝ) < (![1, 2, 2] : Vec3) 2 ∧ (trackAngles ![1, 2, 2]).alpha = some t.alpha ∧
    (trackAngles ![1, 2, 2]).beta = some t.beta ∧ t.gamma = 0 ∧ toBeam ⟨0, 0, 0, 0, 0, 0⟩ t 0 = .ok [p'] ∧
    toBeam ⟨0, 0, 2, 0, 0, 0⟩ t (0 + (1 : ℝ) • ![1, 2, 2]) = .ok [q'] :=
  ⟨⟨0, 0, 0, arctan2 2 2, arctan2 (-1) 2, 0⟩, _, _, show (0 : ℝ) < 2 by norm_num,
    by rw [trackAngles_alpha _ (.inl (by simp))]; simp, by rw [trackAngles_beta _ (.inl (by simp))]; simp, rfl, toBeam_eq _ _ _, toBeam_eq _ _ _⟩

end BTA.Angle.Props
