import Verif.Lemmas.LineTracks
/-
Lemmas for the straight line fit: distances to lines, and the fitted line has the smallest sum of squared distances.
-/
namespace BTA.Line
open BTA.Geo BTA.Dut BTA.AlignTel BTA.Spec

theorem dist2_dot (p q : Vec3) : dist2 p q = dot (p - q) (p - q) := by
  unfold dist2 dot
  simp
  ring

theorem dot_self_pos (v : Vec3) (h : v ≠ 0) : 0 < dot v v := by
  refine lt_of_le_of_ne (Angle.dot_self_nonneg v) fun h0 => h ?_
  have h1 : v 0 * v 0 + v 1 * v 1 + v 2 * v 2 = 0 := h0.symm
  have h2 := mul_self_nonneg (v 0)
  have h3 := mul_self_nonneg (v 1)
  have h4 := mul_self_nonneg (v 2)
  have e0 : v 0 = 0 := mul_self_eq_zero.mp (by linarith)
  have e1 : v 1 = 0 := mul_self_eq_zero.mp (by linarith)
  have e2 : v 2 = 0 := mul_self_eq_zero.mp (by linarith)
  ext i
  fin_cases i
  · exact e0
  · exact e1
  · exact e2

/-- Distance to a line with a direction of length one. -/
theorem lineDist2_unit (p q v : Vec3) (h : dot v v = 1) : lineDist2 p q v = dot (p - q) (p - q) - dot (p - q) v ^ 2 := by
  have key : ∀ t : ℝ, dist2 p (q + t • v) = (t - dot (p - q) v) ^ 2 + (dot (p - q) (p - q) - dot (p - q) v ^ 2) := by
    intro t
    have h' : v 0 * v 0 + v 1 * v 1 + v 2 * v 2 = 1 := h
    unfold dist2 dot
    simp
    linear_combination t ^ 2 * h'
  unfold lineDist2
  apply le_antisymm
  · refine ciInf_le_of_le ⟨0, ?_⟩ (dot (p - q) v) ?_
    · rintro x ⟨t, rfl⟩
      dsimp only
      rw [dist2_dot]
      exact Angle.dot_self_nonneg _
    · rw [key]
      simp
  · refine le_ciInf fun t => ?_
    rw [key]
    nlinarith [sq_nonneg (t - dot (p - q) v)]

/-- The distance depends on the line only. -/
theorem lineDist2_same (p q v : Vec3) (s k : ℝ) (hk : k ≠ 0) : lineDist2 p (q + s • v) (k • v) = lineDist2 p q v := by
  unfold lineDist2
  refine Function.Surjective.iInf_congr (fun t => s + t * k) (fun y => ⟨(y - s) / k, ?_⟩) fun t => ?_
  · dsimp only
    rw [div_mul_cancel₀ _ hk]
    ring
  · congr 1
    rw [add_smul, mul_smul, add_assoc]

theorem exists_unit (v : Vec3) (h : v ≠ 0) : ∃ k : ℝ, k ≠ 0 ∧ dot (k • v) (k • v) = 1 := by
  have h0 := dot_self_pos v h
  have h1 : Real.sqrt (dot v v) ≠ 0 := Real.sqrt_ne_zero'.mpr h0
  refine ⟨(Real.sqrt (dot v v))⁻¹, inv_ne_zero h1, ?_⟩
  have h2 := Real.mul_self_sqrt h0.le
  have h3 : dot ((Real.sqrt (dot v v))⁻¹ • v) ((Real.sqrt (dot v v))⁻¹ • v) =
      (Real.sqrt (dot v v))⁻¹ * (Real.sqrt (dot v v))⁻¹ * dot v v := by
    simp [dot]
    ring
  rw [h3]
  calc (Real.sqrt (dot v v))⁻¹ * (Real.sqrt (dot v v))⁻¹ * dot v v
      = (Real.sqrt (dot v v))⁻¹ * (Real.sqrt (dot v v))⁻¹ * (Real.sqrt (dot v v) * Real.sqrt (dot v v)) := by rw [h2]
    _ = 1 := by field_simp

/-- The sum of the squared distances relative to another point. -/
theorem sum_shift (m q w : Vec3) : ∀ ps : List Vec3,
    (ps.map fun p => dot (p - q) (p - q) - dot (p - q) w ^ 2).sum =
    (ps.map fun p => dot (p - m) (p - m) - dot (p - m) w ^ 2).sum + ps.length * (dot (m - q) (m - q) - dot (m - q) w ^ 2) +
      2 * (dot ((ps.map fun p => p - m).sum) (m - q) - dot ((ps.map fun p => p - m).sum) w * dot (m - q) w) := by
  intro ps
  induction ps with
  | nil => simp [dot]
  | cons p ps ih =>
    simp only [List.map_cons, List.sum_cons, List.length_cons]
    rw [ih]
    simp only [dot, Pi.sub_apply, Pi.add_apply]
    push_cast
    ring

theorem sum_sub_centre (ps : List Vec3) (h : ps ≠ []) : (ps.map fun p => p - centre ps).sum = 0 := by
  have : ∀ (m : Vec3) (l : List Vec3), (l.map fun p => p - m).sum = l.sum - (l.length : ℝ) • m := by
    intro m l
    induction l with
    | nil => simp
    | cons p l ih =>
      simp only [List.map_cons, List.sum_cons, ih, List.length_cons]
      push_cast
      rw [add_smul, one_smul]
      abel
  rw [this]
  unfold centre
  have hl : (ps.length : ℝ) ≠ 0 := by
    rw [Nat.cast_ne_zero]
    exact fun h0 => h (List.length_eq_zero_iff.mp h0)
  rw [smul_smul, mul_inv_cancel₀ hl, one_smul, sub_self]

theorem cauchy (u w : Vec3) : dot u w ^ 2 ≤ dot u u * dot w w := by
  have : dot u u * dot w w - dot u w ^ 2 = (u 0 * w 1 - u 1 * w 0) ^ 2 + (u 0 * w 2 - u 2 * w 0) ^ 2 + (u 1 * w 2 - u 2 * w 1) ^ 2 := by
    unfold dot
    ring
  nlinarith [sq_nonneg (u 0 * w 1 - u 1 * w 0), sq_nonneg (u 0 * w 2 - u 2 * w 0), sq_nonneg (u 1 * w 2 - u 2 * w 1)]

theorem sum_diff (m v : Vec3) : ∀ ps : List Vec3, (ps.map fun p => dot (p - m) (p - m) - dot (p - m) v ^ 2).sum =
    (ps.map fun p => dot (p - m) (p - m)).sum - ((ps.map fun p => p - m).map fun q => dot q v ^ 2).sum := by
  intro ps
  induction ps with
  | nil => simp
  | cons p ps ih =>
    simp only [List.map_cons, List.sum_cons, ih]
    ring

/-- The line through the mean with the direction of the first singular vector has the smallest sum of squared distances. -/
theorem best_line (ps : List Vec3) (hne : ps ≠ []) (v q w : Vec3) (hv : IsFirstSingular (ps.map fun p => p - centre ps) v) (hw : w ≠ 0) :
    (ps.map fun p => lineDist2 p (centre ps) v).sum ≤ (ps.map fun p => lineDist2 p q w).sum := by
  obtain ⟨k, hk, hu⟩ := exists_unit w hw
  have h1 : (ps.map fun p => lineDist2 p q w) = ps.map fun p => dot (p - q) (p - q) - dot (p - q) (k • w) ^ 2 := by
    refine List.map_congr_left fun p _ => ?_
    rw [← lineDist2_unit p q _ hu]
    have := lineDist2_same p q w 0 k hk
    rw [zero_smul, add_zero] at this
    exact this.symm
  have h2 : (ps.map fun p => lineDist2 p (centre ps) v) =
      ps.map fun p => dot (p - centre ps) (p - centre ps) - dot (p - centre ps) v ^ 2 :=
    List.map_congr_left fun p _ => lineDist2_unit p _ v hv.1
  rw [h1, h2, sum_shift (centre ps) q, sum_sub_centre ps hne, sum_diff, sum_diff]
  have h3 := hv.2 (k • w) hu
  have h4 := cauchy (centre ps - q) (k • w)
  rw [hu, mul_one] at h4
  have h5 : (0 : ℝ) ≤ ps.length * (dot (centre ps - q) (centre ps - q) - dot (centre ps - q) (k • w) ^ 2) :=
    mul_nonneg (Nat.cast_nonneg _) (by linarith)
  have h6 : dot (0 : Vec3) (centre ps - q) - dot (0 : Vec3) (k • w) * dot (centre ps - q) (k • w) = 0 := by simp [dot]
  rw [h6]
  linarith

/-! ### Sums over the hits -/

theorem globalHit_eq (a : Alignment) (h : Hit) : globalHit a h = placed a h := by
  unfold globalHit placed
  rw [apply_localToGlobal]

theorem sum_zipIdx (fit : List Nat) (c : Cand) (f : Vec3 → ℝ) : ∀ (duts : List Alignment) (k : Nat),
    (((duts.zipIdx k).filterMap fun p => if p.2 ∈ fit then (c p.2).map (globalHit p.1) else none).map f).sum =
    ∑ d ∈ Finset.range duts.length, if k + d ∈ fit then
      match duts[d]?, c (k + d) with
      | some a, some h => f (placed a h)
      | _, _ => 0 else 0 := by
  intro duts
  induction duts with
  | nil => intro k; simp
  | cons a as ih =>
    intro k
    rw [List.zipIdx_cons, List.length_cons, Finset.sum_range_succ']
    have h0 : (∑ d ∈ Finset.range as.length, if k + (d + 1) ∈ fit then
        match (a :: as)[d + 1]?, c (k + (d + 1)) with
        | some a, some h => f (placed a h)
        | _, _ => 0 else 0) = ∑ d ∈ Finset.range as.length, if k + 1 + d ∈ fit then
        match as[d]?, c (k + 1 + d) with
        | some a, some h => f (placed a h)
        | _, _ => 0 else 0 := by
      refine Finset.sum_congr rfl fun d _ => ?_
      rw [show k + (d + 1) = k + 1 + d by omega, List.getElem?_cons_succ]
    rw [h0, ← ih (k + 1)]
    by_cases hf : k ∈ fit
    · cases hc : c k with
      | none =>
        rw [List.filterMap_cons_none (by simp [hf, hc])]
        simp [hf, hc]
      | some h =>
        rw [List.filterMap_cons_some (b := globalHit a h) (by simp [hf, hc])]
        simp [hf, hc, globalHit_eq, add_comm]
    · rw [List.filterMap_cons_none (by simp [hf])]
      simp [hf]

theorem sumHits_eq (g : Config) (c : Cand) (f : Vec3 → ℝ) :
    sumHits g c (fun _ a h => f (placed a h)) = ((trackHits g c).map f).sum := by
  unfold trackHits
  rw [sum_zipIdx]
  unfold sumHits
  have h1 : (∑ d ∈ Finset.range g.duts.length, if 0 + d ∈ g.fitDuts then
      match g.duts[d]?, c (0 + d) with
      | some a, some h => f (placed a h)
      | _, _ => 0 else 0) = ∑ d ∈ (Finset.range g.duts.length).filter (· ∈ g.fitDuts),
      match g.duts[d]?, c d with
      | some a, some h => f (placed a h)
      | _, _ => 0 := by
    rw [Finset.sum_filter]
    refine Finset.sum_congr rfl fun d _ => ?_
    rw [zero_add]
  rw [h1]
  symm
  refine Finset.sum_subset (fun d hd => ?_) fun d hd hn => ?_
  · rw [Finset.mem_filter] at hd
    exact List.mem_toFinset.mpr hd.2
  · rw [Finset.mem_filter, not_and_or] at hn
    have : g.duts[d]? = none := by
      rcases hn with h | h
      · rw [Finset.mem_range, not_lt] at h
        exact List.getElem?_eq_none h
      · exact absurd (List.mem_toFinset.mp hd) h
    rw [this]

theorem mem_trackHits (g : Config) (c : Cand) (p : Vec3) : p ∈ trackHits g c ↔
    ∃ d ∈ g.fitDuts, ∃ a h, HasHit g c d a h ∧ p = placed a h := by
  unfold trackHits HasHit
  rw [List.mem_filterMap]
  constructor
  · rintro ⟨⟨a, d⟩, hm, h⟩
    dsimp only at h
    split_ifs at h with hd
    obtain ⟨x, hx, rfl⟩ := Option.map_eq_some_iff.mp h
    exact ⟨d, hd, a, x, ⟨List.mem_zipIdx_iff_getElem?.mp hm, hx⟩, globalHit_eq a x⟩
  · rintro ⟨d, hd, a, h, ⟨ha, hc⟩, rfl⟩
    exact ⟨(a, d), List.mem_zipIdx_iff_getElem?.mpr ha, by simp [hd, hc, globalHit_eq]⟩

/-! ### The stored track in global coordinates -/

theorem globalPoint_toLocal (a : Alignment) (p : Vec3) (s : Option Vec3) : globalPoint a ⟨toLocal a p, s⟩ = p := by
  unfold globalPoint toLocal
  rw [← apply_localToGlobal, local_global]

theorem globalDirection_stored (a : Alignment) (v s : Vec3) (h : Angle.storedSlope a v = some s) :
    ∃ k : ℝ, k ≠ 0 ∧ globalDirection a s = k • v := by
  unfold Angle.storedSlope Angle.normalize at h
  split_ifs at h with h0
  injection h with h
  subst h
  have hr : ∀ u : Vec3, globalDirection a (applyTransformation (globalToLocalMatrix 0 0 0 a.alpha a.beta a.gamma) u) = u := by
    intro u
    unfold globalDirection
    rw [apply_globalToLocal, Matrix.mulVec_mulVec, rotationMatrix_orth', Matrix.one_mulVec]
    ext i
    fin_cases i <;> simp
  set w := applyTransformation (globalToLocalMatrix 0 0 0 a.alpha a.beta a.gamma) v with hw
  have hd : ∀ k : ℝ, globalDirection a (k • w) = k • v := by
    intro k
    have := hr v
    rw [← hw] at this
    unfold globalDirection at this ⊢
    rw [Matrix.mulVec_smul, this]
  unfold Angle.forward at h0 ⊢
  split_ifs at h0 ⊢ with h2
  · refine ⟨-(Real.sqrt (dot (-w) (-w)))⁻¹, neg_ne_zero.mpr (inv_ne_zero h0), ?_⟩
    rw [smul_neg, ← neg_smul, hd]
  · exact ⟨(Real.sqrt (dot w w))⁻¹, inv_ne_zero h0, hd _⟩

theorem storedSlope_some (a : Alignment) (v : Vec3) (h : v ≠ 0) : ∃ s, Angle.storedSlope a v = some s := by
  unfold Angle.storedSlope Angle.normalize
  set w := applyTransformation (globalToLocalMatrix 0 0 0 a.alpha a.beta a.gamma) v with hw
  have hw0 : w ≠ 0 := by
    intro h0
    apply h
    have h1 : w = (rotationMatrix a.alpha a.beta a.gamma).transpose.mulVec v := by
      rw [hw, apply_globalToLocal]
      congr 1
      ext i
      fin_cases i <;> simp
    have h2 : (rotationMatrix a.alpha a.beta a.gamma).mulVec w = v := by
      rw [h1, Matrix.mulVec_mulVec, rotationMatrix_orth', Matrix.one_mulVec]
    rw [h0, Matrix.mulVec_zero] at h2
    exact h2.symm
  have hf : Angle.forward w ≠ 0 := by
    unfold Angle.forward
    split_ifs
    · exact neg_ne_zero.mpr hw0
    · exact hw0
  rw [if_neg (Real.sqrt_ne_zero'.mpr (dot_self_pos _ hf))]
  exact ⟨_, rfl⟩

theorem fitLine_some (svd : List Vec3 → Option Vec3) (ps : List Vec3) (l : Vec3 × Vec3) (h : fitLine svd ps = some l) :
    ∃ v, svd (ps.map fun p => p - centre ps) = some v ∧ l = (centre ps, orient v) := by
  unfold fitLine at h
  obtain ⟨v, hv, e⟩ := Option.map_eq_some_iff.mp h
  exact ⟨v, hv, e.symm⟩

end BTA.Line
