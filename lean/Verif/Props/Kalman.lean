import Verif.Lemmas.KalmanFit
import Verif.Lemmas.KalmanScatter
import Verif.Props.Geometry
/-
Properties of the Kalman filter, beam_telescope_analysis/tools/kalman.py: C41, C42, C43, C65, C66, C67. Floating point numbers are
real numbers.
-/
namespace BTA.Props
open BTA.Geo BTA.Kalman BTA.Spec Matrix

/-! ### C41 -/

/-- C41: the extrapolated state describes the same line in global coordinates. -/
theorem C41_same_line (A B : Plane) (p : State) (h : Crosses B (trackDir A p)) (x : Vec3) :
    OnTrack B (extrapolate A B p) x ↔ OnTrack A p x := by
  obtain ⟨s, c, hc, h1, h2⟩ := extrapolate_spec A B p h
  unfold OnTrack OnLine
  rw [h1, h2]
  constructor
  · rintro ⟨t, rfl⟩
    exact ⟨s + t * c, by rw [smul_smul, add_smul, add_assoc]⟩
  · rintro ⟨t, rfl⟩
    refine ⟨(t - s) / c, ?_⟩
    rw [smul_smul, div_mul_cancel₀ _ hc, sub_smul, add_assoc]
    simp

theorem dot_eq (a b : Vec3) : dot a b = a ⬝ᵥ b := by simp [dot, dotProduct, Fin.sum_univ_succ]; ring

theorem trackPoint_onPlane (P : Plane) (p : State) : OnPlane P.pos (planeNormalOf P) (trackPoint P p) := by
  unfold OnPlane planeNormalOf trackPoint globalPoint
  rw [add_sub_cancel_right, dot_mulVec_orth _ (rot_orth P)]
  simp [dot]

/-- C41: the position of the extrapolated state is the intersection of the line with the target plane. -/
theorem C41_intersection (A B : Plane) (p : State) (h : Crosses B (trackDir A p)) (x : Vec3) :
    OnTrack A p x ∧ OnPlane B.pos (planeNormalOf B) x ↔ x = trackPoint B (extrapolate A B p) := by
  constructor
  · rintro ⟨h1, h2⟩
    obtain ⟨t, rfl⟩ := (C41_same_line A B p h x).mpr h1
    have h3 := trackPoint_onPlane B (extrapolate A B p)
    have h4 := crosses_self B (extrapolate A B p)
    unfold OnPlane at h2 h3
    unfold Crosses at h4
    rw [dot_eq] at h2 h3 h4
    rw [add_sub_right_comm, dotProduct_add, h3, dotProduct_smul, zero_add, smul_eq_mul] at h2
    rcases mul_eq_zero.mp h2 with h5 | h5
    · rw [h5]; simp
    · exact absurd h5 h4
  · rintro rfl
    exact ⟨(C41_same_line A B p h _).mp ⟨0, by simp⟩, trackPoint_onPlane B _⟩

/-- C41: the extrapolated state is the only state at the target plane which describes the line. -/
theorem C41_unique (A B : Plane) (p q : State) (h : Crosses B (trackDir A p)) (hq : ∀ x, OnTrack B q x ↔ OnTrack A p x) :
    q = extrapolate A B p := by
  have e : trackPoint B q = trackPoint B (extrapolate A B p) :=
    (C41_intersection A B p h _).mp ⟨(hq _).mp ⟨0, by simp⟩, trackPoint_onPlane B q⟩
  obtain ⟨t, ht⟩ := (C41_same_line A B p h (trackPoint B q + trackDir B q)).mpr ((hq _).mp ⟨1, by simp⟩)
  rw [e] at ht
  exact state_unique B q _ t e (add_left_cancel ht)

/-- C41: extrapolating back gives the original state. -/
theorem C41_back (A B : Plane) (p : State) (h : Crosses B (trackDir A p)) : extrapolate B A (extrapolate A B p) = p :=
  extrapolate_back A B p h

/-- C41: extrapolating over an intermediate plane is the same as extrapolating directly. -/
theorem C41_intermediate (A B C : Plane) (p : State) (h : Crosses B (trackDir A p)) (h' : Crosses C (trackDir A p)) :
    extrapolate B C (extrapolate A B p) = extrapolate A C p := extrapolate_trans A B C p h h'

/-- Plane perpendicular to the beam. -/
noncomputable def flat (z : ℝ) : Plane := ⟨![0, 0, z], 0, 0, 0, 0.01, some (5, 5)⟩

/-- Plane which is rotated around x by 1 rad. -/
noncomputable def tilted : Plane := ⟨![1, 2, 3], 1, 0, 0, 0.01, none⟩

theorem flat_rot (z : ℝ) : (flat z).rot = 1 := by
  unfold flat Plane.rot
  ext i j
  fin_cases i <;> fin_cases j <;> simp [rotationMatrix_eq]

theorem flat_extrapolate (a b : ℝ) (p : State) :
    extrapolate (flat a) (flat b) p = ![p 0 + (b - a) * p 2, p 1 + (b - a) * p 3, p 2, p 3] := by
  unfold extrapolate extrapolateState
  rw [flat_rot, flat_rot]
  ext i
  fin_cases i <;> simp [flat, dotProduct, Fin.sum_univ_succ]

example (z : ℝ) : Crosses tilted (trackDir (flat z) ![1, 2, 0, 0]) := by
  unfold Crosses planeNormalOf trackDir
  rw [flat_rot]
  have := Real.cos_one_pos.ne'
  simpa [tilted, Plane.rot, dot, rotationMatrix_eq, mulVec, dotProduct, Fin.sum_univ_succ, Fin.succ_ne_zero, Matrix.one_apply] using this

example : extrapolate (flat 10) (flat 30) ![1, 2, 0.5, 0.1] = ![11, 4, 0.5, 0.1] := by
  rw [flat_extrapolate]; ext i; fin_cases i <;> simp <;> norm_num

/-! ### C42 -/

/-- C42: the Jacobian is the derivative of the extrapolation. -/
theorem C42_derivative (A B : Plane) (p : State) (h : Crosses B (trackDir A p)) :
    IsJacobian (extrapolate A B) (jacobianOf A B p) p := jacobianOf_spec A B p h

/-- C42: the filters use this matrix. -/
theorem C42_used (S : Setup) (ref : Nat → State) (a b : Nat) :
    jacobian S ref a b = jacobianOf (S.planes a) (S.planes b) (ref a) := jacobian_eq S ref a b

/-- C42: the Jacobian of the way back is the inverse. -/
theorem C42_back (A B : Plane) (p : State) (h : Crosses B (trackDir A p)) :
    jacobianOf B A (extrapolate A B p) * jacobianOf A B p = 1 := jacobian_back A B p h

/-- C42: Jacobians are multiplied along the way. -/
theorem C42_intermediate (A B C : Plane) (p : State) (h : Crosses B (trackDir A p)) (h' : Crosses C (trackDir A p)) :
    jacobianOf B C (extrapolate A B p) * jacobianOf A B p = jacobianOf A C p := jacobian_trans A B C p h h'

example : jacobianOf (flat 10) (flat 30) ![1, 2, 0.5, 0.1] = !![1, 0, 20, 0; 0, 1, 0, 20; 0, 0, 1, 0; 0, 0, 0, 1] := by
  unfold jacobianOf trackJacobian
  rw [flat_rot, flat_rot]
  ext i j
  fin_cases i <;> fin_cases j <;> simp [flat, dotProduct, Fin.sum_univ_succ] <;> norm_num

/-! ### C43 -/

/-- C43: the prediction of the forward filter moves the state with the Jacobian; the covariance is moved likewise, stays symmetric and
positive semi-definite, and only grows by the scattering. -/
theorem C43_predict_forward (J : Cov) (G : Gain) (Q : ObsCov) (hQ : Q.PosSemidef) (x : State) (C : Cov) (hC : C.PosSemidef) :
    (predictF J G Q x C).1 = J.mulVec x ∧ (predictF J G Q x C).2.PosSemidef ∧
      (predictF J G Q x C).2 = J * (C + G * Q * G.transpose) * J.transpose ∧
      AtMost (J * C * J.transpose) (predictF J G Q x C).2 := by
  refine ⟨rfl, predictF_psd J G hQ x hC, ?_, atMost_of_psd ?_⟩
  · unfold predictF
    simp only [transpose_mul, Matrix.mul_add, Matrix.add_mul, Matrix.mul_assoc]
  · have e : (predictF J G Q x C).2 - J * C * J.transpose = (J * G) * (Q * (J * G).transpose) := by
      unfold predictF; simp [Matrix.mul_assoc]
    rw [e]; exact psd_conj hQ _

/-- C43: likewise for the backward filter, where the scattering is added after the motion. -/
theorem C43_predict_backward (J : Cov) (G : Gain) (Q : ObsCov) (hQ : Q.PosSemidef) (x : State) (C : Cov) (hC : C.PosSemidef) :
    (predictB J G Q x C).1 = J.mulVec x ∧ (predictB J G Q x C).2.PosSemidef ∧
      (predictB J G Q x C).2 = J * C * J.transpose + G * Q * G.transpose ∧
      AtMost (J * C * J.transpose) (predictB J G Q x C).2 := by
  refine ⟨rfl, predictB_psd J G hQ x hC, ?_, atMost_of_psd ?_⟩
  · unfold predictB
    simp only [Matrix.mul_assoc]
  · have e : (predictB J G Q x C).2 - J * C * J.transpose = G * (Q * G.transpose) := by
      unfold predictB; simp [Matrix.mul_assoc]
    rw [e]; exact psd_conj hQ _

theorem filterCorrect_some (ref : State) (H : ObsMat) (V : ObsCov) (hV : V.PosDef) (x : State) (C : Cov) (hC : C.PosSemidef) (m : Obs) :
    filterCorrect ref H V x C (some m) =
      (gainOf C H V, x + (gainOf C H V).mulVec (m - H.mulVec (x + ref)), updCov C H V,
        some ((m - H.mulVec (x + ref)) ⬝ᵥ (H * (C * H.transpose) + V)⁻¹.mulVec (m - H.mulVec (x + ref)))) := by
  have e : C * (H.transpose * matInverse (H * (C * H.transpose) + V)) = gainOf C H V := by
    unfold gainOf; rw [matInverse_pd (S_posDef hC hV H)]
  have e2 : m - H.mulVec (x + (gainOf C H V).mulVec (m - H.mulVec (x + ref)) + ref) =
      (m - H.mulVec (x + ref)) - H.mulVec ((gainOf C H V).mulVec (m - H.mulVec (x + ref))) := by
    simp only [Matrix.mulVec_add]; abel
  unfold filterCorrect chiSquare
  simp only [e]
  change (_, _, updCov C H V, some (_ ⬝ᵥ (matInverse (V - H * (updCov C H V * H.transpose))).mulVec _)) = _
  rw [matInverse_pd (upd_residual_pd hC hV), e2, chi_eq hC hV]

/-- C43: the correction keeps the covariance symmetric and positive semi-definite and does not increase it. -/
theorem C43_correct (ref : State) (H : ObsMat) (V : ObsCov) (hV : V.PosDef) (x : State) (C : Cov) (hC : C.PosSemidef) (obs : Option Obs) :
    (filterCorrect ref H V x C obs).2.2.1.PosSemidef ∧ AtMost (filterCorrect ref H V x C obs).2.2.1 C := by
  cases obs with
  | none => exact ⟨hC, fun x => le_rfl⟩
  | some m => rw [filterCorrect_some ref H V hV x C hC m]; exact ⟨upd_psd hC hV, upd_atMost hC hV⟩

/-- C43: a missing hit changes nothing and has no chi-square. -/
theorem C43_missing (ref : State) (H : ObsMat) (V : ObsCov) (x : State) (C : Cov) :
    filterCorrect ref H V x C none = (0, x, C, none) := rfl

/-- C43: with a hit, the corrected state is the only minimum of the sum of the squared weighted deviations from the prediction and from the
hit, and the reported chi-square is the value of the minimum. -/
theorem C43_least_squares (ref : State) (H : ObsMat) (V : ObsCov) (hV : V.PosDef) (x : State) (C : Cov) (hC : C.PosDef) (m : Obs) :
    ∃ K xf Cf chi2, filterCorrect ref H V x C (some m) = (K, xf, Cf, some chi2) ∧
      leastSquares C H V (x + ref) m (xf + ref) = chi2 ∧ 0 ≤ chi2 ∧
      ∀ y, leastSquares C H V (x + ref) m y ≤ chi2 → y = xf + ref := by
  refine ⟨_, _, _, _, filterCorrect_some ref H V hV x C hC.posSemidef m, ?_, ?_, fun y hy => ?_⟩
  · rw [cost_eq hC hV]
    have : x + (gainOf C H V).mulVec (m - H.mulVec (x + ref)) + ref - (x + ref + (gainOf C H V).mulVec (m - H.mulVec (x + ref))) = 0 := by abel
    rw [this]; simp
  · exact quad_nonneg (S_posDef hC.posSemidef hV H).inv.posSemidef _
  · rw [cost_eq hC hV] at hy
    by_contra hne
    have := quad_pos (upd_pd (H := H) hC hV).inv (x := y - (x + ref + (gainOf C H V).mulVec (m - H.mulVec (x + ref)))) (by
      intro h0
      apply hne
      rw [sub_eq_zero.mp h0]; abel)
    linarith

/-- C43: the information of prediction and hit is added. -/
theorem C43_information (ref : State) (H : ObsMat) (V : ObsCov) (hV : V.PosDef) (x : State) (C : Cov) (hC : C.PosDef) (m : Obs) :
    (filterCorrect ref H V x C (some m)).2.2.1⁻¹ = C⁻¹ + H.transpose * V⁻¹ * H := by
  rw [filterCorrect_some ref H V hV x C hC.posSemidef m, Matrix.mul_assoc]
  exact upd_info hC hV

example : (1 : Cov).PosDef ∧ (1 : ObsCov).PosDef := ⟨Matrix.PosDef.one, Matrix.PosDef.one⟩

/-- C43: a complete fit never raises if the track is not parallel to a plane: there is a result for every plane, all covariances are
symmetric and positive definite, the chi-square exists exactly for planes with a hit and is not negative. -/
theorem C43_fit (S : Setup) (hS : Regular S) (fx : Fixer) (momentum beta : ℝ) (seed : State) (order : List Nat)
    (hx : ∀ s, references S fx momentum beta seed order = some s →
      ∀ p ∈ order, ∀ d ∈ order, Crosses (S.planes d) (trackDir (S.planes p) (s.1 p))) :
    ∃ l, smooth S fx momentum beta seed order = some l ∧ l.map Prod.fst = order ∧
      ∀ r ∈ l, r.2.C.PosDef ∧ r.2.chi2.isSome = (S.obs r.1).isSome ∧ ∀ c, r.2.chi2 = some c → 0 ≤ c := by
  obtain ⟨s, hs, hQ⟩ := references_some S hS fx momentum beta seed order
  obtain ⟨F, hF, hF1, -, hF2⟩ := filterF_pd S hS fx s.1 s.2 hQ order (hx s hs)
  obtain ⟨B, hB, hB1, -, hB2⟩ := filterB_pd S hS fx s.1 s.2 hQ order (hx s hs)
  obtain ⟨res, h1, h2, h3⟩ := smoothLoop_spec S hS fx s.1 F B order.length order.zipIdx (fun r hr => by
    have hm : r.1 ∈ order := by rw [← zipIdx_fst order]; exact List.mem_map_of_mem hr
    have a := hF2 _ (outAt_mem F r.1 (by rw [hF1]; exact hm))
    have b := hB2 _ (outAt_mem B r.1 (by rw [hB1]; exact List.mem_reverse.mpr hm))
    exact ⟨a.1, a.2.1, b.1, b.2.1⟩)
  refine ⟨res, (smooth_split S fx momentum beta seed order res).mpr ⟨s, F, B, hs, hF, hB, h1, fun o ho c hc => (h3 o ho).2.2 c hc⟩, ?_, h3⟩
  rw [h2, zipIdx_fst]

theorem crosses_same_rot (A B : Plane) (h : A.rot = B.rot) (p : State) : Crosses B (trackDir A p) := by
  rw [crosses_iff, h, rot_orth]; simp

/-- C43: a fit with parallel planes never raises, whatever the hits. -/
theorem C43_fit_parallel (S : Setup) (hS : Regular S) (fx : Fixer) (momentum beta : ℝ) (seed : State) (order : List Nat)
    (hx : ∀ p ∈ order, ∀ d ∈ order, (S.planes p).rot = (S.planes d).rot) :
    ∃ l, smooth S fx momentum beta seed order = some l ∧ l.map Prod.fst = order ∧
      ∀ r ∈ l, r.2.C.PosDef ∧ r.2.chi2.isSome = (S.obs r.1).isSome ∧ ∀ c, r.2.chi2 = some c → 0 ≤ c :=
  C43_fit S hS fx momentum beta seed order fun _ _ p hp d hd => crosses_same_rot _ _ (hx p hp d hd) _

/-- Three planes; the one in the middle is used for the fit if `mid`. -/
noncomputable def threePlanes (mid : Bool) (hits : Nat → Option Obs) : Setup :=
  { planes := fun d => flat (10 * d), H := fun _ => obsMat, V := fun _ => 1, obs := hits, fit := fun d => d ≠ 1 || mid, x0 := 0, C0 := 1 }

theorem threePlanes_regular (mid : Bool) (hits : Nat → Option Obs) : Regular (threePlanes mid hits) :=
  ⟨Matrix.PosDef.one, fun _ => Matrix.PosDef.one.posSemidef, fun _ _ _ => Matrix.PosDef.one⟩

example (mid : Bool) (hits : Nat → Option Obs) : Regular (threePlanes mid hits) ∧
    ∀ p ∈ [0, 1, 2], ∀ d ∈ [0, 1, 2], ((threePlanes mid hits).planes p).rot = ((threePlanes mid hits).planes d).rot :=
  ⟨threePlanes_regular mid hits, fun p _ d _ => by simp [threePlanes, flat_rot]⟩

/-! ### C65 -/

/-- C65: the scattering angles are measured in two directions which are perpendicular to the track and to each other. -/
theorem C65_axes (p : State) :
    ∃ n u v, trackAxes p = (n, u, v) ∧ (∃ c : ℝ, 0 < c ∧ n = c • ![p 2, p 3, 1]) ∧ n ⬝ᵥ n = 1 ∧ u ⬝ᵥ u = 1 ∧ v ⬝ᵥ v = 1 ∧
      n ⬝ᵥ u = 0 ∧ n ⬝ᵥ v = 0 ∧ u ⬝ᵥ v = 0 := by
  have h := trackAxes_spec p
  rcases e : trackAxes p with ⟨n, u, v⟩
  rw [e] at h
  simp only [dot_eq] at h
  obtain ⟨h1, h2, h3, h4, h5, h6, h7, h8, h9⟩ := h
  refine ⟨n, u, v, rfl, ⟨n 2, h7, ?_⟩, h1, h2, h3, h4, h5, h6⟩
  ext i
  fin_cases i
  · simp [h8, mul_comm]
  · simp [h9, mul_comm]
  · simp

example : ∃ n u v, trackAxes ![0, 0, 0, 0] = (n, u, v) ∧ n = ![0, 0, 1] ∧ u = ![1, 0, 0] ∧ v = ![0, 1, 0] := by
  refine ⟨_, _, _, rfl, ?_, ?_, ?_⟩ <;> ext i <;> fin_cases i <;> simp [normalise, cross, dotProduct, Fin.sum_univ_succ]

/-- C65: the scatter gain is the derivative of the track state with respect to the two angles. -/
theorem C65_derivative (p : State) (n u v : Vec3) (h : trackAxes p = (n, u, v)) :
    IsJacobian (deflected p n u v) (scatterGain p) 0 := scatterGain_jacobian p n u v h

/-- C65: the covariance of the slopes for independent angles with the same variance. -/
theorem C65_covariance (p : State) (variance : ℝ) :
    scatterGain p * !![variance, 0; 0, variance] * (scatterGain p).transpose =
      (variance * (1 + p 2 ^ 2 + p 3 ^ 2)) • !![0, 0, 0, 0; 0, 0, 0, 0; 0, 0, 1 + p 2 ^ 2, p 2 * p 3; 0, 0, p 2 * p 3, 1 + p 3 ^ 2] := by
  rw [Matrix.mul_assoc]; exact scatterGain_cov p variance

/-! ### C66 -/

theorem smooth_at (S : Setup) (fx : Fixer) (momentum beta : ℝ) (seed : State) (order : List Nat) (l : List (Nat × Smoothed))
    (h : smooth S fx momentum beta seed order = some l) (i : Nat) (r : Nat × Smoothed) (hr : l[i]? = some r) :
    ∃ s F B, references S fx momentum beta seed order = some s ∧ filterF S fx s.1 s.2 order = some F ∧ filterB S fx s.1 s.2 order = some B ∧
      order[i]? = some r.1 ∧ r.2.x = (smoothPlane (outAt F r.1) (outAt B r.1) i order.length).1 + s.1 r.1 ∧
      r.2.C = (smoothPlane (outAt F r.1) (outAt B r.1) i order.length).2 := by
  obtain ⟨s, F, B, hs, hF, hB, hl, -⟩ := (smooth_split S fx momentum beta seed order l).mp h
  have hf := smoothLoop_eq S fx s.1 F B order.length order.zipIdx l hl
  rw [List.forall₂_iff_get] at hf
  obtain ⟨hi, hr⟩ := List.getElem?_eq_some_iff.mp hr
  have hz : order.zipIdx.length = order.length := by simp
  have hi' : i < order.zipIdx.length := by rw [hf.1]; exact hi
  obtain ⟨e1, e2, e3, -⟩ := hf.2 i hi' hi
  simp only [List.get_eq_getElem, List.getElem_zipIdx, Nat.zero_add, hr] at e1 e2 e3
  refine ⟨s, F, B, hs, hF, hB, ?_, ?_, ?_⟩
  · rw [e1]; exact List.getElem?_eq_getElem (by rw [← hz]; exact hi')
  · rw [e2, ← e1]
  · rw [e3, ← e1]

/-- The two predictions for a plane and the reference state: from the planes in front of it (forward filter) and from the planes behind
it (backward filter). -/
structure Predictions (S : Setup) (fx : Fixer) (momentum beta : ℝ) (seed : State) (order : List Nat) (d : Nat) (F B : Out) (ref : State) :
    Prop where
  ex : ∃ s lF lB, references S fx momentum beta seed order = some s ∧ filterF S fx s.1 s.2 order = some lF ∧
    filterB S fx s.1 s.2 order = some lB ∧ F = outAt lF d ∧ B = outAt lB d ∧ ref = s.1 d

/-- What the smoother calculates at an inner plane: the information of both predictions, and twice the information of the hit. -/
theorem smooth_inner (S : Setup) (hS : Regular S) (fx : Fixer) (momentum beta : ℝ) (seed : State) (order : List Nat)
    (hx : ∀ s, references S fx momentum beta seed order = some s →
      ∀ p ∈ order, ∀ d ∈ order, Crosses (S.planes d) (trackDir (S.planes p) (s.1 p))) (l : List (Nat × Smoothed))
    (h : smooth S fx momentum beta seed order = some l) (i : Nat) (r : Nat × Smoothed) (hr : l[i]? = some r) :
    ∃ F B ref, Predictions S fx momentum beta seed order r.1 F B ref ∧ F.predC.PosDef ∧ B.predC.PosDef ∧
      (0 < i → i + 1 < order.length →
        r.2.C⁻¹ = F.predC⁻¹ + B.predC⁻¹ + (hitInfo S r.1 + hitInfo S r.1) ∧
        r.2.C⁻¹.mulVec (r.2.x - ref) = F.predC⁻¹.mulVec F.predX + B.predC⁻¹.mulVec B.predX + (hitVec S ref r.1 + hitVec S ref r.1)) ∧
      (i = 0 → r.2.C⁻¹ = B.predC⁻¹ + hitInfo S r.1 ∧ r.2.C⁻¹.mulVec (r.2.x - ref) = B.predC⁻¹.mulVec B.predX + hitVec S ref r.1) ∧
      (0 < i → i + 1 = order.length →
        r.2.C⁻¹ = F.predC⁻¹ + hitInfo S r.1 ∧ r.2.C⁻¹.mulVec (r.2.x - ref) = F.predC⁻¹.mulVec F.predX + hitVec S ref r.1) := by
  obtain ⟨s, F, B, hs, hF, hB, ho, ex, eC⟩ := smooth_at S fx momentum beta seed order l h i r hr
  have hm : r.1 ∈ order := List.mem_of_getElem? ho
  obtain ⟨s', hs', hQ⟩ := references_some S hS fx momentum beta seed order
  rw [hs] at hs'; cases hs'
  have hcr := hx s hs
  obtain ⟨F', hF', hF1, -, hF2⟩ := filterF_pd S hS fx s.1 s.2 hQ order hcr
  rw [hF] at hF'; cases hF'
  obtain ⟨B', hB', hB1, -, hB2⟩ := filterB_pd S hS fx s.1 s.2 hQ order hcr
  rw [hB] at hB'; cases hB'
  obtain ⟨okF, pF, cF⟩ := hF2 _ (outAt_mem F r.1 (by rw [hF1]; exact hm))
  obtain ⟨okB, pB, cB⟩ := hB2 _ (outAt_mem B r.1 (by rw [hB1]; exact List.mem_reverse.mpr hm))
  have iF := out_info hS okF pF
  have iB := out_info hS okB pB
  refine ⟨outAt F r.1, outAt B r.1, s.1 r.1, ⟨s, F, B, hs, hF, hB, rfl, rfl, rfl⟩, pF, pB, ?_, ?_, ?_⟩
  · intro h0 hn
    have := smoothPlane_inner (outAt F r.1) (outAt B r.1) i order.length cF cB h0 hn
    rw [ex, eC, add_sub_cancel_right, this.1]
    rw [this.1] at this
    refine ⟨?_, ?_⟩
    · rw [iF.1, iB.1]; abel
    · rw [this.2, iF.2, iB.2]; abel
  · intro h0
    have e : smoothPlane (outAt F r.1) (outAt B r.1) i order.length = ((outAt B r.1).x, (outAt B r.1).C) := by
      unfold smoothPlane; rw [if_pos h0]
    rw [ex, eC, add_sub_cancel_right, e]
    exact iB
  · intro h0 hn
    have e : smoothPlane (outAt F r.1) (outAt B r.1) i order.length = ((outAt F r.1).x, (outAt F r.1).C) := by
      unfold smoothPlane; rw [if_neg (by omega), if_pos (by omega)]
    rw [ex, eC, add_sub_cancel_right, e]
    exact iF

/-- C66, partial: at the first and the last plane, and at every plane without a hit which is used for the fit, the fitted state and its
covariance are the weighted combination of the predictions and of the hit, each counted once. Missing: planes in between with a hit, see
`C66_hit_counted_twice`. -/
theorem C66_partial (S : Setup) (hS : Regular S) (fx : Fixer) (momentum beta : ℝ) (seed : State) (order : List Nat)
    (hx : ∀ s, references S fx momentum beta seed order = some s →
      ∀ p ∈ order, ∀ d ∈ order, Crosses (S.planes d) (trackDir (S.planes p) (s.1 p))) (l : List (Nat × Smoothed))
    (h : smooth S fx momentum beta seed order = some l) (i : Nat) (r : Nat × Smoothed) (hr : l[i]? = some r) :
    ∃ F B ref, Predictions S fx momentum beta seed order r.1 F B ref ∧ F.predC.PosDef ∧ B.predC.PosDef ∧
      (0 < i → i + 1 < order.length → S.fit r.1 = false ∨ S.obs r.1 = none →
        r.2.C⁻¹ = F.predC⁻¹ + B.predC⁻¹ ∧ r.2.C⁻¹.mulVec (r.2.x - ref) = F.predC⁻¹.mulVec F.predX + B.predC⁻¹.mulVec B.predX) ∧
      (i = 0 → r.2.C⁻¹ = B.predC⁻¹ + hitInfo S r.1 ∧ r.2.C⁻¹.mulVec (r.2.x - ref) = B.predC⁻¹.mulVec B.predX + hitVec S ref r.1) ∧
      (0 < i → i + 1 = order.length →
        r.2.C⁻¹ = F.predC⁻¹ + hitInfo S r.1 ∧ r.2.C⁻¹.mulVec (r.2.x - ref) = F.predC⁻¹.mulVec F.predX + hitVec S ref r.1) := by
  obtain ⟨F, B, ref, hp, pF, pB, h1, h2, h3⟩ := smooth_inner S hS fx momentum beta seed order hx l h i r hr
  refine ⟨F, B, ref, hp, pF, pB, fun h0 hn hu => ?_, h2, h3⟩
  have e1 : hitInfo S r.1 = 0 := by
    unfold hitInfo
    rw [if_neg]
    rintro ⟨a, b⟩
    rcases hu with hu | hu
    · rw [hu] at a; cases a
    · rw [hu] at b; cases b
  have e2 : hitVec S ref r.1 = 0 := by
    unfold hitVec
    rcases hu with hu | hu
    · rw [hu]
    · rw [hu]; cases S.fit r.1 <;> rfl
  have := h1 h0 hn
  rw [e1, e2] at this
  simpa using this

/-- C66 does not hold: at every plane in between with a hit which is used for the fit, this hit is counted twice (it is part of the
forward and of the backward result). The reported variances of both coordinates are smaller than those of the best combination. -/
theorem C66_hit_counted_twice (S : Setup) (hS : Regular S) (fx : Fixer) (momentum beta : ℝ) (seed : State) (order : List Nat)
    (hx : ∀ s, references S fx momentum beta seed order = some s →
      ∀ p ∈ order, ∀ d ∈ order, Crosses (S.planes d) (trackDir (S.planes p) (s.1 p))) (l : List (Nat × Smoothed))
    (h : smooth S fx momentum beta seed order = some l) (i : Nat) (r : Nat × Smoothed) (hr : l[i]? = some r) (h0 : 0 < i)
    (hn : i + 1 < order.length) (hfit : S.fit r.1 = true) (hobs : (S.obs r.1).isSome = true) (hH : S.H r.1 = obsMat) :
    ∃ F B ref, Predictions S fx momentum beta seed order r.1 F B ref ∧ F.predC.PosDef ∧ B.predC.PosDef ∧
      r.2.C⁻¹ = F.predC⁻¹ + B.predC⁻¹ + (2 : ℝ) • hitInfo S r.1 ∧
      r.2.C⁻¹.mulVec (r.2.x - ref) = F.predC⁻¹.mulVec F.predX + B.predC⁻¹.mulVec B.predX + (2 : ℝ) • hitVec S ref r.1 ∧
      r.2.C 0 0 < (F.predC⁻¹ + B.predC⁻¹ + hitInfo S r.1)⁻¹ 0 0 ∧ r.2.C 1 1 < (F.predC⁻¹ + B.predC⁻¹ + hitInfo S r.1)⁻¹ 1 1 := by
  obtain ⟨F, B, ref, hp, pF, pB, h1, -, -⟩ := smooth_inner S hS fx momentum beta seed order hx l h i r hr
  obtain ⟨e1, e2⟩ := h1 h0 hn
  have hV := hS.used r.1 hfit hobs
  have hI : hitInfo S r.1 = obsMat.transpose * ((S.V r.1)⁻¹ * obsMat) := by
    unfold hitInfo; rw [if_pos ⟨hfit, hobs⟩, hH]
  have hA : (F.predC⁻¹ + B.predC⁻¹ + hitInfo S r.1).PosDef := by
    rw [hI]
    refine (pF.inv.add pB.inv).add_posSemidef ?_
    have := psd_conj hV.inv.posSemidef obsMat.transpose
    rwa [transpose_transpose] at this
  have hC : r.2.C = (F.predC⁻¹ + B.predC⁻¹ + hitInfo S r.1 + obsMat.transpose * ((S.V r.1)⁻¹ * obsMat))⁻¹ := by
    have hCpd : r.2.C.PosDef := by
      obtain ⟨l', hl', -, hl2⟩ := C43_fit S hS fx momentum beta seed order hx
      rw [h] at hl'; cases hl'
      exact (hl2 r (List.mem_of_getElem? hr)).1
    rw [← hI, add_assoc _ (hitInfo S r.1), ← e1, Matrix.nonsing_inv_nonsing_inv _ ((Matrix.isUnit_iff_isUnit_det _).mp hCpd.isUnit)]
  refine ⟨F, B, ref, hp, pF, pB, by rw [e1, two_smul], by rw [e2, two_smul], ?_, ?_⟩
  · rw [hC]
    exact variance_lt hA hV obsMat 0 0 (fun M => by ext j; simp [obsMat, Matrix.mul_apply, Fin.sum_univ_succ])
  · rw [hC]
    exact variance_lt hA hV obsMat 1 1 (fun M => by ext j; simp [obsMat, Matrix.mul_apply, Fin.sum_univ_succ])

example (fx : Fixer) (seed : State) (hits : Nat → Option Obs) (hh : (hits 1).isSome = true) :
    ∃ l r, smooth (threePlanes true hits) fx 100 1 seed [0, 1, 2] = some l ∧ l[1]? = some r ∧ (threePlanes true hits).fit r.1 = true ∧
      ((threePlanes true hits).obs r.1).isSome = true ∧ (threePlanes true hits).H r.1 = obsMat := by
  obtain ⟨l, h1, h2, -⟩ := C43_fit_parallel (threePlanes true hits) (threePlanes_regular true hits) fx 100 1 seed [0, 1, 2]
    (fun p _ d _ => by simp [threePlanes, flat_rot])
  have h3 : (l.map Prod.fst)[1]? = some 1 := by rw [h2]; rfl
  rw [List.getElem?_map, Option.map_eq_some_iff] at h3
  obtain ⟨r, hr, h4⟩ := h3
  exact ⟨l, r, h1, hr, by simp [threePlanes], by rw [h4]; exact hh, rfl⟩

/-! ### C67 -/

/-- C67, partial: if the planes are numbered in the order of their positions and all hits are on the seed line, then the fit returns this
line at every plane, with chi-square 0. Missing: planes which are numbered differently, see `C67_wrong_order`. -/
theorem C67_partial (S : Setup) (hS : Regular S) (fx : Fixer) (momentum beta : ℝ) (seed : State) (n : Nat) (h0 : S.x0 = 0)
    (hx : ∀ p < n, ∀ d < n, (S.planes p).rot = (S.planes d).rot)
    (hobs : ∀ d < n, ∀ m, S.obs d = some m → (S.H d).mulVec (extrapolate (S.planes 0) (S.planes d) seed) = m) :
    ∃ l, smooth S fx momentum beta seed (List.range n) = some l ∧ l.map Prod.fst = List.range n ∧
      ∀ r ∈ l, r.2.x = extrapolate (S.planes 0) (S.planes r.1) seed ∧ r.2.chi2 = (S.obs r.1).map fun _ => 0 := by
  obtain ⟨l, hl, -, -⟩ := C43_fit_parallel S hS fx momentum beta seed (List.range n)
    (fun p hp d hd => hx p (List.mem_range.mp hp) d (List.mem_range.mp hd))
  exact ⟨l, hl, smooth_straight S fx momentum beta seed n h0 hobs l hl⟩

example : ∀ d < 3, ∀ m, (threePlanes true fun d => some ![1 + 5 * d, 2]).obs d = some m →
    ((threePlanes true fun d => some ![1 + 5 * d, 2]).H d).mulVec (extrapolate (flat (10 * (0 : Nat))) (flat (10 * d)) ![1, 2, 0.5, 0]) = m := by
  intro d _ m hm
  simp only [threePlanes, Option.some.injEq] at hm ⊢
  rw [← hm, flat_extrapolate]
  ext i
  fin_cases i <;> simp [obsMat, mulVec, dotProduct, Fin.sum_univ_succ]
  ring

/-- Two planes numbered against the beam direction: plane 1 is at z = 0 and plane 0 at z = 1. -/
noncomputable def swapped : Setup :=
  { planes := fun d => if d = 0 then flat 1 else flat 0, H := fun _ => obsMat, V := fun _ => 1,
    obs := fun d => if d = 0 then some ![1, 0] else some ![0, 0], fit := fun _ => true, x0 := 0, C0 := 1 }

/-- C67 does not hold if the planes are numbered differently: the two hits are exactly on the seed line, but the fit returns another
position at the first plane. -/
theorem C67_wrong_order (fx : Fixer) (momentum beta : ℝ) :
    Regular swapped ∧ swapped.x0 = 0 ∧
    (∀ d, d = 0 ∨ d = 1 → ∀ m, swapped.obs d = some m →
      (swapped.H d).mulVec (extrapolate (swapped.planes 1) (swapped.planes d) ![0, 0, 1, 0]) = m) ∧
    ∃ l r, smooth swapped fx momentum beta ![0, 0, 1, 0] [1, 0] = some l ∧ (1, r) ∈ l ∧ obsMat.mulVec r.x ≠ ![0, 0] := by
  have hreg : Regular swapped := ⟨Matrix.PosDef.one, fun _ => Matrix.PosDef.one.posSemidef, fun _ _ _ => Matrix.PosDef.one⟩
  have hrot : ∀ p ∈ [1, 0], ∀ d ∈ [1, 0], (swapped.planes p).rot = (swapped.planes d).rot := by
    intro p hp d hd
    simp only [List.mem_cons, List.not_mem_nil, or_false] at hp hd
    rcases hp with rfl | rfl <;> rcases hd with rfl | rfl <;> simp [swapped, flat_rot]
  refine ⟨hreg, rfl, ?_, ?_⟩
  · rintro d (rfl | rfl) m hm <;> simp [swapped] at hm ⊢ <;> rw [flat_extrapolate, ← hm] <;> ext i <;> fin_cases i <;>
      simp [obsMat, mulVec, dotProduct, Fin.sum_univ_succ]
  · obtain ⟨l, hl, hl1, -⟩ := C43_fit_parallel swapped hreg fx momentum beta ![0, 0, 1, 0] [1, 0] hrot
    have h3 : (l.map Prod.fst)[0]? = some 1 := by rw [hl1]; rfl
    rw [List.getElem?_map, Option.map_eq_some_iff] at h3
    obtain ⟨r, hr, hr1⟩ := h3
    refine ⟨l, r.2, hl, ?_, ?_⟩
    · rw [← hr1]; exact List.mem_of_getElem? hr
    obtain ⟨s, F, B, hs, hF, hB, -, ex, -⟩ := smooth_at _ _ _ _ _ _ l hl 0 r hr
    rw [hr1] at ex
    -- reference states
    have href : s.1 0 = ![1, 0, 1, 0] ∧ s.1 1 = ![2, 0, 1, 0] := by
      unfold references at hs
      simp only [List.headD_cons, Option.map_eq_some_iff] at hs
      obtain ⟨b, hb, rfl⟩ := hs
      have hnd : (([1, 0] : List Nat).zipIdx.map Prod.fst).Nodup := by decide
      have r1 := refLoop1_spec swapped.planes momentum beta 1 ![0, 0, 1, 0] [1, 0].zipIdx (fun _ => 0, fun _ => 0) hnd
      have e0 : (refLoop1 swapped.planes momentum beta 1 ![0, 0, 1, 0] [1, 0].zipIdx (fun _ => 0, fun _ => 0)).1 0 = ![1, 0, 1, 0] := by
        rw [(r1 0).1 1 (by decide), seedAt_eq _ _ _ _ _ (by decide)]
        simp only [swapped]
        rw [if_neg (by decide), if_pos trivial, flat_extrapolate]
        ext i; fin_cases i <;> simp
      have e1 : (refLoop1 swapped.planes momentum beta 1 ![0, 0, 1, 0] [1, 0].zipIdx (fun _ => 0, fun _ => 0)).1 1 = ![0, 0, 1, 0] := by
        rw [(r1 1).1 0 (by decide)]
        rfl
      have hz := (filterB_zero swapped fx _ _ [1, 0] rfl (by
        intro d hd m hm
        simp only [List.mem_cons, List.not_mem_nil, or_false] at hd
        rcases hd with rfl | rfl
        · rw [e1]
          simp [swapped] at hm ⊢
          rw [← hm]; ext i; fin_cases i <;> simp [obsMat, mulVec, dotProduct, Fin.sum_univ_succ]
        · rw [e0]
          simp [swapped] at hm ⊢
          rw [← hm]; ext i; fin_cases i <;> simp [obsMat, mulVec, dotProduct, Fin.sum_univ_succ]) b hb).2
      rw [outAt_zero b 0 hz, e0, add_zero]
      have hnd2 : (([1, 0] : List Nat).zipIdx.map Prod.snd).Nodup := by decide
      have r2 := refLoop2_spec swapped.planes momentum beta 1 ![1, 0, 1, 0] [1, 0].zipIdx
        (refLoop1 swapped.planes momentum beta 1 ![0, 0, 1, 0] [1, 0].zipIdx (fun _ => 0, fun _ => 0)) hnd2
      constructor
      · rw [(r2 0).1 1 (by decide)]; rfl
      · rw [(r2 1).1 0 (by decide), seedAt_eq _ _ _ _ _ (by decide)]
        simp only [swapped]
        rw [if_neg (by decide), if_pos trivial, flat_extrapolate]
        ext i; fin_cases i <;> simp; norm_num
    obtain ⟨s', hs', hQ⟩ := references_some swapped hreg fx momentum beta ![0, 0, 1, 0] [1, 0]
    rw [hs] at hs'; cases hs'
    obtain ⟨B', hB', hB1, hch, hok⟩ := filterB_psd swapped hreg fx s.1 s.2 hQ [1, 0]
    rw [hB] at hB'; cases hB'
    obtain ⟨o0, o1, rfl⟩ : ∃ o0 o1, B = [(0, o0), (1, o1)] := by
      match B, hB1 with
      | [(a, o0), (b, o1)], h => 
        simp at h
        exact ⟨o0, o1, by rw [h.1, h.2]⟩
      | [], h => simp at h
      | [_], h => simp at h
      | _ :: _ :: _ :: _, h => simp at h
    have e : (smoothPlane (outAt F 1) (outAt [(0, o0), (1, o1)] 1) 0 [1, 0].length).1 = o1.x := by
      unfold smoothPlane outAt; rw [if_pos rfl]; rfl
    rw [e, href.2] at ex
    have ok0 := (hok (0, o0) (by simp)).1
    have ok1 := (hok (1, o1) (by simp)).1
    have p1 := (hok (1, o1) (by simp)).2
    simp only [] at ok0 ok1 p1
    unfold Chain at hch
    obtain ⟨c1, -, c2⟩ := hch
    unfold Chain at c2
    obtain ⟨c3, -⟩ := c2
    have x0 : o0.x = 0 := by
      have := (ok0.used rfl ![1, 0] rfl).2.1
      have z : (![1, 0] : Obs) - (swapped.H 0).mulVec (o0.predX + s.1 0) = 0 := by
        rw [c1, href.1]; ext i; fin_cases i <;> simp [swapped, obsMat, mulVec, dotProduct, Fin.sum_univ_succ]
      rw [this, z, c1]; simp [swapped]
    have x1 : o1.predX = 0 := by
      unfold stepB predictB at c3
      rw [x0] at c3
      simp only [Option.some.injEq, Prod.mk.injEq] at c3
      rw [← c3.1, mulVec_zero]
    have u := (ok1.used rfl ![0, 0] rfl)
    have ux := u.2.1
    rw [u.1, x1, href.2, zero_add, zero_add] at ux
    intro hcon
    rw [ex, ux] at hcon
    have hres := residual_eq p1 (V := swapped.V 1) (H := swapped.H 1) Matrix.PosDef.one
      ((![0, 0] : Obs) - (swapped.H 1).mulVec ![2, 0, 1, 0])
    rw [mulVec_add] at hcon
    have hH : swapped.H 1 = obsMat := rfl
    rw [hH] at hres hcon
    have hzero : (![0, 0] : Obs) - obsMat.mulVec ![2, 0, 1, 0] -
        obsMat.mulVec ((gainOf o1.predC obsMat (swapped.V 1)).mulVec (![0, 0] - obsMat.mulVec ![2, 0, 1, 0])) = 0 := by
      rw [← sub_eq_zero.mpr hcon.symm]; abel
    rw [hzero] at hres
    have hV : swapped.V 1 = 1 := rfl
    rw [hV, one_mulVec] at hres
    have hS := S_posDef p1 (V := (1 : ObsCov)) Matrix.PosDef.one obsMat
    have := congrArg (fun v => (obsMat * (o1.predC * obsMat.transpose) + 1).mulVec v) hres
    simp only [mulVec_zero, mulVec_mulVec, pd_mul_inv hS, one_mulVec] at this
    have := congrFun this 0
    simp [obsMat, mulVec, dotProduct, Fin.sum_univ_succ] at this

end BTA.Props
