import Verif.Spec.KalmanChi2
import Verif.Lemmas.KalmanPath
import Verif.Props.Kalman
/-
C233: the chi-square of the Kalman fit (beam_telescope_analysis/tools/kalman.py L921-936). Floating point numbers are real numbers.
-/
namespace BTA.Props
open BTA.Geo BTA.Kalman BTA.Spec Matrix

/-! ### Matrices -/

theorem obsMat_pd {P : Cov} (hP : P.PosDef) : (obsMat * (P * obsMat.transpose)).PosDef := by
  have h := hP.mul_mul_conjTranspose_same (B := obsMat) (by
    intro x y h
    have h0 := congrFun h 0
    have h1 := congrFun h 1
    simp [obsMat, vecMul, dotProduct, Fin.sum_univ_succ] at h0 h1
    ext i
    fin_cases i
    · exact h0
    · exact h1)
  rwa [conjTranspose_eq_transpose_of_trivial, Matrix.mul_assoc] at h

theorem dot_symm {n : Nat} {A : Matrix (Fin n) (Fin n) ℝ} (h : A.transpose = A) (x y : Fin n → ℝ) : x ⬝ᵥ A.mulVec y = A.mulVec x ⬝ᵥ y := by
  rw [dot_mulVec_left, h]

theorem inv_mulVec_eq {n : Nat} {A : Matrix (Fin n) (Fin n) ℝ} (h : A.PosDef) {x y : Fin n → ℝ} (e : A.mulVec x = y) : A⁻¹.mulVec y = x := by
  rw [← e, Matrix.mulVec_mulVec, pd_inv_mul h, Matrix.one_mulVec]

theorem mulVec_inv_eq {n : Nat} {A : Matrix (Fin n) (Fin n) ℝ} (h : A.PosDef) (x : Fin n → ℝ) : A.mulVec (A⁻¹.mulVec x) = x := by
  rw [Matrix.mulVec_mulVec, pd_mul_inv h, Matrix.one_mulVec]

/-- The chi-square of a hit that has been used twice is too small. -/
theorem twice_lt {A U : ObsCov} (hA : A.PosDef) (hU : U.PosDef) {r : Obs} (hr : r ≠ 0) :
    U.mulVec ((A + U)⁻¹.mulVec r) ⬝ᵥ (U + U * ((A + U)⁻¹ * U))⁻¹.mulVec (U.mulVec ((A + U)⁻¹.mulVec r)) < r ⬝ᵥ (A + (U + U))⁻¹.mulVec r := by
  have hS : (A + U).PosDef := hA.add hU
  have sA := psd_symm hA.posSemidef
  have sU := psd_symm hU.posSemidef
  have hT : (A + (U + U)).PosDef := hA.add (hU.add hU)
  have sS := psd_symm hS.posSemidef
  have hN : ((A + U) * (U⁻¹ * (A + U)) + (A + U)).PosDef := by
    have := psd_conj hU.inv.posSemidef (A + U)
    rw [sS] at this
    exact Matrix.PosDef.posSemidef_add this hS
  have hW : (U + U * ((A + U)⁻¹ * U)).PosDef := by
    have := psd_conj hS.inv.posSemidef U
    rw [sU] at this
    exact hU.add_posSemidef this
  set p := ((A + U) * (U⁻¹ * (A + U)) + (A + U))⁻¹.mulVec r with hp
  have hNp : (A + U).mulVec (U⁻¹.mulVec ((A + U).mulVec p)) + (A + U).mulVec p = r := by
    have := mulVec_inv_eq hN r
    rw [← hp, Matrix.add_mulVec, ← Matrix.mulVec_mulVec, ← Matrix.mulVec_mulVec] at this
    exact this
  have hp0 : p ≠ 0 := by
    intro h0
    rw [h0] at hNp
    simp only [Matrix.mulVec_zero, add_zero] at hNp
    exact hr hNp.symm
  have hz : (A + U)⁻¹.mulVec r = U⁻¹.mulVec ((A + U).mulVec p) + p := by
    apply inv_mulVec_eq hS
    rw [Matrix.mulVec_add]
    exact hNp
  have hUz : U.mulVec ((A + U)⁻¹.mulVec r) = (A + U).mulVec p + U.mulVec p := by
    rw [hz, Matrix.mulVec_add, mulVec_inv_eq hU]
  have hWi : (U + U * ((A + U)⁻¹ * U))⁻¹.mulVec (U.mulVec ((A + U)⁻¹.mulVec r)) = U⁻¹.mulVec ((A + U).mulVec p) := by
    apply inv_mulVec_eq hW
    rw [Matrix.add_mulVec, ← Matrix.mulVec_mulVec, ← Matrix.mulVec_mulVec, mulVec_inv_eq hU, hUz]
    congr 2
    exact inv_mulVec_eq hS rfl
  have hchi : U.mulVec ((A + U)⁻¹.mulVec r) ⬝ᵥ (U + U * ((A + U)⁻¹ * U))⁻¹.mulVec (U.mulVec ((A + U)⁻¹.mulVec r)) = r ⬝ᵥ p := by
    rw [hWi, ← dot_symm sU, mulVec_inv_eq hU, dot_symm sS, mulVec_inv_eq hS]
  rw [hchi]
  have hf := quad_fenchel_inv hT r p
  -- compare the two forms
  have e1 : r ⬝ᵥ p = ((A + U).mulVec p) ⬝ᵥ U⁻¹.mulVec ((A + U).mulVec p) + p ⬝ᵥ (A + U).mulVec p := by
    conv_lhs => rw [← hNp]
    rw [add_dotProduct, dotProduct_comm, dot_symm sS, dotProduct_comm ((A + U).mulVec p) p]
  have e2 : (A + U).mulVec p ⬝ᵥ U⁻¹.mulVec ((A + U).mulVec p) =
      A.mulVec p ⬝ᵥ U⁻¹.mulVec (A.mulVec p) + 2 * (p ⬝ᵥ A.mulVec p) + p ⬝ᵥ U.mulVec p := by
    rw [Matrix.add_mulVec, quad_add (psd_symm hU.inv.posSemidef)]
    have : U⁻¹.mulVec (U.mulVec p) = p := inv_mulVec_eq hU rfl
    rw [this, ← dot_symm sU, mulVec_inv_eq hU, dotProduct_comm (U.mulVec p) p]
  have e3 : p ⬝ᵥ (A + U).mulVec p = p ⬝ᵥ A.mulVec p + p ⬝ᵥ U.mulVec p := by rw [Matrix.add_mulVec, dotProduct_add]
  have e4 : p ⬝ᵥ (A + (U + U)).mulVec p = p ⬝ᵥ A.mulVec p + 2 * (p ⬝ᵥ U.mulVec p) := by
    rw [Matrix.add_mulVec, Matrix.add_mulVec, dotProduct_add, dotProduct_add]; ring
  have h1 : 0 ≤ A.mulVec p ⬝ᵥ U⁻¹.mulVec (A.mulVec p) := quad_nonneg hU.inv.posSemidef _
  have h2 : 0 < p ⬝ᵥ A.mulVec p := quad_pos hA hp0
  rw [dotProduct_comm p r] at hf
  linarith

/-! ### The fit -/

theorem smooth_chi (S : Setup) (hS : Regular S) (fx : Fixer) (momentum beta : ℝ) (seed : State) (order : List Nat)
    (hx : ∀ s, references S fx momentum beta seed order = some s →
      ∀ p ∈ order, ∀ d ∈ order, Crosses (S.planes d) (trackDir (S.planes p) (s.1 p))) (l : List (Nat × Smoothed))
    (h : smooth S fx momentum beta seed order = some l) (i : Nat) (r : Nat × Smoothed) (hr : l[i]? = some r) :
    ∃ F B ref, Predictions S fx momentum beta seed order r.1 F B ref ∧ F.predC.PosDef ∧ B.predC.PosDef ∧ F.C.PosDef ∧ B.C.PosDef ∧
      OutOk S ref r.1 F ∧ OutOk S ref r.1 B ∧ i < order.length ∧
      smoothChi2 S fx ref r.1 (smoothPlane F B i order.length) = some r.2.chi2 := by
  obtain ⟨s, F, B, hs, hF, hB, hl, -⟩ := (smooth_split S fx momentum beta seed order l).mp h
  have hf := smoothLoop_eq S fx s.1 F B order.length order.zipIdx l hl
  rw [List.forall₂_iff_get] at hf
  obtain ⟨hi, hr⟩ := List.getElem?_eq_some_iff.mp hr
  have hz : order.zipIdx.length = order.length := by simp
  have hi' : i < order.zipIdx.length := by rw [hf.1]; exact hi
  obtain ⟨e1, -, -, e4⟩ := hf.2 i hi' hi
  simp only [List.get_eq_getElem, List.getElem_zipIdx, Nat.zero_add, hr] at e1 e4
  have hm : r.1 ∈ order := by rw [e1]; exact List.getElem_mem _
  obtain ⟨s', hs', hQ⟩ := references_some S hS fx momentum beta seed order
  rw [hs] at hs'; cases hs'
  obtain ⟨F', hF', hF1, -, hF2⟩ := filterF_pd S hS fx s.1 s.2 hQ order (hx s hs)
  rw [hF] at hF'; cases hF'
  obtain ⟨B', hB', hB1, -, hB2⟩ := filterB_pd S hS fx s.1 s.2 hQ order (hx s hs)
  rw [hB] at hB'; cases hB'
  obtain ⟨okF, pF, cF⟩ := hF2 _ (outAt_mem F r.1 (by rw [hF1]; exact hm))
  obtain ⟨okB, pB, cB⟩ := hB2 _ (outAt_mem B r.1 (by rw [hB1]; exact List.mem_reverse.mpr hm))
  rw [← e1] at e4
  exact ⟨outAt F r.1, outAt B r.1, s.1 r.1, ⟨s, F, B, hs, hF, hB, rfl, rfl, rfl⟩, pF, pB, cF, cB, okF, okB, by omega, e4⟩

/-- The chi-square at the first or last plane, where the result of one filter is used. -/
theorem end_chi (S : Setup) (hS : Regular S) (fx : Fixer) (ref : State) (d : Nat) (o : Out) (hH : S.H d = obsMat) (hok : OutOk S ref d o) (hp : o.predC.PosDef)
    (m : Obs) (hm : S.obs d = some m) : smoothChi2 S fx ref d (o.x, o.C) = some (some (hitChi2 S ref d o.predX o.predC m)) := by
  unfold smoothChi2 hitChi2 distance
  rw [hm]
  simp only
  by_cases hf : S.fit d = true
  · have hV := hS.used d hf (by rw [hm]; rfl)
    obtain ⟨h1, h2, h3, -⟩ := hok.used hf m hm
    have hW := upd_residual_pd (H := S.H d) hp.posSemidef hV
    rw [if_pos hf, h3, checkObsCov_psd fx hW.posSemidef, Option.map_some]
    have hx : m - (S.H d).mulVec (o.x + ref) = (m - (S.H d).mulVec (o.predX + ref)) -
        (S.H d).mulVec ((gainOf o.predC (S.H d) (S.V d)).mulVec (m - (S.H d).mulVec (o.predX + ref))) := by
      rw [h2, h1]; simp only [Matrix.mulVec_add]; abel
    rw [hx]
    unfold chiSquare
    rw [matInverse_pd hW, chi_eq hp.posSemidef hV]
  · obtain ⟨h1, h2, -⟩ := hok.unused (.inl (by simpa using hf))
    have hW : (S.H d * (o.predC * (S.H d).transpose) + S.V d).PosDef := by
      rw [hH]; exact (obsMat_pd hp).add_posSemidef (hS.noise d)
    rw [if_neg hf, h1, h2, add_comm (S.V d), checkObsCov_psd fx hW.posSemidef, Option.map_some]
    unfold chiSquare
    rw [matInverse_pd hW]

/-- C233, partial: at the first and the last plane, and at every plane that is not used for the fit, the chi-square is the squared distance of the hit
to the estimate from all other planes in units of the errors of both. Missing: planes in between that are used for the fit, see
`C233_inner_fails`. -/
theorem C233_partial (S : Setup) (hS : Regular S) (fx : Fixer) (momentum beta : ℝ) (seed : State) (order : List Nat)
    (hx : ∀ s, references S fx momentum beta seed order = some s →
      ∀ p ∈ order, ∀ d ∈ order, Crosses (S.planes d) (trackDir (S.planes p) (s.1 p))) (l : List (Nat × Smoothed))
    (h : smooth S fx momentum beta seed order = some l) (i : Nat) (r : Nat × Smoothed) (hr : l[i]? = some r) (hH : S.H r.1 = obsMat)
    (m : Obs) (hm : S.obs r.1 = some m) (hcase : i = 0 ∨ i + 1 = order.length ∨ S.fit r.1 = false) :
    ∃ F B ref x P, Predictions S fx momentum beta seed order r.1 F B ref ∧ FromOthers F B i order.length x P ∧
      r.2.chi2 = some (hitChi2 S ref r.1 x P m) := by
  obtain ⟨F, B, ref, hpre, pF, pB, cF, cB, okF, okB, hi, hchi⟩ := smooth_chi S hS fx momentum beta seed order hx l h i r hr
  by_cases h0 : i = 0
  · have e : smoothPlane F B i order.length = (B.x, B.C) := by unfold smoothPlane; rw [if_pos h0]
    rw [e, end_chi S hS fx ref r.1 B hH okB pB m hm] at hchi
    exact ⟨F, B, ref, B.predX, B.predC, hpre, ⟨pB, fun _ => ⟨rfl, rfl⟩, fun h => by omega, fun h => by omega⟩, (Option.some.inj hchi).symm⟩
  · by_cases hn : i + 1 = order.length
    · have e : smoothPlane F B i order.length = (F.x, F.C) := by unfold smoothPlane; rw [if_neg h0, if_pos (by omega)]
      rw [e, end_chi S hS fx ref r.1 F hH okF pF m hm] at hchi
      exact ⟨F, B, ref, F.predX, F.predC, hpre, ⟨pF, fun h => absurd h h0, fun _ _ => ⟨rfl, rfl⟩, fun _ h => by omega⟩, (Option.some.inj hchi).symm⟩
    · have hfit : S.fit r.1 = false := by
        rcases hcase with h | h | h
        · exact absurd h h0
        · exact absurd h hn
        · exact h
      obtain ⟨f1, f2, -⟩ := okF.unused (.inl hfit)
      obtain ⟨b1, b2, -⟩ := okB.unused (.inl hfit)
      obtain ⟨e1, e2⟩ := smoothPlane_inner F B i order.length cF cB (by omega) (by omega)
      have hCpd := smoothPlane_pd F B i order.length cF cB
      refine ⟨F, B, ref, (smoothPlane F B i order.length).1, (smoothPlane F B i order.length).2, hpre,
        ⟨hCpd, fun h => absurd h h0, fun _ h => absurd h hn, fun _ _ => ?_⟩, ?_⟩
      · rw [← f1, ← f2, ← b1, ← b2]; exact ⟨e1, e2⟩
      · unfold smoothChi2 at hchi
        rw [hm] at hchi
        have hW : (S.H r.1 * ((smoothPlane F B i order.length).2 * (S.H r.1).transpose) + S.V r.1).PosDef := by
          rw [hH]; exact (obsMat_pd hCpd).add_posSemidef (hS.noise r.1)
        simp only [hfit, Bool.false_eq_true, if_false] at hchi
        rw [add_comm (S.V r.1), checkObsCov_psd fx hW.posSemidef, Option.map_some] at hchi
        rw [← Option.some.inj hchi]
        unfold chiSquare hitChi2 distance
        rw [matInverse_pd hW]

/-- C233 is false at every plane in between with a hit that is used for the fit: unless the hit is exactly at the position estimated from the other
planes, the chi-square is too small. -/
theorem C233_inner_fails (S : Setup) (hS : Regular S) (fx : Fixer) (momentum beta : ℝ) (seed : State) (order : List Nat)
    (hx : ∀ s, references S fx momentum beta seed order = some s →
      ∀ p ∈ order, ∀ d ∈ order, Crosses (S.planes d) (trackDir (S.planes p) (s.1 p))) (l : List (Nat × Smoothed))
    (h : smooth S fx momentum beta seed order = some l) (i : Nat) (r : Nat × Smoothed) (hr : l[i]? = some r) (hH : S.H r.1 = obsMat)
    (m : Obs) (hm : S.obs r.1 = some m) (h0 : 0 < i) (hn : i + 1 < order.length) (hfit : S.fit r.1 = true) :
    ∃ F B ref x P c, Predictions S fx momentum beta seed order r.1 F B ref ∧ FromOthers F B i order.length x P ∧ r.2.chi2 = some c ∧
      (m ≠ (S.H r.1).mulVec (x + ref) → c < hitChi2 S ref r.1 x P m) := by
  obtain ⟨F, B, ref, hpre, pF, pB, cF, cB, okF, okB, hi, hchi⟩ := smooth_chi S hS fx momentum beta seed order hx l h i r hr
  have hV := hS.used r.1 hfit (by rw [hm]; rfl)
  have hI : (F.predC⁻¹ + B.predC⁻¹).PosDef := pF.inv.add pB.inv
  set P := (F.predC⁻¹ + B.predC⁻¹)⁻¹ with hPd
  have hP : P.PosDef := hI.inv
  have hPi : P⁻¹ = F.predC⁻¹ + B.predC⁻¹ := Matrix.inv_eq_right_inv (pd_inv_mul hI)
  set x := P.mulVec (F.predC⁻¹.mulVec F.predX + B.predC⁻¹.mulVec B.predX) with hxd
  have hPx : P⁻¹.mulVec x = F.predC⁻¹.mulVec F.predX + B.predC⁻¹.mulVec B.predX := inv_mulVec_eq hP rfl
  clear_value x
  -- twice the information of the hit is a hit with half of the covariance
  set U := (1 / 2 : ℝ) • S.V r.1 with hUd
  have hU : U.PosDef := hV.smul (by norm_num)
  have hUU : S.V r.1 = U + U := by rw [hUd, ← add_smul]; norm_num
  have hUi : U⁻¹ = (S.V r.1)⁻¹ + (S.V r.1)⁻¹ := by
    apply Matrix.inv_eq_right_inv
    rw [hUd, Matrix.mul_add, Matrix.smul_mul, pd_mul_inv hV, ← add_smul]; norm_num
  obtain ⟨e1, e2⟩ := smoothPlane_inner F B i order.length cF cB h0 hn
  have hCpd := smoothPlane_pd F B i order.length cF cB
  set xs := (smoothPlane F B i order.length).1 with hxs
  set C := (smoothPlane F B i order.length).2 with hCd
  have iF := out_info hS okF pF
  have iB := out_info hS okB pB
  have hInfo : hitInfo S r.1 + hitInfo S r.1 = (S.H r.1).transpose * (U⁻¹ * S.H r.1) := by
    unfold hitInfo
    rw [if_pos ⟨hfit, by rw [hm]; rfl⟩, hUi, Matrix.add_mul, Matrix.mul_add]
  have hVec : hitVec S ref r.1 + hitVec S ref r.1 = ((S.H r.1).transpose * U⁻¹).mulVec (m - (S.H r.1).mulVec ref) := by
    unfold hitVec
    rw [hfit, hm, hUi, Matrix.mul_add, Matrix.add_mulVec]
  have hCi : C⁻¹ = P⁻¹ + (S.H r.1).transpose * (U⁻¹ * S.H r.1) := by rw [e1, iF.1, iB.1, hPi, ← hInfo]; abel
  have hC : C = updCov P (S.H r.1) U := by
    have := upd_info (H := S.H r.1) hP hU
    rw [← hCi] at this
    have h2 : (C⁻¹)⁻¹ = ((updCov P (S.H r.1) U)⁻¹)⁻¹ := by rw [this]
    rw [Matrix.nonsing_inv_nonsing_inv _ ((Matrix.isUnit_iff_isUnit_det _).mp hCpd.isUnit),
      Matrix.nonsing_inv_nonsing_inv _ ((Matrix.isUnit_iff_isUnit_det _).mp (upd_pd hP hU).isUnit)] at h2
    exact h2
  have hxsE : xs = x + (gainOf P (S.H r.1) U).mulVec (m - (S.H r.1).mulVec (x + ref)) := by
    have h1 : C⁻¹.mulVec xs = P⁻¹.mulVec x + ((S.H r.1).transpose * U⁻¹).mulVec (m - (S.H r.1).mulVec ref) := by
      rw [e2, iF.2, iB.2, hPx, ← hVec]; abel
    have h2 : C⁻¹.mulVec (x + (gainOf P (S.H r.1) U).mulVec (m - (S.H r.1).mulVec (x + ref))) =
        P⁻¹.mulVec x + ((S.H r.1).transpose * U⁻¹).mulVec (m - (S.H r.1).mulVec ref) := by
      rw [Matrix.mulVec_add, gain_eq hP.posSemidef hU, ← hC, Matrix.mulVec_mulVec, ← Matrix.mul_assoc, pd_inv_mul hCpd, Matrix.one_mul, hCi, Matrix.add_mulVec]
      have : m - (S.H r.1).mulVec (x + ref) = (m - (S.H r.1).mulVec ref) - (S.H r.1).mulVec x := by rw [Matrix.mulVec_add]; abel
      rw [this, Matrix.mulVec_sub, Matrix.mulVec_mulVec, Matrix.mul_assoc]
      abel
    have h3 := congrArg (fun v => C.mulVec v) (h1.trans h2.symm)
    simp only [mulVec_inv_eq hCpd] at h3
    exact h3
  have hA : (S.H r.1 * (P * (S.H r.1).transpose)).PosDef := by rw [hH]; exact obsMat_pd hP
  set R := m - (S.H r.1).mulVec (x + ref) with hR
  have hres : m - (S.H r.1).mulVec (xs + ref) = U.mulVec ((S.H r.1 * (P * (S.H r.1).transpose) + U)⁻¹.mulVec R) := by
    rw [← residual_eq hP.posSemidef hU, hxsE, hR]
    simp only [Matrix.mulVec_add]; abel
  have hWe : S.V r.1 - S.H r.1 * (C * (S.H r.1).transpose) = U + U * ((S.H r.1 * (P * (S.H r.1).transpose) + U)⁻¹ * U) := by
    rw [← upd_residual hP.posSemidef hU, ← hC, hUU]; abel
  have hW : (U + U * ((S.H r.1 * (P * (S.H r.1).transpose) + U)⁻¹ * U)).PosDef := by
    have := psd_conj (hA.add hU).inv.posSemidef U
    rw [psd_symm hU.posSemidef] at this
    exact hU.add_posSemidef this
  unfold smoothChi2 at hchi
  rw [hm] at hchi
  simp only [hfit, if_true] at hchi
  rw [← hxs, ← hCd, hWe, checkObsCov_psd fx hW.posSemidef, Option.map_some, hres] at hchi
  refine ⟨F, B, ref, x, P, _, hpre, ⟨hP, fun h => by omega, fun _ h => by omega, fun _ _ => ⟨hPi, hPx⟩⟩, (Option.some.inj hchi).symm, fun hne => ?_⟩
  unfold chiSquare hitChi2 distance
  rw [matInverse_pd hW, hUU]
  exact twice_lt hA hU (sub_ne_zero.mpr hne)

/-- Three planes with hits: the one in the middle is used for the fit (then `C233_inner_fails`) or not. -/
example (fx : Fixer) (mid : Bool) (m : Obs) (seed : State) : ∃ l r, smooth (threePlanes mid fun _ => some m) fx 100 1 seed [0, 1, 2] = some l ∧
    l[1]? = some r ∧ (threePlanes mid fun _ => some m).H r.1 = obsMat ∧ (threePlanes mid fun _ => some m).obs r.1 = some m ∧
    (threePlanes mid fun _ => some m).fit r.1 = mid ∧ Regular (threePlanes mid fun _ => some m) ∧
    ∀ s, references (threePlanes mid fun _ => some m) fx 100 1 seed [0, 1, 2] = some s → ∀ p ∈ [0, 1, 2], ∀ d ∈ [0, 1, 2],
      Crosses ((threePlanes mid fun _ => some m).planes d) (trackDir ((threePlanes mid fun _ => some m).planes p) (s.1 p)) := by
  obtain ⟨l, h1, h2, -⟩ := C43_fit_parallel (threePlanes mid fun _ => some m) (threePlanes_regular mid _) fx 100 1 seed [0, 1, 2]
    (fun p _ d _ => by simp [threePlanes, flat_rot])
  have h3 : (l.map Prod.fst)[1]? = some 1 := by rw [h2]; rfl
  rw [List.getElem?_map, Option.map_eq_some_iff] at h3
  obtain ⟨r, hr, h4⟩ := h3
  exact ⟨l, r, h1, hr, rfl, rfl, by rw [h4]; simp [threePlanes], threePlanes_regular mid _,
    fun s _ p _ d _ => crosses_same_rot _ _ (by simp [threePlanes, flat_rot]) _⟩

end BTA.Props
