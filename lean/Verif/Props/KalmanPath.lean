import Verif.Lemmas.KalmanPath
import Verif.Props.Kalman
/-
C232: the Kalman fit returns the state of the best track (beam_telescope_analysis/tools/kalman.py). Floating point numbers are real numbers.
-/
namespace BTA.Props
open BTA.Geo BTA.Kalman BTA.Spec Matrix

/-- The cost of scattering angles `w` is `wᵀ Q⁻¹ w`. -/
theorem angleCost_inv (Q : ObsCov) (hQ : Q.PosDef) (w : Obs) : Q.mulVec (Q⁻¹.mulVec w) = w ∧ angleCost Q (Q⁻¹.mulVec w) = w ⬝ᵥ Q⁻¹.mulVec w := by
  have h : Q.mulVec (Q⁻¹.mulVec w) = w := by rw [Matrix.mulVec_mulVec, pd_mul_inv hQ, Matrix.one_mulVec]
  refine ⟨h, ?_⟩
  unfold angleCost
  rw [h, dotProduct_comm]

theorem distance_self {n : Nat} (A : Matrix (Fin n) (Fin n) ℝ) (x : Fin n → ℝ) : distance A x x = 0 := by
  unfold distance; rw [sub_self, zero_dotProduct]

theorem fitsBest {S : Setup} {ref : Nat → State} {M : Scattering} {planes : List Nat} {x : State} {C : Cov} (hC : C.PosDef) (best : ℝ)
    (h1 : ∀ y t, TrackTo M planes y t → best + distance C⁻¹ x y ≤ trackCost S ref M none t)
    (h2 : ∀ y, ∃ t, TrackTo M planes y t ∧ trackCost S ref M none t = best + distance C⁻¹ x y) : FitsBest S ref M planes x C := by
  have hd : ∀ y, 0 ≤ distance C⁻¹ x y := fun y => quad_nonneg hC.inv.posSemidef _
  obtain ⟨t0, ht0, hc0⟩ := h2 x
  rw [distance_self, add_zero] at hc0
  refine ⟨⟨t0, ht0, fun y' t' ht' => ?_⟩, fun y t ht => ?_, best, fun y => ⟨?_, ?_⟩⟩
  · have := h1 y' t' ht'
    have := hd y'
    linarith
  · by_contra hne
    have h3 := ht.2 x t0 ht0
    have h4 := h1 y t ht.1
    have h5 : 0 < distance C⁻¹ x y := quad_pos hC.inv (sub_ne_zero.mpr hne)
    linarith
  · obtain ⟨t, ht, hc⟩ := h2 y
    exact ⟨t, ht, hc⟩
  · rintro c ⟨t, ht, rfl⟩
    exact h1 y t ht

/-- Everything about a plane of the fit. -/
theorem smooth_best (S : Setup) (hS : Regular S) (fx : Fixer) (momentum beta : ℝ) (seed : State) (order : List Nat) (hn : order.Nodup)
    (hx : ∀ s, references S fx momentum beta seed order = some s →
      ∀ p ∈ order, ∀ d ∈ order, Crosses (S.planes d) (trackDir (S.planes p) (s.1 p))) (l : List (Nat × Smoothed))
    (h : smooth S fx momentum beta seed order = some l) (i : Nat) (r : Nat × Smoothed) (hr : l[i]? = some r) :
    ∃ (s : (Nat → State) × (Nat → ObsCov)) (F B : Out) (cF cB : ℝ), references S fx momentum beta seed order = some s ∧ i < order.length ∧
      order[i]? = some r.1 ∧ F.C.PosDef ∧ B.C.PosDef ∧
      r.2.x = (smoothPlane F B i order.length).1 + s.1 r.1 ∧ r.2.C = (smoothPlane F B i order.length).2 ∧
      (∀ y t, TrackTo (alongBeam S s.1 s.2) (order.take (i + 1)) y t → cF + distance F.C⁻¹ F.x y ≤ trackCost S s.1 (alongBeam S s.1 s.2) none t) ∧
      (∀ y, ∃ t, TrackTo (alongBeam S s.1 s.2) (order.take (i + 1)) y t ∧ trackCost S s.1 (alongBeam S s.1 s.2) none t = cF + distance F.C⁻¹ F.x y) ∧
      (∀ y t, TrackTo (againstBeam S s.1 s.2) (order.drop i).reverse y t →
        cB + distance B.C⁻¹ B.x y ≤ trackCost S s.1 (againstBeam S s.1 s.2) none t) ∧
      (∀ y, ∃ t, TrackTo (againstBeam S s.1 s.2) (order.drop i).reverse y t ∧
        trackCost S s.1 (againstBeam S s.1 s.2) none t = cB + distance B.C⁻¹ B.x y) := by
  obtain ⟨s, F, B, hs, hF, hB, ho, ex, eC⟩ := smooth_at S fx momentum beta seed order l h i r hr
  obtain ⟨s', hs', hQ⟩ := references_some S hS fx momentum beta seed order
  rw [hs] at hs'; cases hs'
  obtain ⟨F', hF', hF1, hF2, hF3⟩ := filterF_pd S hS fx s.1 s.2 hQ order (hx s hs)
  rw [hF] at hF'; cases hF'
  obtain ⟨B', hB', hB1, hB2, hB3⟩ := filterB_pd S hS fx s.1 s.2 hQ order (hx s hs)
  rw [hB] at hB'; cases hB'
  obtain ⟨hi, -⟩ := List.getElem?_eq_some_iff.mp ho
  obtain ⟨f1, f2, f3⟩ := take_best (ref := s.1) (M := alongBeam S s.1 s.2) hS (stepF_predicts S fx s.1 s.2 hQ) (fun p _ => hQ p) F hF2 hF3
    (by rw [hF1]; exact hn) i r.1 (by rw [hF1]; exact ho)
  obtain ⟨b1, b2, b3⟩ := take_best (ref := s.1) (M := againstBeam S s.1 s.2) hS (stepB_predicts S s.1 s.2) (fun _ d => hQ d) B hB2 hB3
    (by rw [hB1]; exact List.nodup_reverse.mpr hn) (order.length - 1 - i) r.1 (by
      rw [hB1, List.getElem?_reverse (by omega)]
      have : order.length - 1 - (order.length - 1 - i) = i := by omega
      rw [this]; exact ho)
  have hrev : order.reverse.take (order.length - 1 - i + 1) = (order.drop i).reverse := by
    rw [List.reverse_drop]
    congr 1
    omega
  rw [hF1] at f2 f3
  rw [hB1, hrev] at b2 b3
  exact ⟨s, outAt F r.1, outAt B r.1, _, _, hs, hi, ho, f1, b1, ex, eC, f2, f3, b2, b3⟩

/-- C232: at the last plane the fit returns the state of the best track through all planes, followed in the beam direction. -/
theorem C232_last (S : Setup) (hS : Regular S) (fx : Fixer) (momentum beta : ℝ) (seed : State) (order : List Nat) (hn : order.Nodup)
    (hx : ∀ s, references S fx momentum beta seed order = some s →
      ∀ p ∈ order, ∀ d ∈ order, Crosses (S.planes d) (trackDir (S.planes p) (s.1 p))) (l : List (Nat × Smoothed))
    (h : smooth S fx momentum beta seed order = some l) (i : Nat) (r : Nat × Smoothed) (hr : l[i]? = some r)
    (h0 : 0 < i) (hi : i + 1 = order.length) :
    ∃ s, references S fx momentum beta seed order = some s ∧
      FitsBest S s.1 (alongBeam S s.1 s.2) order (r.2.x - s.1 r.1) r.2.C := by
  obtain ⟨s, F, B, cF, cB, hs, -, -, pF, pB, ex, eC, f2, f3, -, -⟩ := smooth_best S hS fx momentum beta seed order hn hx l h i r hr
  refine ⟨s, hs, ?_⟩
  have e : smoothPlane F B i order.length = (F.x, F.C) := by
    unfold smoothPlane
    rw [if_neg (by omega), if_pos (by omega)]
  rw [e] at ex eC
  rw [hi, List.take_length] at f2 f3
  rw [ex, eC, add_sub_cancel_right]
  exact fitsBest pF cF f2 f3

/-- C232: at the first plane the fit returns the state of the best track through all planes, followed against the beam direction. -/
theorem C232_first (S : Setup) (hS : Regular S) (fx : Fixer) (momentum beta : ℝ) (seed : State) (order : List Nat) (hn : order.Nodup)
    (hx : ∀ s, references S fx momentum beta seed order = some s →
      ∀ p ∈ order, ∀ d ∈ order, Crosses (S.planes d) (trackDir (S.planes p) (s.1 p))) (l : List (Nat × Smoothed))
    (h : smooth S fx momentum beta seed order = some l) (r : Nat × Smoothed) (hr : l[0]? = some r) :
    ∃ s, references S fx momentum beta seed order = some s ∧
      FitsBest S s.1 (againstBeam S s.1 s.2) order.reverse (r.2.x - s.1 r.1) r.2.C := by
  obtain ⟨s, F, B, cF, cB, hs, -, -, pF, pB, ex, eC, -, -, b2, b3⟩ := smooth_best S hS fx momentum beta seed order hn hx l h 0 r hr
  refine ⟨s, hs, ?_⟩
  have e : smoothPlane F B 0 order.length = (B.x, B.C) := by
    unfold smoothPlane
    rw [if_pos rfl]
  rw [e] at ex eC
  rw [List.drop_zero] at b2 b3
  rw [ex, eC, add_sub_cancel_right]
  exact fitsBest pB cB b2 b3

/-- C232: at another plane the fit returns the state at which two tracks meet best: one through the planes up to this plane in the beam direction,
one through the planes from the last one to this plane. Every other state `y` costs more by its distance to the result. Both tracks count the
initial state and the hit of this plane (C66). -/
theorem C232_inner (S : Setup) (hS : Regular S) (fx : Fixer) (momentum beta : ℝ) (seed : State) (order : List Nat) (hn : order.Nodup)
    (hx : ∀ s, references S fx momentum beta seed order = some s →
      ∀ p ∈ order, ∀ d ∈ order, Crosses (S.planes d) (trackDir (S.planes p) (s.1 p))) (l : List (Nat × Smoothed))
    (h : smooth S fx momentum beta seed order = some l) (i : Nat) (r : Nat × Smoothed) (hr : l[i]? = some r)
    (h0 : 0 < i) (hi : i + 1 < order.length) :
    ∃ s, references S fx momentum beta seed order = some s ∧ r.2.C.PosDef ∧ ∃ best : ℝ, ∀ y, IsLeast {c : ℝ | ∃ t t',
      TrackTo (alongBeam S s.1 s.2) (order.take (i + 1)) y t ∧ TrackTo (againstBeam S s.1 s.2) (order.drop i).reverse y t' ∧
      trackCost S s.1 (alongBeam S s.1 s.2) none t + trackCost S s.1 (againstBeam S s.1 s.2) none t' = c}
        (best + distance r.2.C⁻¹ (r.2.x - s.1 r.1) y) := by
  obtain ⟨s, F, B, cF, cB, hs, -, -, pF, pB, ex, eC, f2, f3, b2, b3⟩ := smooth_best S hS fx momentum beta seed order hn hx l h i r hr
  have hsum : (F.C⁻¹ + B.C⁻¹).PosDef := pF.inv.add pB.inv
  have e : smoothPlane F B i order.length =
      ((F.C⁻¹ + B.C⁻¹)⁻¹.mulVec (F.C⁻¹.mulVec F.x + B.C⁻¹.mulVec B.x), (F.C⁻¹ + B.C⁻¹)⁻¹) := by
    unfold smoothPlane
    rw [if_neg (by omega), if_neg (by omega), matInverse_pd pF, matInverse_pd pB]
    simp only [matInverse_pd hsum]
  rw [e] at ex eC
  have hCi : r.2.C⁻¹ = F.C⁻¹ + B.C⁻¹ := by
    rw [eC]
    exact Matrix.inv_eq_right_inv (pd_inv_mul hsum)
  set xs := (F.C⁻¹ + B.C⁻¹)⁻¹.mulVec (F.C⁻¹.mulVec F.x + B.C⁻¹.mulVec B.x) with hxs
  have hq : (F.C⁻¹ + B.C⁻¹).mulVec xs = F.C⁻¹.mulVec F.x + B.C⁻¹.mulVec B.x := by
    rw [hxs, Matrix.mulVec_mulVec, pd_mul_inv hsum, Matrix.one_mulVec]
  have hda := fun y => distance_add pF.inv.posSemidef pB.inv.posSemidef F.x B.x xs y hq
  have hx' : r.2.x - s.1 r.1 = xs := by rw [ex, add_sub_cancel_right]
  refine ⟨s, hs, by rw [eC]; exact hsum.inv, ?_⟩
  rw [hx', hCi]
  refine ⟨cF + cB + distance F.C⁻¹ F.x xs + distance B.C⁻¹ B.x xs, fun y => ⟨?_, ?_⟩⟩
  · obtain ⟨t, ht, hc⟩ := f3 y
    obtain ⟨t', ht', hc'⟩ := b3 y
    refine ⟨t, t', ht, ht', ?_⟩
    have := hda y
    rw [hc, hc']; linarith
  · rintro c ⟨t, t', ht, ht', rfl⟩
    have h1 := f2 y t ht
    have h2 := b2 y t' ht'
    have := hda y
    linarith

/-- C232: the sum of the chi-squares of the forward filter over the planes used for the fit is the cost of the best track. -/
theorem C232_chi_square (S : Setup) (hS : Regular S) (fx : Fixer) (ref : Nat → State) (Q : Nat → ObsCov) (hQ : ∀ d, (Q d).PosSemidef)
    (order : List Nat) (h0 : order ≠ []) (hx : ∀ p ∈ order, ∀ d ∈ order, Crosses (S.planes d) (trackDir (S.planes p) (ref p))) :
    ∃ l, filterF S fx ref Q order = some l ∧
      IsLeast {c : ℝ | ∃ y t, TrackTo (alongBeam S ref Q) order y t ∧ trackCost S ref (alongBeam S ref Q) none t = c}
        ((l.filter fun r => S.fit r.1).map fun r => r.2.chi2.getD 0).sum := by
  obtain ⟨l, hl, h1, h2, h3⟩ := filterF_pd S hS fx ref Q hQ order hx
  have hsum : ((l.filter fun r => S.fit r.1).map fun r => r.2.chi2.getD 0).sum = (l.map (usedChi S)).sum := by
    clear hl h1 h2 h3
    induction l with
    | nil => rfl
    | cons a l ih =>
      rw [List.filter_cons, List.map_cons, List.sum_cons, ← ih]
      unfold usedChi
      split <;> simp_all
  refine ⟨l, hl, ?_⟩
  rw [hsum]
  cases hlast : l.getLast? with
  | none =>
    rw [List.getLast?_eq_none_iff] at hlast
    rw [hlast] at h1
    exact absurd h1.symm h0
  | some a =>
    obtain ⟨d, o⟩ := a
    obtain ⟨f1, f2⟩ := filter_best (ref := ref) (M := alongBeam S ref Q) hS (stepF_predicts S fx ref Q hQ) (fun p _ => hQ p) l h2 h3 d o hlast
    rw [h1] at f1 f2
    have hp := (h3 _ (List.mem_of_getLast? hlast)).2.2
    constructor
    · obtain ⟨t, ht, hc⟩ := f2 o.x
      exact ⟨o.x, t, ht, by rw [hc, distance_self, add_zero]⟩
    · rintro c ⟨y, t, ht, rfl⟩
      have h4 := f1 y t ht
      have h5 : 0 ≤ distance o.C⁻¹ o.x y := quad_nonneg hp.inv.posSemidef _
      linarith

/-- Three planes with hits. -/
example (fx : Fixer) (hits : Nat → Option Obs) (seed : State) : ∃ l r0 r1 r2, smooth (threePlanes true hits) fx 100 1 seed [0, 1, 2] = some l ∧
    l[0]? = some r0 ∧ l[1]? = some r1 ∧ l[2]? = some r2 ∧ [0, 1, 2].Nodup ∧ Regular (threePlanes true hits) ∧
    ∀ s, references (threePlanes true hits) fx 100 1 seed [0, 1, 2] = some s → ∀ p ∈ [0, 1, 2], ∀ d ∈ [0, 1, 2],
      Crosses ((threePlanes true hits).planes d) (trackDir ((threePlanes true hits).planes p) (s.1 p)) := by
  obtain ⟨l, h1, h2, -⟩ := C43_fit_parallel (threePlanes true hits) (threePlanes_regular true hits) fx 100 1 seed [0, 1, 2]
    (fun p _ d _ => by simp [threePlanes, flat_rot])
  have hlen : l.length = 3 := by rw [← List.length_map (f := Prod.fst), h2]; rfl
  exact ⟨l, l[0], l[1], l[2], h1, by simp, by simp, by simp, by decide, threePlanes_regular true hits,
    fun s _ p _ d _ => crosses_same_rot _ _ (by simp [threePlanes, flat_rot]) _⟩

end BTA.Props
