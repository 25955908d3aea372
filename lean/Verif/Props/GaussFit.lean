import Verif.Model.GaussFit
import Verif.Spec.GaussFit
import Verif.Props.AngleHist
/-
C204, C205: the functions fitted to the residuals, and the fits.
-/
namespace BTA.GaussFit.Props
open BTA.HistStat BTA.GaussFit BTA.GaussFit.Spec BTA.Spec ProbabilityTheory MeasureTheory

theorem exp_integrable (a b : ℝ) : IntervalIntegrable (fun t : ℝ => Real.exp (-t ^ 2)) volume a b := by
  apply Continuous.intervalIntegrable
  fun_prop

theorem erf_neg (x : ℝ) : erf (-x) = -erf x := by
  unfold erf
  have := intervalIntegral.integral_comp_neg (fun t : ℝ => Real.exp (-t ^ 2)) (a := 0) (b := x)
  simp only [neg_sq, neg_zero] at this
  rw [this, intervalIntegral.integral_symm]
  ring

/-- C204: `gauss_box_erf` is identical to `gauss_box`, for all parameters with `sigma` not zero. -/
theorem C204_identical (A mu sigma w x : ℝ) (hs : sigma ≠ 0) : gaussBoxErf A mu sigma w x = gaussBox A mu sigma w x := by
  have h2 : Real.sqrt 2 ≠ 0 := by positivity
  have hc : Real.sqrt 2 * sigma ≠ 0 := mul_ne_zero h2 hs
  unfold gaussBoxErf gaussBox erfOf gauss
  simp only [if_neg hs, Option.getD_some]
  congr 1
  have e1 : ∀ t : ℝ, A * Real.exp (-(x - t - mu) ^ 2 / (2 * sigma ^ 2)) / (Real.sqrt (2 * Real.pi) * sigma) =
      A / (Real.sqrt (2 * Real.pi) * sigma) * (fun s : ℝ => Real.exp (-s ^ 2)) (t / (Real.sqrt 2 * sigma) - (x - mu) / (Real.sqrt 2 * sigma)) := by
    intro t
    have : -(x - t - mu) ^ 2 / (2 * sigma ^ 2) = -(t / (Real.sqrt 2 * sigma) - (x - mu) / (Real.sqrt 2 * sigma)) ^ 2 := by
      rw [← sub_div, div_pow, mul_pow, Real.sq_sqrt (by norm_num)]
      ring
    rw [this]
    ring
  simp only [e1]
  rw [intervalIntegral.integral_const_mul, intervalIntegral.integral_comp_div_sub (fun s : ℝ => Real.exp (-s ^ 2)) hc, ← intervalIntegral.integral_interval_sub_left (exp_integrable 0 _) (exp_integrable 0 _)]
  have e2 : (x - mu + w * 0.5) / (Real.sqrt 2 * sigma) = -(-w / 2 / (Real.sqrt 2 * sigma) - (x - mu) / (Real.sqrt 2 * sigma)) := by
    rw [← sub_div, ← neg_div]; congr 1; ring
  have e3 : (mu + w * 0.5 - x) / (Real.sqrt 2 * sigma) = w / 2 / (Real.sqrt 2 * sigma) - (x - mu) / (Real.sqrt 2 * sigma) := by
    rw [← sub_div]; congr 1; ring
  rw [e2, e3, erf_neg]
  unfold erf
  have hp : Real.sqrt Real.pi ≠ 0 := (Real.sqrt_pos.mpr Real.pi_pos).ne'
  rw [Real.sqrt_mul (by norm_num), smul_eq_mul]
  field_simp
  ring

/-- C204: the value is `A` times the probability that a normal variable is not farther than half of the width from `x`. -/
theorem C204_probability (A mu sigma w x : ℝ) (hs : 0 < sigma) (hw : 0 ≤ w) : gaussBoxErf A mu sigma w x = some (A * nearProb mu sigma w x) := by
  have hv : Real.toNNReal (sigma ^ 2) ≠ 0 := (Real.toNNReal_pos.mpr (by positivity)).ne'
  rw [C204_identical A mu sigma w x hs.ne']
  unfold gaussBox gauss nearProb
  simp only [if_neg hs.ne', Option.getD_some]
  congr 1
  rw [gaussianReal_apply_eq_integral _ hv, ENNReal.toReal_ofReal (setIntegral_nonneg measurableSet_Icc fun y _ => gaussianPDFReal_nonneg _ _ _),
    integral_Icc_eq_integral_Ioc, ← intervalIntegral.integral_of_le (by linarith)]
  have := intervalIntegral.integral_comp_sub_left (fun y => A * gaussianPDFReal mu (Real.toNNReal (sigma ^ 2)) y) x (a := -w / 2) (b := w / 2)
  rw [show x - -w / 2 = x + w / 2 by ring] at this
  rw [← intervalIntegral.integral_const_mul, ← this]
  refine intervalIntegral.integral_congr fun t _ => ?_
  unfold gaussianPDFReal
  rw [Real.coe_toNNReal _ (sq_nonneg sigma)]
  rw [Real.sqrt_mul (by positivity : (0 : ℝ) ≤ 2 * Real.pi) (sigma ^ 2), Real.sqrt_sq hs.le]
  ring

/-- C204: for `sigma = 0` the function is a box with height `A` (NaN at its edges), for which `gauss_box` is NaN everywhere. -/
theorem C204_sharp (A mu w x : ℝ) (hw : 0 < w) :
    (|x - mu| < w / 2 → gaussBoxErf A mu 0 w x = some A) ∧ (w / 2 < |x - mu| → gaussBoxErf A mu 0 w x = some 0) ∧
      (|x - mu| = w / 2 → gaussBoxErf A mu 0 w x = none) ∧ gaussBox A mu 0 w x = none := by
  have key : ∀ u, erfOf u 0 = if u = 0 then none else if u < 0 then some (-1) else some 1 := fun u => if_pos rfl
  refine ⟨fun h => ?_, fun h => ?_, fun h => ?_, if_pos rfl⟩
  · rw [abs_lt] at h
    unfold gaussBoxErf
    rw [key, key, if_neg (by norm_num; linarith), if_neg (by norm_num; linarith), if_neg (by norm_num; linarith), if_neg (by norm_num; linarith)]
    simp only [Option.some.injEq]
    ring
  · unfold gaussBoxErf
    rw [key, key]
    rcases lt_abs.mp h with h | h
    · rw [if_neg (by norm_num; linarith), if_neg (by norm_num; linarith), if_neg (by norm_num; linarith), if_pos (by norm_num; linarith)]
      simp only [Option.some.injEq]
      ring
    · rw [if_neg (by norm_num; linarith), if_pos (by norm_num; linarith), if_neg (by norm_num; linarith), if_neg (by norm_num; linarith)]
      simp only [Option.some.injEq]
      ring
  · unfold gaussBoxErf
    rw [key, key]
    rcases eq_or_eq_neg_of_abs_eq h with h | h
    · rw [if_pos (show mu + w * 0.5 - x = 0 by linarith)]
      cases (if x - mu + w * 0.5 = 0 then none else if x - mu + w * 0.5 < 0 then some (-1) else some 1 : Option ℝ) <;> rfl
    · rw [if_pos (show x - mu + w * 0.5 = 0 by linarith)]

/-- C204: the function is symmetric about `mu`, between 0 and `A`, and the integral over all positions is `A` times the width. -/
theorem C204_area (A mu sigma w : ℝ) (hA : 0 ≤ A) (hs : 0 < sigma) (hw : 0 ≤ w) : ∃ f : ℝ → ℝ, (∀ x, gaussBoxErf A mu sigma w x = some (f x)) ∧
    (∀ x, 0 ≤ f x ∧ f x ≤ A) ∧ (∀ d, f (mu + d) = f (mu - d)) ∧ ∫ x, f x = A * w := by
  refine ⟨fun x => A * nearProb mu sigma w x, fun x => C204_probability A mu sigma w x hs hw, fun x => ?_, fun d => ?_, ?_⟩
  · refine ⟨mul_nonneg hA ENNReal.toReal_nonneg, mul_le_of_le_one_right hA ?_⟩
    unfold nearProb
    exact (ENNReal.toReal_mono ENNReal.one_ne_top prob_le_one).trans_eq ENNReal.toReal_one
  · have h1 := C204_probability A mu sigma w (mu + d) hs hw
    have h2 := C204_probability A mu sigma w (mu - d) hs hw
    have : gaussBoxErf A mu sigma w (mu + d) = gaussBoxErf A mu sigma w (mu - d) := by
      unfold gaussBoxErf
      rw [show mu + d - mu + w * 0.5 = mu + w * 0.5 - (mu - d) by ring, show mu + w * 0.5 - (mu + d) = mu - d - mu + w * 0.5 by ring]
      cases erfOf (mu + w * 0.5 - (mu - d)) sigma <;> cases erfOf (mu - d - mu + w * 0.5) sigma <;> simp [add_comm]
    rw [h1, h2] at this
    exact Option.some.inj this
  · rw [integral_const_mul]
    congr 1
    set G := gaussianReal mu (Real.toNNReal (sigma ^ 2)) with hG
    have hm : MeasurableSet {p : ℝ × ℝ | p.1 - w / 2 ≤ p.2 ∧ p.2 ≤ p.1 + w / 2} := by
      apply MeasurableSet.inter
      · exact measurableSet_le (measurable_fst.sub_const _) measurable_snd
      · exact measurableSet_le measurable_snd (measurable_fst.add_const _)
    have e1 := Measure.prod_apply (μ := (volume : Measure ℝ)) (ν := G) hm
    have e2 := Measure.prod_apply_symm (μ := (volume : Measure ℝ)) (ν := G) hm
    have e3 : ∀ x : ℝ, Prod.mk x ⁻¹' {p : ℝ × ℝ | p.1 - w / 2 ≤ p.2 ∧ p.2 ≤ p.1 + w / 2} = Set.Icc (x - w / 2) (x + w / 2) := fun x => rfl
    have e4 : ∀ y : ℝ, (fun x => (x, y)) ⁻¹' {p : ℝ × ℝ | p.1 - w / 2 ≤ p.2 ∧ p.2 ≤ p.1 + w / 2} = Set.Icc (y - w / 2) (y + w / 2) := by
      intro y
      ext x
      simp only [Set.mem_preimage, Set.mem_setOf_eq, Set.mem_Icc]
      constructor <;> rintro ⟨h1, h2⟩ <;> constructor <;> linarith
    have hmeas : Measurable fun x => G (Set.Icc (x - w / 2) (x + w / 2)) := measurable_measure_prodMk_left hm
    simp only [e3] at e1
    simp only [e4, Real.volume_Icc, show ∀ y : ℝ, y + w / 2 - (y - w / 2) = w from fun y => by ring, lintegral_const, measure_univ, mul_one] at e2
    rw [e2] at e1
    unfold nearProb
    rw [integral_toReal hmeas.aemeasurable (ae_of_all _ fun x => measure_lt_top _ _), ← e1, ENNReal.toReal_ofReal hw]

/-- The hypotheses of C204 are met: pixels of 250 with a resolution of 10. -/
example : gaussBoxErf 100 0 10 250 0 = some (100 * nearProb 0 10 250 0) := C204_probability 100 0 10 250 0 (by norm_num) (by norm_num)

example : gaussBoxErf 100 0 0 250 120 = some 100 ∧ gaussBoxErf 100 0 0 250 130 = some 0 :=
  ⟨(C204_sharp 100 0 250 120 (by norm_num)).1 (by rw [abs_lt]; constructor <;> norm_num), (C204_sharp 100 0 250 130 (by norm_num)).2.1 (by rw [lt_abs]; left; norm_num)⟩

/-- The largest value of a histogram. -/
theorem amax_some (hist : List Nat) (m : Nat) (h : amax hist = some m) : m ∈ hist ∧ ∀ c ∈ hist, c ≤ m := by
  have key : ∀ (l : List Nat) (a : Nat), (l.foldl max a = a ∨ l.foldl max a ∈ l) ∧ a ≤ l.foldl max a ∧ ∀ c ∈ l, c ≤ l.foldl max a := by
    intro l
    induction l with
    | nil => intro a; exact ⟨Or.inl rfl, le_rfl, fun c hc => nomatch hc⟩
    | cons b l ih =>
      intro a
      obtain ⟨h1, h2, h3⟩ := ih (max a b)
      simp only [List.foldl_cons]
      refine ⟨?_, (le_max_left a b).trans h2, fun c hc => ?_⟩
      · rcases h1 with h1 | h1
        · rw [h1]
          rcases max_choice a b with e | e
          · exact Or.inl e
          · exact Or.inr (by rw [e]; exact List.mem_cons_self)
        · exact Or.inr (List.mem_cons_of_mem _ h1)
      · rcases List.mem_cons.mp hc with e | e
        · exact e ▸ (le_max_right a b).trans h2
        · exact h3 c e
  cases hist with
  | nil => cases h
  | cons c cs =>
    obtain ⟨h1, h2, h3⟩ := key cs c
    cases Option.some.inj h
    refine ⟨?_, fun d hd => ?_⟩
    · rcases h1 with h1 | h1
      · rw [h1]; exact List.mem_cons_self
      · exact List.mem_cons_of_mem _ h1
    · rcases List.mem_cons.mp hd with e | e
      · exact e ▸ h2
      · exact h3 d e

/-- The positions repeated as often as there are entries. -/
theorem entries_eq (hist : List Nat) (edges : List ℝ) : entries hist edges = repeated hist (centres edges) := by
  induction hist generalizing edges with
  | nil => rcases edges with _ | ⟨a, _ | ⟨b, es⟩⟩ <;> rfl
  | cons c cs ih =>
    rcases edges with _ | ⟨a, _ | ⟨b, es⟩⟩
    · rfl
    · rfl
    · unfold entries centres repeated
      rw [List.zipWith_cons_cons, List.flatten_cons, ih, add_comm a b]
      rfl

theorem centres_len (edges : List ℝ) : (centres edges).length = edges.length - 1 := by
  induction edges with
  | nil => rfl
  | cons a es ih =>
    cases es with
    | nil => rfl
    | cons b es =>
      unfold centres
      simp only [List.length_cons] at ih ⊢
      omega

/-- The start values of the fit: the largest count, and mean and standard deviation of the entries. -/
structure IsStart (hist : List Nat) (edges : List ℝ) (m mu s : ℝ) : Prop where
  largest : ∃ n : Nat, m = n ∧ n ∈ hist ∧ ∀ c ∈ hist, c ≤ n
  stat : HistStat.Props.IsMeanStd (entries hist edges) mu s

theorem start_of (hist : List Nat) (edges : List ℝ) (hl : hist.length + 1 = edges.length) (hne : ∃ c ∈ hist, c ≠ 0) :
    ∃ (n : Nat) (mu s : ℝ), amax hist = some n ∧ meanFromHist hist (centres edges) = some mu ∧ rmsFromHist hist (centres edges) = some s ∧ IsStart hist edges n mu s := by
  obtain ⟨c, hc, hc0⟩ := hne
  have hsum : hist.sum ≠ 0 := fun h => hc0 (List.sum_eq_zero_iff.mp h c hc)
  have hlen : hist.length = (centres edges).length := by rw [centres_len]; omega
  have hrep : repeated hist (centres edges) ≠ [] := by
    intro h
    have := HistStat.Props.length_repeated hist (centres edges) hlen
    rw [h] at this
    exact hsum this.symm
  have hmax : ∃ n, amax hist = some n := by
    cases hist with
    | nil => cases hc
    | cons a l => exact ⟨_, rfl⟩
  obtain ⟨n, hn⟩ := hmax
  obtain ⟨h1, h2⟩ := amax_some hist n hn
  have hms := HistStat.Props.isMeanStd _ hrep
  refine ⟨n, _, _, hn, if_neg hsum, if_neg hrep, ⟨n, rfl, h1, h2⟩, ?_⟩
  rw [entries_eq]
  convert hms using 1
  have := HistStat.Props.sum_repeated hist (centres edges) id
  rw [List.map_id] at this
  rw [this, HistStat.Props.length_repeated _ _ hlen]
  rfl

/-- C205: the fit is only done if the entries are not all in the same bin; else, and if it fails, the result is made of the largest count,
the mean and the standard deviation of the entries, without covariance. -/
theorem C205_result {C : Type} (curve : CurveFit C) (hist : List Nat) (edges : List ℝ) (w : Option ℝ) (hl : hist.length + 1 = edges.length)
    (hne : ∃ c ∈ hist, c ≠ 0) : ∃ m mu s : ℝ, IsStart hist edges m mu s ∧
      (s = 0 → fitGauss curve hist edges = .ok ⟨[some m, some mu, some 0], none⟩ ∧ fitGaussBox curve hist edges w = .ok ⟨[some m, some mu, some 0, w], none⟩) ∧
      (s ≠ 0 → (∀ p cov, curve gaussP (centres edges) (hist.map fun c : Nat => (c : ℝ)) [some m, some mu, some s] = .ok (p, cov) →
          fitGauss curve hist edges = .ok ⟨p.map some, some cov⟩) ∧
        (curve gaussP (centres edges) (hist.map fun c : Nat => (c : ℝ)) [some m, some mu, some s] = .error .caught →
          fitGauss curve hist edges = .ok ⟨[some m, some mu, some s], none⟩) ∧
        (∀ u, w = some u → ∀ p cov, curve gaussBoxP (centres edges) (hist.map fun c : Nat => (c : ℝ)) [some m, some mu, some s, some u] = .ok (p, cov) →
          fitGaussBox curve hist edges w = .ok ⟨p.map some, some cov⟩) ∧
        (∀ u, w = some u → curve gaussBoxP (centres edges) (hist.map fun c : Nat => (c : ℝ)) [some m, some mu, some s, some u] = .error .caught →
          fitGaussBox curve hist edges w = .ok ⟨[some m, some mu, some s, w], none⟩) ∧
        (w = none → fitGaussBox curve hist edges w = .ok ⟨[some m, some mu, some s, none], none⟩)) := by
  obtain ⟨n, mu, s, hn, hmu, hs, hst⟩ := start_of hist edges hl hne
  refine ⟨n, mu, s, hst, fun h => ?_, fun h => ⟨fun p cov hc => ?_, fun hc => ?_, fun u hw p cov hc => ?_, fun u hw hc => ?_, fun hw => ?_⟩⟩
  · subst h
    unfold fitGauss fitGaussBox
    simp only [hn, hmu, hs, if_true, and_self]
  all_goals have h' : ¬ (some s = some (0 : ℝ)) := fun e => h (Option.some.inj e)
  · unfold fitGauss
    simp only [hn, hmu, hs, if_neg h', hc, tryFit]
  · unfold fitGauss
    simp only [hn, hmu, hs, if_neg h', hc, tryFit]
  · subst hw
    unfold fitGaussBox
    simp only [hn, hmu, hs, if_neg h', hc, tryFit, Option.isNone_some, Bool.false_eq_true, if_false]
  · subst hw
    unfold fitGaussBox
    simp only [hn, hmu, hs, if_neg h', hc, tryFit, Option.isNone_some, Bool.false_eq_true, if_false]
  · subst hw
    unfold fitGaussBox
    simp only [hn, hmu, hs, if_neg h', tryFit, Option.isNone_none, if_true]

theorem entries_mem (hist : List Nat) (edges : List ℝ) (v : ℝ) (h : v ∈ entries hist edges) :
    ∃ (i c : Nat) (lo hi : ℝ), hist[i]? = some c ∧ c ≠ 0 ∧ edges[i]? = some lo ∧ edges[i + 1]? = some hi ∧ v = (lo + hi) / 2 := by
  induction hist generalizing edges with
  | nil => rcases edges with _ | ⟨a, _ | ⟨b, es⟩⟩ <;> cases h
  | cons c cs ih =>
    rcases edges with _ | ⟨a, _ | ⟨b, es⟩⟩
    · cases h
    · cases h
    · unfold entries at h
      rcases List.mem_append.mp h with h | h
      · obtain ⟨h1, h2⟩ := List.mem_replicate.mp h
        exact ⟨0, c, a, b, rfl, h1, rfl, rfl, h2⟩
      · obtain ⟨i, c', lo, hi, h1, h2, h3, h4, h5⟩ := ih _ h
        exact ⟨i + 1, c', lo, hi, h1, h2, h3, h4, h5⟩

theorem mem_entries (hist : List Nat) (edges : List ℝ) (i c : Nat) (lo hi : ℝ) (h1 : hist[i]? = some c) (h2 : c ≠ 0) (h3 : edges[i]? = some lo)
    (h4 : edges[i + 1]? = some hi) : (lo + hi) / 2 ∈ entries hist edges := by
  induction hist generalizing edges i with
  | nil => cases h1
  | cons c' cs ih =>
    rcases edges with _ | ⟨a, _ | ⟨b, es⟩⟩
    · cases h3
    · cases h4
    · unfold entries
      cases i with
      | zero =>
        cases Option.some.inj h1
        cases Option.some.inj h3
        cases Option.some.inj h4
        exact List.mem_append_left _ (List.mem_replicate.mpr ⟨h2, rfl⟩)
      | succ i => exact List.mem_append_right _ (ih (b :: es) i h1 h3 h4)

theorem stat_const (l : List ℝ) (h : l ≠ []) (v m s : ℝ) (hv : ∀ x ∈ l, x = v) (hm : HistStat.Props.IsMeanStd l m s) : m = v ∧ s = 0 := by
  have hl : l = List.replicate l.length v := List.eq_replicate_iff.mpr ⟨rfl, hv⟩
  have hn : (0 : ℝ) < l.length := Nat.cast_pos.mpr (List.length_pos_iff.mpr h)
  have h1 := hm.mean
  have hsum : l.sum = l.length * v := by
    conv_lhs => rw [hl]
    simp
  rw [hsum] at h1
  have e : m = v := by
    have := mul_right_cancel₀ hn.ne' (h1.trans (mul_comm _ _))
    exact this
  refine ⟨e, ?_⟩
  have h2 := hm.std
  have h3 : (l.map fun x => (x - m) ^ 2).sum = 0 := by
    apply List.sum_eq_zero
    intro y hy
    obtain ⟨x, hx, rfl⟩ := List.mem_map.mp hy
    rw [hv x hx, e]
    simp
  rw [h3] at h2
  rcases mul_eq_zero.mp h2 with h | h
  · exact pow_eq_zero_iff (n := 2) (by norm_num) |>.mp h
  · exact absurd h hn.ne'

/-- C205: if all entries are in one bin, the result is the number of entries, the centre of the bin and zero, whatever `curve_fit` does. -/
theorem C205_single {C : Type} (curve : CurveFit C) (hist : List Nat) (edges : List ℝ) (w : Option ℝ) (hl : hist.length + 1 = edges.length)
    (i c : Nat) (lo hi : ℝ) (hc : hist[i]? = some c) (hc0 : c ≠ 0) (ho : ∀ j, j ≠ i → hist[j]? = some 0 ∨ hist[j]? = none)
    (hlo : edges[i]? = some lo) (hhi : edges[i + 1]? = some hi) :
    fitGauss curve hist edges = .ok ⟨[some (c : ℝ), some ((lo + hi) / 2), some 0], none⟩ ∧
      fitGaussBox curve hist edges w = .ok ⟨[some (c : ℝ), some ((lo + hi) / 2), some 0, w], none⟩ := by
  obtain ⟨m, mu, s, hst, h0, -⟩ := C205_result curve hist edges w hl ⟨c, List.mem_of_getElem? hc, hc0⟩
  have hall : ∀ v ∈ entries hist edges, v = (lo + hi) / 2 := by
    intro v hv
    obtain ⟨j, c', lo', hi', h1, h2, h3, h4, h5⟩ := entries_mem hist edges v hv
    by_cases hj : j = i
    · subst hj
      rw [h5, Option.some.inj (h3.symm.trans hlo), Option.some.inj (h4.symm.trans hhi)]
    · rcases ho j hj with e | e
      · exact absurd (Option.some.inj (h1.symm.trans e)) h2
      · rw [h1] at e; cases e
  obtain ⟨e1, e2⟩ := stat_const _ (List.ne_nil_of_mem (mem_entries hist edges i c lo hi hc hc0 hlo hhi)) _ mu s hall hst.stat
  obtain ⟨n, hn, hn1, hn2⟩ := hst.largest
  have e3 : n = c := by
    obtain ⟨j, hj⟩ := List.getElem?_of_mem hn1
    have hcn := hn2 c (List.mem_of_getElem? hc)
    by_cases h : j = i
    · subst h; exact Option.some.inj (hj.symm.trans hc)
    · rcases ho j h with e | e
      · have := Option.some.inj (hj.symm.trans e); omega
      · rw [hj] at e; cases e
  obtain ⟨h1, h2⟩ := h0 e2
  rw [h1, h2, hn, e1, e3]
  exact ⟨rfl, rfl⟩

theorem misfit_zero (f : List ℝ → ℝ → Option ℝ) (xs ys p q : List ℝ) (hl : xs.length = ys.length) (hq : xs.map (f q) = ys.map some) (hp : LeastSquares f xs ys p) :
    xs.map (f p) = ys.map some := by
  obtain ⟨s, ⟨vs, hvs, hs⟩, hmin⟩ := hp
  have h0 : Misfit f xs ys q 0 := by
    refine ⟨ys, hq, ?_⟩
    clear hq hl hvs hs
    induction ys with
    | nil => rfl
    | cons y ys ih => simpa using ih
  have hle := hmin q 0 h0
  have hlen : vs.length = ys.length := by
    have := congrArg List.length hvs
    simpa [hl] using this.symm
  rw [hs] at hle
  rw [hvs]
  congr 1
  clear hvs hs h0 hmin hq hl
  have nn : ∀ vs ys : List ℝ, 0 ≤ (List.zipWith (fun v y => (v - y) ^ 2) vs ys).sum := by
    intro vs
    induction vs with
    | nil => intro ys; simp
    | cons v vs ih =>
      intro ys
      cases ys with
      | nil => simp
      | cons y ys => simp only [List.zipWith_cons_cons, List.sum_cons]; have := ih ys; positivity
  induction vs generalizing ys with
  | nil => cases ys with
    | nil => rfl
    | cons y ys => cases hlen
  | cons v vs ih =>
    cases ys with
    | nil => cases hlen
    | cons y ys =>
      simp only [List.zipWith_cons_cons, List.sum_cons] at hle
      have h1 := nn vs ys
      have h2 := sq_nonneg (v - y)
      have h3 : (v - y) ^ 2 = 0 := by linarith
      have h4 : v = y := by have := pow_eq_zero_iff (n := 2) (by norm_num) |>.mp h3; linarith
      rw [h4, ih ys (by linarith) (by simpa using hlen)]

/-- Two Gaussian functions that are the same at three positions are the same. -/
theorem gauss_unique (A mu s A' mu' s' x y z : ℝ) (hA : A ≠ 0) (hs : s ≠ 0) (hs' : s' ≠ 0) (hxy : x ≠ y) (hxz : x ≠ z) (hyz : y ≠ z)
    (h : ∀ t, t = x ∨ t = y ∨ t = z → A' * Real.exp (-(t - mu') ^ 2 / (2 * s' ^ 2)) = A * Real.exp (-(t - mu) ^ 2 / (2 * s ^ 2))) :
    A' = A ∧ mu' = mu ∧ |s'| = |s| := by
  have hA' : A' ≠ 0 := by
    intro h0
    have := h x (Or.inl rfl)
    rw [h0, zero_mul] at this
    exact (mul_ne_zero hA (Real.exp_ne_zero _)) this.symm
  set a := 1 / (2 * s ^ 2) with ha
  set a' := 1 / (2 * s' ^ 2) with ha'
  have ha0 : a ≠ 0 := by positivity
  have key : ∀ t, t = x ∨ t = y ∨ t = z → (t - mu) ^ 2 * a - (t - mu') ^ 2 * a' = Real.log (A / A') := by
    intro t ht
    have := h t ht
    have e : A / A' = Real.exp ((t - mu) ^ 2 * a - (t - mu') ^ 2 * a') := by
      rw [div_eq_iff hA', Real.exp_sub]
      have e1 : -(t - mu') ^ 2 / (2 * s' ^ 2) = -((t - mu') ^ 2 * a') := by rw [ha']; ring
      have e2 : -(t - mu) ^ 2 / (2 * s ^ 2) = -((t - mu) ^ 2 * a) := by rw [ha]; ring
      rw [e1, e2, Real.exp_neg, Real.exp_neg] at this
      have p1 := Real.exp_ne_zero ((t - mu') ^ 2 * a')
      have p2 := Real.exp_ne_zero ((t - mu) ^ 2 * a)
      field_simp at this ⊢
      linarith
    rw [e, Real.log_exp]
  have kx := key x (Or.inl rfl)
  have ky := key y (Or.inr (Or.inl rfl))
  have kz := key z (Or.inr (Or.inr rfl))
  have d1 : (x - y) * ((x + y) * (a - a') - 2 * (mu * a - mu' * a')) = 0 := by linear_combination kx - ky
  have d2 : (x - z) * ((x + z) * (a - a') - 2 * (mu * a - mu' * a')) = 0 := by linear_combination kx - kz
  have d1' := (mul_eq_zero.mp d1).resolve_left (sub_ne_zero.mpr hxy)
  have d2' := (mul_eq_zero.mp d2).resolve_left (sub_ne_zero.mpr hxz)
  have d3 : (y - z) * (a - a') = 0 := by linear_combination d1' - d2'
  have e1 : a' = a := by have := (mul_eq_zero.mp d3).resolve_left (sub_ne_zero.mpr hyz); linarith
  have e2 : mu' = mu := by
    rw [e1] at d1'
    have : a * (mu' - mu) = 0 := by linear_combination d1' / 2
    have := (mul_eq_zero.mp this).resolve_left ha0
    linarith
  have e3 : |s'| = |s| := by
    rw [← sq_eq_sq_iff_abs_eq_abs]
    rw [ha, ha'] at e1
    field_simp at e1
    exact e1.symm
  refine ⟨?_, e2, e3⟩
  have := h x (Or.inl rfl)
  have e4 : s' ^ 2 = s ^ 2 := sq_eq_sq_iff_abs_eq_abs _ _ |>.mpr e3
  rw [e2, e4] at this
  exact mul_right_cancel₀ (Real.exp_ne_zero _) this

theorem bins_iff (f : ℝ → Option ℝ) (hist : List Nat) (edges : List ℝ) (hl : hist.length + 1 = edges.length) :
    (centres edges).map f = (hist.map fun c : Nat => (c : ℝ)).map some ↔
      ∀ (i c : Nat) (lo hi : ℝ), hist[i]? = some c → edges[i]? = some lo → edges[i + 1]? = some hi → f ((lo + hi) / 2) = some (c : ℝ) := by
  constructor
  · intro h i c lo hi h1 h2 h3
    have h4 := (centres_get edges i ((hi + lo) / 2)).mpr ⟨lo, hi, h2, h3, rfl⟩
    have h5 := congrArg (fun l => l[i]?) h
    simp only [List.getElem?_map, h4, h1, Option.map_some] at h5
    rw [add_comm lo hi]
    exact Option.some.inj h5
  · intro h
    apply List.ext_getElem?
    intro i
    have hlen : hist.length = (centres edges).length := by rw [centres_len]; omega
    simp only [List.getElem?_map]
    by_cases hi : i < hist.length
    · have h1 : hist[i]? = some hist[i] := List.getElem?_eq_getElem hi
      have h2 : (centres edges)[i]? = some ((centres edges)[i]'(hlen ▸ hi)) := List.getElem?_eq_getElem _
      obtain ⟨lo, up, h3, h4, h5⟩ := (centres_get edges i _).mp h2
      rw [h1, h2, h5, Option.map_some, Option.map_some, Option.map_some, add_comm up lo, h i _ lo up h1 h3 h4]
    · rw [List.getElem?_eq_none (by omega), List.getElem?_eq_none (by omega)]
      rfl

theorem fitGauss_cov {C : Type} (curve : CurveFit C) (hist : List Nat) (edges : List ℝ) (r : Fit C) (hr : fitGauss curve hist edges = .ok r) (hcov : r.cov ≠ none) :
    ∃ p0 p cov, curve gaussP (centres edges) (hist.map fun c : Nat => (c : ℝ)) p0 = .ok (p, cov) ∧ r.params = p.map some := by
  unfold fitGauss at hr
  simp only at hr
  split at hr
  · cases hr
  · split at hr
    · cases Except.ok.inj hr
      exact absurd rfl hcov
    · unfold tryFit at hr
      split at hr
      · rename_i p cov hc
        cases Except.ok.inj hr
        exact ⟨_, p, cov, hc, rfl⟩
      · cases Except.ok.inj hr
        exact absurd rfl hcov
      · cases hr

theorem fitGaussBox_cov {C : Type} (curve : CurveFit C) (hist : List Nat) (edges : List ℝ) (w : Option ℝ) (r : Fit C) (hr : fitGaussBox curve hist edges w = .ok r)
    (hcov : r.cov ≠ none) :
    hist ≠ [] ∧ ∃ p0 p cov, curve gaussBoxP (centres edges) (hist.map fun c : Nat => (c : ℝ)) p0 = .ok (p, cov) ∧ r.params = p.map some := by
  unfold fitGaussBox at hr
  simp only at hr
  split at hr
  · cases hr
  · rename_i m hm
    refine ⟨fun h => (by rw [h] at hm; nomatch hm), ?_⟩
    split at hr
    · cases Except.ok.inj hr
      exact absurd rfl hcov
    · unfold tryFit at hr
      split at hr
      · rename_i p cov hc
        cases Except.ok.inj hr
        split at hc
        · cases hc
        · exact ⟨_, p, cov, hc, rfl⟩
      · cases Except.ok.inj hr
        exact absurd rfl hcov
      · cases hr

/-- C205: if `curve_fit` finds the least squares, the counts of at least three bins are exactly those of a Gaussian function and the fit does
not fail, then the result has its parameters (the sign of the width is free). -/
theorem C205_exact {C : Type} (curve : CurveFit C) (hcurve : ∀ f xs ys p0 p cov, curve f xs ys p0 = .ok (p, cov) → LeastSquares f xs ys p)
    (hist : List Nat) (edges : List ℝ) (hl : hist.length + 1 = edges.length) (h3 : 3 ≤ hist.length) (hv : edges.Pairwise (· < ·)) (A mu sigma : ℝ)
    (hA : A ≠ 0) (hs : sigma ≠ 0)
    (hh : ∀ (i c : Nat) (lo hi : ℝ), hist[i]? = some c → edges[i]? = some lo → edges[i + 1]? = some hi → (c : ℝ) = A * Real.exp (-((lo + hi) / 2 - mu) ^ 2 / (2 * sigma ^ 2)))
    (r : Fit C) (hr : fitGauss curve hist edges = .ok r) (hcov : r.cov ≠ none) : ∃ s, |s| = |sigma| ∧ r.params = [some A, some mu, some s] := by
  obtain ⟨p0, p, cov, hc, hp⟩ := fitGauss_cov curve hist edges r hr hcov
  have hq : (centres edges).map (gaussP [A, mu, sigma]) = (hist.map fun c : Nat => (c : ℝ)).map some := by
    rw [bins_iff _ _ _ hl]
    intro i c lo hi h1 h2 h4
    rw [hh i c lo hi h1 h2 h4]
    exact if_neg hs
  have hz := misfit_zero _ _ _ p _ (by rw [centres_len, List.length_map]; omega) hq (hcurve _ _ _ _ _ _ hc)
  rw [bins_iff _ _ _ hl] at hz
  have hb : ∀ i, i < hist.length → ∃ (c : Nat) (lo hi : ℝ), hist[i]? = some c ∧ edges[i]? = some lo ∧ edges[i + 1]? = some hi := fun i hi =>
    ⟨_, _, _, List.getElem?_eq_getElem hi, List.getElem?_eq_getElem (by omega), List.getElem?_eq_getElem (by omega)⟩
  obtain ⟨c0, x0, x1, a1, a2, a3⟩ := hb 0 (by omega)
  obtain ⟨c1, x1', x2, b1, b2, b3⟩ := hb 1 (by omega)
  obtain ⟨c2, x2', x3, d1, d2, d3⟩ := hb 2 (by omega)
  cases Option.some.inj (a3.symm.trans b2)
  cases Option.some.inj (b3.symm.trans d2)
  have lt : ∀ (i : Nat) (u v : ℝ), edges[i]? = some u → edges[i + 1]? = some v → u < v := by
    intro i u v hu hv'
    obtain ⟨hi, rfl⟩ := List.getElem?_eq_some_iff.mp hu
    obtain ⟨hj, rfl⟩ := List.getElem?_eq_some_iff.mp hv'
    exact List.pairwise_iff_getElem.mp hv i (i + 1) hi hj (by omega)
  have l1 := lt 0 _ _ a2 a3
  have l2 := lt 1 _ _ b2 b3
  have l3 := lt 2 _ _ d2 d3
  have hg : ∀ t, t = (x0 + x1) / 2 ∨ t = (x1 + x2) / 2 ∨ t = (x2 + x3) / 2 → gaussP p t = some (A * Real.exp (-(t - mu) ^ 2 / (2 * sigma ^ 2))) := by
    rintro t (rfl | rfl | rfl)
    · rw [hz 0 c0 _ _ a1 a2 a3, hh 0 c0 _ _ a1 a2 a3]
    · rw [hz 1 c1 _ _ b1 b2 b3, hh 1 c1 _ _ b1 b2 b3]
    · rw [hz 2 c2 _ _ d1 d2 d3, hh 2 c2 _ _ d1 d2 d3]
  have hform : ∃ A' mu' s', p = [A', mu', s'] := by
    have := hg _ (Or.inl rfl)
    unfold gaussP at this
    split at this
    · exact ⟨_, _, _, rfl⟩
    · cases this
  obtain ⟨A', mu', s', rfl⟩ := hform
  have hs' : s' ≠ 0 := by
    intro h0
    have := hg _ (Or.inl rfl)
    change gauss A' mu' s' _ = _ at this
    unfold gauss at this
    rw [if_pos h0] at this
    split at this
    · cases this
    · exact (mul_ne_zero hA (Real.exp_ne_zero _)) (Option.some.inj this).symm
  obtain ⟨e1, e2, e3⟩ := gauss_unique A mu sigma A' mu' s' ((x0 + x1) / 2) ((x1 + x2) / 2) ((x2 + x3) / 2) hA hs hs' (by intro h; linarith) (by intro h; linarith)
    (by intro h; linarith) fun t ht => by
      have := hg t ht
      change gauss A' mu' s' t = _ at this
      unfold gauss at this
      rw [if_neg hs'] at this
      exact Option.some.inj this
  exact ⟨s', e3, by rw [hp, e1, e2]; rfl⟩

/-- C205: the same for the box: the fitted function agrees with the counts in all bins. -/
theorem C205_box_exact {C : Type} (curve : CurveFit C) (hcurve : ∀ f xs ys p0 p cov, curve f xs ys p0 = .ok (p, cov) → LeastSquares f xs ys p)
    (hist : List Nat) (edges : List ℝ) (w : Option ℝ) (hl : hist.length + 1 = edges.length) (A mu sigma a : ℝ)
    (hh : ∀ (i c : Nat) (lo hi : ℝ), hist[i]? = some c → edges[i]? = some lo → edges[i + 1]? = some hi → gaussBoxErf A mu sigma a ((lo + hi) / 2) = some (c : ℝ))
    (r : Fit C) (hr : fitGaussBox curve hist edges w = .ok r) (hcov : r.cov ≠ none) : ∃ A' mu' sigma' a', r.params = [some A', some mu', some sigma', some a'] ∧
      ∀ (i c : Nat) (lo hi : ℝ), hist[i]? = some c → edges[i]? = some lo → edges[i + 1]? = some hi → gaussBoxErf A' mu' sigma' a' ((lo + hi) / 2) = some (c : ℝ) := by
  obtain ⟨hne, p0, p, cov, hc, hp⟩ := fitGaussBox_cov curve hist edges w r hr hcov
  have hq : (centres edges).map (gaussBoxP [A, mu, sigma, a]) = (hist.map fun c : Nat => (c : ℝ)).map some := (bins_iff _ _ _ hl).mpr hh
  have hz := (bins_iff _ _ _ hl).mp (misfit_zero _ _ _ p _ (by rw [centres_len, List.length_map]; omega) hq (hcurve _ _ _ _ _ _ hc))
  have hpos := List.length_pos_iff.mpr hne
  have hform : ∃ A' mu' s' a', p = [A', mu', s', a'] := by
    have := hz 0 _ _ _ (List.getElem?_eq_getElem hpos) (List.getElem?_eq_getElem (by omega)) (List.getElem?_eq_getElem (by omega))
    unfold gaussBoxP at this
    split at this
    · exact ⟨_, _, _, _, rfl⟩
    · cases this
  obtain ⟨A', mu', s', a', rfl⟩ := hform
  exact ⟨A', mu', s', a', hp, hz⟩

/-- C205: an exception leaves the functions only if there is no bin or if `curve_fit` raises one that is not caught. -/
theorem C205_raises {C : Type} (curve : CurveFit C) (hist : List Nat) (edges : List ℝ) (e : Err) (h : fitGauss curve hist edges = .error e) :
    hist = [] ∨ ∃ p0, curve gaussP (centres edges) (hist.map fun c : Nat => (c : ℝ)) p0 = .error .other := by
  unfold fitGauss at h
  simp only at h
  split at h
  · rename_i hm
    left
    cases hist with
    | nil => rfl
    | cons a l => cases hm
  · split at h
    · cases h
    · right
      unfold tryFit at h
      split at h
      · cases h
      · cases h
      · rename_i hc
        exact ⟨_, hc⟩

/-- A `curve_fit` that returns the least squares if there are any. -/
noncomputable def bestFit : CurveFit Unit := fun f xs ys _ => open Classical in
  if h : ∃ p, LeastSquares f xs ys p then .ok (Classical.choose h, ()) else .error .caught

theorem bestFit_spec (f : List ℝ → ℝ → Option ℝ) (xs ys : List ℝ) (p0 : List (Option ℝ)) (p : List ℝ) (cov : Unit) (h : bestFit f xs ys p0 = .ok (p, cov)) : LeastSquares f xs ys p := by
  unfold bestFit at h
  split at h
  · rename_i hp
    have := congrArg Prod.fst (Except.ok.inj h)
    simp only at this
    rw [← this]
    exact Classical.choose_spec hp
  · cases h

/-- The width of the Gaussian function with the values 1, 2, 1 at -1, 0, 1. -/
noncomputable def exSigma : ℝ := Real.sqrt (1 / (2 * Real.log 2))

theorem exSigma_pos : 0 < exSigma := Real.sqrt_pos.mpr (by have := Real.log_pos (show (1 : ℝ) < 2 by norm_num); positivity)

theorem exGauss (i c : Nat) (lo hi : ℝ) (h1 : [1, 2, 1][i]? = some c) (h2 : [(-3 / 2 : ℝ), -1 / 2, 1 / 2, 3 / 2][i]? = some lo)
    (h3 : [(-3 / 2 : ℝ), -1 / 2, 1 / 2, 3 / 2][i + 1]? = some hi) : (c : ℝ) = 2 * Real.exp (-((lo + hi) / 2 - 0) ^ 2 / (2 * exSigma ^ 2)) := by
  have hlog := Real.log_pos (show (1 : ℝ) < 2 by norm_num)
  have e : 2 * exSigma ^ 2 = 1 / Real.log 2 := by
    unfold exSigma
    rw [Real.sq_sqrt (by positivity)]
    field_simp
  rw [e]
  have e2 : Real.exp (-1 / (1 / Real.log 2)) = 1 / 2 := by
    rw [show -1 / (1 / Real.log 2) = -Real.log 2 by field_simp, Real.exp_neg, Real.exp_log (by norm_num)]
    norm_num
  match i with
  | 0 =>
    cases Option.some.inj h1; cases Option.some.inj h2; cases Option.some.inj h3
    norm_num
    rw [show -(1 : ℝ) / (1 / Real.log 2) = -1 / (1 / Real.log 2) from rfl] at e2
    norm_num at e2
    rw [e2]; norm_num
  | 1 =>
    cases Option.some.inj h1; cases Option.some.inj h2; cases Option.some.inj h3
    norm_num
  | 2 =>
    cases Option.some.inj h1; cases Option.some.inj h2; cases Option.some.inj h3
    norm_num
    norm_num at e2
    rw [e2]; norm_num
  | n + 3 => simp at h1

/-- The hypotheses of C205 are met: the histogram 1, 2, 1 is fitted. -/
example : ∃ r, fitGauss bestFit [1, 2, 1] [-3 / 2, -1 / 2, 1 / 2, 3 / 2] = .ok r ∧ ∃ s, |s| = |exSigma| ∧ r.params = [some 2, some 0, some s] := by
  have hl : [1, 2, 1].length + 1 = [(-3 / 2 : ℝ), -1 / 2, 1 / 2, 3 / 2].length := rfl
  obtain ⟨m, mu, s, hst, -, hok⟩ := C205_result bestFit [1, 2, 1] [-3 / 2, -1 / 2, 1 / 2, 3 / 2] none hl ⟨1, by simp, by norm_num⟩
  have hs : s ≠ 0 := by
    rintro rfl
    have h1 := hst.stat.mean
    have h2 := hst.stat.std
    norm_num [entries, List.replicate] at h1 h2
    rw [h1] at h2
    norm_num at h2
  have hbest : ∃ p, LeastSquares gaussP (centres [(-3 / 2 : ℝ), -1 / 2, 1 / 2, 3 / 2]) ([1, 2, 1].map fun c : Nat => (c : ℝ)) p := by
    refine ⟨[2, 0, exSigma], 0, ⟨[1, 2, 1], ?_, by norm_num⟩, ?_⟩
    · have := (bins_iff (gaussP [2, 0, exSigma]) [1, 2, 1] _ hl).mpr fun i c lo hi h1 h2 h3 => by
        rw [exGauss i c lo hi h1 h2 h3]
        exact if_neg exSigma_pos.ne'
      rw [this]
      norm_num
    · rintro q t ⟨vs, -, rfl⟩
      apply List.sum_nonneg
      intro x hx
      obtain ⟨i, hi, rfl⟩ := List.mem_iff_getElem.mp hx
      simp only [List.getElem_zipWith]
      positivity
  have hc : bestFit gaussP (centres [(-3 / 2 : ℝ), -1 / 2, 1 / 2, 3 / 2]) ([1, 2, 1].map fun c : Nat => (c : ℝ)) [some m, some mu, some s] = .ok (Classical.choose hbest, ()) := dif_pos hbest
  have hr := (hok hs).1 _ _ hc
  refine ⟨_, hr, ?_⟩
  exact C205_exact bestFit bestFit_spec _ _ hl (by decide) (by simp only [List.pairwise_cons, List.mem_cons]; norm_num) 2 0 exSigma (by norm_num) exSigma_pos.ne' exGauss _ hr (fun h => nomatch h)

end BTA.GaussFit.Props
