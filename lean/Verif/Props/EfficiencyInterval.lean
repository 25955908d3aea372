import Verif.Model.EfficiencyInterval
import Verif.Spec.EfficiencyInterval
import Mathlib.Analysis.SpecialFunctions.Integrals.Basic
import Mathlib.MeasureTheory.Integral.DominatedConvergence
import Mathlib.Analysis.Calculus.Deriv.MeanValue
import Mathlib.Analysis.Calculus.Deriv.Pow
/-
C193: the interval of the efficiency is the shortest interval with the requested probability.
-/
namespace BTA.EfficiencyInterval
open BTA.Spec intervalIntegral

theorem weight_continuous (k N : Nat) : Continuous (betaWeight k N) := by
  unfold betaWeight
  fun_prop

theorem weight_integrable (k N : Nat) (a b : ℝ) : IntervalIntegrable (betaWeight k N) MeasureTheory.volume a b :=
  (weight_continuous k N).intervalIntegrable a b

theorem weight_nonneg (k N : Nat) {x : ℝ} (h0 : 0 ≤ x) (h1 : x ≤ 1) : 0 ≤ betaWeight k N x :=
  mul_nonneg (pow_nonneg h0 _) (pow_nonneg (by linarith) _)

theorem weight_pos (k N : Nat) {x : ℝ} (h0 : 0 < x) (h1 : x < 1) : 0 < betaWeight k N x :=
  mul_pos (pow_pos h0 _) (pow_pos (by linarith) _)

theorem weight_deriv (k N : Nat) (x : ℝ) :
    HasDerivAt (betaWeight k N) ((k : ℝ) * x ^ (k - 1) * (1 - x) ^ (N - k) + x ^ k * ((N - k : Nat) * (1 - x) ^ (N - k - 1) * (-1))) x := by
  unfold betaWeight
  have h1 : HasDerivAt (fun x : ℝ => x ^ k) ((k : ℝ) * x ^ (k - 1)) x := by simpa using hasDerivAt_pow k x
  have h2 : HasDerivAt (fun x : ℝ => (1 - x) ^ (N - k)) (((N - k : Nat) : ℝ) * (1 - x) ^ (N - k - 1) * (-1)) x := by
    have h3 : HasDerivAt (fun x : ℝ => 1 - x) (-1) x := by simpa using (hasDerivAt_id x).const_sub 1
    exact h3.pow (N - k)
  exact h1.mul h2

theorem pow_pred (n : Nat) (x : ℝ) : (n : ℝ) * x ^ (n - 1) * x = n * x ^ n := by
  cases n with
  | zero => simp
  | succ n => rw [Nat.add_sub_cancel, pow_succ]; ring

/-- Sign of the derivative: the density increases below of the efficiency and decreases above. -/
theorem weight_slope (k N : Nat) (hk : k ≤ N) {x d : ℝ} (hd : HasDerivAt (betaWeight k N) d x) : d * (x * (1 - x)) = betaWeight k N x * (k - N * x) := by
  rw [hd.unique (weight_deriv k N x)]
  have h1 := pow_pred k x
  have h2 := pow_pred (N - k) (1 - x)
  have h3 : ((N - k : Nat) : ℝ) = N - k := by exact Nat.cast_sub hk
  unfold betaWeight
  calc _ = ((k : ℝ) * x ^ (k - 1) * x) * ((1 - x) ^ (N - k) * (1 - x)) - x ^ k * x * (((N - k : Nat) : ℝ) * (1 - x) ^ (N - k - 1) * (1 - x)) := by ring
    _ = _ := by rw [h1, h2, h3]; ring

theorem mode_range {k N : Nat} (hN : 0 < N) (hk : k ≤ N) : 0 ≤ (k : ℝ) / N ∧ (k : ℝ) / N ≤ 1 := by
  have : (0 : ℝ) < N := by exact_mod_cast hN
  exact ⟨by positivity, (div_le_one this).mpr (by exact_mod_cast hk)⟩

theorem weight_mono {k N : Nat} (hN : 0 < N) (hk : k ≤ N) : MonotoneOn (betaWeight k N) (Set.Icc 0 ((k : ℝ) / N)) := by
  have hn : (0 : ℝ) < N := by exact_mod_cast hN
  refine monotoneOn_of_deriv_nonneg (convex_Icc _ _) (weight_continuous k N).continuousOn (fun x _ => (weight_deriv k N x).differentiableAt.differentiableWithinAt) fun x hx => ?_
  rw [interior_Icc] at hx
  have h1 : x < 1 := lt_of_lt_of_le hx.2 (mode_range hN hk).2
  have h2 := weight_slope k N hk (weight_deriv k N x).differentiableAt.hasDerivAt
  have h3 : 0 < x * (1 - x) := mul_pos hx.1 (by linarith)
  have h4 : (N : ℝ) * x ≤ k := by
    have := (lt_div_iff₀ hn).mp hx.2
    linarith [mul_comm x (N : ℝ)]
  by_contra hneg
  have h5 := mul_neg_of_neg_of_pos (not_le.mp hneg) h3
  rw [h2] at h5
  exact absurd h5 (not_lt.mpr (mul_nonneg (weight_nonneg k N hx.1.le h1.le) (by linarith)))

theorem weight_anti {k N : Nat} (hN : 0 < N) (hk : k ≤ N) : AntitoneOn (betaWeight k N) (Set.Icc ((k : ℝ) / N) 1) := by
  have hn : (0 : ℝ) < N := by exact_mod_cast hN
  refine antitoneOn_of_deriv_nonpos (convex_Icc _ _) (weight_continuous k N).continuousOn (fun x _ => (weight_deriv k N x).differentiableAt.differentiableWithinAt) fun x hx => ?_
  rw [interior_Icc] at hx
  have h1 : 0 < x := lt_of_le_of_lt (mode_range hN hk).1 hx.1
  have h2 := weight_slope k N hk (weight_deriv k N x).differentiableAt.hasDerivAt
  have h3 : 0 < x * (1 - x) := mul_pos h1 (by linarith [hx.2])
  have h4 : (k : ℝ) ≤ N * x := by
    have := (div_lt_iff₀ hn).mp hx.1
    linarith [mul_comm x (N : ℝ)]
  by_contra hneg
  have h5 := mul_pos (not_le.mp hneg) h3
  rw [h2] at h5
  exact absurd h5 (not_lt.mpr (mul_nonpos_of_nonneg_of_nonpos (weight_nonneg k N h1.le hx.2.le) (by linarith)))

theorem content_continuous (k N : Nat) (p : ℝ) : Continuous fun x => ∫ t in x..p, betaWeight k N t := by
  have h : (fun x => ∫ t in x..p, betaWeight k N t) = fun x => -∫ t in p..x, betaWeight k N t := by
    funext x
    rw [integral_symm]
  rw [h]
  exact (continuous_primitive (fun a b => weight_integrable k N a b) p).neg

theorem content_nonneg (k N : Nat) {a b : ℝ} (h0 : 0 ≤ a) (hab : a ≤ b) (h1 : b ≤ 1) : 0 ≤ ∫ t in a..b, betaWeight k N t :=
  integral_nonneg hab fun x hx => weight_nonneg k N (h0.trans hx.1) (hx.2.trans h1)

/-- An interval below of the efficiency is not shorter than one ending there with the same content. -/
theorem shift_up {k N : Nat} (hN : 0 < N) (hk : k ≤ N) {a b : ℝ} (h0 : 0 ≤ a) (hab : a ≤ b) (hb : b ≤ (k : ℝ) / N) :
    ∃ a', (k : ℝ) / N - (b - a) ≤ a' ∧ a' ≤ (k : ℝ) / N ∧ ∫ t in a'..((k : ℝ) / N), betaWeight k N t = ∫ t in a..b, betaWeight k N t := by
  set p := (k : ℝ) / N with hp
  have hp1 := (mode_range hN hk).2
  have hge : ∫ t in a..b, betaWeight k N t ≤ ∫ t in (p - (b - a))..p, betaWeight k N t := by
    have h2 := integral_comp_add_right (a := a) (b := b) (betaWeight k N) (p - b)
    rw [show p - (b - a) = a + (p - b) by ring, show p = b + (p - b) by ring] 
    rw [show b + (p - b) - b = p - b by ring, ← h2]
    refine integral_mono_on hab (weight_integrable k N a b) (((weight_continuous k N).comp (continuous_add_const _)).intervalIntegrable _ _) fun x hx => ?_
    exact weight_mono hN hk ⟨h0.trans hx.1, hx.2.trans hb⟩ ⟨by linarith [hx.1], by linarith [hx.2]⟩ (by linarith)
  have hle : p - (b - a) ≤ p := by linarith
  obtain ⟨a', h3, h4⟩ := intermediate_value_Icc' hle (content_continuous k N p).continuousOn ⟨by
    rw [integral_same]
    exact content_nonneg k N h0 hab (hb.trans hp1), hge⟩
  exact ⟨a', h3.1, h3.2, h4⟩

theorem shift_down {k N : Nat} (hN : 0 < N) (hk : k ≤ N) {a b : ℝ} (ha : (k : ℝ) / N ≤ a) (hab : a ≤ b) (hb : b ≤ 1) :
    ∃ b', (k : ℝ) / N ≤ b' ∧ b' ≤ (k : ℝ) / N + (b - a) ∧ ∫ t in ((k : ℝ) / N)..b', betaWeight k N t = ∫ t in a..b, betaWeight k N t := by
  set p := (k : ℝ) / N with hp
  have hp0 := (mode_range hN hk).1
  have hge : ∫ t in a..b, betaWeight k N t ≤ ∫ t in p..(p + (b - a)), betaWeight k N t := by
    have h2 := integral_comp_add_right (a := p) (b := p + (b - a)) (betaWeight k N) (a - p)
    rw [show p + (a - p) = a by ring, show p + (b - a) + (a - p) = b by ring] at h2
    rw [← h2]
    refine integral_mono_on (by linarith) (((weight_continuous k N).comp (continuous_add_const _)).intervalIntegrable _ _) (weight_integrable k N _ _) fun x hx => ?_
    exact weight_anti hN hk ⟨hx.1, by linarith [hx.2]⟩ ⟨by linarith [hx.1], by linarith [hx.2]⟩ (by linarith)
  have hle : p ≤ p + (b - a) := by linarith
  obtain ⟨b', h3, h4⟩ := intermediate_value_Icc hle (continuous_primitive (fun a b => weight_integrable k N a b) p).continuousOn ⟨by
    rw [integral_same]
    exact content_nonneg k N (hp0.trans ha) hab hb, hge⟩
  exact ⟨b', h3.1, h3.2, h4⟩

theorem total_pos (k N : Nat) : 0 < ∫ t in (0 : ℝ)..1, betaWeight k N t :=
  intervalIntegral_pos_of_pos_on (weight_integrable k N 0 1) (fun _ hx => weight_pos k N hx.1 hx.2) one_pos

theorem integ_eq (k N : Nat) {a b : ℝ} (h0 : 0 ≤ a) (ha : a ≤ 1) (hb : 0 ≤ b) (h1 : b ≤ 1) :
    intervalInteg a b k N = (∫ t in a..b, betaWeight k N t) / ∫ t in (0 : ℝ)..1, betaWeight k N t := by
  unfold intervalInteg betaCdf
  rw [min_eq_left h1, max_eq_right hb, min_eq_left ha, max_eq_right h0, ← sub_div, integral_interval_sub_left (weight_integrable k N _ _) (weight_integrable k N _ _)]

theorem probability_eq (k N : Nat) (hk : k ≤ N) (a b : ℝ) : efficiencyProbability k N a b = (∫ t in a..b, betaWeight k N t) / ∫ t in (0 : ℝ)..1, betaWeight k N t := by
  unfold efficiencyProbability betaWeight
  have hc : (N.choose k : ℝ) ≠ 0 := by exact_mod_cast (Nat.choose_pos hk).ne'
  simp only [mul_assoc]
  rw [integral_const_mul, integral_const_mul, mul_div_mul_left _ _ hc]

/-- C193: for `k` of `N` tracks with hit, the result is k / N with an interval around it. The interval is inside of 0 to 1, has the requested probability, and no other interval with this
probability is shorter, wherever it is. -/
theorem C193_interval (minimize : Problem → ℝ × ℝ) (k N : Nat) (hN : 0 < N) (hk : k ≤ N) (interval : ℝ)
    (hmin : Solves (problem k N interval).fn (problem k N interval).bounds (problem k N interval).eq (minimize (problem k N interval))) :
    ∃ eff lower upper, meanEfficiencyErrors minimize k N interval = (eff, lower, upper) ∧ eff = (k : ℝ) / N ∧ lower ≤ 0 ∧ 0 ≤ upper ∧ 0 ≤ eff + lower ∧ eff + upper ≤ 1 ∧
      efficiencyProbability k N (eff + lower) (eff + upper) = interval ∧
      ∀ a b, 0 ≤ a → a ≤ b → b ≤ 1 → efficiencyProbability k N a b = interval → upper - lower ≤ b - a := by
  obtain ⟨⟨h1, h2, h3, h4, h5⟩, h6⟩ := hmin
  set x := minimize (problem k N interval) with hx
  simp only [problem] at h1 h2 h3 h4 h5 h6
  obtain ⟨hp0, hp1⟩ := mode_range hN hk
  set p := (k : ℝ) / N with hp
  refine ⟨p, x.1 - p, x.2 - p, rfl, rfl, by linarith, by linarith, by linarith, by linarith, ?_, ?_⟩
  · rw [show p + (x.1 - p) = x.1 by ring, show p + (x.2 - p) = x.2 by ring, probability_eq k N hk, ← integ_eq k N h1 (h2.trans hp1) (hp0.trans h3) h4]
    exact sub_eq_zero.mp (abs_eq_zero.mp h5)
  · intro a b ha hab hb hprob
    rw [probability_eq k N hk] at hprob
    have key : ∃ a' b', 0 ≤ a' ∧ a' ≤ p ∧ p ≤ b' ∧ b' ≤ 1 ∧ b' - a' ≤ b - a ∧ ∫ t in a'..b', betaWeight k N t = ∫ t in a..b, betaWeight k N t := by
      rcases le_total b p with hbp | hbp
      · obtain ⟨a', g1, g2, g3⟩ := shift_up hN hk ha hab hbp
        exact ⟨a', p, by linarith, g2, le_rfl, hp1, by linarith, g3⟩
      · rcases le_total p a with hap | hap
        · obtain ⟨b', g1, g2, g3⟩ := shift_down hN hk hap hab hb
          exact ⟨p, b', hp0, le_rfl, g1, by linarith, by linarith, g3⟩
        · exact ⟨a, b, ha, hap, hbp, hb, le_rfl, rfl⟩
    obtain ⟨a', b', g1, g2, g3, g4, g5, g6⟩ := key
    have h7 := h6 a' b' ⟨g1, g2, g3, g4, by
      rw [integ_eq k N g1 (g2.trans hp1) (hp0.trans g3) g4, g6, hprob, sub_self, abs_zero]⟩
    linarith

/-- C193: the problem can always be solved. -/
theorem C193_solvable (k N : Nat) (hN : 0 < N) (hk : k ≤ N) (interval : ℝ) (h0 : 0 ≤ interval) (h1 : interval ≤ 1) :
    ∃ x, Solves (problem k N interval).fn (problem k N interval).bounds (problem k N interval).eq x := by
  obtain ⟨hp0, hp1⟩ := mode_range hN hk
  have hcdf : Continuous (betaCdf k N) := by
    unfold betaCdf
    exact ((continuous_primitive (fun a b => weight_integrable k N a b) 0).comp (by fun_prop)).div_const _
  set S : Set (ℝ × ℝ) := {x | 0 ≤ x.1 ∧ x.1 ≤ (k : ℝ) / N ∧ (k : ℝ) / N ≤ x.2 ∧ x.2 ≤ 1 ∧ |intervalInteg x.1 x.2 k N - interval| = 0} with hS
  have hcont : Continuous fun x : ℝ × ℝ => |intervalInteg x.1 x.2 k N - interval| := by
    unfold intervalInteg
    fun_prop
  have hcl : IsClosed S := by
    refine (isClosed_le continuous_const continuous_fst).inter ((isClosed_le continuous_fst continuous_const).inter ((isClosed_le continuous_const continuous_snd).inter
      ((isClosed_le continuous_snd continuous_const).inter (isClosed_eq hcont continuous_const))))
  have hcomp : IsCompact S := by
    refine (isCompact_Icc.prod isCompact_Icc : IsCompact (Set.Icc (0 : ℝ) 1 ×ˢ Set.Icc (0 : ℝ) 1)).of_isClosed_subset hcl ?_
    rintro x ⟨g1, g2, g3, g4, -⟩
    exact ⟨⟨g1, g2.trans hp1⟩, hp0.trans g3, g4⟩
  have hne : S.Nonempty := by
    have hg : Continuous fun s : ℝ => intervalInteg (s * ((k : ℝ) / N)) ((k : ℝ) / N + (1 - s) * (1 - (k : ℝ) / N)) k N := by
      unfold intervalInteg
      fun_prop
    have hz : intervalInteg (1 * ((k : ℝ) / N)) ((k : ℝ) / N + (1 - 1) * (1 - (k : ℝ) / N)) k N = 0 := by
      unfold intervalInteg
      rw [one_mul, sub_self, zero_mul, add_zero, sub_self]
    have ho : intervalInteg (0 * ((k : ℝ) / N)) ((k : ℝ) / N + (1 - 0) * (1 - (k : ℝ) / N)) k N = 1 := by
      rw [show (0 : ℝ) * ((k : ℝ) / N) = 0 by ring, show (k : ℝ) / N + (1 - 0) * (1 - (k : ℝ) / N) = 1 by ring, integ_eq k N le_rfl zero_le_one zero_le_one le_rfl]
      exact div_self (total_pos k N).ne'
    obtain ⟨s, hs, he⟩ := intermediate_value_Icc' (zero_le_one (α := ℝ)) hg.continuousOn (show interval ∈ Set.Icc _ _ from ⟨by rw [hz]; exact h0, by rw [ho]; exact h1⟩)
    refine ⟨(s * ((k : ℝ) / N), (k : ℝ) / N + (1 - s) * (1 - (k : ℝ) / N)), mul_nonneg hs.1 hp0, mul_le_of_le_one_left hp0 hs.2, ?_, ?_, ?_⟩
    · nlinarith [mul_nonneg (sub_nonneg.mpr hs.2) (sub_nonneg.mpr hp1)]
    · nlinarith [mul_nonneg hs.1 (sub_nonneg.mpr hp1)]
    · dsimp only at he ⊢
      rw [he, sub_self, abs_zero]
  obtain ⟨x, hx, hm⟩ := hcomp.exists_isMinOn hne (f := fun x : ℝ × ℝ => x.2 - x.1) (by fun_prop)
  exact ⟨x, hx, fun a b hab => hm (show (a, b) ∈ S from hab)⟩

theorem weight_strictMono {k N : Nat} (hN : 0 < N) (hk : k ≤ N) : StrictMonoOn (betaWeight k N) (Set.Icc 0 ((k : ℝ) / N)) := by
  have hn : (0 : ℝ) < N := by exact_mod_cast hN
  refine strictMonoOn_of_deriv_pos (convex_Icc _ _) (weight_continuous k N).continuousOn fun x hx => ?_
  rw [interior_Icc] at hx
  have h1 : x < 1 := lt_of_lt_of_le hx.2 (mode_range hN hk).2
  have h2 := weight_slope k N hk (weight_deriv k N x).differentiableAt.hasDerivAt
  have h3 : 0 < x * (1 - x) := mul_pos hx.1 (by linarith)
  have h4 : (N : ℝ) * x < k := by
    have := (lt_div_iff₀ hn).mp hx.2
    linarith [mul_comm x (N : ℝ)]
  by_contra hneg
  have h5 := mul_nonpos_of_nonpos_of_nonneg (not_lt.mp hneg) h3.le
  rw [h2] at h5
  exact absurd h5 (not_le.mpr (mul_pos (weight_pos k N hx.1 h1) (by linarith)))

theorem weight_strictAnti {k N : Nat} (hN : 0 < N) (hk : k ≤ N) : StrictAntiOn (betaWeight k N) (Set.Icc ((k : ℝ) / N) 1) := by
  have hn : (0 : ℝ) < N := by exact_mod_cast hN
  refine strictAntiOn_of_deriv_neg (convex_Icc _ _) (weight_continuous k N).continuousOn fun x hx => ?_
  rw [interior_Icc] at hx
  have h1 : 0 < x := lt_of_le_of_lt (mode_range hN hk).1 hx.1
  have h2 := weight_slope k N hk (weight_deriv k N x).differentiableAt.hasDerivAt
  have h3 : 0 < x * (1 - x) := mul_pos h1 (by linarith [hx.2])
  have h4 : (k : ℝ) < N * x := by
    have := (div_lt_iff₀ hn).mp hx.1
    linarith [mul_comm x (N : ℝ)]
  by_contra hneg
  have h5 := mul_nonneg (not_lt.mp hneg) h3.le
  rw [h2] at h5
  exact absurd h5 (not_le.mpr (mul_neg_of_pos_of_neg (weight_pos k N h1 hx.2) (by linarith)))

/-- The first half of an interval has less than the second half, if the density increases. -/
theorem half_lt {f : ℝ → ℝ} (hf : Continuous f) {a b : ℝ} (hab : a < b) (hm : StrictMonoOn f (Set.Icc a b)) :
    ∫ t in a..((a + b) / 2), f t < ∫ t in ((a + b) / 2)..b, f t := by
  have h2 := integral_comp_add_right (a := a) (b := (a + b) / 2) f ((b - a) / 2)
  rw [show a + (b - a) / 2 = (a + b) / 2 by ring, show (a + b) / 2 + (b - a) / 2 = b by ring] at h2
  rw [← h2]
  refine integral_lt_integral_of_continuousOn_of_le_of_exists_lt (by linarith) hf.continuousOn (hf.comp (continuous_add_const _)).continuousOn (fun x hx => ?_) ⟨a, ⟨le_rfl, by linarith⟩, ?_⟩
  · exact (hm ⟨hx.1.le, by linarith [hx.2]⟩ ⟨by linarith [hx.1], by linarith [hx.2]⟩ (by linarith)).le
  · exact hm ⟨le_rfl, hab.le⟩ ⟨by linarith, by linarith⟩ (by linarith)

theorem half_gt {f : ℝ → ℝ} (hf : Continuous f) {a b : ℝ} (hab : a < b) (hm : StrictAntiOn f (Set.Icc a b)) :
    ∫ t in ((a + b) / 2)..b, f t < ∫ t in a..((a + b) / 2), f t := by
  have h := half_lt (f := fun t => - f t) hf.neg hab hm.neg
  rw [integral_neg, integral_neg] at h
  exact neg_lt_neg_iff.mp h

/-- Two shortest intervals cannot be shifted against each other. -/
theorem no_shift (k N : Nat) (hN : 0 < N) (hk : k ≤ N) (interval : ℝ) (h0 : 0 ≤ interval) {x y : ℝ × ℝ}
    (hx : Solves (problem k N interval).fn (problem k N interval).bounds (problem k N interval).eq x)
    (hy : Solves (problem k N interval).fn (problem k N interval).bounds (problem k N interval).eq y) : ¬ x.1 < y.1 := by
  intro hlt
  obtain ⟨⟨a1, a2, a3, a4, a5⟩, a6⟩ := hx
  obtain ⟨⟨b1, b2, b3, b4, b5⟩, b6⟩ := hy
  simp only [problem] at a1 a2 a3 a4 a5 a6 b1 b2 b3 b4 b5 b6
  have hlen : x.2 - x.1 = y.2 - y.1 := le_antisymm (a6 _ _ ⟨b1, b2, b3, b4, b5⟩) (b6 _ _ ⟨a1, a2, a3, a4, a5⟩)
  obtain ⟨hp0, hp1⟩ := mode_range hN hk
  set p := (k : ℝ) / N with hp
  have ha5 := sub_eq_zero.mp (abs_eq_zero.mp a5)
  have hb5 := sub_eq_zero.mp (abs_eq_zero.mp b5)
  rw [integ_eq k N a1 (a2.trans hp1) (hp0.trans a3) a4] at ha5
  rw [integ_eq k N b1 (b2.trans hp1) (hp0.trans b3) b4] at hb5
  set T := ∫ t in (0 : ℝ)..1, betaWeight k N t with hT
  have hTpos : 0 < T := total_pos k N
  rw [div_eq_iff hTpos.ne'] at ha5 hb5
  have hc := weight_continuous k N
  have hi := weight_integrable k N
  have l1 := half_lt hc hlt ((weight_strictMono hN hk).mono (Set.Icc_subset_Icc a1 b2))
  have l2 := half_gt hc (show x.2 < y.2 by linarith) ((weight_strictAnti hN hk).mono (Set.Icc_subset_Icc a3 b4))
  set m1 := (x.1 + y.1) / 2 with hm1
  set m2 := (x.2 + y.2) / 2 with hm2
  have e1 := integral_add_adjacent_intervals (hi x.1 m1) (hi m1 m2)
  have e2 := integral_add_adjacent_intervals (hi x.1 m2) (hi m2 x.2)
  have e3 := integral_add_adjacent_intervals (hi m1 y.1) (hi y.1 y.2)
  have e4 := integral_add_adjacent_intervals (hi m1 m2) (hi m2 y.2)
  have e5 := integral_symm (μ := MeasureTheory.volume) (f := betaWeight k N) m2 x.2
  have hbig : interval * T < ∫ t in m1..m2, betaWeight k N t := by
    linarith
  have hm1p : m1 ≤ p := by linarith
  have hpm2 : p ≤ m2 := by linarith
  have hcdf : Continuous fun s : ℝ => ∫ t in (m1 + s * (p - m1))..(m2 - s * (m2 - p)), betaWeight k N t := by
    have h : (fun s : ℝ => ∫ t in (m1 + s * (p - m1))..(m2 - s * (m2 - p)), betaWeight k N t) =
        fun s => (∫ t in (0 : ℝ)..(m2 - s * (m2 - p)), betaWeight k N t) - ∫ t in (0 : ℝ)..(m1 + s * (p - m1)), betaWeight k N t := by
      funext s
      rw [integral_interval_sub_left (hi _ _) (hi _ _)]
    rw [h]
    exact ((continuous_primitive (fun a b => hi a b) 0).comp (by fun_prop)).sub ((continuous_primitive (fun a b => hi a b) 0).comp (by fun_prop))
  obtain ⟨s, hs, he⟩ := intermediate_value_Icc' (zero_le_one (α := ℝ)) hcdf.continuousOn (show interval * T ∈ Set.Icc _ _ from ⟨by
    rw [one_mul, one_mul, show m1 + (p - m1) = p by ring, show m2 - (m2 - p) = p by ring, integral_same]
    exact mul_nonneg h0 hTpos.le, by
    rw [zero_mul, zero_mul, add_zero, sub_zero]
    exact hbig.le⟩)
  have hs0 : 0 < s := by
    refine lt_of_le_of_ne hs.1 fun h => ?_
    rw [← h] at he
    dsimp only at he
    rw [zero_mul, zero_mul, add_zero, sub_zero] at he
    exact absurd he hbig.ne'
  dsimp only at he
  have f1 : 0 ≤ m1 + s * (p - m1) := add_nonneg (by linarith) (mul_nonneg hs.1 (by linarith))
  have f2 : m1 + s * (p - m1) ≤ p := by nlinarith [mul_nonneg (sub_nonneg.mpr hs.2) (sub_nonneg.mpr hm1p)]
  have f3 : p ≤ m2 - s * (m2 - p) := by nlinarith [mul_nonneg (sub_nonneg.mpr hs.2) (sub_nonneg.mpr hpm2)]
  have f4 : m2 - s * (m2 - p) ≤ 1 := by nlinarith [mul_nonneg hs.1 (sub_nonneg.mpr hpm2)]
  have f5 := a6 _ _ ⟨f1, f2, f3, f4, by
    rw [integ_eq k N f1 (f2.trans hp1) (hp0.trans f3) f4, he, mul_div_assoc, div_self hTpos.ne', mul_one, sub_self, abs_zero]⟩
  have f6 : 0 < s * (m2 - m1) := mul_pos hs0 (by
    by_contra hle
    have : m1 = m2 := by linarith
    rw [this, integral_same] at hbig
    exact absurd hbig (not_lt.mpr (mul_nonneg h0 hTpos.le)))
  nlinarith

/-- C193: the interval is determined by the numbers of tracks; it does not depend on the minimiser and its start values. -/
theorem C193_unique (k N : Nat) (hN : 0 < N) (hk : k ≤ N) (interval : ℝ) (h0 : 0 ≤ interval) {x y : ℝ × ℝ}
    (hx : Solves (problem k N interval).fn (problem k N interval).bounds (problem k N interval).eq x)
    (hy : Solves (problem k N interval).fn (problem k N interval).bounds (problem k N interval).eq y) : x = y := by
  have h1 : x.1 = y.1 := le_antisymm (not_lt.mp (no_shift k N hN hk interval h0 hy hx)) (not_lt.mp (no_shift k N hN hk interval h0 hx hy))
  have h2 : x.2 - x.1 ≤ y.2 - y.1 := hx.2 _ _ hy.1
  have h3 : y.2 - y.1 ≤ x.2 - x.1 := hy.2 _ _ hx.1
  exact Prod.ext h1 (by linarith)

/-- All of one track: for a probability of 75 % the interval is from 1/2 to 1. -/
example : Solves (problem 1 1 (3 / 4)).fn (problem 1 1 (3 / 4)).bounds (problem 1 1 (3 / 4)).eq (1 / 2, 1) := by
  have hw : betaWeight 1 1 = fun t => t := by
    funext t
    simp [betaWeight]
  have hi : ∀ a : ℝ, 0 ≤ a → a ≤ 1 → intervalInteg a 1 1 1 = 1 - a ^ 2 := by
    intro a h0 h1
    rw [integ_eq 1 1 h0 h1 zero_le_one le_rfl, hw, integral_id, integral_id]
    ring
  unfold problem Solves
  dsimp only
  refine ⟨⟨by norm_num, by norm_num, by norm_num, le_rfl, ?_⟩, ?_⟩
  · rw [hi _ (by norm_num) (by norm_num)]
    norm_num
  · rintro a b ⟨h1, h2, h3, h4, h5⟩
    have hb : b = 1 := le_antisymm h4 (by simpa using h3)
    subst hb
    rw [hi a h1 (by simpa using h2)] at h5
    have h6 := abs_eq_zero.mp h5
    nlinarith
end BTA.EfficiencyInterval
