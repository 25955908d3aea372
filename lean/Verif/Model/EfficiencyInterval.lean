import Mathlib.MeasureTheory.Integral.IntervalIntegral.Basic
/-
Model of the interval of `get_mean_efficiency` (beam_telescope_analysis/tools/analysis_utils.py L709-802), over the real numbers. The errors for missing tracks and for more tracks with hit
than tracks are in `Verif.Model.Efficiency.meanEfficiency`.

Simplifications: `scipy.optimize.minimize` is a function that gets the problem; what it is required to do is a hypothesis of the theorems. Its start values (L758-779, L785) and its numerical
tolerance are left out. `stats.beta.cdf` is the normalised integral of the density.
-/
namespace BTA.EfficiencyInterval

/-- Density of the beta distribution with parameters k + 1 and N - k + 1 without the normalisation (`get_eff_pdf`, L723-738: formula of the comment L735). -/
noncomputable def betaWeight (k N : Nat) (x : ℝ) : ℝ := x ^ k * (1 - x) ^ (N - k)

/-- `stats.beta.cdf(x, k + 1, N - k + 1)` (L740-742): 0 below and 1 above of the interval from 0 to 1. -/
noncomputable def betaCdf (k N : Nat) (x : ℝ) : ℝ :=
  (∫ t in (0 : ℝ)..(max 0 (min x 1)), betaWeight k N t) / ∫ t in (0 : ℝ)..1, betaWeight k N t

/-- `interval_integ` (L744-747) -/
noncomputable def intervalInteg (a b : ℝ) (k N : Nat) : ℝ := betaCdf k N b - betaCdf k N a

/-- A problem for `optimize.minimize` with two variables: function, bounds, and a function which has to be zero. -/
structure Problem where
  fn : ℝ → ℝ → ℝ
  bounds : (ℝ × ℝ) × (ℝ × ℝ)
  eq : ℝ → ℝ → ℝ

/-- `find_inter` (L749-794): the problem. -/
noncomputable def problem (k N : Nat) (interval : ℝ) : Problem where
  fn a b := b - a
  bounds := ((0, (k : ℝ) / N), ((k : ℝ) / N, 1))
  eq a b := |intervalInteg a b k N - interval|

/-- `get_mean_efficiency` (L796-802): efficiency, lower and upper error. -/
noncomputable def meanEfficiencyErrors (minimize : Problem → ℝ × ℝ) (k N : Nat) (interval : ℝ) : ℝ × ℝ × ℝ :=
  let eff := (k : ℝ) / N
  let lim := minimize (problem k N interval)
  (eff, lim.1 - eff, lim.2 - eff)

end BTA.EfficiencyInterval
