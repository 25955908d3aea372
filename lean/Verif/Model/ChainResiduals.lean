import Verif.Model.ChainFit
import Verif.Model.Residuals
import Verif.Model.Purity
/-
The connection of `fit_tracks` with `calculate_residuals` and `calculate_purity`: the columns of the track table that are read (beam_telescope_analysis/result_analysis.py L84-91 and L2166-2176).

Simplification: `fit_tracks` with `keep_data` False stores only tracks that were fitted, their `track_chi2` is a number (track_analysis.py L1053-1101); its value is not used, it is arbitrary here.
-/
namespace BTA.Chain
open BTA.Geo

/-- The columns `x_dut_k`, `y_dut_k` of a row of the track table (NaN without a hit; result_analysis.py L84, L87-88, L2166-2173). -/
def storedHit (k : Nat) (r : BTA.Fit.Row ℝ (Option Vec3)) : Option (ℝ × ℝ) :=
  match r.cand.x k, r.cand.y k with
  | some x, some y => some (x, y)
  | _, _ => none

/-- A row of the track table of DUT `k` as read by `calculate_residuals` (result_analysis.py L84-91). -/
noncomputable def residualRow (k : Nat) (chi2 : BTA.Fit.Row ℝ (Option Vec3) → ℝ) (r : BTA.Fit.Row ℝ (Option Vec3)) : BTA.Residuals.Track ℝ where
  event := r.cand.event
  hit := storedHit k r
  chi2 := some (chi2 r)
  ix := r.est.x.getD 0
  iy := r.est.y.getD 0

/-- A row of the track table of DUT `k` as read by `calculate_purity` (result_analysis.py L2166-2176). -/
noncomputable def purityRow (k : Nat) (r : BTA.Fit.Row ℝ (Option Vec3)) : BTA.Purity.Row ℝ where
  event := r.cand.event
  hit := storedHit k r
  fitted := true
  ix := r.est.x.getD 0
  iy := r.est.y.getD 0

end BTA.Chain
