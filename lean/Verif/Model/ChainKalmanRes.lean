import Verif.Model.ChainKalman
import Verif.Model.Residuals
import Verif.Model.Purity
/-
The connection of `fit_tracks` with the Kalman filter, `calculate_residuals` and `calculate_purity`: the columns of the track table that are read
(beam_telescope_analysis/result_analysis.py L84-91 and L2166-2176).
-/
namespace BTA.Chain
open BTA.Geo

/-- The columns `x_dut_k`, `y_dut_k` of a row of the track table (NaN without a hit; result_analysis.py L84, L87-88). -/
def kalmanHit (k : Nat) (r : BTA.Fit.Row ℝ (Option (Vec3 × ℝ × Int))) : Option (ℝ × ℝ) :=
  match r.cand.x k, r.cand.y k with
  | some x, some y => some (x, y)
  | _, _ => none

/-- A row of the track table of DUT `k` as read by `calculate_residuals` (result_analysis.py L84-91); `track_chi2` is the chi-square of the fit
(track_analysis.py L1102-1109). -/
noncomputable def kalmanResidualRow (k : Nat) (r : BTA.Fit.Row ℝ (Option (Vec3 × ℝ × Int))) : BTA.Residuals.Track ℝ where
  event := r.cand.event
  hit := kalmanHit k r
  chi2 := r.est.other.map fun o => o.2.1
  ix := r.est.x.getD 0
  iy := r.est.y.getD 0

/-- A row of the track table of DUT `k` as read by `calculate_purity` (result_analysis.py L2166-2176): `track_chi2` is NaN if the fit failed. -/
noncomputable def kalmanPurityRow (k : Nat) (r : BTA.Fit.Row ℝ (Option (Vec3 × ℝ × Int))) : BTA.Purity.Row ℝ where
  event := r.cand.event
  hit := kalmanHit k r
  fitted := r.est.other.isSome
  ix := r.est.x.getD 0
  iy := r.est.y.getD 0

end BTA.Chain
