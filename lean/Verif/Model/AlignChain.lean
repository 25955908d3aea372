import Verif.Model.ChainFit
import Verif.Model.Transformation
/-
The connection of `fit_tracks` and `calculate_transformation`: the columns of the track table that are read by `calculate_transformation` (beam_telescope_analysis/dut_alignment.py
L1789-1835).

Simplification: real numbers.
-/
namespace BTA.Chain
open BTA.Geo

/-- A row of the track table of DUT `k` as read by `calculate_transformation` (dut_alignment.py L1792-1816): hit, offset and slope in local coordinates. The z positions of the hit and of the
offset are zero in the table (track_analysis.py L1073-1078: intersection with the sensor plane); a track without fit has no offset. -/
noncomputable def alignRow (k : Nat) (r : BTA.Fit.Row ℝ (Option Vec3)) : BTA.Transformation.Row where
  hit := match r.cand.x k, r.cand.y k with
    | some x, some y => some ![x, y, 0]
    | _, _ => none
  fitted := r.est.x.isSome
  offset := ![r.est.x.getD 0, r.est.y.getD 0, 0]
  slope := r.est.other.getD 0

end BTA.Chain
