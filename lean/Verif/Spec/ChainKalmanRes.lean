import Verif.Spec.ChainKalman
import Verif.Model.ChainKalmanRes
/-
Specification: a row of the track table shows a true track exactly.
-/
namespace BTA.Chain
open BTA.Line BTA.Dut BTA.Geo BTA.Spec BTA.MergedColumns

/-- The row `r` of the track table of DUT `k` (with alignment `a`) is the true track `p`: same event, chi-square 0, the stored position is the point `(u, w)` where the true track crosses the
DUT, and the stored hit is the same point if the track has a cluster in the DUT (no hit otherwise). -/
structure ShowsExactly (truth : Int → Truth) (tables : List (List (Clust ℝ))) (k : Nat) (a : Alignment) (r : BTA.Fit.Row ℝ (Option (Vec3 × ℝ × Int))) (p : Int × Nat) : Prop where
  event : r.cand.event = p.1
  chi2 : ∃ slope dof, r.est.other = some (slope, 0, dof)
  position : ∃ u w, AtLocal a ((truth p.1).at' p.2 k) u w ∧ r.est.x = some u ∧ r.est.y = some w ∧
    (HasCluster truth tables k p → kalmanHit k r = some (u, w)) ∧ (¬ HasCluster truth tables k p → kalmanHit k r = none)

/-- The table shows each of the tracks that are taken exactly once, and nothing else. -/
def ExactTable (truth : Int → Truth) (T0 : List (Clust ℝ)) (tables : List (List (Clust ℝ))) (c : BTA.Fit.DutCfg) (a : Alignment) (rows : List (BTA.Fit.Row ℝ (Option (Vec3 × ℝ × Int)))) : Prop :=
  ∃ L : List (Int × Nat), L.Nodup ∧ (∀ p, p ∈ L ↔ IsTrack truth T0 p ∧ TakenKalman truth tables c p) ∧ List.Forall₂ (ShowsExactly truth tables c.dut a) rows L

end BTA.Chain
