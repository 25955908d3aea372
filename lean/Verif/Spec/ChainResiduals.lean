import Verif.Model.ChainResiduals
import Verif.Spec.ChainAccuracy
/-
Specification: a row of the track table shows a true track.
-/
namespace BTA.Chain
open BTA.MergedColumns BTA.Line BTA.Dut BTA.Geo BTA.Spec

/-- The row `r` of the track table of DUT `k` (with alignment `a`) shows the true track `p`: same event; the stored position is at most `acc` from the position `(u, w)` where the true track crosses
the DUT; there is a hit exactly if the track has a cluster in the DUT, at most `err` from `(u, w)` and at most `err + acc` from the stored position. -/
structure Shows (truth : Int → Truth) (tables : List (List (Clust ℝ))) (k : Nat) (a : Alignment) (err acc : ℝ) (r : BTA.Fit.Row ℝ (Option Vec3)) (p : Int × Nat) : Prop where
  event : r.cand.event = p.1
  near : ∃ u w x y, AtLocal a ((truth p.1).at' p.2 k) u w ∧ r.est.x = some x ∧ r.est.y = some y ∧ Real.sqrt ((x - u) ^ 2 + (y - w) ^ 2) ≤ acc ∧
    ∀ h, storedHit k r = some h → Real.sqrt ((h.1 - u) ^ 2 + (h.2 - w) ^ 2) ≤ err ∧ Real.sqrt ((h.1 - x) ^ 2 + (h.2 - y) ^ 2) ≤ err + acc
  hit : (storedHit k r).isSome ↔ HasCluster truth tables k p

/-- The table shows each of the tracks that are taken exactly once, and nothing else. -/
def TableOf (truth : Int → Truth) (T0 : List (Clust ℝ)) (tables : List (List (Clust ℝ))) (c : BTA.Fit.DutCfg) (a : Alignment) (err acc : ℝ) (rows : List (BTA.Fit.Row ℝ (Option Vec3))) : Prop :=
  ∃ L : List (Int × Nat), L.Nodup ∧ (∀ p, p ∈ L ↔ IsTrack truth T0 p ∧ Taken truth tables c p) ∧ List.Forall₂ (Shows truth tables c.dut a err acc) rows L

end BTA.Chain
