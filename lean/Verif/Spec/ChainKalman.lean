import Verif.Spec.ChainEff
import Verif.Spec.KalmanExact
import Verif.Spec.AlignTelescope
import Verif.Model.ChainKalman
/-
Specification of the tracks of a telescope that are fitted with the Kalman filter. Of the model of the fit only the settings `KalmanConfig` are used.
-/
namespace BTA.Chain
open BTA.Line BTA.Dut BTA.Geo BTA.Spec BTA.MergedColumns

open Classical in
/-- The track fulfils the requirements of the user and of the Kalman filter: a cluster in each of the required DUTs, and enough clusters in the fit DUTs, at least three. -/
def TakenKalman (truth : Int → Truth) (tables : List (List (Clust ℝ))) (c : BTA.Fit.DutCfg) (p : Int × Nat) : Prop :=
  (∀ d ∈ c.hitDuts, HasCluster truth tables d p) ∧ required c ≤ ((ownFit c).filter fun d => HasCluster truth tables d p).card ∧
    3 ≤ ((ownFit c).filter fun d => HasCluster truth tables d p).card

/-- The local position and the slope in the plane describe the true track. -/
def TrueTrack (truth : Int → Truth) (P : BTA.Kalman.Plane) (p : Int × Nat) (u w : ℝ) (slope : Vec3) : Prop :=
  slope 2 = 1 ∧ Describes P ![u, w, slope 0, slope 1] ((truth p.1).p p.2) ((truth p.1).v p.2)

/-- A telescope that can be used with the Kalman filter: the DUTs are numbered in the order of the beam, not parallel to the beam, have material and a resolution that is not zero (if it is
given). The numerical functions do what they should. -/
structure Usable (k : KalmanConfig) : Prop where
  sorts : ∀ z, SortsIndices z (k.argsort z)
  singular : ∀ rows, BTA.AlignTel.IsFirstSingular rows (k.svd rows)
  order : InBeamOrder k.planes
  beam : ∀ P ∈ k.planes, BTA.Spec.Crosses P ![0, 0, 1]
  material : ∀ P ∈ k.planes, 1e-8 < P.budget
  resolution : ∀ P ∈ k.planes, ∀ r, P.resolution = some r → r.1 ≠ 0 ∧ r.2 ≠ 0

end BTA.Chain
