import Verif.Spec.ChainBlurred
import Verif.Spec.ChainEff
/-
Specification: accuracy of the tracks in a telescope with limited resolution, and tracks that are not too close to the edge of a region.
-/
namespace BTA.Chain
open BTA.MergedColumns BTA.Line BTA.Dut BTA.Geo BTA.Spec

open Classical in
/-- The DUTs used for the fit of the track: the fit DUTs in which it has a cluster. -/
noncomputable def usedDuts (truth : Int → Truth) (tables : List (List (Clust ℝ))) (c : BTA.Fit.DutCfg) (p : Int × Nat) : Finset Nat :=
  (ownFit c).filter fun d => HasCluster truth tables d p

/-- z position of a DUT. -/
noncomputable def zAt (als : List Alignment) (d : Nat) : ℝ := (als[d]?.map Alignment.z).getD 0

/-- Mean z position of DUTs. -/
noncomputable def zMean (als : List Alignment) (F : Finset Nat) : ℝ := (F.card : ℝ)⁻¹ * ∑ d ∈ F, zAt als d

/-- Spread of the z positions of DUTs: root of the sum of squares. -/
noncomputable def zSpread (als : List Alignment) (F : Finset Nat) : ℝ := Real.sqrt (∑ d ∈ F, (zAt als d - zMean als F) ^ 2)

/-- Accuracy at `z` of a track with direction `v`, fitted with the DUTs `F` of resolution `err`: the error of the mean position, and the error of the slope times the distance. -/
noncomputable def accuracy (als : List Alignment) (F : Finset Nat) (v : Vec3) (err z : ℝ) : ℝ :=
  err + |z - zMean als F| * (Real.sqrt F.card * err * (1 + Real.sqrt (Geo.dot v v) / |v 2|) / (zSpread als F - Real.sqrt F.card * err))

/-- The track is not parallel to the sensors, and the distances of the sensors are large in comparison with the resolution. -/
def Precise (als : List Alignment) (F : Finset Nat) (v : Vec3) (err : ℝ) : Prop := v 2 ≠ 0 ∧ Real.sqrt F.card * err < zSpread als F

/-- No true track is so close to the edge of the region `R` (or of the enabled pixels) that an error of `acc` matters. -/
def Clear (truth : Int → Truth) (T0 : List (Clust ℝ)) (tables : List (List (Clust ℝ))) (c : BTA.Fit.DutCfg) (a : Alignment) (enabled : ℝ → ℝ → Bool) (acc : ℝ)
    (R : ℝ → ℝ → Prop) : Prop :=
  ∀ p, IsTrack truth T0 p → Taken truth tables c p → ∀ u w, AtLocal a ((truth p.1).at' p.2 c.dut) u w → ∀ u' w', Real.sqrt ((u' - u) ^ 2 + (w' - w) ^ 2) ≤ acc →
    ((enabled u' w' = true ∧ R u' w') ↔ (enabled u w = true ∧ R u w))

end BTA.Chain
