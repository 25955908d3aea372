import Verif.Spec.ChainBlurred
import Verif.Spec.ChainEff
import Verif.Spec.Transformation
/-
Specification: events in a telescope in which one DUT is not where the configuration says.
-/
namespace BTA.Chain
open BTA.MergedColumns BTA.Line BTA.Dut BTA.Geo

/-- The DUT at another position. -/
def movedTo (a : Alignment) (pos : Vec3) : Alignment := { a with x := pos 0, y := pos 1, z := pos 2 }

/-- An event with straight tracks. DUT `k` is at `pos` in truth, track `r` crosses it at `t.p r + s r * t.v r`; `als` are the alignments of the configuration, which are right for the other DUTs.
The clusters are measured without errors, where the tracks cross the sensors. With the alignments of the configuration, the clusters of DUT `k` appear at other positions; this is an error of
at most `err` for the track finding, and the tracks are separated by more. -/
structure Shifted (beam : Option Alignment) (duts : List (Bool × Pixels ℝ)) (als : List Alignment) (clusters : Nat → List (Clust ℝ)) (f : Nat) (err lev move : ℝ) (k : Nat) (pos : Vec3)
    (s : Nat → ℝ) (t : Truth) : Prop extends Blurred beam duts als clusters f err lev move t where
  /-- the clusters of the other DUTs are exact -/
  exact : ∀ d a dut, d ≠ k → als[d]? = some a → duts[d]? = some dut → ∀ r < t.m, ∀ c, (clusters d)[t.own r d]? = some c → AtLocal a (t.at' r d) (clusterHit dut c).x (clusterHit dut c).y
  /-- the clusters of DUT `k` are exact for the true position -/
  moved : ∀ a dut, als[k]? = some a → duts[k]? = some dut → ∀ r < t.m, ∀ c, (clusters k)[t.own r k]? = some c →
    AtLocal (movedTo a pos) (t.p r + s r • t.v r) (clusterHit dut c).x (clusterHit dut c).y
  /-- the tracks are not parallel to the sensors, and cross them at different points of the track -/
  through : ∀ (d : Nat) (a : Alignment), als[d]? = some a → ∀ r < t.m, ¬ ∃ u w : ℝ, t.v r = (rotationMatrix a.alpha a.beta a.gamma).mulVec ![u, w, 0]
  different : ∀ d < als.length, ∀ d' < als.length, d ≠ d' → ∀ r < t.m, t.l r d ≠ t.l r d'

/-- The tracks determine the position and the orientation of the sensor at `pos`: it cannot be moved (velocity `v`, angular velocity `w`) such that all points where the tracks cross it
move along the tracks. -/
def Determined (tracks : Set (Int × Nat)) (point direction : Int × Nat → Vec3) (pos : Vec3) : Prop :=
  ∀ w v : Vec3, (∀ p ∈ tracks, ∃ c : ℝ, BTA.Transformation.Spec.cross w (point p - pos) + v = c • direction p) → w = 0 ∧ v = 0

/-- The true track crosses the DUT inside of the limits. -/
def InLimits (d : BTA.Transformation.DutConf) (a : Alignment) (q : Vec3) : Prop :=
  ∀ u w, AtLocal a q u w → BTA.Transformation.Spec.Within d.xLimit u ∧ BTA.Transformation.Spec.Within d.yLimit w

end BTA.Chain
