import Verif.Spec.Chain
/-
Specification of an event with straight tracks, measured with limited resolution, in a telescope whose sensors are perpendicular to the z axis (as after the pre-alignment).
-/
namespace BTA.Chain
open BTA.MergedColumns BTA.Line BTA.Dut BTA.Geo

/-- The sensors are perpendicular to the z axis. -/
def Flat (als : List Alignment) : Prop := ∀ a ∈ als, ∀ q, InPlane a q ↔ q 2 = a.z

/-- Sensors in the order `zs`: extrapolating from two sensors to a later one, the distance to the later one is at most `lev` times the distance of the two. -/
def Lever (als : List Alignment) (zs : List Nat) (lev : ℝ) : Prop :=
  ∀ d1 d2 d a1 a2 a, [d1, d2, d].Sublist zs → als[d1]? = some a1 → als[d2]? = some a2 → als[d]? = some a → a1.z ≠ a2.z ∧ |a.z - a2.z| ≤ lev * |a2.z - a1.z|

/-- The clusters of an event come from well separated straight tracks and are measured with position errors of at most `err`; `f` is the first DUT. The tracks move sideways by at
most `move` from the first DUT to any other DUT. -/
structure Blurred (beam : Option Alignment) (duts : List (Bool × Pixels ℝ)) (als : List Alignment) (clusters : Nat → List (Clust ℝ)) (f : Nat) (err lev move : ℝ) (t : Truth) : Prop where
  /-- each track has a cluster in the first DUT, in the order of the tracks -/
  first : (clusters f).length = t.m ∧ ∀ r < t.m, t.own r f = r
  /-- no DUT has more clusters, and each cluster belongs to one track -/
  few : ∀ d < als.length, (clusters d).length ≤ t.m
  range : ∀ d < als.length, ∀ r < t.m, t.own r d < t.m
  inj : ∀ d < als.length, ∀ r < t.m, ∀ s < t.m, t.own r d = t.own s d → r = s
  /-- the tracks cross the sensors -/
  crosses : ∀ d a, als[d]? = some a → ∀ r < t.m, InPlane a (t.at' r d)
  /-- the clusters are measured near there -/
  measured : ∀ d a dut, als[d]? = some a → duts[d]? = some dut → ∀ r < t.m, ∀ c, (clusters d)[t.own r d]? = some c →
    ∃ q, AtLocal a q (clusterHit dut c).x (clusterHit dut c).y ∧ sideways (beamPos beam q) (beamPos beam (t.at' r d)) ≤ err
  /-- tracks are separated, in the coordinates of the beam -/
  moves : ∀ d < als.length, ∀ r < t.m, sideways (beamPos beam (t.at' r f)) (beamPos beam (t.at' r d)) ≤ move
  separated : ∀ d < als.length, d ≠ f → ∀ r < t.m, ∀ s < t.m, r ≠ s →
    2 * max (move + 2 * err) (2 * (1 + lev) * err) < sideways (beamPos beam (t.at' r d)) (beamPos beam (t.at' s d))

end BTA.Chain
