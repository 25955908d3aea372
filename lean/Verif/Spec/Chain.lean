import Verif.Model.MergedColumns
import Verif.Spec.LineTracks
/-
Specification of an event with straight tracks, measured without errors.
-/
namespace BTA.Chain
open BTA.MergedColumns BTA.Line BTA.Dut BTA.Geo

/-- Local position and errors of a cluster. The first component of `dut` says if the cluster has local positions; otherwise they are calculated from column and row: the centre of the
pixel array is the origin. -/
noncomputable def clusterHit (dut : Bool × Pixels ℝ) (c : Clust ℝ) : Hit :=
  if dut.1 then ⟨c.meanX, c.meanY, 0, c.errX, c.errY⟩
  else ⟨(c.meanColumn - (dut.2.nColumns + 1) / 2) * dut.2.columnSize, (c.meanRow - (dut.2.nRows + 1) / 2) * dut.2.rowSize, 0,
    c.errColumn * dut.2.columnSize, c.errRow * dut.2.rowSize⟩

/-- The clusters of event `e` in a table. -/
def eventOf (tables : List (List (Clust ℝ))) (e : Int) (d : Nat) : List (Clust ℝ) := (tables.getD d []).filter fun c => decide (c.ev = e)

/-- The point is on the sensor plane of the DUT: local coordinates `u`, `w` and 0. -/
def AtLocal (a : Alignment) (q : Vec3) (u w : ℝ) : Prop := q = (rotationMatrix a.alpha a.beta a.gamma).mulVec ![u, w, 0] + ![a.x, a.y, a.z]

/-- A point of the sensor plane of the DUT. -/
def InPlane (a : Alignment) (q : Vec3) : Prop := ∃ u w, AtLocal a q u w

/-- Position in the coordinates of the beam: rotation and translation of the telescope, if there is one. -/
noncomputable def beamPos : Option Alignment → Vec3 → Vec3
  | none, q => q
  | some b, q => (rotationMatrix b.alpha b.beta b.gamma).mulVec q + ![b.x, b.y, b.z]

/-- Distance in x and y. -/
noncomputable def sideways (p q : Vec3) : ℝ := Real.sqrt ((p 0 - q 0) ^ 2 + (p 1 - q 1) ^ 2)

/-- Straight tracks: track `r` is the line through `p r` with direction `v r`, and crosses the sensor of DUT `d` at `p r + l r d * v r`; its cluster in DUT `d` is number `own r d` of
the clusters of the event in this DUT (there may be no such cluster). -/
structure Truth where
  /-- number of tracks -/
  m : Nat
  p : Nat → Vec3
  v : Nat → Vec3
  l : Nat → Nat → ℝ
  own : Nat → Nat → Nat

/-- Where track `r` crosses DUT `d`. -/
noncomputable def Truth.at' (t : Truth) (r d : Nat) : Vec3 := t.p r + t.l r d • t.v r

/-- The clusters of an event are the exact positions of well separated straight tracks; `f` is the first DUT. -/
structure Straight (beam : Option Alignment) (duts : List (Bool × Pixels ℝ)) (als : List Alignment) (clusters : Nat → List (Clust ℝ)) (f : Nat) (t : Truth) : Prop where
  /-- each track has a cluster in the first DUT, in the order of the tracks -/
  first : (clusters f).length = t.m ∧ ∀ r < t.m, t.own r f = r
  /-- no DUT has more clusters, and each cluster belongs to one track -/
  few : ∀ d < als.length, (clusters d).length ≤ t.m
  range : ∀ d < als.length, ∀ r < t.m, t.own r d < t.m
  inj : ∀ d < als.length, ∀ r < t.m, ∀ s < t.m, t.own r d = t.own s d → r = s
  /-- the tracks cross the sensors, at different points of the track -/
  crosses : ∀ d a, als[d]? = some a → ∀ r < t.m, InPlane a (t.at' r d) ∧ ¬ ∃ u w : ℝ, t.v r = (rotationMatrix a.alpha a.beta a.gamma).mulVec ![u, w, 0]
  different : ∀ d < als.length, ∀ d' < als.length, d ≠ d' → ∀ r < t.m, t.l r d ≠ t.l r d'
  /-- the clusters are measured there -/
  measured : ∀ d a dut, als[d]? = some a → duts[d]? = some dut → ∀ r < t.m, ∀ c, (clusters d)[t.own r d]? = some c →
    AtLocal a (t.at' r d) (clusterHit dut c).x (clusterHit dut c).y
  /-- tracks are separated, in the coordinates of the beam -/
  separated : ∃ R : ℝ, 0 < R ∧ ∀ d < als.length, d ≠ f → ∀ r < t.m, sideways (beamPos beam (t.at' r f)) (beamPos beam (t.at' r d)) < R ∧
    ∀ s < t.m, r ≠ s → 4 * R ≤ sideways (beamPos beam (t.at' r d)) (beamPos beam (t.at' s d))

/-- The sensor planes are the same in the coordinates of the beam. -/
def SamePlanes (beam : Option Alignment) (als : List Alignment) : Prop := ∀ a ∈ als, ∀ q, InPlane a (beamPos beam q) ↔ InPlane a q

end BTA.Chain
