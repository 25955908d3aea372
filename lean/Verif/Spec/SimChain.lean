import Verif.Spec.ChainAccuracy
import Verif.Spec.Simulate
/-
Specification: the analysis of simulated data.
-/
namespace BTA.SimChain
open BTA.Sim BTA.Sim.Spec BTA.Chain BTA.MergedColumns BTA.Dut BTA.Geo

/-- Position of a simulated track (without scattering) at height `z`. -/
noncomputable def trackAt (t : Track) (z : ℝ) : Vec3 := ![t.x, t.y, 0] + (z / Real.cos t.theta) • direction t

/-- All simulated tracks of chunk `k` (with `size` events). -/
noncomputable def chunkTracks (s : Settings) (d : Nat → Draws) (size k : Nat) : List Track :=
  match createTracks s (d k).tracks (trackCounts (d k).counts size).sum with
  | .ok tracks => tracks
  | .error _ => []

/-- The simulated tracks of event `e`, for `n` chunks with `size` events. -/
noncomputable def simTracks (s : Settings) (d : Nat → Draws) (size n : Nat) (e : Int) : List Track :=
  if 0 ≤ e ∧ e < ((n * size : Nat) : Int) then
    ofEvent (trackEvents (((e / size).toNat * size : Nat) : Int) (trackCounts (d (e / size).toNat).counts size)) (chunkTracks s d size (e / size).toNat) e
  else []

/-- Size and number of the chunks. -/
def chunkLength (nEvents chunkSize : Nat) : Nat := min nEvents chunkSize
def chunkNumber (nEvents chunkSize : Nat) : Nat := (nEvents + (chunkLength nEvents chunkSize - 1)) / chunkLength nEvents chunkSize

/-- The description of DUT `i` for the analysis is the one used in the simulation. In the simulation the position of a DUT is that of its corner, in the analysis that of its centre. -/
structure SimDut (s : Settings) (i : Nat) (dut : Bool × Pixels ℝ) (a : Alignment) : Prop where
  pixels : dut.1 = false
  size : s.dutPixelSize[i]? = some (dut.2.columnSize, dut.2.rowSize)
  number : s.dutNPixel[i]? = some ((dut.2.nColumns : Int), (dut.2.nRows : Int))
  positive : 0 < dut.2.columnSize ∧ 0 < dut.2.rowSize
  /-- the columns and rows fit in the hit table -/
  small : dut.2.nColumns < 65536 ∧ dut.2.nRows < 65536
  rotation : s.rotations[i]? = some (a.alpha, a.beta, a.gamma)
  position : ∃ o z, s.offsets[i]? = some o ∧ s.zPositions[i]? = some z ∧ ![a.x, a.y, a.z] =
    (rotationMatrix a.alpha a.beta a.gamma).mulVec ![dut.2.nColumns * dut.2.columnSize / 2, dut.2.nRows * dut.2.rowSize / 2, 0] + ![o.1, o.2, z]

/-- The point is on the sensor (not on its edge). -/
def OnSensor (dut : Bool × Pixels ℝ) (a : Alignment) (q : Vec3) : Prop :=
  ∀ u w, AtLocal a q u w → |u| < dut.2.nColumns * dut.2.columnSize / 2 ∧ |w| < dut.2.nRows * dut.2.rowSize / 2

/-- Each hit is a cluster. -/
def OneByOne (rows : List Sim.Row) (clusters : List (Clust ℝ)) : Prop :=
  clusters.map (fun c => (c.ev, c.meanColumn, c.meanRow)) = rows.map fun r => (r.event, (r.column : ℝ), (r.row : ℝ))

/-- Largest distance of a point of a pixel from its centre. -/
noncomputable def pixelError (dut : Bool × Pixels ℝ) : ℝ := Real.sqrt ((dut.2.columnSize / 2) ^ 2 + (dut.2.rowSize / 2) ^ 2)

/-- The settings of the simulation: digitized hits without charge sharing, threshold and multiple scattering, and DUTs as in the analysis. The random permutations are permutations. -/
structure Plain (s : Settings) (d : Nat → Draws) (duts : List (Bool × Pixels ℝ)) (als : List Alignment) : Prop where
  digits : s.discretization = true
  sharing : s.chargeSharing = false
  material : ∀ m ∈ s.dutMaterialBudget, m = 0
  threshold : ∀ i < duts.length, s.dutThreshold[i]? = some 0
  duts : ∀ i dut a, duts[i]? = some dut → als[i]? = some a → SimDut s i dut a
  shuffle : ∀ k i j, Shuffles ((d k).shuffle i j)
  shuffleDut : ∀ k i, Shuffles ((d k).dut i).shuffle

/-- The simulated tracks cross all sensors, move sideways by at most `move` from DUT `f` to the others, and the tracks of an event are well separated in the other DUTs. -/
structure Good (beam : Option Alignment) (duts : List (Bool × Pixels ℝ)) (als : List Alignment) (f : Nat) (err lev move : ℝ) (tracks : Int → List Sim.Track) : Prop where
  cos : ∀ e, ∀ t ∈ tracks e, Real.cos t.theta ≠ 0
  sensor : ∀ e, ∀ t ∈ tracks e, ∀ (i : Nat) (dut : Bool × Pixels ℝ) (a : Alignment), duts[i]? = some dut → als[i]? = some a → OnSensor dut a (trackAt t a.z)
  moves : ∀ e, ∀ t ∈ tracks e, ∀ a ∈ als, ∀ a', als[f]? = some a' → sideways (beamPos beam (trackAt t a'.z)) (beamPos beam (trackAt t a.z)) ≤ move
  separated : ∀ (e : Int) (d : Nat) (a : Alignment), als[d]? = some a → d ≠ f → (tracks e).Pairwise fun t t' =>
    2 * max (move + 2 * err) (2 * (1 + lev) * err) < sideways (beamPos beam (trackAt t a.z)) (beamPos beam (trackAt t' a.z))

end BTA.SimChain
