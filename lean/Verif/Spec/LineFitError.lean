import Verif.Spec.Chain
/-
Specification: accuracy of a straight line fitted to hits that are measured with limited resolution.
-/
namespace BTA.Line
open BTA.Geo BTA.Dut BTA.Chain

/-- The point is at most `err` beside the line, at the same z. -/
def Near (p v : Vec3) (err : ℝ) (q : Vec3) : Prop := ∃ t : ℝ, (p + t • v) 2 = q 2 ∧ sideways q (p + t • v) ≤ err

/-- Number of the hits used for the fit. -/
noncomputable def hitCount (g : Config) (c : Cand) : ℝ := sumHits g c fun _ _ _ => 1

/-- Mean z position of the hits used for the fit. -/
noncomputable def meanZ (g : Config) (c : Cand) : ℝ := (hitCount g c)⁻¹ * sumHits g c fun _ a h => placed a h 2

/-- Spread of the z positions of the hits used for the fit (root of the sum of the squares). -/
noncomputable def spreadZ (g : Config) (c : Cand) : ℝ := Real.sqrt (sumHits g c fun _ a h => (placed a h 2 - meanZ g c) ^ 2)

/-- Limit of the distance of the fitted line from the true line with direction `v`, at position `z`: the error of the mean position and the error of the slope times the distance from the mean
position. The errors of the hits are at most `err`. -/
noncomputable def fitError (g : Config) (c : Cand) (v : Vec3) (err z : ℝ) : ℝ :=
  err + |z - meanZ g c| * (Real.sqrt (hitCount g c) * err * (1 + Real.sqrt (Geo.dot v v) / |v 2|) / (spreadZ g c - Real.sqrt (hitCount g c) * err))

/-- The sensor is perpendicular to the z axis. -/
def FlatSensor (a : Alignment) : Prop := ∀ q, InPlane a q ↔ q 2 = a.z

/-- The hits used for the fit are within `err` of the line, there is one at least, and the errors are small in comparison with the distances of the sensors. -/
def Measured (g : Config) (c : Cand) (p v : Vec3) (err : ℝ) : Prop :=
  v 2 ≠ 0 ∧ (∀ d ∈ g.fitDuts, ∀ a h, HasHit g c d a h → Near p v err (placed a h)) ∧ (∃ d ∈ g.fitDuts, ∃ a h, HasHit g c d a h) ∧
    Real.sqrt (hitCount g c) * err < spreadZ g c

end BTA.Line
