import Verif.Model.LineTracks
import Verif.Spec.AlignTelescope
/-
Specification for the straight line fit: distances of hits to lines, the sum over the hits used, chi2.
-/
namespace BTA.Line
open BTA.Geo BTA.Dut BTA.AlignTel BTA.Spec

/-- Square of the distance of a point to a line. -/
noncomputable def lineDist2 (p origin direction : Vec3) : ℝ := ⨅ t : ℝ, dist2 p (origin + t • direction)

/-- Global position of a hit: rotation and translation of the local position. -/
noncomputable def placed (a : Alignment) (h : Hit) : Vec3 :=
  (rotationMatrix a.alpha a.beta a.gamma).mulVec ![h.x, h.y, h.z] + ![a.x, a.y, a.z]

/-- Sum of a quantity over the hits of a track in the fit DUTs. -/
noncomputable def sumHits (g : Config) (c : Cand) (f : Nat → Alignment → Hit → ℝ) : ℝ :=
  ∑ d ∈ g.fitDuts.toFinset, match g.duts[d]?, c d with
    | some a, some h => f d a h
    | _, _ => 0

/-- The hit of a track in a DUT. -/
def HasHit (g : Config) (c : Cand) (d : Nat) (a : Alignment) (h : Hit) : Prop := g.duts[d]? = some a ∧ c d = some h

/-- The stored track at a DUT in global coordinates: a point and the direction. -/
noncomputable def globalPoint (a : Alignment) (e : Est) : Vec3 := (rotationMatrix a.alpha a.beta a.gamma).mulVec e.pos + ![a.x, a.y, a.z]

noncomputable def globalDirection (a : Alignment) (s : Vec3) : Vec3 := (rotationMatrix a.alpha a.beta a.gamma).mulVec s

/-- The singular value decomposition gives a first singular vector, if anything. -/
def Svd (g : Config) : Prop := ∀ rows v, g.svd rows = some v → IsFirstSingular rows v

/-- The singular value decomposition does not fail. -/
def Converges (g : Config) : Prop := ∀ rows, (g.svd rows).isSome

/-- The hits of the track in the fit DUTs are on the line and at two different positions at least. -/
def HitsOn (g : Config) (c : Cand) (p v : Vec3) : Prop :=
  (∀ d ∈ g.fitDuts, ∀ a h, HasHit g c d a h → OnLine p v (placed a h)) ∧
  ∃ d ∈ g.fitDuts, ∃ d' ∈ g.fitDuts, ∃ a h a' h', HasHit g c d a h ∧ HasHit g c d' a' h' ∧ placed a h ≠ placed a' h'

end BTA.Line
