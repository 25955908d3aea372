import Verif.Spec.Kalman
/-
Specification vocabulary for the fit of straight tracks with the Kalman filter. Of the model only the types of planes, states and hits are used.
-/
namespace BTA.Spec
open BTA.Geo BTA.Kalman

/-- The state at the plane describes the straight line. -/
def Describes (P : Plane) (p : State) (origin direction : Vec3) : Prop := ∀ x, OnTrack P p x ↔ OnLine origin direction x

/-- The hit is exactly on the line. -/
def HitOnLine (P : Plane) (h : Hit) (origin direction : Vec3) : Prop := OnLine origin direction (globalPoint P ![h.x, h.y, 0])

/-- The planes are numbered in the order in which they cross the z axis. -/
def InBeamOrder (planes : List Plane) : Prop :=
  ∀ (i j : Nat) (P Q : Plane) (z z' : ℝ), i < j → planes[i]? = some P → planes[j]? = some Q →
    OnPlane P.pos (planeNormalOf P) ![0, 0, z] → OnPlane Q.pos (planeNormalOf Q) ![0, 0, z'] → z < z'

/-- The indices of the list in the order of the values. -/
def SortsIndices (values : List ℝ) (o : List Nat) : Prop :=
  o.Perm (List.range values.length) ∧ o.Pairwise fun i j => ∀ x y : ℝ, values[i]? = some x → values[j]? = some y → x ≤ y

end BTA.Spec
