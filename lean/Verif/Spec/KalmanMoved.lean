import Verif.Spec.Kalman
/-
Specification of a telescope that is moved as a whole (C234).
-/
namespace BTA.Spec
open BTA.Geo BTA.Kalman Matrix

/-- The plane `P'` is the plane `P` after the motion `x ↦ R x + t` of the whole telescope; material and resolution are the same. -/
structure Moved (R : Mat3) (t : Vec3) (P P' : Plane) : Prop where
  rot : P'.rot = R * P.rot
  pos : P'.pos = R.mulVec P.pos + t
  budget : P'.budget = P.budget
  resolution : P'.resolution = P.resolution

/-- The line `l'` (point and direction) is the line `l` after this motion; the direction can be reversed. -/
def MovedLine (R : Mat3) (t : Vec3) (l l' : Vec3 × Vec3) : Prop :=
  l'.1 = R.mulVec l.1 + t ∧ (l'.2 = R.mulVec l.2 ∨ l'.2 = -R.mulVec l.2)

/-- Global positions of the hits of the planes that are used for the fit. -/
noncomputable def hitPoints (planes : List Plane) (hits : List (Option Hit)) (fitDuts : List Nat) : List Vec3 :=
  fitDuts.filterMap fun d =>
    match planes[d]?, hits[d]? with
    | some P, some (some h) => some (globalPoint P ![h.x, h.y, 0])
    | _, _ => none

/-- The plane shifted by `c` along z. -/
def shiftZ (c : ℝ) (P : Plane) : Plane := { P with pos := P.pos + ![0, 0, c] }

end BTA.Spec
