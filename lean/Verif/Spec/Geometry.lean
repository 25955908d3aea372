import Verif.Model.Geometry
import Mathlib.LinearAlgebra.Matrix.Determinant.Basic
/-
Specification of rotations, lines, planes and cells, independent of the code.
-/
namespace BTA.Spec
open BTA.Geo

/-- A proper rotation: orthogonal with determinant one. -/
structure Proper (R : Mat3) : Prop where
  orth : R.transpose * R = 1
  det : R.det = 1

/-- The point is on the line. -/
def OnLine (origin direction p : Vec3) : Prop := ∃ t : ℝ, p = origin + t • direction

/-- The point is on the plane. -/
def OnPlane (position normal p : Vec3) : Prop := dot normal (p - position) = 0

/-- Square of the distance. -/
def dist2 (p q : Vec3) : ℝ := (p 0 - q 0) ^ 2 + (p 1 - q 1) ^ 2 + (p 2 - q 2) ^ 2

/-- `r` is the position in a cell of size `size`, if the position relative to the edge of the grid is `x`: it is inside of the cell and
differs by a whole number of cells. -/
def InCell {K : Type} [Field K] [LinearOrder K] (size x r : K) : Prop := 0 ≤ r ∧ r < size ∧ ∃ m : Int, x = r + m * size

end BTA.Spec
