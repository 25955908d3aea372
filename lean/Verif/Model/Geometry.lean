import Mathlib.Analysis.SpecialFunctions.Trigonometric.Inverse
import Mathlib.Analysis.SpecialFunctions.Complex.Arg
import Mathlib.LinearAlgebra.Matrix.Notation
/-
Model of beam_telescope_analysis/tools/geometry_utils.py.

Simplifications: floating point numbers are real numbers, there are no rounding errors. Functions of arrays of points are
modelled for one point unless they check all points before returning; then they are modelled for the list of points.
-/
namespace BTA.Geo

abbrev Mat3 := Matrix (Fin 3) (Fin 3) ℝ
abbrev Mat4 := Matrix (Fin 4) (Fin 4) ℝ
abbrev Vec3 := Fin 3 → ℝ

/-- `np.arctan2(y, x)`. The value for (0, 0) is 0 in both. -/
noncomputable def arctan2 (y x : ℝ) : ℝ := Complex.arg ⟨x, y⟩

/-- `rotation_matrix_x`, L197-216. -/
noncomputable def rotX (alpha : ℝ) : Mat3 :=
  !![1, 0, 0;
     0, Real.cos alpha, -Real.sin alpha;
     0, Real.sin alpha, Real.cos alpha]

/-- `rotation_matrix_y`, L219-238. -/
noncomputable def rotY (beta : ℝ) : Mat3 :=
  !![Real.cos beta, 0, Real.sin beta;
     0, 1, 0;
     -Real.sin beta, 0, Real.cos beta]

/-- `rotation_matrix_z`, L241-260. -/
noncomputable def rotZ (gamma : ℝ) : Mat3 :=
  !![Real.cos gamma, -Real.sin gamma, 0;
     Real.sin gamma, Real.cos gamma, 0;
     0, 0, 1]

/-- `rotation_matrix`, L263-295. -/
noncomputable def rotationMatrix (alpha beta gamma : ℝ) : Mat3 := rotZ gamma * rotY beta * rotX alpha

/-- `translation_matrix`, L361-389: the identity with the fourth row set, transposed. -/
def translationMatrix (x y z : ℝ) : Mat4 :=
  Matrix.transpose !![1, 0, 0, 0;
                      0, 1, 0, 0;
                      0, 0, 1, 0;
                      x, y, z, 1]

/-- L425-426, L465-466: a rotation matrix extended by one dimension. -/
def extend (R : Mat3) : Mat4 :=
  !![R 0 0, R 0 1, R 0 2, 0;
     R 1 0, R 1 1, R 1 2, 0;
     R 2 0, R 2 1, R 2 2, 0;
     0, 0, 0, 1]

/-- `global_to_local_transformation_matrix`, L392-431. -/
noncomputable def globalToLocalMatrix (x y z alpha beta gamma : ℝ) : Mat4 :=
  extend (rotationMatrix alpha beta gamma).transpose * translationMatrix (-x) (-y) (-z)

/-- `local_to_global_transformation_matrix`, L434-471. -/
noncomputable def localToGlobalMatrix (x y z alpha beta gamma : ℝ) : Mat4 :=
  translationMatrix x y z * extend (rotationMatrix alpha beta gamma)

/-- `apply_transformation_matrix`, L474-496, for one point. -/
def applyTransformation (M : Mat4) (p : Vec3) : Vec3 :=
  let q := M.mulVec ![p 0, p 1, p 2, 1]
  ![q 0, q 1, q 2]

/-- `apply_rotation_matrix`, L499-518, for one point. -/
def applyRotation (R : Mat3) (p : Vec3) : Vec3 := R.mulVec p

/-- The result of `euler_angles`. -/
inductive Euler
  /-- ValueError, not a rotation matrix -/
  | notRotation
  /-- UnboundLocalError at the return statement -/
  | unbound
  /-- all angles are NaN (with a warning of numpy) -/
  | nan
  | angles (alpha beta gamma : ℝ)

/-- `np.finfo(np.float64).eps` -/
noncomputable def eps : ℝ := (2 : ℝ)⁻¹ ^ 52

/-- L338-339 and the following: very small values are set to zero. -/
noncomputable def snap (angle : ℝ) : ℝ := open Classical in if angle ≤ eps ∧ -eps ≤ angle then 0 else angle

/-- `is_rotation_matrix`, L320-322: the Frobenius norm of `I - R^T R` is close to zero (`np.isclose(0.0, norm)` with the default
tolerances). -/
def IsRotationMatrix (R : Mat3) : Prop :=
  let norm := Real.sqrt (∑ i, ∑ j, ((1 - R.transpose * R) i j) ^ 2)
  |0 - norm| ≤ 1e-8 + 1e-5 * |norm|

/-- `euler_angles`, L298-358. The values alpha_2, beta_2, gamma_2 are computed but not used; they are left out. -/
noncomputable def eulerAngles (R : Mat3) : Euler := open Classical in
  if ¬ IsRotationMatrix R then .notRotation
  else if R 2 0 = -1 then .unbound                                            -- alpha_1 etc. are not set in this branch
  else if R 2 0 = 1 then .unbound
  else if 1 < |R 2 0| then .nan
  else
    let beta := snap (-Real.arcsin (R 2 0))
    let alpha := snap (arctan2 (R 2 1 / Real.cos beta) (R 2 2 / Real.cos beta))
    let gamma := snap (arctan2 (R 1 0 / Real.cos beta) (R 0 0 / Real.cos beta))
    .angles alpha beta gamma

/-- Scalar product. -/
def dot (a b : Vec3) : ℝ := a 0 * b 0 + a 1 * b 1 + a 2 * b 2

/-- `get_line_intersections_with_plane`, L91-142, for a list of lines (origin, direction). The result is none if an exception is
raised (bare `raise`, L132); the selection of L136-137 is then always complete. -/
noncomputable def intersectPlane (lines : List (Vec3 × Vec3)) (position normal : Vec3) : Option (List Vec3) := open Classical in
  if lines.any fun l => dot normal l.2 = 0 then none
  else some (lines.map fun l =>
    let t := dot normal (position - l.1) / dot normal l.2
    l.1 + t • l.2)

/-- L75-83: the normal vector of a DUT. -/
noncomputable def dutNormal (alpha beta gamma : ℝ) : Vec3 := open Classical in
  let basis : Mat3 := (rotationMatrix alpha beta gamma).transpose * 1
  let n : Vec3 := basis 2
  let n := (Real.sqrt (dot n n))⁻¹ • n
  if n 2 < 0 then -n else n

/-- `get_line_intersections_with_dut`, L44-88. -/
noncomputable def intersectDut (lines : List (Vec3 × Vec3)) (x y z alpha beta gamma : ℝ) : Option (List Vec3) :=
  intersectPlane lines ![x, y, z] (dutNormal alpha beta gamma)

/-- `cartesian_to_spherical`, L145-167, for one point: phi, theta and r. -/
noncomputable def cartesianToSpherical (x y z : ℝ) : ℝ × ℝ × ℝ := open Classical in
  let r := Real.sqrt (x * x + y * y + z * z)
  let phi := if x ≠ 0 then arctan2 y x else 0
  let phi := if phi < 0 then phi + 2 * Real.pi else phi
  let theta := if r ≠ 0 then Real.arccos (z / r) else 0
  (phi, theta, r)

/-- `spherical_to_cartesian`, L170-194, for a list of points (phi, theta, r). None if a RuntimeError is raised. -/
noncomputable def sphericalToCartesian (points : List (ℝ × ℝ × ℝ)) : Option (List (ℝ × ℝ × ℝ)) := open Classical in
  if points.any fun p => p.2.2 < 0 then none
  else if (points.any fun p => p.2.1 < 0) || (points.any fun p => Real.pi ≤ p.2.1) then none
  else if (points.any fun p => p.1 < 0) || (points.any fun p => 2 * Real.pi ≤ p.1) then none
  else some (points.map fun p =>
    (p.2.2 * Real.cos p.1 * Real.sin p.2.1, p.2.2 * Real.sin p.1 * Real.sin p.2.1, p.2.2 * Real.cos p.2.1))

/-- `skew`, L10-19, for one vector: the diagonal matrix of the vector is rolled by one column and back by one row, and its transposed is
subtracted. -/
def skew (v : Vec3) : Mat3 :=
  let matr : Mat3 := Matrix.diagonal v
  let roll : Mat3 := Matrix.of fun i j => matr (i + 1) (j - 1)
  roll - roll.transpose

/-- `get_plane_normal`, L25-41: `np.cross`. -/
def planeNormal (a b : Vec3) : Vec3 := ![a 1 * b 2 - a 2 * b 1, a 2 * b 0 - a 0 * b 2, a 0 * b 1 - a 1 * b 0]

end BTA.Geo
