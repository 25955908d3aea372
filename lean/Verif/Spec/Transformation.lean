import Verif.Model.Transformation
import Verif.Spec.Geometry
/-
Specification vocabulary for `calculate_transformation`. Of the model only the types of the inputs are used, and `rotationMatrix`
(specified by C31).
-/
namespace BTA.Transformation.Spec
open BTA.Geo BTA.Dut BTA.Spec

/-- The position of a DUT. -/
def position (a : Alignment) : Vec3 := ![a.x, a.y, a.z]

/-- The six alignment parameters. -/
def allParameters : List String :=
  ["translation_x", "translation_y", "translation_z", "rotation_alpha", "rotation_beta", "rotation_gamma"]

/-- A local position or direction, rotated as the DUT. -/
noncomputable def rotated (a : Alignment) (v : Vec3) : Vec3 := (rotationMatrix a.alpha a.beta a.gamma).mulVec v

/-- Inside of a limit. -/
def Within (limit : Option (Option ℝ × Option ℝ)) (v : ℝ) : Prop :=
  ∀ l, limit = some l → (∀ a, l.1 = some a → a ≤ v) ∧ (∀ b, l.2 = some b → v ≤ b)

/-- The row is used: the track is fitted, has the hit `h` in the DUT, and the hit is inside of the limits. -/
def Uses (d : DutConf) (useLimits : Bool) (r : Row) (h : Vec3) : Prop :=
  r.fitted = true ∧ r.hit = some h ∧ (useLimits = true → Within d.xLimit (h 0) ∧ Within d.yLimit (h 1))

/-- The hit `h` would be exactly on the track of the row, if the DUT was at `pos`. The tracks are stored in the local coordinates of the
present alignment. -/
def HitOnTrack (d : DutConf) (pos : Vec3) (r : Row) (h : Vec3) : Prop :=
  OnLine (rotated d.alignment r.offset + position d.alignment) (rotated d.alignment r.slope) (rotated d.alignment h + pos)

/-- Slopes are unit vectors. -/
def UnitVector (v : Vec3) : Prop := v 0 ^ 2 + v 1 ^ 2 + v 2 ^ 2 = 1

/-- The hits of the rows are on their tracks, if the DUT is at `pos`. -/
def AllOnTrack (d : DutConf) (ul : Bool) (pos : Vec3) (rows : List Row) : Prop :=
  ∀ r ∈ rows, ∀ h, Uses d ul r h → UnitVector r.slope ∧ HitOnTrack d pos r h

/-- Translation parameters with their numbers. -/
def translationName (j : Fin 3) : String := (![ "translation_x", "translation_y", "translation_z"] : Fin 3 → String) j

/-- Vector product. -/
def cross (a b : Vec3) : Vec3 := ![a 1 * b 2 - a 2 * b 1, a 2 * b 0 - a 0 * b 2, a 0 * b 1 - a 1 * b 0]

/-- The tracks determine all parameters: the DUT cannot be moved (velocity `v`, angular velocity `w`) such that all hits move along
their tracks. -/
def Rigid (d : DutConf) (useLimits : Bool) (rows : List Row) : Prop :=
  ∀ w v : Vec3, (∀ r ∈ rows, ∀ h, Uses d useLimits r h →
    ∃ t : ℝ, cross w (rotated d.alignment h) + v = t • rotated d.alignment r.slope) → w = 0 ∧ v = 0

/-- Positions are on the sensor, up to the tolerance of the code. -/
def OnSensor (rows : List Row) : Prop := ∀ r ∈ rows, ∀ h, r.hit = some h → |h 2| ≤ 1 / 10 ^ 8 ∧ |r.offset 2| ≤ 1 / 10 ^ 8

/-- Angles in the principal range, not closer to 0 than the rounding of `euler_angles`. -/
def Principal (a : Alignment) : Prop :=
  a.alpha ∈ Set.Ioc (-Real.pi) Real.pi ∧ a.gamma ∈ Set.Ioc (-Real.pi) Real.pi ∧ a.beta ∈ Set.Ioo (-(Real.pi / 2)) (Real.pi / 2) ∧
  ∀ t ∈ [a.alpha, a.beta, a.gamma], t = 0 ∨ eps < |t|

/-- The decomposition of numpy is one, for orthogonal matrices. -/
def SvdCorrect (np : Numpy) : Prop :=
  ∀ M : Mat3, M.transpose * M = 1 →
    (np.svd M).1.transpose * (np.svd M).1 = 1 ∧ (np.svd M).2.2 * (np.svd M).2.2.transpose = 1 ∧ (∀ i, 0 ≤ (np.svd M).2.1 i) ∧
    M = (np.svd M).1 * Matrix.diagonal (np.svd M).2.1 * (np.svd M).2.2

/-- Scalar product with a row of the system. -/
def times (row w : Fin 6 → ℝ) : ℝ := row 0 * w 0 + row 1 * w 1 + row 2 * w 2 + row 3 * w 3 + row 4 * w 4 + row 5 * w 5

/-- The inverse made by numpy is a left inverse, if the columns of the system are independent. -/
def PinvCorrect (np : Numpy) : Prop :=
  ∀ rows : List (Fin 6 → ℝ), (∀ w, (∀ row ∈ rows, times row w = 0) → w = 0) →
    ∃ inv, np.pinv rows = some inv ∧ ∀ w, (List.zipWith (fun (c : Fin 6 → ℝ) (v : ℝ) => v • c) inv (rows.map fun row => times row w)).sum = w

end BTA.Transformation.Spec
