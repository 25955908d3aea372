import Verif.Model.AlignTelescope
import Verif.Spec.Geometry
/-
Specification for `align_telescope`: what the singular value decomposition gives, and straight lines.
-/
namespace BTA.AlignTel
open BTA.Geo BTA.Dut BTA.Spec

/-- A first right singular vector of the matrix with the given rows: a unit vector such that the sum of the squares of the projections of the
rows is the largest possible. -/
def IsFirstSingular (rows : List Vec3) (v : Vec3) : Prop :=
  dot v v = 1 ∧ ∀ w, dot w w = 1 → (rows.map fun q => dot q w ^ 2).sum ≤ (rows.map fun q => dot q v ^ 2).sum

/-- The DUT is at the given position. -/
def At (duts : List Alignment) (i : Nat) (p : Vec3) : Prop := ∃ a, duts[i]? = some a ∧ a.x = p 0 ∧ a.y = p 1 ∧ a.z = p 2

/-- The selected DUTs are on the line, at different positions. -/
def OnOneLine (duts : List Alignment) (sel : List Nat) (c d : Vec3) : Prop :=
  (∀ i ∈ sel, ∃ p, At duts i p ∧ OnLine c d p) ∧ ∃ i ∈ sel, ∃ j ∈ sel, ∃ p q, At duts i p ∧ At duts j q ∧ p ≠ q

/-- The sensor is perpendicular to the z axis: all of its points have the z coordinate of the DUT. -/
def Perpendicular (a : Alignment) : Prop := ∀ u v : ℝ, ((rotationMatrix a.alpha a.beta a.gamma).mulVec ![u, v, 0]) 2 = 0

end BTA.AlignTel
