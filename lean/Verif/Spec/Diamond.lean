import Mathlib.Data.Int.Notation
/-
Specification of the layout of the diamond sensors, independent of the code: which pixels of the readout chip are connected to an electrode.
Columns and rows are relative to the first pixel of the diamond.
-/
namespace BTA.Spec

/-- The part with square pixels: 12 columns and 30 rows. -/
def SquarePart (a b : ℤ) : Prop := 0 ≤ a ∧ a < 12 ∧ 0 ≤ b ∧ b < 30

/-- The part with hexagonal pixels: 12 columns and the next 32 rows. -/
def HexagonalPart (a b : ℤ) : Prop := 0 ≤ a ∧ a < 12 ∧ 30 ≤ b ∧ b < 62

/-- Defect pixels of the full 3D sensor. -/
def Defect (a b : ℤ) : Prop :=
  (a = 1 ∧ 8 ≤ b ∧ b < 12) ∨ (a = 4 ∧ 12 ≤ b ∧ b < 16) ∨ (a = 3 ∧ 24 ≤ b ∧ b < 30) ∨ (a = 8 ∧ 0 ≤ b ∧ b < 8) ∨
  ((a = 10 ∨ a = 11) ∧ 8 ≤ b ∧ b < 18) ∨ ((a = 10 ∨ a = 11) ∧ (b = 30 ∨ b = 32 ∨ b = 33 ∨ b = 34))

/-- Groups of four columns and two rows with six connected pixels. The sensors differ in the third column: `first` says that its first row is
connected. -/
def SquareConnected (first : Bool) (a b : ℤ) : Prop :=
  ¬(a % 4 = 1 ∧ b % 2 = 0) ∧ ¬(a % 4 = 2 ∧ b % 2 = if first then 1 else 0)

/-- Groups of four columns and four rows: the first and the last column have no connection in the last row. -/
def HexagonalConnected (a b : ℤ) : Prop := ¬((a % 4 = 0 ∨ a % 4 = 3) ∧ (b - 30) % 4 = 3)

/-- The connected pixels of the diamond; `full` is for the full 3D sensor, which has defects. -/
def DiamondPixel (full : Bool) (a b : ℤ) : Prop :=
  (full = true → ¬Defect a b) ∧ ((SquarePart a b ∧ SquareConnected (!full) a b) ∨ (HexagonalPart a b ∧ HexagonalConnected a b))

end BTA.Spec
