import Verif.Model.ConvertCoordinates
import Verif.Spec.Events
/-
What a converted hit file has to contain, said without the functions of the model.
-/
namespace BTA.Convert

variable {K : Type} [Field K] [LinearOrder K]

/-- `x` lies inside pixel `c` (counted from 1) of `n` pixels of size `s`, the sensor being centred at 0. -/
def InPixel (n : Nat) (s : K) (c : Nat) (x : K) : Prop := ((c : K) - 1 - n / 2) * s ≤ x ∧ x < ((c : K) - n / 2) * s

/-- The middle between the two ends of pixel `c`. -/
def centre (n : Nat) (s : K) (c : K) : K := ((c - 1 - n / 2) * s + (c - n / 2) * s) / 2

/-- `r'` is the hit `r` of a table with columns `names` in local coordinates. -/
def LocalHit (d : Dut.Pixels K) (names : List String) (r r' : Row K) : Prop :=
  r'.event = r.event ∧
  r'.value "x" = centre d.nColumns d.columnSize (r.value "column") ∧
  r'.value "y" = centre d.nRows d.rowSize (r.value "row") ∧
  ∀ n ∈ names, n ≠ "column" → n ≠ "row" → r'.value n = r.value n

/-- The index of a hit is on the sensor (half a pixel of tolerance, for clusters). -/
def OnSensor (d : Dut.Pixels K) (r : Row K) : Prop :=
  1/2 ≤ r.value "column" ∧ r.value "column" ≤ d.nColumns + 1/2 ∧ 1/2 ≤ r.value "row" ∧ r.value "row" ≤ d.nRows + 1/2

/-- The position of a hit is on the sensor. -/
def PositionOnSensor (d : Dut.Pixels K) (r : Row K) : Prop :=
  |r.value "x"| ≤ d.nColumns * d.columnSize / 2 ∧ |r.value "y"| ≤ d.nRows * d.rowSize / 2

/-- The hit has a pixel of the sensor as column and row. -/
def PixelHit (d : Dut.Pixels K) (r : Row K) : Prop :=
  ∃ c w : Nat, r.value "column" = c ∧ r.value "row" = w ∧ 1 ≤ c ∧ c ≤ d.nColumns ∧ 1 ≤ w ∧ w ≤ d.nRows

end BTA.Convert
