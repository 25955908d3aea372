import Verif.Model.PixelTree
/-
Specification of the pixels of a sensor and of the two functions of scipy.
-/
namespace BTA.PixelTree
open BTA.Dut

variable {K : Type} [Field K] [LinearOrder K]

/-- Square of the distance. -/
def dist2 (p q : K × K) : K := (p.1 - q.1) ^ 2 + (p.2 - q.2) ^ 2

/-- Point number `i` of the points is closest to the position. -/
def ClosestIndex (ps : List (K × K)) (pos : K × K) (i : Nat) : Prop :=
  ∃ p, ps[i]? = some p ∧ ∀ q ∈ ps, dist2 pos p ≤ dist2 pos q

/-- The position is on the sensor, not on its border. -/
def Inside (e : Extent K) (pos : K × K) : Prop := e.x.1 < pos.1 ∧ pos.1 < e.x.2 ∧ e.y.1 < pos.2 ∧ pos.2 < e.y.2

/-- The position is not on the sensor. -/
def Outside (e : Extent K) (pos : K × K) : Prop := pos.1 < e.x.1 ∨ e.x.2 < pos.1 ∨ pos.2 < e.y.1 ∨ e.y.2 < pos.2

/-- `query` finds a closest point. -/
def QueryRight (f : Scipy K) : Prop := ∀ ps pos, ps ≠ [] → ClosestIndex ps pos (f.query ps pos)

/-- A point whose region (the positions which have no other point closer) contains a position outside of the extent is found to have a region
with a vertex outside or at infinity. -/
def VoronoiRight (f : Scipy K) : Prop :=
  ∀ ps e p, p ∈ ps → (∃ pos, Outside e pos ∧ ∀ q ∈ ps, dist2 pos p ≤ dist2 pos q) → f.leaves ps e p = true

/-- Lower end of column or row number `i` (from 0) out of `n` with the given size; the sensor is centred at 0. -/
def lowerEnd (size : K) (n i : Nat) : K := ((i : K) - (n : K) / 2) * size

/-- The position is in the pixel in column `c` and row `r` (both from 0), not on its border. -/
def InPixel (d : Pixels K) (c r : Nat) (pos : K × K) : Prop :=
  c < d.nColumns ∧ r < d.nRows ∧
  lowerEnd d.columnSize d.nColumns c < pos.1 ∧ pos.1 < lowerEnd d.columnSize d.nColumns (c + 1) ∧
  lowerEnd d.rowSize d.nRows r < pos.2 ∧ pos.2 < lowerEnd d.rowSize d.nRows (r + 1)

/-- The position is not on the sensor. -/
def OffSensor (d : Pixels K) (pos : K × K) : Prop :=
  pos.1 < lowerEnd d.columnSize d.nColumns 0 ∨ lowerEnd d.columnSize d.nColumns d.nColumns < pos.1 ∨
  pos.2 < lowerEnd d.rowSize d.nRows 0 ∨ lowerEnd d.rowSize d.nRows d.nRows < pos.2

/-- The position is not on the border of a pixel. -/
def Clear (d : Pixels K) (pos : K × K) : Prop := (∃ c r, InPixel d c r pos) ∨ OffSensor d pos

/-- A sensor with pixels. -/
structure Sensor (d : Pixels K) : Prop where
  columns : 0 < d.nColumns
  rows : 0 < d.nRows
  columnSize : 0 < d.columnSize
  rowSize : 0 < d.rowSize

end BTA.PixelTree
