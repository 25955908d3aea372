import Verif.Model.Correlate
import Verif.Spec.Events
/-
Specification vocabulary for `correlate`. The model is used only for its data types and for the rotation matrix (C31).
-/
namespace BTA.Corr.Spec
open BTA.Geo BTA.Corr

/-- Local position of a hit: the stored one, or the centre of the pixel with these (1-based) indices. -/
noncomputable def localPos (p : Plane) (positions : Bool) (r : Row) : ℝ × ℝ :=
  if positions then r.coord
  else (p.pixels.columnSize * (r.coord.1 - (p.pixels.nColumns + 1) / 2), p.pixels.rowSize * (r.coord.2 - (p.pixels.nRows + 1) / 2))

/-- Global position of a point of the sensor plane. -/
noncomputable def toGlobal (p : Plane) (q : ℝ × ℝ) : Vec3 :=
  (rotationMatrix p.align.alpha p.align.beta p.align.gamma).mulVec ![q.1, q.2, 0] + ![p.align.x, p.align.y, p.align.z]

/-- Global position of a hit. -/
noncomputable def globalPos (p : Plane) (positions : Bool) (r : Row) : Vec3 := toGlobal p (localPos p positions r)

/-- A point of the sensor, edges included. -/
def OnSensor (p : Plane) (q : ℝ × ℝ) : Prop :=
  |q.1| ≤ p.pixels.nColumns * p.pixels.columnSize / 2 ∧ |q.2| ≤ p.pixels.nRows * p.pixels.rowSize / 2

/-- A point of the sensor, edges excluded. -/
def InsideSensor (p : Plane) (q : ℝ × ℝ) : Prop :=
  |q.1| < p.pixels.nColumns * p.pixels.columnSize / 2 ∧ |q.2| < p.pixels.nRows * p.pixels.rowSize / 2

/-- All hits of the table are on the sensor. -/
def AllOnSensor (p : Plane) (t : Table) : Prop := ∀ r ∈ t.rows, OnSensor p (localPos p t.positions r)

/-- All hits of the table are inside the sensor. -/
def AllInsideSensor (p : Plane) (t : Table) : Prop := ∀ r ∈ t.rows, InsideSensor p (localPos p t.positions r)

/-- `x` is in bin `i` of an axis that starts at `start`. -/
def InBin (start res x : ℝ) (i : Nat) : Prop := start + i * res ≤ x ∧ x < start + (i + 1) * res

/-- `x` is in bin `i`, or it is outside of the histogram by less than one bin and `i` is the first bin. -/
def InBinOrBelow (start res x : ℝ) (i : Nat) : Prop := InBin start res x i ∨ i = 0 ∧ start - res < x ∧ x < start

open Classical in
/-- Number of pairs of hits of the same event, as `pairsInBins`, where the first bin includes the hits that are outside by less than one bin. -/
noncomputable def pairsInBinsOrBelow (P Q : Plane) (S T : Table) (k : Fin 3) (refStart dutStart res : ℝ) (i j : Nat) : Nat :=
  BTA.Spec.pairCount S.rows T.rows fun r d => decide (r.ev = d.ev ∧
    InBinOrBelow dutStart res (globalPos Q T.positions d k) i ∧ InBinOrBelow refStart res (globalPos P S.positions r k) j)

open Classical in
/-- Number of pairs (reference hit, DUT hit) of the same event with the coordinate `k` of the DUT hit in bin `i` and that of the reference hit in bin
`j`. -/
noncomputable def pairsInBins (P Q : Plane) (S T : Table) (k : Fin 3) (refStart dutStart res : ℝ) (i j : Nat) : Nat :=
  BTA.Spec.pairCount S.rows T.rows fun r d => decide (r.ev = d.ev ∧
    InBin dutStart res (globalPos Q T.positions d k) i ∧ InBin refStart res (globalPos P S.positions r k) j)

/-- The pixels have a size and there are pixels. -/
structure Proper (p : Plane) : Prop where
  column : 0 < p.pixels.columnSize
  row : 0 < p.pixels.rowSize
  columns : 0 < p.pixels.nColumns
  rows : 0 < p.pixels.nRows

/-- The sensor is not perpendicular to the x-y plane in such a way that all points have the same x (`k = 0`) or y (`k = 1`). -/
def Extended (p : Plane) (k : Fin 3) : Prop := ∃ a b, OnSensor p a ∧ OnSensor p b ∧ toGlobal p a k ≠ toGlobal p b k

/-- The axis `a` of a histogram of coordinate `k`: the sensor is in the middle, and the number of bins is the smallest with which the sensor fits in. -/
structure SmallestAxis (p : Plane) (k : Fin 3) (res : ℝ) (a : Axis) : Prop where
  centre : a.start + a.bins * res / 2 = toGlobal p (0, 0) k
  covers : ∀ q, OnSensor p q → a.start ≤ toGlobal p q k ∧ toGlobal p q k ≤ a.start + a.bins * res
  smallest : ∀ n : Nat, (∀ q q', OnSensor p q → OnSensor p q' → toGlobal p q k - toGlobal p q' k ≤ n * res) → a.bins ≤ n

/-- `z` is `v` without the fractional part. -/
def IntegerPart (v : ℝ) (z : Int) : Prop := |(z : ℝ)| ≤ |v| ∧ |v| < |(z : ℝ)| + 1 ∧ 0 ≤ z * v

/-- `u`, `v` are the singular vectors of the singular value `d` of an array with `n` rows and `m` columns. -/
structure SingularTriple (n m : Nat) (h : Hist2) (u : Nat → ℝ) (d : ℝ) (v : Nat → ℝ) : Prop where
  right : ∀ i < n, ∑ j ∈ Finset.range m, (h i j : ℝ) * v j = d * u i
  left : ∀ j < m, ∑ i ∈ Finset.range n, (h i j : ℝ) * u i = d * v j
  unit : ∑ i ∈ Finset.range n, u i * u i = 1
  unit' : ∑ j ∈ Finset.range m, v j * v j = 1
  nonneg : 0 ≤ d

/-- `f` is the term of the largest singular value of an array with `n` rows and `m` columns. -/
def IsLeading (n m : Nat) (h : Hist2) (f : Nat → Nat → ℝ) : Prop := ∃ u d v, SingularTriple n m h u d v ∧
  (∀ u' d' v', SingularTriple n m h u' d' v' → d' ≤ d) ∧ ∀ i < n, ∀ j < m, f i j = u i * d * v j

/-- Arguments with which `correlate` can work: DUTs of the telescope, one file for each, reference DUTs among them and not repeated. -/
structure ValidSelection (n : Nat) (select refs : List Int) (files : List Table) : Prop where
  nonempty : select ≠ []
  inRange : ∀ i ∈ select, 0 ≤ i ∧ i < n
  oneFileEach : select.length = files.length
  selected : ∀ r ∈ refs, r ∈ select
  nodup : refs.Nodup

end BTA.Corr.Spec
