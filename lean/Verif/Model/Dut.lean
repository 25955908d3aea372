import Verif.Model.Geometry
import Mathlib.Algebra.Order.Floor.Ring
import Mathlib.Algebra.Order.Field.Basic
/-
Model of the coordinate methods of the DUT classes, beam_telescope_analysis/telescope/dut.py.

Simplifications: floating point numbers are exact (elements of an ordered field, real numbers where angles matter), none of them is
NaN. Arrays of positions are lists of points. Lists and tuples are converted to arrays by the code and treated alike here.
-/
namespace BTA.Dut

inductive Err
  /-- ValueError: column/row or x/y out of limits -/
  | outOfLimits
  /-- RuntimeError: the local z positions contain values z != 0 -/
  | zNotZero
deriving DecidableEq

/-- Pixel matrix of a `RectangularPixelDut`, L208-258. The number of columns and rows is not negative. -/
structure Pixels (K : Type) where
  columnSize : K
  rowSize : K
  nColumns : Nat
  nRows : Nat

section
variable {K : Type} [Field K] [LinearOrder K]

/-- `index_to_local_position`, L285-302, for a list of (column, row). -/
def indexToLocal (d : Pixels K) (idx : List (K × K)) : Except Err (List (K × K × K)) :=
  if idx.all fun p => (1/2 ≤ p.1 ∧ p.1 ≤ d.nColumns + 1/2) ∧ (1/2 ≤ p.2 ∧ p.2 ≤ d.nRows + 1/2) then
    .ok (idx.map fun p =>
      (d.columnSize * (p.1 - 1/2 - 1/2 * d.nColumns), d.rowSize * (p.2 - 1/2 - 1/2 * d.nRows), 0))
  else .error .outOfLimits

/-- `np.allclose(np.nan_to_num(z), 0.0)`: the absolute tolerance is 1e-8. -/
def zClose (zs : List K) : Bool := zs.all fun z => |z| ≤ 1 / 10 ^ 8

/-- L308-313, L384-385: z is only checked if it is given. -/
def zOk : Option (List K) → Bool
  | none => true
  | some zs => zClose zs

/-- `local_position_to_index`, L304-324, for a list of (x, y) and a list of z or None. -/
def localToIndex (d : Pixels K) (pos : List (K × K)) (zs : Option (List K)) : Except Err (List (K × K)) :=
  if zOk zs then
    if pos.all fun p => (-(1/2) * d.nColumns * d.columnSize ≤ p.1 ∧ p.1 ≤ 1/2 * d.nColumns * d.columnSize) ∧
        (-(1/2) * d.nRows * d.rowSize ≤ p.2 ∧ p.2 ≤ 1/2 * d.nRows * d.rowSize) then
      .ok (pos.map fun p => (p.1 / d.columnSize + 1/2 + 1/2 * d.nColumns, p.2 / d.rowSize + 1/2 + 1/2 * d.nRows))
    else .error .outOfLimits
  else .error .zNotZero

/-- The corners of L266, L274. -/
def corners (d : Pixels K) : List (K × K) :=
  [(1/2, 1/2), (1/2, d.nRows + 1/2), (d.nColumns + 1/2, 1/2), (d.nColumns + 1/2, d.nRows + 1/2)]

/-- `x_extent()`, L261-267, in local coordinates: smallest and largest x of the corners. -/
def xExtent (d : Pixels K) : Except Err (K × K) :=
  match indexToLocal d (corners d) with
  | .error e => .error e
  | .ok ps =>
    let xs := ps.map fun p => p.1
    .ok (xs.tail.foldl min (xs.headD 0), xs.tail.foldl max (xs.headD 0))

/-- `y_extent()`, L269-275. -/
def yExtent (d : Pixels K) : Except Err (K × K) :=
  match indexToLocal d (corners d) with
  | .error e => .error e
  | .ok ps =>
    let ys := ps.map fun p => p.2.1
    .ok (ys.tail.foldl min (ys.headD 0), ys.tail.foldl max (ys.headD 0))

variable [FloorRing K]

/-- `np.mod(x, m)`: the result has the sign of `m`. -/
def npMod (x m : K) : K := x - m * ⌊x / m⌋

/-- `map_to_primitive_cell`, with cells of `kx` times `ky` pixels: `RectangularPixelDut` L380-388 (1, 1),
`RectangularPixelDutWithDoubleColumns` L394-402 (2, 1), `RD53A_8x8` L425-433 and `ITkPix_8x8` L501-509 (8, 8), `TJMonopix1_2x2`
L528-536 (2, 2). -/
def mapToCell (kx ky : Nat) (d : Pixels K) (pos : List (K × K)) (zs : Option (List K)) : Except Err (List (K × K)) :=
  if zOk zs then
    match xExtent d, yExtent d with
    | .ok ex, .ok ey =>
      .ok (pos.map fun p => (npMod (p.1 + ex.1) (d.columnSize * kx), npMod (p.2 + ey.1) (d.rowSize * ky)))
    | .error e, _ => .error e
    | _, .error e => .error e
  else .error .zNotZero

end

/-- Alignment of a DUT: translation and rotation. -/
structure Alignment where
  x : ℝ
  y : ℝ
  z : ℝ
  alpha : ℝ
  beta : ℝ
  gamma : ℝ

/-- The optional alignment parameters of the methods. -/
structure Override where
  x : Option ℝ := none
  y : Option ℝ := none
  z : Option ℝ := none
  alpha : Option ℝ := none
  beta : Option ℝ := none
  gamma : Option ℝ := none

/-- No parameter is given. -/
def Override.none? (o : Override) : Bool :=
  o.x.isNone && o.y.isNone && o.z.isNone && o.alpha.isNone && o.beta.isNone && o.gamma.isNone

/-- The parameter if given, else the one of the DUT (L339-344, L358-363). -/
def Override.on (o : Override) (a : Alignment) : Alignment where
  x := o.x.getD a.x
  y := o.y.getD a.y
  z := o.z.getD a.z
  alpha := o.alpha.getD a.alpha
  beta := o.beta.getD a.beta
  gamma := o.gamma.getD a.gamma

open BTA.Geo

/-- `local_to_global_position`, L326-349. If z is not given it is zero, so it is taken as given here. -/
noncomputable def localToGlobal (a : Alignment) (o : Override) (pos : List Vec3) : Except Err (List Vec3) :=
  if o.none? && !zClose (pos.map fun p => p 2) then .error .zNotZero
  else
    let b := o.on a
    .ok (pos.map (applyTransformation (localToGlobalMatrix b.x b.y b.z b.alpha b.beta b.gamma)))

/-- `global_to_local_position`, L351-372. -/
noncomputable def globalToLocal (a : Alignment) (o : Override) (pos : List Vec3) : Except Err (List Vec3) :=
  let b := o.on a
  let q := pos.map (applyTransformation (globalToLocalMatrix b.x b.y b.z b.alpha b.beta b.gamma))
  if o.none? && !zClose (q.map fun p => p 2) then .error .zNotZero
  else .ok q

/-- `index_to_global_position`, L374-375. -/
noncomputable def indexToGlobal (d : Pixels ℝ) (a : Alignment) (o : Override) (idx : List (ℝ × ℝ)) : Except Err (List Vec3) :=
  match indexToLocal d idx with
  | .error e => .error e
  | .ok ps => localToGlobal a o (ps.map fun p => ![p.1, p.2.1, p.2.2])

/-- `global_position_to_index`, L377-378. -/
noncomputable def globalToIndex (d : Pixels ℝ) (a : Alignment) (o : Override) (pos : List Vec3) : Except Err (List (ℝ × ℝ)) :=
  match globalToLocal a o pos with
  | .error e => .error e
  | .ok ps => localToIndex d (ps.map fun p => (p 0, p 1)) (some (ps.map fun p => p 2))

end BTA.Dut
