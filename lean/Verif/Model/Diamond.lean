import Verif.Model.Dut
/-
Model of the pixel positions of the diamond sensors `Diamond3DpCVD` and `DiamondPseudo3DpCVD`,
beam_telescope_analysis/telescope/dut.py L581-809.

Simplifications: floating point numbers are exact, none of them is NaN. `column` and `row` are arrays with at least one dimension (the
in-place updates fail for scalars). An update `x[selection] += dx; y[selection] += dy` is done hit by hit. The selections do not depend
on x and y, so that the order of hits and updates does not matter.
-/
namespace BTA.Diamond
open BTA.Dut

/-- The two classes. -/
inductive Kind
  /-- `Diamond3DpCVD`, L581-698 -/
  | full
  /-- `DiamondPseudo3DpCVD`, L701-809 -/
  | pseudo
deriving DecidableEq

/-- `sensor_position`, a pair of integers (L593-594, L712-713): column and row of the first pixel of the diamond. -/
abbrev Position := Int × Int

section
variable {K : Type} [Field K] [LinearOrder K]

/-- The pixel matrix of the base class `FEI4`, L409. -/
def fei4 : Pixels K where
  columnSize := 250
  rowSize := 50
  nColumns := 80
  nRows := 336

/-- One update: column and row selected, both relative to the diamond and modulo the size of the group, and the shifts in x and y. -/
structure Rule (K : Type) where
  column : K
  row : K
  dx : K
  dy : K

/-- L606, L726: the part with square pixels. -/
def inSquare (s : Position) (c r : K) : Bool :=
  decide ((s.1 : K) ≤ c) && decide (c < s.1 + 12) && decide ((s.2 : K) ≤ r) && decide (r < s.2 + 30)

/-- L642, L756: the part with hexagonal pixels. -/
def inHexagonal (s : Position) (c r : K) : Bool :=
  decide ((s.1 : K) ≤ c) && decide (c < s.1 + 12) && decide ((s.2 : K) + 30 ≤ r) && decide (r < s.2 + 62)

/-- L608-612: defects of the square part, only for `Diamond3DpCVD`. -/
def squareDefect (s : Position) (c r : K) : Bool :=
  (decide (c = s.1 + 1) && decide ((s.2 : K) + 8 ≤ r) && decide (r < s.2 + 12)) ||
  (decide (c = s.1 + 4) && decide ((s.2 : K) + 12 ≤ r) && decide (r < s.2 + 16)) ||
  (decide (c = s.1 + 3) && decide ((s.2 : K) + 24 ≤ r) && decide (r < s.2 + 30)) ||
  (decide (c = s.1 + 8) && decide ((s.2 : K) ≤ r) && decide (r < s.2 + 8)) ||
  (decide ((s.1 : K) + 10 ≤ c) && decide (c < s.1 + 12) && decide ((s.2 : K) + 8 ≤ r) && decide (r < s.2 + 18))

/-- L644-645: defects of the hexagonal part, only for `Diamond3DpCVD`. -/
def hexagonalDefect (s : Position) (c r : K) : Bool :=
  (decide ((s.1 : K) + 10 ≤ c) && decide (c < s.1 + 12) && decide (r = s.2 + 30)) ||
  (decide ((s.1 : K) + 10 ≤ c) && decide (c < s.1 + 12) && decide ((s.2 : K) + 32 ≤ r) && decide (r < s.2 + 35))

/-- L606-612, L726. -/
def squareSelected (k : Kind) (s : Position) (c r : K) : Bool :=
  match k with
  | .full => inSquare s c r && !squareDefect s c r
  | .pseudo => inSquare s c r

/-- L642-645, L756. -/
def hexagonalSelected (k : Kind) (s : Position) (c r : K) : Bool :=
  match k with
  | .full => inHexagonal s c r && !hexagonalDefect s c r
  | .pseudo => inHexagonal s c r

/-- L613-640, L727-754. The two classes differ in the third column. -/
def squareRules : Kind → List (Rule K)
  | .full => [⟨0, 0, 100, 25⟩, ⟨0, 1, 225, -25⟩, ⟨1, 1, -100, -25⟩, ⟨2, 1, 100, -25⟩, ⟨3, 0, -100, 25⟩, ⟨3, 1, -225, -25⟩]
  | .pseudo => [⟨0, 0, 100, 25⟩, ⟨0, 1, 225, -25⟩, ⟨1, 1, -100, -25⟩, ⟨2, 0, 100, 25⟩, ⟨3, 0, -100, 25⟩, ⟨3, 1, -225, -25⟩]

/-- L646-697, L757-808. -/
def hexagonalRules : List (Rule K) :=
  [⟨0, 0, 167265/1000, 75⟩, ⟨0, 1, 51785/1000, 25⟩, ⟨0, 2, 109525/1000, 75⟩,
   ⟨1, 0, -167265/1000, 75⟩, ⟨1, 1, -51785/1000, 25⟩, ⟨1, 2, -109525/1000, 75⟩, ⟨1, 3, -225, 25⟩,
   ⟨2, 0, 167265/1000, 75⟩, ⟨2, 1, 51785/1000, 25⟩, ⟨2, 2, 109525/1000, 75⟩, ⟨2, 3, 225, 25⟩,
   ⟨3, 0, -167265/1000, 75⟩, ⟨3, 1, -51785/1000, 25⟩, ⟨3, 2, -109525/1000, 75⟩]

variable [FloorRing K]

/-- L601-604, L720-723: positions of the bump bonds. -/
def bumpX (c x : K) : K :=
  let x := if npMod c 2 = 1 then x - 100 else x
  if npMod c 2 = 0 then x + 100 else x

/-- One update of L613-697, L727-808 for one hit, `n` is the number of rows of a group,
`column` and `row` are relative to the part of the diamond. -/
def applyRule (sel : Bool) (n column row : K) (p : K × K) (u : Rule K) : K × K :=
  if sel ∧ npMod column 4 = u.column ∧ npMod row n = u.row then (p.1 + u.dx, p.2 + u.dy) else p

/-- The position of one hit from the position of the base class. -/
def place (k : Kind) (s : Position) (c r : K) (p : K × K) : K × K :=
  let p := (bumpX c p.1, p.2)
  let p := (squareRules k).foldl (applyRule (squareSelected k s c r) 2 (c - s.1) (r - s.2)) p
  hexagonalRules.foldl (applyRule (hexagonalSelected k s c r) 4 (c - s.1) (r - s.2 - 30)) p

/-- `index_to_local_position`, L596-698, L715-809, for a list of (column, row). -/
def indexToLocal (k : Kind) (s : Position) (idx : List (K × K)) : Except Err (List (K × K × K)) :=
  match BTA.Dut.indexToLocal fei4 idx with
  | .error e => .error e
  | .ok ps => .ok (List.zipWith (fun i q =>
      let p := place k s i.1 i.2 (q.1, q.2.1)
      (p.1, p.2, q.2.2)) idx ps)

/-- `x_extent()` of the base class, L261-267, with the overridden conversion. -/
def xExtent (k : Kind) (s : Position) : Except Err (K × K) :=
  match indexToLocal k s (corners fei4) with
  | .error e => .error e
  | .ok ps =>
    let xs := ps.map fun p => p.1
    .ok (xs.tail.foldl min (xs.headD 0), xs.tail.foldl max (xs.headD 0))

/-- `y_extent()` of the base class, L269-275, with the overridden conversion. -/
def yExtent (k : Kind) (s : Position) : Except Err (K × K) :=
  match indexToLocal k s (corners fei4) with
  | .error e => .error e
  | .ok ps =>
    let ys := ps.map fun p => p.2.1
    .ok (ys.tail.foldl min (ys.headD 0), ys.tail.foldl max (ys.headD 0))

end

end BTA.Diamond
