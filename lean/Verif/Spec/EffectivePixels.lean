import Verif.Model.EffectivePixels
import Verif.Spec.PixelTree
/-
Specification of areas and effective pixels.
-/
namespace BTA.EffectivePixels

variable {K : Type} [Field K] [LinearOrder K]

/-- Area of a polygon with the vertices in their order: half of the sum of the cross products of neighbours, the first vertex follows the last one
(shoelace formula). -/
def shoelace (ps : List (K × K)) : K :=
  match ps with
  | [] => 0
  | p :: r => 1 / 2 * |(List.zipWith (fun a b : K × K => a.1 * b.2 - a.2 * b.1) (p :: r) (r ++ [p])).sum|

/-- The pixel `(c, r)`, counted from 0, is on the sensor. -/
def OnSensor (s : Sensor) (c r : Int) : Prop := 0 ≤ c ∧ c < s.nColumns ∧ 0 ≤ r ∧ r < s.nRows

/-- Number of hits of the pixel `(c, r)` in clusters of tracks through the bin, as stored in the histogram. -/
def hitsOf (s : Sensor) (hist : Hist) (b : Nat) (c r : Int) : Nat :=
  let i := c - ((s.own b / s.nRows : Nat) : Int) + ((s.shapeX / 2 : Nat) : Int)
  let j := r - ((s.own b % s.nRows : Nat) : Int) + ((s.shapeY / 2 : Nat) : Int)
  if 0 ≤ i ∧ i < s.shapeX ∧ 0 ≤ j ∧ j < s.shapeY then hist b (i.toNat, j.toNat) else 0

end BTA.EffectivePixels
