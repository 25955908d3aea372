import Verif.Model.InPixel
import Verif.Spec.Efficiency
/-
Specification vocabulary for the in-pixel histograms. Of the model only the types of the inputs and outputs are used.
-/
namespace BTA.InPixel.Spec
open BTA.Efficiency BTA.Efficiency.Spec BTA.Spec BTA.InPixel

variable {K : Type} [Field K] [LinearOrder K] [FloorRing K]

/-- The position of the track inside of the primitive cell. -/
def cellPos (s : Setup K) (p : Cell K) (r : Row K) : K × K := p.fold (posX s r) (posY s r)

/-- The position is in the square (i, j) of the cell; the squares have the size of the resolution. -/
def InSquare (p : Cell K) (i j : Nat) (q : K × K) : Prop :=
  (i : K) * p.res.1 ≤ q.1 ∧ q.1 < ((i : K) + 1) * p.res.1 ∧ (j : K) * p.res.2 ≤ q.2 ∧ q.2 < ((j : K) + 1) * p.res.2

/-- Positive sizes, and folded positions are not negative. -/
structure Proper (p : Cell K) : Prop where
  pitch : 0 < p.pitch.1 ∧ 0 < p.pitch.2
  res : 0 < p.res.1 ∧ 0 < p.res.2
  fold : ∀ x y, 0 ≤ (p.fold x y).1 ∧ 0 ≤ (p.fold x y).2

/-- The primitive cell is one pixel. -/
def OnePixel (p : Cell K) : Prop := ∀ x y, (p.fold x y).1 < p.pitch.1 ∧ (p.fold x y).2 < p.pitch.2

/-- A coordinate is the end of a whole number of pixels, rounded up to a multiple of the resolution. -/
def PixelEnd (pitch res x : K) : Prop := ∃ n : Nat, 0 < n ∧ x = (⌈(n : K) * pitch / res⌉ : K) * res

/-- The position is exactly at the end of a pixel. -/
def OnBorder (p : Cell K) (q : K × K) : Prop := PixelEnd p.pitch.1 p.res.1 q.1 ∨ PixelEnd p.pitch.2 p.res.2 q.2

/-- The in-pixel result of the region `g` is right: every histogram counts the tracks of the complete table. -/
structure Correct (s : Setup K) (p : Cell K) (T : List (Row K)) (g : Region K) (o : RegionOutput K) : Prop where
  /-- number of tracks per square -/
  tracks : ∀ i j, i < o.shape.1 → j < o.shape.2 → o.maps.tracks (i, j) = number T fun r => Used s r ∧ InRegion s g r ∧ InSquare p i j (cellPos s p r)
  /-- number of tracks with a close hit per square -/
  withHit : ∀ i j, i < o.shape.1 → j < o.shape.2 → o.maps.withHit (i, j) =
    number T fun r => Used s r ∧ InRegion s g r ∧ InSquare p i j (cellPos s p r) ∧ Matched s r
  /-- mean of each quantity over the tracks with close hit, 0 if there are none -/
  means : ∀ q i j, i < o.shape.1 → j < o.shape.2 → o.maps.means q (i, j) =
    (mean (valuesOf T (fun r => Used s r ∧ InRegion s g r ∧ InSquare p i j (cellPos s p r) ∧ Matched s r) (quantity s q))).getD 0
  /-- efficiency per square -/
  efficiency : ∀ i j, i < o.shape.1 → j < o.shape.2 → o.efficiency (i, j) =
    ratio (number T fun r => Used s r ∧ InRegion s g r ∧ InSquare p i j (cellPos s p r) ∧ Matched s r)
      (number T fun r => Used s r ∧ InRegion s g r ∧ InSquare p i j (cellPos s p r))
  /-- squares with few tracks are masked -/
  mask : ∀ i j, i < o.shape.1 → j < o.shape.2 → (o.mask (i, j) = true ↔
    ((number T fun r => Used s r ∧ InRegion s g r ∧ InSquare p i j (cellPos s p r) : Nat) : K) < s.minimumTrackDensity)
  /-- every track has a square in the histograms -/
  complete : ∀ r ∈ T, Used s r → ∃ i j, i < o.shape.1 ∧ j < o.shape.2 ∧ InSquare p i j (cellPos s p r)

/-- The hit of the track is in the square (i, j) of the cell. -/
def HitInSquare (p : Cell K) (i j : Nat) (r : Row K) : Prop := ∃ h, r.hit = some h ∧ InSquare p i j (p.fold h.1 h.2)

end BTA.InPixel.Spec
