import Verif.Model.Purity
import Verif.Spec.Statistics
/-
Specification vocabulary for the purity. Of the model only the types of the inputs (`Row`, `Setup`) and the bin edges are used.
-/
namespace BTA.Purity.Spec
open BTA.Purity BTA.Spec

variable {K : Type} [Field K] [LinearOrder K] [FloorRing K]

/-- The DUT has a hit in bin (i, j). -/
def HitIn (s : Setup K) (i j : Nat) (r : Row K) : Prop :=
  ∃ h, r.hit = some h ∧ InBin (edgesX s) i h.1 ∧ InBin (edgesY s) j h.2

/-- The value is inside of the range given by the user, if there is one. -/
def Inside (range : Option (K × K)) (v : K) : Prop := ∀ r, range = some r → r.1 ≤ v ∧ v ≤ r.2

/-- The hit of the row belongs to the track: there is a fitted track inside of the range of the user, closer than the cut. -/
def PureHit (s : Setup K) (r : Row K) : Prop :=
  r.fitted = true ∧ Inside s.rangeX r.ix ∧ Inside s.rangeY r.iy ∧
  ∃ h d c, r.hit = some h ∧ 0 ≤ d ∧ d ^ 2 = (h.1 - r.ix) ^ 2 + (h.2 - r.iy) ^ 2 ∧ s.cut = some c ∧ d < c

/-- The square root is exact for the distances between the hits and the tracks of the table. -/
def ExactRoot (f : K → K) (T : List (Row K)) : Prop :=
  ∀ r ∈ T, ∀ h, r.hit = some h →
    0 ≤ f ((h.1 - r.ix) ^ 2 + (h.2 - r.iy) ^ 2) ∧ f ((h.1 - r.ix) ^ 2 + (h.2 - r.iy) ^ 2) ^ 2 = (h.1 - r.ix) ^ 2 + (h.2 - r.iy) ^ 2

end BTA.Purity.Spec
