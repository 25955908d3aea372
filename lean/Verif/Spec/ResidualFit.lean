import Verif.Spec.Statistics
/-
Specification for the binning of residual histograms.
-/
namespace BTA.Spec.ResFit

variable {K : Type} [Field K] [LinearOrder K]

/-- Edges that extend `half` pixels of a given size to both sides of `center`, with `m` bins for each pixel. -/
structure PixelBins (edges : List K) (center size : K) (half m : Nat) : Prop where
  number : edges.length = 2 * half * m + 1
  edge : ∀ (i : Nat) (e : K), edges[i]? = some e → e = center - (half : K) * size + (i : K) * (size / (m : K))

/-- A position within limits; a missing limit is infinite. -/
def Within (limit : Option K × Option K) (x : K) : Prop := (∀ l, limit.1 = some l → l ≤ x) ∧ (∀ r, limit.2 = some r → x ≤ r)

end BTA.Spec.ResFit
