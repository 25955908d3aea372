import Verif.Model.FindTracks
/-
Specification of the hits of an event that come from separated tracks (C178). The tracks are numbered by the rows of their hits in the first DUT.
-/
namespace BTA.Find
variable {F : Type} (S : Setup F) (m : Nat) (x y z : Nat → Nat → F) (own : Nat → Nat → Nat)

/-- Does track `a` have a hit on DUT `d`? `own d a` is the row of this hit (or of a missing hit). -/
def trackHit (a d : Nat) : Bool := !S.fl.isnan (x (own d a) d)

/-- The DUTs of the selection `extrap` in front of DUT `d` with a hit of track `a`, the nearest first. -/
def trackRefs (a d : Nat) : List Nat := ((S.zs.takeWhile fun e => decide (e ≠ d)).filter fun e => trackHit S x own a e && S.extrap.contains e).reverse

/-- Hits of the tracks, row `a` is track `a`. -/
def trackHits : Tracks F := ⟨fun a d => x (own d a) d, fun a d => y (own d a) d, fun a d => z (own d a) d, fun a d => own d a⟩

/-- Where track `a` is expected on DUT `d`: line through the hits of the two nearest DUTs in front of it; otherwise the position of the hit in the first DUT `f`. -/
def expectedAt (f a d : Nat) : F × F :=
  match trackRefs S x own a d with
  | d2 :: d1 :: _ => extrapolate S (trackHits x y z own) a d d1 d2
  | _ => (x a f, y a f)

/-- Distance of the hit of track `a` on DUT `d` from where track `b` is expected. -/
def hitDist (f a b d : Nat) : F := distance S (x (own d a) d) (y (own d a) d) (expectedAt S x y z own f b d)

/-- The hits of an event with `m` rows come from `m` separated tracks, the hit of track `a` on DUT `d` being in row `own d a`: each track has a hit in the first DUT `f`,
each hit is closer to where its own track is expected than to where another track is expected, and closer than hits of other tracks. -/
structure Separated (f : Nat) (ds : List Nat) : Prop where
  zs : S.zs = f :: ds
  range : ∀ d ∈ ds, ∀ a < m, own d a < m
  inj : ∀ d ∈ ds, ∀ a < m, ∀ b < m, own d a = own d b → a = b
  first : ∀ a < m, own f a = a
  hitFirst : ∀ a < m, S.fl.isnan (x a f) = false
  nonneg : ∀ d ∈ ds, ∀ a < m, trackHit S x own a d = true → S.fl.nonneg (hitDist S x y z own f a a d) = true
  ownTrack : ∀ d ∈ ds, ∀ a < m, trackHit S x own a d = true → ∀ b < m, b ≠ a → S.fl.lt (hitDist S x y z own f a a d) (hitDist S x y z own f a b d) = true
  ownHit : ∀ d ∈ ds, ∀ a < m, trackHit S x own a d = true → ∀ b < m, b ≠ a → trackHit S x own b d = true →
    S.fl.lt (hitDist S x y z own f a a d) (hitDist S x y z own f b a d) = true

/-- What is used of the arithmetic; true for floating point numbers. -/
structure OrderedFloats (fl : Floats F) : Prop where
  asymm : ∀ a b, fl.lt a b = true → fl.lt b a = false
  minusOne : fl.nonneg fl.minusOne = false

end BTA.Find
