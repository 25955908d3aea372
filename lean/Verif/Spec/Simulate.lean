import Verif.Model.Simulate
import Verif.Spec.Geometry
/-
Specification of the simulation (C135-C143).
-/
namespace BTA.Sim.Spec
open BTA.Sim BTA.Geo

variable {K : Type} [Field K] [LinearOrder K]

/-- A function that shuffles. -/
def Shuffles (f : List Nat → List Nat) : Prop := ∀ l, (f l).Perm l

/-- The elements that belong to event `e`. -/
def ofEvent {H : Type} (events : List Int) (hits : List H) (e : Int) : List H :=
  ((events.zip hits).filter fun p => decide (p.1 = e)).map Prod.snd

/-- The position `x` is in the pixel with number `c`, counted from 1. -/
def InPixel (size x : K) (c : Int) : Prop := ((c : K) - 1) * size ≤ x ∧ x ≤ (c : K) * size

/-- Not on a border between pixels. -/
def StrictlyInPixel (size x : K) (c : Int) : Prop := ((c : K) - 1) * size < x ∧ x < (c : K) * size

/-- Sum of the charges. -/
def totalCharge (hits : List (PixelHit K)) : K := (hits.map PixelHit.charge).sum

/-- The fractions of the charge in different pixels are not negative and sum up to at most 1. -/
structure IsShare (fraction : Int → Int → K) : Prop where
  nonneg : ∀ i j, 0 ≤ fraction i j
  total : ∀ l : List (Int × Int), l.Nodup → (l.map fun p => fraction p.1 p.2).sum ≤ 1

/-- The properties of the error function that matter. -/
structure IsErf (erf : ℝ → ℝ) : Prop where
  mono : Monotone erf
  lower : ∀ x, -1 ≤ erf x
  upper : ∀ x, erf x ≤ 1

/-- All settings have a value for each DUT. -/
def Complete (s : Settings) : Prop :=
  s.nDuts ≤ s.zPositions.length ∧ s.nDuts ≤ s.offsets.length ∧ s.nDuts ≤ s.rotations.length ∧ s.nDuts ≤ s.dutBias.length ∧
  s.nDuts ≤ s.dutThickness.length ∧ s.nDuts ≤ s.dutThreshold.length ∧ s.nDuts ≤ s.dutNoise.length ∧ s.nDuts ≤ s.dutPixelSize.length ∧
  s.nDuts ≤ s.dutNPixel.length ∧ s.nDuts ≤ s.dutEfficiencies.length ∧ s.nDuts ≤ s.dutMaterialBudget.length

/-- The digits `ds` can be the cluster of a track with this charge: same event, different pixels, at least 1% of the charge in each pixel and
not more than the charge in total. -/
structure IsCluster (event : Int) (charge : K) (ds : List (Digit K)) : Prop where
  event : ∀ d ∈ ds, d.event = event
  pixels : (ds.map fun d => (d.column, d.row)).Nodup
  share : ∀ d ∈ ds, charge / 100 ≤ d.charge
  total : (ds.map Digit.charge).sum ≤ charge

/-- Direction of a track. -/
noncomputable def direction (t : Track) : Vec3 :=
  ![Real.cos t.phi * Real.sin t.theta, Real.sin t.phi * Real.sin t.theta, Real.cos t.theta]

end BTA.Sim.Spec
