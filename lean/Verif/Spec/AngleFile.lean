import Verif.Model.AngleFile
import Verif.Spec.Statistics
import Verif.Spec.Events
import Verif.Spec.KalmanExact
/-
Specification of the file with the track angles and its plots.
-/
namespace BTA.Spec
open BTA.AngleFile BTA.Geo

/-- The histogram counts the given angles (NaN is not counted). -/
def Counts (nBins : Nat) (angles : List (Option ℝ)) (h : Hist) : Prop :=
  h.counts.length = nBins ∧ ValidEdges h.edges ∧ h.edges.length = nBins + 1 ∧
  ∀ i, i < nBins → h.counts[i]? = some (number (angles.filterMap id) (InBin h.edges i))

/-- The selected DUTs in the order in which the beam (z axis) crosses them, each of them once. -/
structure InOrder (planes : List Kalman.Plane) (select : List Int) (sel : List Nat) : Prop where
  mem : ∀ d, d ∈ sel ↔ d < planes.length ∧ (d : Int) ∈ select
  once : sel.Nodup
  sorted : sel.Pairwise fun i j => ∃ (P Q : Kalman.Plane) (z z' : ℝ), planes[i]? = some P ∧ planes[j]? = some Q ∧
    OnPlane P.pos (planeNormalOf P) ![0, 0, z] ∧ OnPlane Q.pos (planeNormalOf Q) ![0, 0, z'] ∧ z ≤ z'

/-- A track table that can be read: sorted by event number, with fewer tracks per event than the chunk size. -/
def ReadableRows (chunkSize : Nat) (rows : List AngleFile.Row) : Prop :=
  SortedBy AngleFile.Row.event rows ∧ ∀ e, multiplicity AngleFile.Row.event rows e < chunkSize

/-- Angle between a vector and the z axis, between 0 and 90 degrees. -/
def IsTotal (v : Vec3) (t : ℝ) : Prop :=
  v ≠ 0 ∧ 0 ≤ t ∧ t ≤ Real.pi / 2 ∧ Real.cos t * Real.sqrt (v 0 ^ 2 + v 1 ^ 2 + v 2 ^ 2) = |v 2|

/-- Angle between the vector `(x, z)` of a plane and the z axis, between -90 and 90 degrees, with the sign of `x`. -/
def IsProjected (x z t : ℝ) : Prop :=
  (x ≠ 0 ∨ z ≠ 0) ∧ -(Real.pi / 2) ≤ t ∧ t ≤ Real.pi / 2 ∧ Real.cos t * Real.sqrt (x ^ 2 + z ^ 2) = |z| ∧ Real.sin t * Real.sqrt (x ^ 2 + z ^ 2) = x

/-- The angle with this name of a track with the direction `s` in local coordinates of the DUT `P`: angle of the track to the z axis (total), of its
projection to the y-z plane (alpha, positive to positive y) and of its projection to the x-z plane (beta, positive to negative x). The axes are those of
the telescope (global) or those of the DUT (local). The sign of the z component of the direction is ignored. -/
inductive IsAngle (P : Kalman.Plane) (s : Vec3) : Kind → ℝ → Prop
  | globalTotal (t : ℝ) (h : IsTotal (P.rot.mulVec s) t) : IsAngle P s .globalTotal t
  | globalAlpha (t : ℝ) (h : IsProjected (P.rot.mulVec s 1) (P.rot.mulVec s 2) t) : IsAngle P s .globalAlpha t
  | globalBeta (t : ℝ) (h : IsProjected (-P.rot.mulVec s 0) (P.rot.mulVec s 2) t) : IsAngle P s .globalBeta t
  | localTotal (t : ℝ) (h : IsTotal s t) : IsAngle P s .localTotal t
  | localAlpha (t : ℝ) (h : IsProjected (s 1) (s 2) t) : IsAngle P s .localAlpha t
  | localBeta (t : ℝ) (h : IsProjected (-s 0) (s 2) t) : IsAngle P s .localBeta t

/-- The value of a track in the histogram: its angle, or NaN for a NaN or zero direction. -/
def AngleOfTrack (P : Kalman.Plane) (k : Kind) (r : AngleFile.Row) (v : Option ℝ) : Prop :=
  (∀ t, v = some t → ∃ s, r.slope = some s ∧ IsAngle P s k t) ∧ (v = none → ∀ s, r.slope = some s → ∀ t, ¬ IsAngle P s k t)

/-- The stored histogram with this name counts the angles of all tracks of the DUT. -/
def AnglesOf (inp : Input) (d : Nat) (k : Kind) (st : Stored) : Prop :=
  ∃ rows P values, inp.tables d = some rows ∧ inp.planes[d]? = some P ∧ List.Forall₂ (AngleOfTrack P k) rows values ∧ Counts inp.nBins values st.hist ∧
    st.curve = inp.fit st.hist

/-- The page shows the stored histogram and curve with angles in mrad: the bar of bin `i` reaches from 1000 times the lower to 1000 times the upper
edge, its height is the number of entries, and the curve at `1000 x` is the Gaussian of the fit at `x`. -/
structure ShowsStored (st : Stored) (p : Page) : Prop where
  bars : ∀ i lo hi, st.hist.edges[i]? = some lo → st.hist.edges[i + 1]? = some hi → ∃ c w, p.centres[i]? = some c ∧ p.widths[i]? = some w ∧
    c - w / 2 = 1000 * lo ∧ c + w / 2 = 1000 * hi
  number : p.centres.length = st.hist.edges.length - 1 ∧ p.widths.length = st.hist.edges.length - 1
  heights : p.counts = st.hist.counts
  noCurve : p.curve = none ↔ st.curve = none
  curve : ∀ A mu sigma, st.curve = some (A, mu, sigma) → ∃ mu' sigma', p.curve = some (A, mu', sigma') ∧
    ∀ x, GaussFit.gauss A mu' sigma' (1000 * x) = GaussFit.gauss A mu sigma x

end BTA.Spec
