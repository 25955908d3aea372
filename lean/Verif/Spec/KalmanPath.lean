import Verif.Spec.Kalman
import Mathlib.Order.Bounds.Basic
/-
Specification of the best track through all planes (C232): a track with deflections at the planes, and its cost. It does not use the filter;
the only definitions of the code are the linearised extrapolation (`jacobian`, C41), the effect of a deflection (`scatterGain`, C65) and the input.
States are relative to the reference state of the plane.
-/
namespace BTA.Spec
open BTA.Geo BTA.Kalman Matrix

/-- A linear model of the tracks: from plane `p` to plane `d` the state `x` becomes `J p d x + G p d w`, where `w` are two scattering angles with
the covariance `Q p d`. -/
structure Scattering where
  J : Nat → Nat → Cov
  G : Nat → Nat → Gain
  Q : Nat → Nat → ObsCov

/-- Tracks in the beam direction: deflected at the plane `p` and extrapolated to the plane `d`. -/
noncomputable def alongBeam (S : Setup) (ref : Nat → State) (Q : Nat → ObsCov) : Scattering :=
  ⟨jacobian S ref, fun p d => jacobian S ref p d * scatterGain (ref p), fun p _ => Q p⟩

/-- Tracks followed against the beam direction: extrapolated from the plane `p` to the plane `d` and deflected there. -/
noncomputable def againstBeam (S : Setup) (ref : Nat → State) (Q : Nat → ObsCov) : Scattering :=
  ⟨jacobian S ref, fun _ d => scatterGain (ref d), fun _ d => Q d⟩

/-- A track at a plane: the state there, and the scattering angles `Q u` on the way from the plane before. Angles are given by `u`, so that planes
without material (`Q = 0`) do not deflect. -/
structure Node where
  plane : Nat
  state : State
  u : Obs

/-- The track follows the model. -/
def Follows (M : Scattering) : Option (Nat × State) → List Node → Prop
  | _, [] => True
  | none, n :: rest => Follows M (some (n.plane, n.state)) rest
  | some (p, x), n :: rest =>
    n.state = (M.J p n.plane).mulVec x + (M.G p n.plane).mulVec ((M.Q p n.plane).mulVec n.u) ∧ Follows M (some (n.plane, n.state)) rest

/-- `(y - x)ᵀ A (y - x)`. -/
noncomputable def distance {n : Nat} (A : Matrix (Fin n) (Fin n) ℝ) (x y : Fin n → ℝ) : ℝ := (y - x) ⬝ᵥ A.mulVec (y - x)

/-- Cost of a state at a plane with a hit that is used for the fit: squared distance to the hit in units of the error. -/
noncomputable def hitCost (S : Setup) (ref : Nat → State) (d : Nat) (y : State) : ℝ :=
  match S.fit d, S.obs d with
  | true, some m => distance (S.V d)⁻¹ ((S.H d).mulVec (y + ref d)) m
  | _, _ => 0

/-- Cost of the scattering angles `w = Q u`: `wᵀ Q⁻¹ w`, which is `uᵀ Q u` (see `angleCost_inv`). -/
noncomputable def angleCost (Q : ObsCov) (u : Obs) : ℝ := u ⬝ᵥ Q.mulVec u

/-- Cost of a track: distance of its first state to the initial state, of its states to the hits, and its scattering angles. -/
noncomputable def trackCost (S : Setup) (ref : Nat → State) (M : Scattering) : Option (Nat × State) → List Node → ℝ
  | _, [] => 0
  | none, n :: rest => distance S.C0⁻¹ S.x0 n.state + hitCost S ref n.plane n.state + trackCost S ref M (some (n.plane, n.state)) rest
  | some (p, _), n :: rest =>
    angleCost (M.Q p n.plane) n.u + hitCost S ref n.plane n.state + trackCost S ref M (some (n.plane, n.state)) rest

/-- A track through these planes that follows the model and has the given state at the last plane. -/
structure TrackTo (M : Scattering) (planes : List Nat) (y : State) (t : List Node) : Prop where
  planes : t.map Node.plane = planes
  follows : Follows M none t
  last : (t.getLast?).map Node.state = some y

/-- The track is the best of all tracks through these planes. -/
def BestTrack (S : Setup) (ref : Nat → State) (M : Scattering) (planes : List Nat) (y : State) (t : List Node) : Prop :=
  TrackTo M planes y t ∧ ∀ y' t', TrackTo M planes y' t' → trackCost S ref M none t ≤ trackCost S ref M none t'

/-- The smallest cost of a track through these planes to the state `y` is `least y`. -/
def LeastCost (S : Setup) (ref : Nat → State) (M : Scattering) (planes : List Nat) (least : State → ℝ) : Prop :=
  ∀ y, IsLeast {c : ℝ | ∃ t, TrackTo M planes y t ∧ trackCost S ref M none t = c} (least y)

/-- What the fit says about the best track to a plane: there is one, all best tracks have the state `x` at the plane, and a track to another
state costs more by its distance to `x` in units of the covariance `C`. -/
structure FitsBest (S : Setup) (ref : Nat → State) (M : Scattering) (planes : List Nat) (x : State) (C : Cov) : Prop where
  exists_best : ∃ t, BestTrack S ref M planes x t
  unique : ∀ y t, BestTrack S ref M planes y t → y = x
  error : ∃ best : ℝ, LeastCost S ref M planes fun y => best + distance C⁻¹ x y

end BTA.Spec
