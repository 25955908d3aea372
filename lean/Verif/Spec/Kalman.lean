import Verif.Model.Kalman
import Verif.Spec.Geometry
import Mathlib.Analysis.Calculus.FDeriv.Basic
import Mathlib.Topology.Algebra.Module.FiniteDimension
/-
Specification of tracks and of the linear least squares estimate, independent of the code.
-/
namespace BTA.Spec
open BTA.Geo BTA.Kalman Matrix

/-- Global position of a point given in the local coordinates of a plane. -/
noncomputable def globalPoint (P : Plane) (x : Vec3) : Vec3 := P.rot.mulVec x + P.pos

/-- Global position at which the track crosses the plane. -/
noncomputable def trackPoint (P : Plane) (p : State) : Vec3 := globalPoint P ![p 0, p 1, 0]

/-- Global direction of the track. -/
noncomputable def trackDir (P : Plane) (p : State) : Vec3 := P.rot.mulVec ![p 2, p 3, 1]

/-- The global point is on the track with the local state `p`. -/
def OnTrack (P : Plane) (p : State) (q : Vec3) : Prop := OnLine (trackPoint P p) (trackDir P p) q

/-- Normal vector of the plane. -/
noncomputable def planeNormalOf (P : Plane) : Vec3 := P.rot.mulVec ![0, 0, 1]

/-- The direction is not parallel to the plane. -/
def Crosses (P : Plane) (direction : Vec3) : Prop := dot (planeNormalOf P) direction ≠ 0

/-- Extrapolation from plane `A` to plane `B`. -/
noncomputable def extrapolate (A B : Plane) (p : State) : State := extrapolateState p A.pos B.pos A.rot B.rot

/-- Jacobian from plane `A` to plane `B`, as it is used by the filters. -/
noncomputable def jacobianOf (A B : Plane) (p : State) : Cov :=
  trackJacobian p A.pos B.pos A.rot.transpose B.rot.transpose

/-- The matrix is the derivative of `f` at `p`. -/
def IsJacobian {m n : Nat} (f : (Fin n → ℝ) → (Fin m → ℝ)) (J : Matrix (Fin m) (Fin n) ℝ) (p : Fin n → ℝ) : Prop :=
  HasFDerivAt f (LinearMap.toContinuousLinearMap J.mulVecLin) p

/-- `A` is at most `B` (in the sense of quadratic forms). -/
def AtMost {n : Nat} (A B : Matrix (Fin n) (Fin n) ℝ) : Prop := ∀ x : Fin n → ℝ, x ⬝ᵥ A.mulVec x ≤ x ⬝ᵥ B.mulVec x

/-- Cost of the least squares estimate of a state `y`: prior knowledge `x` with covariance `C` and a measurement `r` of `H y` with
covariance `V`. -/
noncomputable def leastSquares {n m : Nat} (C : Matrix (Fin n) (Fin n) ℝ) (H : Matrix (Fin m) (Fin n) ℝ) (V : Matrix (Fin m) (Fin m) ℝ)
    (x : Fin n → ℝ) (r : Fin m → ℝ) (y : Fin n → ℝ) : ℝ :=
  (y - x) ⬝ᵥ C⁻¹.mulVec (y - x) + (r - H.mulVec y) ⬝ᵥ V⁻¹.mulVec (r - H.mulVec y)

/-- State after a deflection by small angles: position unchanged, direction `n` changed to `n + a u + b v`. -/
noncomputable def deflected (p : State) (n u v : Vec3) (angle : Fin 2 → ℝ) : State :=
  let d := n + angle 0 • u + angle 1 • v
  ![p 0, p 1, d 0 / d 2, d 1 / d 2]

/-- The input of the filter makes sense: the initial covariance is positive definite, variances of hits are not negative and those of
hits which are used for the fit are positive definite. -/
structure Regular (S : Setup) : Prop where
  initial : S.C0.PosDef
  noise : ∀ d, (S.V d).PosSemidef
  used : ∀ d, S.fit d = true → (S.obs d).isSome = true → (S.V d).PosDef

/-- Two inputs differ at most in the hits (and their errors) of planes which are not used for the fit. -/
structure SameForFit (S S' : Setup) : Prop where
  planes : S'.planes = S.planes
  H : S'.H = S.H
  fit : S'.fit = S.fit
  x0 : S'.x0 = S.x0
  C0 : S'.C0 = S.C0
  hits : ∀ d, S.fit d = true → S'.V d = S.V d ∧ S'.obs d = S.obs d

/-- Information (inverse covariance) which the hit of a plane gives about the track state; nothing if there is no hit or the plane is not
used for the fit. -/
noncomputable def hitInfo (S : Setup) (d : Nat) : Cov :=
  if S.fit d = true ∧ (S.obs d).isSome = true then (S.H d).transpose * ((S.V d)⁻¹ * S.H d) else 0

/-- The measured value weighted with its information, relative to the reference state. -/
noncomputable def hitVec (S : Setup) (ref : State) (d : Nat) : State :=
  match S.fit d, S.obs d with
  | true, some m => ((S.H d).transpose * (S.V d)⁻¹).mulVec (m - (S.H d).mulVec ref)
  | _, _ => 0

end BTA.Spec
