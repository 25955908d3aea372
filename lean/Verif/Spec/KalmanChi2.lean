import Verif.Spec.KalmanPath
/-
Specification of the chi-square of a hit (C233).
-/
namespace BTA.Spec
open BTA.Geo BTA.Kalman Matrix

/-- `(x, P)` is the estimate of the state at a plane (number `i` of `n`) from all other planes, without the hit of this plane: `F` is the result of
the filter in beam direction, `B` of the one against the beam direction, both before the hit of this plane is used. In between both are combined with
the inverse covariances as weights. -/
structure FromOthers (F B : Out) (i n : Nat) (x : State) (P : Cov) : Prop where
  posDef : P.PosDef
  first : i = 0 → x = B.predX ∧ P = B.predC
  last : 0 < i → i + 1 = n → x = F.predX ∧ P = F.predC
  inner : 0 < i → i + 1 < n → P⁻¹ = F.predC⁻¹ + B.predC⁻¹ ∧ P⁻¹.mulVec x = F.predC⁻¹.mulVec F.predX + B.predC⁻¹.mulVec B.predX

/-- Chi-square of the hit `m`: squared distance to the estimate from all other planes, in units of the errors of both. -/
noncomputable def hitChi2 (S : Setup) (ref : State) (d : Nat) (x : State) (P : Cov) (m : Obs) : ℝ :=
  distance (S.H d * (P * (S.H d).transpose) + S.V d)⁻¹ ((S.H d).mulVec (x + ref)) m

end BTA.Spec
