import Verif.Model.ChainFit
import Verif.Model.Kalman
import Verif.Model.AlignTelescope
/-
The connection of `find_tracks` and `fit_tracks` with the Kalman filter (beam_telescope_analysis/track_analysis.py L923-976, L1102-1109).

Simplifications: real numbers; the fit is described for each candidate alone. The fit DUTs are in the order of the telescope. Scattering planes cannot be used (C68) and are left out. The
errors of the hits of a candidate are an arbitrary function of the candidate (the selection and the flags do not depend on them). Chi-square probability is left out.
-/
namespace BTA.Chain
open BTA.Geo BTA.Line BTA.Dut

/-- Settings of the fit with the Kalman filter: DUTs with material budget and resolution, beam energy, particle mass; numerical functions (np.linalg.svd, np.argsort, correction of
covariance matrices). -/
structure KalmanConfig where
  planes : List BTA.Kalman.Plane
  energy : ℝ
  mass : ℝ
  fx : BTA.Kalman.Fixer
  argsort : List ℝ → List Nat
  svd : List Vec3 → Vec3

/-- Position and rotation of a DUT. -/
def placeOf (P : BTA.Kalman.Plane) : Alignment := ⟨P.pos 0, P.pos 1, P.pos 2, P.alpha, P.beta, P.gamma⟩

/-- L939-945: the local hits of all DUTs and their errors. -/
noncomputable def kalmanHits (n : Nat) (err : BTA.Fit.Cand ℝ → Nat → ℝ × ℝ) (c : BTA.Fit.Cand ℝ) : List (Option BTA.Kalman.Hit) :=
  (List.range n).map fun d =>
    match c.x d, c.y d with
    | some x, some y => some ⟨x, y, (err c d).1, (err c d).2⟩
    | _, _ => none

/-- L947-965: the Kalman filter for one candidate, with annealing factor 1 for each DUT. -/
noncomputable def kalmanTrack (k : KalmanConfig) (err : BTA.Fit.Cand ℝ → Nat → ℝ × ℝ) (F : Finset Nat) (c : BTA.Fit.Cand ℝ) : Except BTA.Kalman.Err BTA.Kalman.Fit :=
  BTA.Kalman.fitKalman k.fx k.argsort (BTA.AlignTel.lineFit k.svd) k.planes [] (List.replicate k.planes.length 1) (kalmanHits k.planes.length err c)
    ((List.range k.planes.length).filter fun d => decide (d ∈ F)) k.energy k.mass

/-- The track at a DUT (L968-973, L1102-1109): local position, slope with z component 1, chi-square and number of degrees of freedom; NaN if there is none. -/
noncomputable def kalmanEst (k : KalmanConfig) (err : BTA.Fit.Cand ℝ → Nat → ℝ × ℝ) (F : Finset Nat) (c : BTA.Fit.Cand ℝ) (d : Nat) : BTA.Fit.Est ℝ (Option (Vec3 × ℝ × Int)) :=
  match kalmanTrack k err F c with
  | .ok f =>
    match f.planes.lookup d with
    | some s => ⟨some (s.x 0), some (s.x 1), some (![s.x 2, s.x 3, 1], f.chi2, f.dof)⟩
    | none => ⟨none, none, none⟩
  | .error _ => ⟨none, none, none⟩

end BTA.Chain
