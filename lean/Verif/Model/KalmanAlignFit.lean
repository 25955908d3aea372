import Verif.Model.AlignKalman
import Verif.Model.AlignTelescope
/-
The fit of a track in the alignment with a Kalman filter (beam_telescope_analysis/dut_alignment.py L1485-1534, L1548-1555): the function `fit` of
`KAlign.Config` and `KDriver.Setup` made of `fitKalman` of Kalman.lean.

Simplifications: real numbers; scattering planes cannot be used (C68) and are left out.
-/
namespace BTA.KAlign
open BTA.Geo BTA.Kalman Matrix

/-- What the fit gets apart from the alignment: material budgets and intrinsic resolutions of the DUTs, beam energy, particle mass; numerical functions
(correction of covariance matrices, np.argsort, np.linalg.svd). -/
structure Tracker (n : Nat) where
  budget : Fin n → ℝ
  resolution : Fin n → Option (ℝ × ℝ)
  energy : ℝ
  mass : ℝ
  fx : Fixer
  argsort : List ℝ → List Nat
  svd : List Vec3 → Vec3

/-- L1504-1510: a DUT with the given alignment. -/
def Tracker.plane {n : Nat} (k : Tracker n) (al : Fin n → Dut.Alignment) (d : Fin n) : Plane :=
  ⟨![(al d).x, (al d).y, (al d).z], (al d).alpha, (al d).beta, (al d).gamma, k.budget d, k.resolution d⟩

/-- A track candidate; its data are the errors of the hits. -/
abbrev Candidate (n : Nat) := Track n (Fin n → ℝ × ℝ)

/-- L1491-1497: hit of a DUT and its error. -/
def hitAt {n : Nat} (t : Candidate n) (d : Fin n) : Option Hit := (t.hit d).map fun m => ⟨m 0, m 1, (t.data d).1, (t.data d).2⟩

/-- Reduced chi-square (track_analysis.py L1724): NaN for 0 / 0. -/
noncomputable def reducedChi2 (f : Kalman.Fit) : Option ℝ := if f.dof = 0 then none else some (f.chi2 / f.dof)

/-- Result of the fit at a DUT. -/
noncomputable def smoothedAt (f : Kalman.Fit) (d : Nat) : Smoothed := (f.planes.lookup d).getD ⟨0, 0, none⟩

/-- L1534-1555. An infinite chi-square (positive and no degrees of freedom) is like an exception: the track is not used. -/
noncomputable def trackFit {n : Nat} (k : Tracker n) (fitDuts : List Nat) (al : Fin n → Dut.Alignment) (annealing : Fin n → ℝ) (t : Candidate n) :
    Option (Fit n) := open Classical in
  match fitKalman k.fx k.argsort (AlignTel.lineFit k.svd) (List.ofFn (k.plane al)) [] (List.ofFn annealing) (List.ofFn (hitAt t)) fitDuts k.energy k.mass with
  | .error _ => none
  | .ok f =>
    if f.dof = 0 ∧ f.chi2 ≠ 0 then none
    else some
      { chi2 := reducedChi2 f
        p0 := fun d => (smoothedAt f d).x
        C0 := fun d => (smoothedAt f d).C
        V := fun d => obsCov (k.plane al d) (hitAt t d) (annealing d)
        H := fun _ => obsMat }

end BTA.KAlign
