import Verif.Spec.KalmanAlignFixed
/-
Specification of a telescope in which some DUTs are not where the configuration says.
-/
namespace BTA.KAlign
open BTA.Geo BTA.Kalman BTA.Spec

/-- The same rotation. -/
def SameAngles (a b : Dut.Alignment) : Prop := b.alpha = a.alpha ∧ b.beta = a.beta ∧ b.gamma = a.gamma

/-- How far the DUT is from its true position, in units of the initial errors. -/
noncomputable def shiftInErrors (errors : Fin 6 → ℝ) (a truth : Dut.Alignment) : ℝ :=
  Real.sqrt (((truth.x - a.x) / errors 0) ^ 2 + ((truth.y - a.y) / errors 1) ^ 2 + ((truth.z - a.z) / errors 2) ^ 2)

/-- The DUTs for the fit are where the configuration `al` says. Other DUTs are shifted in translations that are to be aligned (with an error that is
not zero); the rotation of a shifted DUT is right and not aligned. -/
structure Shifted {n : Nat} (select tel : List Nat) (parameters : List (Option (List String))) (errors : Fin 6 → ℝ) (fitDuts : List Nat)
    (al truth : Fin n → Dut.Alignment) : Prop where
  angles : ∀ d, SameAngles (al d) (truth d)
  fit : ∀ d, d.val ∈ fitDuts → truth d = al d
  aligned : ∀ d k, par (truth d) k ≠ par (al d) k → ¬ Excluded select tel parameters d k ∧ errors k ≠ 0
  rotations : ∀ d, truth d ≠ al d → ∀ k : Fin 6, 3 ≤ k.val → Excluded select tel parameters d k

/-- Alignments between the configuration and the truth: parameters that are not aligned are the same, the others are not further away from the truth than
their initial error, multiplied with the shift in units of the initial errors. -/
def OnTheWay {n : Nat} (select tel : List Nat) (parameters : List (Option (List String))) (errors : Fin 6 → ℝ) (al truth al' : Fin n → Dut.Alignment) : Prop :=
  ∀ d, SameAngles (al d) (al' d) ∧ ∀ k : Fin 6, k.val < 3 → (Excluded select tel parameters d k → par (al' d) k = par (al d) k) ∧
    |par (truth d) k - par (al' d) k| ≤ |errors k| * shiftInErrors errors (al d) (truth d)

/-- The alignment with the DUT `d` moved in x. -/
def movedX {n : Nat} (al : Fin n → Dut.Alignment) (d : Fin n) (shift : ℝ) (e : Fin n) : Dut.Alignment :=
  if e = d then { al d with x := (al d).x + shift } else al e

/-- The same particle: the track candidates differ in the hit of the DUT `d` only. -/
def SameParticle {n : Nat} (d : Fin n) (t t' : Candidate n) : Prop :=
  t'.event = t.event ∧ t'.flag = t.flag ∧ t'.data = t.data ∧ ∀ e, e ≠ d → t'.hit e = t.hit e

end BTA.KAlign
