import Verif.Model.KalmanAlignOut
import Verif.Spec.KalmanAlign
/-
Specification of the output file of the alignment with a Kalman filter and of its plots.
-/
namespace BTA.Spec
open BTA.KAlign

/-- According to the stored relative changes, the track changed the alignment of the DUT: all six changes are known and at most 5 %. -/
def Accepted {n : Nat} (d : Fin n) (r : Row n) : Prop := ∀ k, ∃ v, r.delta d k = some v ∧ v ≤ 0.05

/-- A file with the lines `rows` after the lines of the file before. -/
def Appended {n : Nat} (file file' : File n) (rows : List (Row n)) : Prop :=
  (∀ d, (file'.dut d).getD [] = (file.dut d).getD [] ++ rows.map fun r => r.dut d) ∧
  file'.chi2.getD [] = file.chi2.getD [] ++ rows.map Row.chi2 ∧ file'.prob.getD [] = file.prob.getD [] ++ rows.map Row.prob

/-- All tracks that are used have a hit in every DUT. -/
def CompleteHits {n : Nat} {T : Type} (hitDuts : List Nat) (tracks : List (Track n T)) : Prop :=
  ∀ t ∈ usable hitDuts tracks, ∀ d, ∃ m, t.hit d = some m

end BTA.Spec
