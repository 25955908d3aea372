import Verif.Model.FindTracks
import Mathlib.Analysis.Real.Sqrt
/-
Exact arithmetic for the track finding (beam_telescope_analysis/track_analysis.py L309-516): real numbers instead of 64 bit floats. Division by zero and the root of a negative
number give NaN.
-/
namespace BTA.Find

open Classical in
/-- Arithmetic with real numbers, NaN is `none`. -/
noncomputable def realFloats : Floats (Option ℝ) where
  isnan a := a.isNone
  add a b := a.bind fun a => b.map fun b => a + b
  sub a b := a.bind fun a => b.map fun b => a - b
  mul a b := a.bind fun a => b.map fun b => a * b
  div a b := a.bind fun a => b.bind fun b => if b = 0 then none else some (a / b)
  neg a := a.map fun a => -a
  sqrt a := a.bind fun a => if a < 0 then none else some (Real.sqrt a)
  lt a b := match a, b with | some a, some b => decide (a < b) | _, _ => false
  nonneg a := match a with | some a => decide (0 ≤ a) | none => false
  minusOne := some (-1)

end BTA.Find
