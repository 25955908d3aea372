import Verif.Model.Converters
/-
Specification of the converters (C132-C134).
-/
namespace BTA.Converters.Spec
open BTA.Converters

/-- The event numbers do not decrease and are not negative. -/
def FromZero (events : List Int) : Prop := (∀ e ∈ events, 0 ≤ e) ∧ ∀ (i j : Nat) a b, i ≤ j → events[i]? = some a → events[j]? = some b → a ≤ b

/-- Event numbers whose differences are far away from the limits of 64 bit integers. -/
def InRange (events : List Int) : Prop := ∀ e ∈ events, -2 ^ 62 < e ∧ e < 2 ^ 62

/-- Names that can be opened for writing: different from each other and from the input file. -/
def Writable (input : Name) (names : List Name) : Prop := names.Nodup ∧ input ∉ names

/-- The hit of Mimosa26 in the format for the analysis: column and row counted from 1, no frame and no charge. -/
def m26Hit (h : M26Hit) : Hit := { event := h.event, frame := 0, column := h.column + 1, row := h.row + 1, charge := 0 }

/-- The hits of a plane, in the order of the table. -/
def hitsOfPlane (rows : List M26Hit) (id : Nat) : List M26Hit := rows.filter fun h => h.plane == id

/-- The hit of FE-I4 in the format for the analysis. -/
def fei4Hit (h : Fei4Hit) : Hit := { event := h.event, frame := h.relativeBcid, column := h.column, row := h.row, charge := h.tot }

/-- The first `m` hits are in order, but the hit at `m` is before its predecessor (or before event 0). -/
def FirstDecrease (events : List Int) (m : Nat) : Prop :=
  FromZero (events.take m) ∧ m < events.length ∧ ¬ FromZero (events.take (m + 1))

end BTA.Converters.Spec
