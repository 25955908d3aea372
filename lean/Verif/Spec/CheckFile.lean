import Verif.Model.CheckFile
import Verif.Spec.Events
/-
Specification vocabulary for `check_file`.
-/
namespace BTA.Check.Spec
open BTA.Dut BTA.Check

section
variable {K : Type} [Field K] [LinearOrder K]

/-- A table of hits with pixel indices. -/
def IndexTable (t : Table K) : Prop := t.clusters = false ∧ t.positions = false ∧ t.hasPlain = true

/-- A table of hits with local positions. -/
def PositionTable (t : Table K) : Prop := t.clusters = false ∧ t.positions = true ∧ t.hasPlain = true

/-- The hit is on a pixel of the DUT: counting starts with 1. -/
def OnMatrix (d : Pixels K) (r : Row K) : Prop := (1 ≤ r.plain.1 ∧ r.plain.1 ≤ d.nColumns) ∧ (1 ≤ r.plain.2 ∧ r.plain.2 ≤ d.nRows)

/-- The position is on the sensor, the upper edges excluded. -/
def OnSensor (d : Pixels K) (r : Row K) : Prop :=
  (-(d.nColumns * d.columnSize / 2) ≤ r.plain.1 ∧ r.plain.1 < d.nColumns * d.columnSize / 2) ∧
  (-(d.nRows * d.rowSize / 2) ≤ r.plain.2 ∧ r.plain.2 < d.nRows * d.rowSize / 2)

/-- Event numbers as they should be: not negative and never decreasing. -/
def GoodEvents (rows : List (Row K)) : Prop := (∀ r ∈ rows, 0 ≤ r.ev) ∧ BTA.Spec.SortedBy Row.ev rows

/-- Small tables, and sorted tables where no event fills a chunk: all rows are delivered by the chunk reader. -/
def Delivered (chunkSize : Nat) (rows : List (Row K)) : Prop :=
  rows.length ≤ chunkSize ∨
    (0 < chunkSize ∧ BTA.Spec.SortedBy Row.ev rows ∧ ∀ e, BTA.Spec.multiplicity Row.ev rows e < chunkSize)

end

/-- The different event numbers of a list, increasing. -/
structure DifferentOf (l out : List Int) : Prop where
  increasing : out.Pairwise (· < ·)
  same : ∀ e, e ∈ out ↔ e ∈ l

/-- The distances of neighbours. -/
def Distances (l out : List Int) : Prop := out.length = l.length - 1 ∧ ∀ i (h : i < out.length) (h1 : i + 1 < l.length), out[i] = l[i + 1] - l[i]

end BTA.Check.Spec
