import Verif.Model.Residuals
import Verif.Spec.Statistics
/-
Specification vocabulary for the residuals. Only the table type `Track` and the type `Limit` of the model are used.
-/
namespace BTA.Residuals.Spec
open BTA.Residuals

variable {K : Type} [Field K] [LinearOrder K]

/-- The row has a hit in the DUT and a fitted track. -/
def Found (t : Track K) : Prop := t.hit.isSome ∧ t.chi2.isSome

/-- Position of the hit (of a row with a hit). -/
def hitX (t : Track K) : K := t.hit.elim 0 Prod.fst
def hitY (t : Track K) : K := t.hit.elim 0 Prod.snd

/-- Residuals: hit position minus intersection. -/
def resX (t : Track K) : K := hitX t - t.ix
def resY (t : Track K) : K := hitY t - t.iy

/-- `v` is not outside of the limit. -/
def Inside (limit : Option (Limit K)) (v : K) : Prop :=
  ∀ l, limit = some l → (∀ a, l.1 = some a → a ≤ v) ∧ (∀ b, l.2 = some b → v ≤ b)

/-- The residuals `res` of the rows in the limit, against the position `pos`: `hist` counts the rows by position and residual,
`count` the rows by position, `avg` is the mean residual by position (undefined without rows). -/
structure IsProfile (T : List (Track K)) (limit : Track K → Prop) (pos res : Track K → K) (posEdges resEdges : List K)
    (hist : Nat × Nat → Nat) (count : Nat → Nat) (avg : Nat → Option K) : Prop where
  hist_eq : ∀ i j, hist (i, j) = BTA.Spec.number T fun t =>
    Found t ∧ limit t ∧ BTA.Spec.InBin posEdges i (pos t) ∧ BTA.Spec.InBin resEdges j (res t)
  count_eq : ∀ i, count i = BTA.Spec.number T fun t => Found t ∧ limit t ∧ BTA.Spec.InBin posEdges i (pos t)
  avg_eq : ∀ i, avg i =
    BTA.Spec.mean (BTA.Spec.valuesOf T (fun t => Found t ∧ limit t ∧ BTA.Spec.InBin posEdges i (pos t)) res)

end BTA.Residuals.Spec
