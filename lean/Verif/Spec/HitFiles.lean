import Verif.Model.HitFiles
/-
Specification of the calls made by `check`, `mask` and `cluster`: file `k` of the list belongs to DUT `k` of the selection.
-/
namespace BTA.HitFiles.Spec
open BTA.HitFiles

/-- The value of a parameter for the file at place `k`. -/
def ValueAt {V : Type} (s : Setting V) (k : Nat) (v : V) : Prop :=
  match s with
  | .one v' => v = v'
  | .many l => l[k]? = some v

/-- The file name at place `k` of an optional list. -/
def NameAt (l : Option (List String)) (k : Nat) (v : Option String) : Prop :=
  match l with
  | none => v = none
  | some l => ∃ f, l[k]? = some f ∧ v = some f

/-- A parameter has one value, or one for each of the `n` files. -/
def Fits {V : Type} (n : Nat) : Setting V → Prop
  | .one _ => True
  | .many l => l.length = n

/-- An optional list has `n` file names. -/
def FitsNames (n : Nat) : Option (List String) → Prop
  | none => True
  | some l => l.length = n

/-- Distinct DUTs of a telescope with `n` DUTs in increasing order. -/
def Increasing (n : Nat) (sel : List Int) : Prop := sel.Pairwise (· < ·) ∧ ∀ s ∈ sel, 0 ≤ s ∧ s < n

/-- The DUTs that are selected. -/
def IsSelection (n : Nat) (select : Option (List Int)) (sel : List Int) : Prop :=
  match select with
  | none => sel.length = n ∧ ∀ (k : Nat), k < n → sel[k]? = some (k : Int)
  | some s => sel = s

/-- The settings of the clusterizer for the file at place `k`. -/
structure SettingsAt {F : Type} (a : ClusterArgs F) (k : Nat) (s : ClusterSettings F) : Prop where
  usePositions : ValueAt a.usePositions k s.usePositions
  minCharge : ValueAt a.minCharge k s.minCharge
  maxCharge : ValueAt a.maxCharge k s.maxCharge
  chargeCorrection : ValueAt a.chargeCorrection k s.chargeCorrection
  chargeWeighted : ValueAt a.chargeWeighted k s.chargeWeighted
  columnDistance : ValueAt a.columnDistance k s.columnDistance
  rowDistance : ValueAt a.rowDistance k s.rowDistance
  frameDistance : ValueAt a.frameDistance k s.frameDistance

end BTA.HitFiles.Spec
