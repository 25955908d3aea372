import Verif.Spec.ClusterShape
import Mathlib.Logic.Relation
/-
Specification of the clusters that are selected for the alignment.
-/
namespace BTA.Cluster.Spec

/-- All pixels are inside of a square of 2 x 2 pixels. -/
def InSquare (cl : List Hit) : Prop := ∀ h ∈ cl, ∀ h' ∈ cl, h.column ≤ h'.column + 1 ∧ h.row ≤ h'.row + 1

/-- Two hits are in the same pixel or in pixels that have an edge in common. -/
def Touch (h h' : Hit) : Prop :=
  (h.column = h'.column ∧ h.row ≤ h'.row + 1 ∧ h'.row ≤ h.row + 1) ∨ (h.row = h'.row ∧ h.column ≤ h'.column + 1 ∧ h'.column ≤ h.column + 1)

/-- Each pixel can be reached from each other one by steps over edges. -/
def EdgeConnected (cl : List Hit) : Prop := ∀ h ∈ cl, ∀ h' ∈ cl, Relation.ReflTransGen (fun a b => b ∈ cl ∧ Touch a b) h h'

end BTA.Cluster.Spec
