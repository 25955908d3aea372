import Verif.Model.ClusterShape

/- Specification for C47: hits of a cluster, smallest column and row, clusters that fit. -/
namespace BTA.Cluster.Spec
open BTA.Cluster

/-- The list of indices, of which only the part before the first -1 is used, denotes the hits `cl` of the table. -/
def Denotes (hits : List Hit) (indices : List Int) (cl : List Hit) : Prop :=
  ∃ (used : List Nat) (rest : List Int), indices = used.map (fun i : Nat => (i : Int)) ++ rest ∧ (∀ i ∈ rest.head?, i < 0) ∧
    used.map (fun i => hits[i]?) = cl.map some

/-- `v` is the smallest value of `f` in the cluster. -/
def IsSmallest (f : Hit → Nat) (cl : List Hit) (v : Nat) : Prop := (∃ h ∈ cl, f h = v) ∧ ∀ h ∈ cl, v ≤ f h

/-- `v` is the largest value of `f` in the cluster. -/
def IsLargest (f : Hit → Nat) (cl : List Hit) (v : Nat) : Prop := (∃ h ∈ cl, f h = v) ∧ ∀ h ∈ cl, f h ≤ v

/-- The cluster fits into 8 x 8 pixels, and does not need the last one of them. -/
def Fits (cl : List Hit) : Prop :=
  ∃ c0 r0, IsSmallest Hit.column cl c0 ∧ IsSmallest Hit.row cl r0 ∧
    (∀ h ∈ cl, h.column < c0 + 8 ∧ h.row < r0 + 8) ∧ ¬ ∃ h ∈ cl, h.column = c0 + 7 ∧ h.row = r0 + 7

/-- Number of the bit for the pixel at (x, y) from the corner: the bits of `x` and `y` alternate. -/
def bit (x y : Nat) : Nat := x % 2 + 2 * (y % 2) + 4 * (x / 2 % 2) + 8 * (y / 2 % 2) + 16 * (x / 4 % 2) + 32 * (y / 4 % 2)

end BTA.Cluster.Spec
