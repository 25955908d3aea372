import Verif.Model.ClusterHits
import Verif.Spec.ConvertCoordinates
/-
What clustering a hit file means, said without the functions of the model; of the model only the data types are used.
-/
namespace BTA.ClusterHits.Spec
open BTA.Convert BTA.ClusterHits BTA.Spec

variable {K : Type}

/-- What is assumed of the clusterizer: hits of different events do not influence each other, the table of hits has a row for each hit,
and the clusters come in the order of the events, not more than there are hits in the event. -/
structure EventWise (f : List (Row K) → List (Row K) × List (Cluster K)) : Prop where
  append : ∀ a b, (∀ x ∈ a, ∀ y ∈ b, x.event < y.event) → f (a ++ b) = ((f a).1 ++ (f b).1, (f a).2 ++ (f b).2)
  hits : ∀ a, List.Forall₂ (fun h c => c.event = h.event) a (f a).1
  sorted : ∀ a, SortedBy Row.event a → SortedBy Cluster.event (f a).2
  number : ∀ a e, multiplicity Cluster.event (f a).2 e ≤ multiplicity Row.event a e

/-- Local positions are clustered: as given by the user, otherwise if the file has positions. -/
def UsesPositions (use : Option Bool) (names : List String) : Prop :=
  match use with
  | none => "x" ∈ names
  | some b => b = true

/-- The pixels of a mask, counted from 1; no list without a mask. -/
def PixelsOf (mask : Option (List (List Bool))) (pixels : Option (List (Nat × Nat))) : Prop :=
  match mask, pixels with
  | none, none => True
  | some m, some l => ∀ c r, (c, r) ∈ l ↔ ∃ i j column, c = i + 1 ∧ r = j + 1 ∧ m[i]? = some column ∧ column[j]? = some true
  | _, _ => False

/-- The file with masks has at least one mask. -/
def HasMask (masks : Option Masks) : Prop := ∃ m, masks = some m ∧ (m.disabled ≠ none ∨ m.noisy ≠ none)

/-- The names of the columns of the seed pixel. -/
def SeedName (n : String) : Prop := n = "seed_x" ∨ n = "seed_y" ∨ n = "seed_column" ∨ n = "seed_row"

/-- `c'` is the cluster `c` with new errors; the position of the seed is left open. -/
def SameCluster (c c' : Cluster K) : Prop :=
  c'.event = c.event ∧ c'.nHits = c.nHits ∧ ∀ n, ¬SeedName n → c'.value n = c.value n

/-- `r'` is the row `c` of the clusterizer for the hit `h`; column and row are those of the hit if `copied`. -/
def SameHit (copied : Prop) (h c r' : Row K) : Prop :=
  r'.event = h.event ∧ (∀ n, n ≠ "column" → n ≠ "row" → r'.value n = c.value n) ∧
  (copied → r'.value "column" = h.value "column" ∧ r'.value "row" = h.value "row") ∧
  (¬copied → r'.value "column" = c.value "column" ∧ r'.value "row" = c.value "row")

/-- The hits given to the clusterizer are those of the file, or those of the file in local coordinates if positions are clustered and
the file has none. -/
def IsInput [Field K] [LinearOrder K] (d : Dut.Pixels K) (names : List String) (positions : Bool) (rows input : List (Row K)) : Prop :=
  (positions = true → "x" ∉ names → List.Forall₂ (LocalHit d names) rows input) ∧ ((positions = false ∨ "x" ∈ names) → input = rows)

end BTA.ClusterHits.Spec
