import Verif.Model.DataSelection
/-
Specification of the data selection: what a user expects of `combine_files` and `select_tracks`.
-/
namespace BTA.Spec
open BTA.Sel

section
variable {N P : Type} [DecidableEq N]

/-- The name is one of the selected names; None selects all. -/
def Selected (names : Option (List N)) (n : N) : Prop := ∀ ns, names = some ns → n ∈ ns

instance (names : Option (List N)) (n : N) : Decidable (Selected names n) :=
  match names with
  | none => .isTrue (by intro ns h; cases h)
  | some ns => decidable_of_iff (n ∈ ns) ⟨by rintro h ns' ⟨⟩; exact h, fun h => h ns rfl⟩

/-- All tables of the files with the number of the file, in the order of the files. -/
def allTables (files : List (List (Table N P))) : List (Nat × Table N P) :=
  files.zipIdx.flatMap fun f => f.1.map fun t => (f.2, t)

/-- The tables with one name, with the number of the file. -/
def tablesOf (files : List (List (Table N P))) (n : N) : List (Nat × List (Row P)) :=
  ((allTables files).filter fun t => t.2.name = n).map fun t => (t.1, t.2.rows)

/-- The offset given by the user for a file. -/
def manualOffset (manual : Option (List (Option Int))) (file : Nat) : Option Int :=
  manual.bind fun l => (l[file]?).bind id
end

/-- The selection criteria of `select_tracks` as documented (L209-229): a hit, no hit, and quality, isolated track and isolated
hit for the DUTs of the list which have a hit. -/
structure Documented (c : Criteria) (f : Flags) : Prop where
  hit : ∀ d ∈ c.hit, f.hit.testBit d = true
  noHit : ∀ d ∈ c.noHit, f.hit.testBit d = false
  quality : ∀ d ∈ c.quality, f.hit.testBit d = true → f.quality.testBit d = true
  isoTrack : ∀ d ∈ c.isoTrack, f.hit.testBit d = true → f.isoTrack.testBit d = true
  isoHit : ∀ d ∈ c.isoHit, f.hit.testBit d = true → f.isoHit.testBit d = true

/-- What the code requires: as documented, but an isolated track is required for all DUTs of the list, with or without hit. -/
def Required (c : Criteria) (f : Flags) : Prop :=
  (∀ d ∈ c.hit, f.hit.testBit d = true) ∧ (∀ d ∈ c.noHit, f.hit.testBit d = false) ∧
  (∀ d ∈ c.quality, f.hit.testBit d = true → f.quality.testBit d = true) ∧
  (∀ d ∈ c.isoTrack, f.isoTrack.testBit d = true) ∧
  (∀ d ∈ c.isoHit, f.hit.testBit d = true → f.isoHit.testBit d = true)

instance (c : Criteria) (f : Flags) : Decidable (Required c f) := by unfold Required; infer_instance

/-- The query is true for the track, or there is no query. -/
def queryTrue {R : Type} (query : Option (R → Bool)) (t : R) : Bool := (query.map fun q => q t).getD true

end BTA.Spec
