import Verif.Model.SelectArgs
/- Specification of the arguments of `select_tracks`. -/
namespace BTA.Spec.SelArgs
open BTA.SelArgs

/-- What a list of DUTs means for `n` selected DUTs: `ls[i]` is the list for the DUT with index i, None is no selection. -/
inductive ListMeans (n : Nat) : Arg → List (Option (List Int)) → Prop
  /-- not given: no selection -/
  | nothing : ListMeans n .none (List.replicate n (some []))
  /-- numbers: the same list for all DUTs -/
  | same (l : List Int) : l ≠ [] → ListMeans n (.entries (l.map Entry.number)) (List.replicate n (some l))
  /-- one list (or None) for each DUT -/
  | each (ls : List (Option (List Int))) : ls ≠ [] → ls.length = n → ListMeans n (.entries (ls.map fun o => o.elim Entry.none Entry.list)) ls

/-- What the argument `query` means. -/
inductive QueryMeans (n : Nat) : Query → List String → Prop
  | nothing : QueryMeans n .none (List.replicate n "")
  | same (s : String) : QueryMeans n (.one s) (List.replicate n s)
  | each (ss : List String) : ss.length = n → QueryMeans n (.each (ss.map some)) ss

/-- What the arguments mean: the settings of the selected DUTs. -/
structure Means (a : Args) (l : List Setting) : Prop where
  select : l ≠ [] ∧ a.select = .each (l.map fun s => some s.dut)
  hit : ListMeans l.length a.hit (l.map Setting.hit)
  noHit : ListMeans l.length a.noHit (l.map Setting.noHit)
  quality : ListMeans l.length a.quality (l.map Setting.quality)
  isoTrack : ListMeans l.length a.isoTrack (l.map Setting.isoTrack)
  isoHit : ListMeans l.length a.isoHit (l.map Setting.isoHit)
  query : QueryMeans l.length a.query (l.map Setting.query)
  /-- no DUT must have a hit and no hit -/
  consistent : ∀ s ∈ l, ∀ d ∈ s.hit.getD [], d ∉ s.noHit.getD []

/-- The DUTs in the list. -/
def dutsOf (o : Option (List Int)) (d : Nat) : Prop := (d : Int) ∈ o.getD []

/-- What is required of a track. Bit d of the flags belongs to DUT d. -/
def Kept (s : Setting) (f : BTA.Sel.Flags) : Prop :=
  (∀ d, dutsOf s.hit d → f.hit.testBit d = true) ∧ (∀ d, dutsOf s.noHit d → f.hit.testBit d = false) ∧
  (∀ d, dutsOf s.quality d → f.hit.testBit d = true → f.quality.testBit d = true) ∧
  (∀ d, dutsOf s.isoTrack d → f.isoTrack.testBit d = true) ∧
  (∀ d, dutsOf s.isoHit d → f.hit.testBit d = true → f.isoHit.testBit d = true)

end BTA.Spec.SelArgs
