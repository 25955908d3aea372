/-
What a user expects of the arguments of `calculate_efficiency`: each DUT is analysed with the pair given for it, where the documented default
of this DUT takes the place of None.
-/
import Verif.Model.EfficiencyArgs

namespace BTA.EffArgs

variable {V : Type}

/-- The elements the caller has given for a DUT. -/
def given (h : Heap V) : Item V → List (Option V)
  | .none => [none, none]
  | .tuple v => v
  | .list r => h r

/-- The pair a DUT is to be analysed with, where `d` is the default of this DUT. -/
def Wanted (h : Heap V) (i : Item V) (d v : V × V) : Prop :=
  ∃ a b, given h i = [a, b] ∧ v = (a.getD d.1, b.getD d.2)

/-- The entry of DUT number `k`: a tuple and None stand for all DUTs. -/
def entry : Arg V → Nat → Option (Item V)
  | .none, _ => some .none
  | .tuple v, _ => some (.tuple v)
  | .list items, k => items[k]?
  | .other, _ => none

/-- An entry without None among its elements. -/
def Complete (h : Heap V) (i : Item V) : Prop := none ∉ given h i

/-- The argument has the documented form for `n` DUTs: there are DUTs, a list has an entry for each of them, an entry is None or has two elements. -/
def WellFormed (h : Heap V) (n : Nat) (a : Arg V) : Prop :=
  0 < n ∧ (∀ items, a = .list items → items.length = n) ∧ a ≠ .other ∧
    ∀ k < n, ∀ i, entry a k = some i → (given h i).length = 2

/-- The regions have the documented form: for each DUT None or regions with two directions with two limits each. -/
def RegionsFormed (n : Nat) (a : Regions) : Prop :=
  match a with
  | .none => True
  | .tuple rs => ∀ r ∈ rs, ∃ p q, r = [p, q] ∧ p = 2 ∧ q = 2
  | .list items => items.length = n ∧ ∀ rs, some rs ∈ items → ∀ r ∈ rs, ∃ p q, r = [p, q] ∧ p = 2 ∧ q = 2
  | .other => False

/-- The regions of DUT number `k`. -/
def regionsOf : Regions → Nat → Option Shape
  | .none, _ => none
  | .tuple rs, _ => some rs
  | .list items, k => (items[k]?).getD none
  | .other, _ => none

/-- The names given for DUT number `k`. -/
def namesOf : Names → Nat → Option (List (Option String))
  | .list items, k => (items[k]?).getD none
  | _, _ => none

/-- The names have the documented form: None, or a list with an entry for each DUT, which is None or has a name for each of the regions. -/
def NamesFormed (n : Nat) (a : Regions) (b : Names) : Prop :=
  b ≠ .other ∧ (∀ items, b = .list items → items.length = n) ∧
    ∀ k < n, ∀ ns rs, namesOf b k = some ns → regionsOf a k = some rs → rs ≠ [] → ns.length = rs.length

end BTA.EffArgs
