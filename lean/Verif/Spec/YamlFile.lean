import Verif.Model.YamlFile
/-
C236: what it means that two YAML files have the same content: the same values are found at the same places.
-/
namespace BTA.YamlFile.Spec
open BTA.YamlFile

/-- Two scalars mean the same: the same number (`true` is 1), or the same scalar. -/
inductive SameScalar : Scalar → Scalar → Prop
  | refl (s : Scalar) : SameScalar s s
  | boolInt : SameScalar (.bool true) (.int 1)
  | boolInt0 : SameScalar (.bool false) (.int 0)
  | intFlt (i : ℤ) : SameScalar (.int i) (.flt i)
  | symm {a b : Scalar} : SameScalar a b → SameScalar b a
  | trans {a b c : Scalar} : SameScalar a b → SameScalar b c → SameScalar a c

/-- A step into a value: an index of a list or a key of a dictionary. -/
inductive Step
  | index (i : ℕ)
  | key (k : Scalar)

/-- The list has the value at the index. -/
inductive AtIndex : Ys → ℕ → Y → Prop
  | head (y : Y) (l : Ys) : AtIndex (.cons y l) 0 y
  | tail (y : Y) (l : Ys) (i : ℕ) (v : Y) : AtIndex l i v → AtIndex (.cons y l) (i + 1) v

/-- The dictionary has the item. -/
inductive Item : Es → Scalar → Y → Prop
  | head (k : Scalar) (y : Y) (m : Es) : Item (.cons k y m) k y
  | tail (k : Scalar) (y : Y) (m : Es) (k' : Scalar) (v : Y) : Item m k' v → Item (.cons k y m) k' v

/-- The value is found at the place (a list of steps). -/
inductive Found : Y → List Step → Y → Prop
  | here (y : Y) : Found y [] y
  | index (l : Ys) (i : ℕ) (y : Y) (p : List Step) (v : Y) : AtIndex l i y → Found y p v → Found (.list l) (.index i :: p) v
  | key (m : Es) (k k' : Scalar) (y : Y) (p : List Step) (v : Y) : Item m k' y → SameScalar k k' → Found y p v → Found (.map m) (.key k :: p) v

/-- Two values look the same from outside: the same scalar, or both lists, or both dictionaries. -/
def Alike : Y → Y → Prop
  | .scalar a, .scalar b => SameScalar a b
  | .list _, .list _ => True
  | .map _, .map _ => True
  | _, _ => False

/-- Two values have the same content: whatever is found in one of them is found at the same place of the other one. -/
def SameContent (a b : Y) : Prop :=
  ∀ p, (∀ v, Found a p v → ∃ w, Found b p w ∧ Alike v w) ∧ (∀ w, Found b p w → ∃ v, Found a p v ∧ Alike v w)

mutual
/-- A value as it is loaded: the keys of each dictionary are different. -/
def Valid : Y → Prop
  | .scalar _ => True
  | .list l => ValidList l
  | .map m => ValidMap m
/-- All values of a list are valid. -/
def ValidList : Ys → Prop
  | .nil => True
  | .cons y l => Valid y ∧ ValidList l
/-- The keys are different and all values are valid. -/
def ValidMap : Es → Prop
  | .nil => True
  | .cons k y m => (∀ k' v, Item m k' v → ¬ SameScalar k k') ∧ Valid y ∧ ValidMap m
end

/-- The dictionary has the value for the key. -/
def Has (m : Es) (k : Scalar) (v : Y) : Prop := ∃ k', Item m k' v ∧ SameScalar k k'

/-- The value of a key of a file: of the last document that has the key. -/
def FileHas (docs : List Y) (k : Scalar) (v : Y) : Prop :=
  ∃ before m after, docs = before ++ Y.map m :: after ∧ Has m k v ∧ ∀ m', Y.map m' ∈ after → ∀ w, ¬ Has m' k w

/-- The value is found in the file: a key, and a place in the value of the key. -/
def FileFound (docs : List Y) (k : Scalar) (p : List Step) (v : Y) : Prop := ∃ y, FileHas docs k y ∧ Found y p v

/-- Two files have the same content: whatever is found in one of them is found at the same place of the other one. -/
def SameFile (first second : List Y) : Prop :=
  ∀ k p, (∀ v, FileFound first k p v → ∃ w, FileFound second k p w ∧ Alike v w) ∧ (∀ w, FileFound second k p w → ∃ v, FileFound first k p v ∧ Alike v w)

/-- All documents are dictionaries. -/
def AllMaps (docs : List Y) : Prop := ∀ d ∈ docs, ∃ m, d = Y.map m

end BTA.YamlFile.Spec
