import Mathlib.Algebra.Order.Field.Rat
/-
Model of `compare_yaml_files` (beam_telescope_analysis/tools/test_tools.py L310-325).

Simplifications: the text of the files is not parsed, a file is the list of its documents as returned by `yaml.safe_load_all`. Scalars are null, booleans, numbers and
texts (no dates and no binary data); floating point numbers are rational numbers, infinity or NaN. Dictionary keys are scalars. References (`*name`) are copies.
-/
namespace BTA.YamlFile

/-- Scalars of a YAML file. -/
inductive Scalar
  | null
  | bool (b : Bool)
  | int (i : ℤ)
  | flt (x : ℚ)
  | inf (negative : Bool)
  | nan
  | str (s : String)
deriving DecidableEq

/-- The number of a scalar: `True == 1 == 1.0` in Python. -/
def number : Scalar → Option ℚ
  | .bool b => some (if b then 1 else 0)
  | .int i => some i
  | .flt x => some x
  | _ => none

/-- `==` of two scalars in a container (L325), which is true for the same object. `.nan` is one object for all files (a constant of the class that constructs the values). -/
def scalarEq (a b : Scalar) : Bool :=
  match number a, number b with
  | some x, some y => x = y
  | none, none => a = b
  | _, _ => false

mutual
/-- Values of a YAML file: scalars, lists and dictionaries. -/
inductive Y
  | scalar (s : Scalar)
  | list (l : Ys)
  | map (m : Es)
/-- Lists of values. -/
inductive Ys
  | nil
  | cons (y : Y) (l : Ys)
/-- Dictionaries in the order of insertion. -/
inductive Es
  | nil
  | cons (k : Scalar) (y : Y) (m : Es)
end

/-- `d[key]`, `none` is the KeyError. -/
def Es.get : Es → Scalar → Option Y
  | .nil, _ => none
  | .cons k y m, key => if scalarEq k key then some y else m.get key

/-- `d[key] = value` (L319): a key that exists keeps its place. -/
def Es.set : Es → Scalar → Y → Es
  | .nil, key, v => .cons key v .nil
  | .cons k y m, key, v => if scalarEq k key then .cons k v m else .cons k y (m.set key v)

/-- `len(d)`. -/
def Es.size : Es → ℕ
  | .nil => 0
  | .cons _ _ m => m.size + 1

mutual
/-- `==` of two values (L325). -/
def eqY : Y → Y → Bool
  | .scalar a, .scalar b => scalarEq a b
  | .list a, .list b => eqYs a b
  | .map a, .map b => a.size = b.size && eqEs a b
  | _, _ => false
/-- `==` of two lists. -/
def eqYs : Ys → Ys → Bool
  | .nil, .nil => true
  | .cons x a, .cons y b => eqY x y && eqYs a b
  | _, _ => false
/-- `==` of two dictionaries with the same number of keys: every item of the first dictionary is looked up in the second one. -/
def eqEs : Es → Es → Bool
  | .nil, _ => true
  | .cons k x a, b =>
    (match b.get k with
    | none => false
    | some y => eqY x y) && eqEs a b
end

/-- The loop over the items of a document (L318-319). -/
def update (d : Es) : Es → Es
  | .nil => d
  | .cons k v m => update (d.set k v) m

/-- What `compare_yaml_files` raises. -/
inductive Err
  /-- `doc.items()` of a document that is not a dictionary. -/
  | attributeError
deriving DecidableEq

/-- The loop over the documents (L317-319). -/
def loadLoop (d : Es) : List Y → Except Err Es
  | [] => .ok d
  | .map m :: docs => loadLoop (update d m) docs
  | _ :: _ => .error .attributeError

/-- `yaml_as_dict` (L313-320). -/
def load (docs : List Y) : Except Err Es := loadLoop .nil docs

/-- `compare_yaml_files` (L310-325). -/
def compareFiles (first second : List Y) : Except Err Bool :=
  match load first with
  | .error e => .error e
  | .ok d₁ =>
    match load second with
    | .error e => .error e
    | .ok d₂ => .ok (eqY (.map d₁) (.map d₂))

end BTA.YamlFile
