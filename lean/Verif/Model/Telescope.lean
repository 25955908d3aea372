import Mathlib.Data.List.Sort
import Mathlib.Order.MinMax
/-
Model of the configuration of a telescope: telescope/telescope.py (class `Telescope`) and the part of telescope/dut.py that
constructs DUTs and sets their attributes.

Simplifications: floating point numbers are values of a linearly ordered type `F` (there is no NaN), the conversions of Python
numbers and strings are the operations of `PyFloat`. Exceptions are values of `Err`. The text of a YAML file is not modelled,
only the value it denotes (see `yaml`). `inspect`, used by `Dut.__setattr__` to find out if it is called during `__init__`,
is replaced by the distinction between `construct` and `setAttr`.
-/
namespace BTA.Tel

/-- The exceptions that occur. -/
inductive Err | valueError | typeError | attributeError | keyError
  deriving DecidableEq, Repr

/-- The conversions of Python values to `float` and `int` (dut.py: `float(...)`, `int(...)`). -/
class PyFloat (F : Type) where
  /-- `float(i)` of an integer. -/
  ofInt : ℤ → F
  /-- A decimal constant in the source, `m / 10 ^ e`. -/
  dec : ℤ → ℕ → F
  /-- `float(s)` of a string. -/
  ofText : String → Option F
  /-- `int(x)` of a float. -/
  trunc : F → Option ℤ
  /-- `int(s)` of a string. -/
  intOfText : String → Option ℤ
  /-- `str(x)` of a float. -/
  repr : F → String

/-- Keys of dictionaries. -/
inductive Key | int (i : ℤ) | text (s : String)
  deriving DecidableEq, Repr

/-- Python values that occur in configurations. -/
inductive Value (F : Type)
  | null
  | bool (b : Bool)
  | int (i : ℤ)
  | flt (x : F)
  | text (s : String)
  | list (l : List (Value F))
  | tuple (l : List (Value F))
  | dict (d : List (Key × Value F))

/-- `key in d` and `d[key]`. -/
def get? {α : Type} (d : List (Key × α)) (k : Key) : Option α := d.lookup k

/-- `d[key] = value`: an existing key keeps its position. -/
def put {α : Type} : List (Key × α) → Key → α → List (Key × α)
  | [], k, v => [(k, v)]
  | (k', v') :: d, k, v => if k' = k then (k, v) :: d else (k', v') :: put d k v

/-- The order used by `sorted` for keys of the same type. -/
def keyLe : Key → Key → Bool
  | .int i, .int j => decide (i ≤ j)
  | .text s, .text t => decide (s ≤ t)
  | _, _ => false

/-- `sorted` raises TypeError unless all keys have the same type. -/
def sortable (keys : List Key) : Bool :=
  keys.all (fun k => match k with | .int _ => true | .text _ => false) ||
  keys.all (fun k => match k with | .int _ => false | .text _ => true)

/-- One step of sorting: insert an entry in front of the first entry that is not smaller. -/
def insertEntry {α : Type} (e : Key × α) : List (Key × α) → List (Key × α)
  | [] => [e]
  | e' :: d => if keyLe e.1 e'.1 then e :: e' :: d else e' :: insertEntry e d

/-- `sorted(d.items())`, used by `safe_dump`. -/
def sortEntries {α : Type} (d : List (Key × α)) : List (Key × α) := d.foldr insertEntry []

/-- `safe_dump` sorts the entries of a dictionary if the keys can be compared and leaves them as they are otherwise. -/
def dumpOrder {α : Type} (d : List (Key × α)) : List (Key × α) :=
  if sortable (d.map Prod.fst) then sortEntries d else d

mutual
/-- The value that `safe_load` gives for the text written by `safe_dump` (telescope.py L187-188, L148-149, L170-171):
tuples become lists and the entries of dictionaries are sorted; scalars are represented exactly. -/
def yaml {F : Type} : Value F → Value F
  | .null => .null
  | .bool b => .bool b
  | .int i => .int i
  | .flt x => .flt x
  | .text s => .text s
  | .list l => .list (yamlList l)
  | .tuple l => .list (yamlList l)
  | .dict d => .dict (dumpOrder (yamlDict d))
/-- `yaml` for the elements of a list. -/
def yamlList {F : Type} : List (Value F) → List (Value F)
  | [] => []
  | v :: l => yaml v :: yamlList l
/-- `yaml` for the values of a dictionary. -/
def yamlDict {F : Type} : List (Key × Value F) → List (Key × Value F)
  | [] => []
  | (k, v) :: d => (k, yaml v) :: yamlDict d
end

section
variable {F : Type} [PyFloat F]

/-- `float(value)`. -/
def toFloat : Value F → Except Err F
  | .flt x => .ok x
  | .int i => .ok (PyFloat.ofInt i)
  | .bool b => .ok (PyFloat.ofInt (if b then 1 else 0))
  | .text s => match PyFloat.ofText s with
    | some x => .ok x
    | none => .error .valueError
  | _ => .error .typeError

/-- `int(value)`. -/
def toInt : Value F → Except Err ℤ
  | .int i => .ok i
  | .bool b => .ok (if b then 1 else 0)
  | .flt x => match PyFloat.trunc x with
    | some i => .ok i
    | none => .error .valueError
  | .text s => match PyFloat.intOfText (F := F) s with
    | some i => .ok i
    | none => .error .valueError
  | _ => .error .typeError

/-- `str(value)`. Simplification: lists, tuples and dictionaries are refused (`str` would accept them). -/
def toStr : Value F → Except Err String
  | .text s => .ok s
  | .int i => .ok (toString i)
  | .bool b => .ok (if b then "True" else "False")
  | .flt x => .ok (PyFloat.repr x)
  | .null => .ok "None"
  | _ => .error .typeError

/-- The elements of a list or tuple. Simplification: strings and dictionaries are refused (Python would use their characters
and keys). -/
def items : Value F → Except Err (List (Value F))
  | .list l => .ok l
  | .tuple l => .ok l
  | _ => .error .typeError

/-- `mapM` for `toFloat`. -/
def floats : List (Value F) → Except Err (List F)
  | [] => .ok []
  | v :: l => do
    let x ← toFloat v
    let xs ← floats l
    .ok (x :: xs)

/-- The setters of `x_limit` and `y_limit`, dut.py L111-127. Simplification: the elements are converted to float before they are
compared. -/
def toLimit [LinearOrder F] : Value F → Except Err (Option (F × F))
  | .null => .ok none
  | v => do
    let l ← items v
    match ← floats l with
    | [] => .error .valueError
    | x :: xs => .ok (some (xs.foldl min x, xs.foldl max x))

/-- The setter of `intrinsic_resolution`, dut.py L141-146. IndexError is reported as ValueError. -/
def toPair : Value F → Except Err (Option (F × F))
  | .null => .ok none
  | v => do
    match ← items v with
    | x :: y :: _ => do
      let a ← toFloat x
      let b ← toFloat y
      .ok (some (a, b))
    | _ => .error .valueError

/-- The setter of `sensor_position`, dut.py L592-594. -/
def toPosition (v : Value F) : Except Err (ℤ × ℤ) := do
  match ← items v with
  | x :: y :: _ => do
    let a ← toInt x
    let b ← toInt y
    .ok (a, b)
  | _ => .error .valueError

/-- The classes of dut.py. -/
inductive Cls
  | dut | rectangular | doubleColumns | fei4 | rd53a | rd53a8x8 | itkPix | itkPix8x8 | tjMonopix1 | tjMonopix12x2 | psi46
  | mimosa26 | depfetH5z85 | depfetH5z55 | timepix3 | scatteringPlane | diamond3D | diamondPseudo3D
  deriving DecidableEq, Repr

/-- `c.__name__`, dut.py L9 ff. -/
def Cls.name : Cls → String
  | .dut => "Dut"
  | .rectangular => "RectangularPixelDut"
  | .doubleColumns => "RectangularPixelDutWithDoubleColumns"
  | .fei4 => "FEI4"
  | .rd53a => "RD53A"
  | .rd53a8x8 => "RD53A_8x8"
  | .itkPix => "ITkPix"
  | .itkPix8x8 => "ITkPix_8x8"
  | .tjMonopix1 => "TJMonopix1"
  | .tjMonopix12x2 => "TJMonopix1_2x2"
  | .psi46 => "PSI46"
  | .mimosa26 => "Mimosa26"
  | .depfetH5z85 => "DepfetH5z85"
  | .depfetH5z55 => "DepfetH5z55"
  | .timepix3 => "Timepix3"
  | .scatteringPlane => "ScatteringPlane"
  | .diamond3D => "Diamond3DpCVD"
  | .diamondPseudo3D => "DiamondPseudo3DpCVD"

/-- All classes. -/
def Cls.all : List Cls :=
  [.dut, .rectangular, .doubleColumns, .fei4, .rd53a, .rd53a8x8, .itkPix, .itkPix8x8, .tjMonopix1, .tjMonopix12x2, .psi46,
   .mimosa26, .depfetH5z85, .depfetH5z55, .timepix3, .scatteringPlane, .diamond3D, .diamondPseudo3D]

/-- `getattr(m, dut_type)`, telescope.py L198-200. Simplification: the other names of the module (`np`, `inspect`,
`geometry_utils`, `division`) raise TypeError when they are called; here they raise AttributeError. -/
def classOf (s : String) : Except Err Cls :=
  match Cls.all.find? (fun c => c.name = s) with
  | some c => .ok c
  | none => .error .attributeError

/-- The attributes of every DUT, dut.py L15. -/
def baseAttributes : List String :=
  ["name", "translation_x", "translation_y", "translation_z", "rotation_alpha", "rotation_beta", "rotation_gamma", "x_limit",
   "y_limit", "material_budget", "intrinsic_resolution"]

/-- `dut_attributes`, dut.py L15, L212, L406, L413, L420, L440, L496, L516, L523, L540, L547, L554, L561, L568, L575, L582, L702;
`RectangularPixelDutWithDoubleColumns` inherits L212. -/
def Cls.attributes : Cls → List String
  | .rectangular => baseAttributes ++ ["column_size", "row_size", "n_columns", "n_rows"]
  | .doubleColumns => baseAttributes ++ ["column_size", "row_size", "n_columns", "n_rows"]
  | .diamond3D => baseAttributes ++ ["sensor_position"]
  | .diamondPseudo3D => baseAttributes ++ ["sensor_position"]
  | _ => baseAttributes

/-- Size of the pixels and their number. -/
structure Pixels (F : Type) where
  columnSize : F
  rowSize : F
  nColumns : ℤ
  nRows : ℤ
  deriving DecidableEq

/-- The constants that the constructors of the classes pass to `RectangularPixelDut.__init__`, dut.py L409, L416, L423, L443, L499,
L519, L526, L543, L550, L557, L564, L571; the diamond sensors inherit those of FEI4 (L586, L706). -/
def Cls.pixels : Cls → Option (Pixels F)
  | .fei4 => some ⟨PyFloat.dec 250 0, PyFloat.dec 50 0, 80, 336⟩
  | .rd53a => some ⟨PyFloat.dec 50 0, PyFloat.dec 50 0, 400, 192⟩
  | .rd53a8x8 => some ⟨PyFloat.dec 50 0, PyFloat.dec 50 0, 400, 192⟩
  | .itkPix => some ⟨PyFloat.dec 50 0, PyFloat.dec 50 0, 400, 384⟩
  | .itkPix8x8 => some ⟨PyFloat.dec 50 0, PyFloat.dec 50 0, 400, 384⟩
  | .tjMonopix1 => some ⟨PyFloat.dec 40 0, PyFloat.dec 36 0, 112, 224⟩
  | .tjMonopix12x2 => some ⟨PyFloat.dec 40 0, PyFloat.dec 36 0, 112, 224⟩
  | .psi46 => some ⟨PyFloat.dec 150 0, PyFloat.dec 100 0, 52, 80⟩
  | .mimosa26 => some ⟨PyFloat.dec 184 1, PyFloat.dec 184 1, 1152, 576⟩
  | .depfetH5z85 => some ⟨PyFloat.dec 50 0, PyFloat.dec 85 0, 64, 64⟩
  | .depfetH5z55 => some ⟨PyFloat.dec 50 0, PyFloat.dec 55 0, 64, 64⟩
  | .timepix3 => some ⟨PyFloat.dec 55 0, PyFloat.dec 55 0, 256, 256⟩
  | .diamond3D => some ⟨PyFloat.dec 250 0, PyFloat.dec 50 0, 80, 336⟩
  | .diamondPseudo3D => some ⟨PyFloat.dec 250 0, PyFloat.dec 50 0, 80, 336⟩
  | _ => none

/-- The default of the argument `intrinsic_resolution`: (3.5, 3.5) for Mimosa26 (dut.py L549), None otherwise. -/
def Cls.defaultResolution : Cls → Value F
  | .mimosa26 => .tuple [.flt (PyFloat.dec 35 1), .flt (PyFloat.dec 35 1)]
  | _ => .null

/-- A DUT. -/
structure Dut (F : Type) where
  cls : Cls
  name : String
  tx : F
  ty : F
  tz : F
  ra : F
  rb : F
  rg : F
  xLimit : Option (F × F)
  yLimit : Option (F × F)
  material : F
  resolution : Option (F × F)
  /-- `column_size`, `row_size`, `n_columns`, `n_rows`; none for classes without pixels. -/
  pixels : Option (Pixels F)
  /-- `sensor_position`; none for classes without. -/
  position : Option (ℤ × ℤ)
  deriving DecidableEq

/-- A required argument of a constructor: TypeError if it is missing. -/
def required (kw : List (Key × Value F)) (name : String) : Except Err (Value F) :=
  match get? kw (.text name) with
  | some v => .ok v
  | none => .error .typeError

/-- An optional argument of a constructor. -/
def optional (kw : List (Key × Value F)) (name : String) (default : Value F) : Value F :=
  (get? kw (.text name)).getD default

/-- `0.0 if material_budget is None else material_budget`, dut.py L27. -/
def materialArg : Value F → Value F
  | .null => .flt (PyFloat.dec 0 0)
  | v => v

/-- The size and number of pixels of a new DUT: constants of the class, or arguments (dut.py L214-219), or none. -/
def pixelsArg (c : Cls) (kw : List (Key × Value F)) : Except Err (Option (Pixels F)) :=
  match c with
  | .dut => .ok none
  | .scatteringPlane => .ok none
  | .rectangular => fromArgs
  | .doubleColumns => fromArgs
  | c => .ok c.pixels
where fromArgs : Except Err (Option (Pixels F)) := do
  let a ← toFloat (← required kw "column_size")
  let b ← toFloat (← required kw "row_size")
  let m ← toInt (← required kw "n_columns")
  let n ← toInt (← required kw "n_rows")
  .ok (some ⟨a, b, m, n⟩)

/-- The sensor position of a new DUT, dut.py L584-585, L704-705. -/
def positionArg (c : Cls) (kw : List (Key × Value F)) : Except Err (Option (ℤ × ℤ)) :=
  match c with
  | .diamond3D => fromArgs
  | .diamondPseudo3D => fromArgs
  | _ => .ok none
where fromArgs : Except Err (Option (ℤ × ℤ)) := do
  let p ← toPosition (← required kw "sensor_position")
  .ok (some p)

/-- Every keyword must be an argument of the constructor; the arguments of the constructors are the attributes of the class. -/
def knownArgs (c : Cls) (kw : List (Key × Value F)) : Bool :=
  kw.all (fun e => c.attributes.any (fun a => e.1 = .text a))

/-- `c(**kwargs)`, dut.py L17-28, L214-219 and the other `__init__`. Simplification: the order in which the arguments are
converted, which decides about the kind of the exception if there are several reasons. -/
def construct [LinearOrder F] (c : Cls) (kw : List (Key × Value F)) : Except Err (Dut F) :=
  if knownArgs c kw then do
    let name ← toStr (← required kw "name")
    let tx ← toFloat (← required kw "translation_x")
    let ty ← toFloat (← required kw "translation_y")
    let tz ← toFloat (← required kw "translation_z")
    let ra ← toFloat (← required kw "rotation_alpha")
    let rb ← toFloat (← required kw "rotation_beta")
    let rg ← toFloat (← required kw "rotation_gamma")
    let xl ← toLimit (optional kw "x_limit" .null)
    let yl ← toLimit (optional kw "y_limit" .null)
    let mb ← toFloat (materialArg (optional kw "material_budget" .null))
    let ir ← toPair (optional kw "intrinsic_resolution" c.defaultResolution)
    let px ← pixelsArg c kw
    let sp ← positionArg c kw
    .ok ⟨c, name, tx, ty, tz, ra, rb, rg, xl, yl, mb, ir, px, sp⟩
  else .error .typeError

/-- A change of the size or number of pixels. -/
def setPixels (d : Dut F) (f : Pixels F → Except Err (Pixels F)) : Except Err (Dut F) :=
  match d.pixels with
  | some p => do
    let p' ← f p
    .ok { d with pixels := some p' }
  | none => .error .valueError

/-- `setattr(dut, name, value)` by the user: `Dut.__setattr__`, dut.py L30-45, and the setters of the properties.
Simplification: the underscored names of the attributes, that would be set without conversion, are refused. -/
def setAttr [LinearOrder F] (d : Dut F) (attr : String) (v : Value F) : Except Err (Dut F) :=
  if attr ∈ d.cls.attributes then
    if attr = "name" then do let x ← toStr v; .ok { d with name := x }
    else if attr = "translation_x" then do let x ← toFloat v; .ok { d with tx := x }
    else if attr = "translation_y" then do let x ← toFloat v; .ok { d with ty := x }
    else if attr = "translation_z" then do let x ← toFloat v; .ok { d with tz := x }
    else if attr = "rotation_alpha" then do let x ← toFloat v; .ok { d with ra := x }
    else if attr = "rotation_beta" then do let x ← toFloat v; .ok { d with rb := x }
    else if attr = "rotation_gamma" then do let x ← toFloat v; .ok { d with rg := x }
    else if attr = "x_limit" then do let x ← toLimit v; .ok { d with xLimit := x }
    else if attr = "y_limit" then do let x ← toLimit v; .ok { d with yLimit := x }
    else if attr = "material_budget" then do let x ← toFloat v; .ok { d with material := x }
    else if attr = "intrinsic_resolution" then do let x ← toPair v; .ok { d with resolution := x }
    else if attr = "column_size" then setPixels d (fun p => do let x ← toFloat v; .ok { p with columnSize := x })
    else if attr = "row_size" then setPixels d (fun p => do let x ← toFloat v; .ok { p with rowSize := x })
    else if attr = "n_columns" then setPixels d (fun p => do let x ← toInt v; .ok { p with nColumns := x })
    else if attr = "n_rows" then setPixels d (fun p => do let x ← toInt v; .ok { p with nRows := x })
    else if attr = "sensor_position" then do let x ← toPosition v; .ok { d with position := some x }
    else .error .valueError
  else .error .valueError

/-- A pair of floats or None as a Python value. -/
def pairValue : Option (F × F) → Value F
  | none => .null
  | some (a, b) => .tuple [.flt a, .flt b]

/-- `getattr(dut, name)`. -/
def getAttr (d : Dut F) (attr : String) : Value F :=
  if attr = "name" then .text d.name
  else if attr = "translation_x" then .flt d.tx
  else if attr = "translation_y" then .flt d.ty
  else if attr = "translation_z" then .flt d.tz
  else if attr = "rotation_alpha" then .flt d.ra
  else if attr = "rotation_beta" then .flt d.rb
  else if attr = "rotation_gamma" then .flt d.rg
  else if attr = "x_limit" then pairValue d.xLimit
  else if attr = "y_limit" then pairValue d.yLimit
  else if attr = "material_budget" then .flt d.material
  else if attr = "intrinsic_resolution" then pairValue d.resolution
  else if attr = "column_size" then ((d.pixels.map (fun p => .flt p.columnSize)).getD .null)
  else if attr = "row_size" then ((d.pixels.map (fun p => .flt p.rowSize)).getD .null)
  else if attr = "n_columns" then ((d.pixels.map (fun p => .int p.nColumns)).getD .null)
  else if attr = "n_rows" then ((d.pixels.map (fun p => .int p.nRows)).getD .null)
  else if attr = "sensor_position" then ((d.position.map (fun p => .tuple [.int p.1, .int p.2])).getD .null)
  else .null

/-- `Dut.from_dut`, dut.py L149-156: the common attributes of both classes, updated with the keyword arguments. -/
def fromDut [LinearOrder F] (c : Cls) (d : Dut F) (kw : List (Key × Value F)) : Except Err (Dut F) :=
  let common := (c.attributes.filter (fun a => a ∈ d.cls.attributes)).map (fun a => (Key.text a, getAttr d a))
  construct c (kw.foldl (fun acc e => put acc e.1 e.2) common)

/-- The attributes of the telescope, telescope.py L43. -/
structure Frame (F : Type) where
  tx : F
  ty : F
  tz : F
  ra : F
  rb : F
  rg : F
  deriving DecidableEq

/-- `telescope_attributes`, telescope.py L43. -/
def frameAttributes : List String :=
  ["translation_x", "translation_y", "translation_z", "rotation_alpha", "rotation_beta", "rotation_gamma"]

/-- `getattr(self, name)` for the names in `telescope_attributes`. -/
def frameGet (f : Frame F) (attr : String) : Value F :=
  if attr = "translation_x" then .flt f.tx
  else if attr = "translation_y" then .flt f.ty
  else if attr = "translation_z" then .flt f.tz
  else if attr = "rotation_alpha" then .flt f.ra
  else if attr = "rotation_beta" then .flt f.rb
  else .flt f.rg

/-- `setattr(self, key, value)` for the names in `telescope_attributes`, telescope.py L92-138. -/
def frameSet (f : Frame F) (attr : String) (v : Value F) : Except Err (Frame F) := do
  let x ← toFloat v
  if attr = "translation_x" then .ok { f with tx := x }
  else if attr = "translation_y" then .ok { f with ty := x }
  else if attr = "translation_z" then .ok { f with tz := x }
  else if attr = "rotation_alpha" then .ok { f with ra := x }
  else if attr = "rotation_beta" then .ok { f with rb := x }
  else .ok { f with rg := x }

/-- A telescope. -/
structure Telescope (F : Type) where
  frame : Frame F
  duts : List (Key × Dut F)
  /-- `configuration_file`, if it was set. -/
  file : Option String

/-- `Telescope()`, telescope.py L45-52. -/
def Telescope.new : Telescope F :=
  { frame := ⟨PyFloat.dec 0 0, PyFloat.dec 0 0, PyFloat.dec 0 0, PyFloat.dec 0 0, PyFloat.dec 0 0, PyFloat.dec 0 0⟩
    duts := []
    file := none }

/-- `__getitem__`, telescope.py L59-60. -/
def Telescope.item (t : Telescope F) (k : Key) : Except Err (Dut F) :=
  match get? t.duts k with
  | some d => .ok d
  | none => .error .keyError

/-- `__setitem__` with a DUT, telescope.py L62-65. -/
def Telescope.setItem (t : Telescope F) (k : Key) (d : Dut F) : Telescope F := { t with duts := put t.duts k d }

/-- `add_dut` with the name of the class, telescope.py L192-201. -/
def Telescope.addDut [LinearOrder F] (t : Telescope F) (cls : String) (id : Key) (kw : List (Key × Value F)) :
    Except Err (Telescope F) :=
  match id with
  | .text _ => .error .valueError
  | .int i => do
    let kw' := if (get? kw (.text "name")).isSome then kw else put kw (.text "name") (.text ("DUT" ++ toString i))
    let c ← classOf cls
    let d ← construct c kw'
    .ok (t.setItem (.int i) d)

/-- `__iter__`, telescope.py L67-69. -/
def Telescope.iter (t : Telescope F) : Except Err (List (Dut F)) :=
  if sortable (t.duts.map Prod.fst) then .ok ((sortEntries t.duts).map Prod.snd) else .error .typeError

/-- The files: the value denoted by the YAML text of a file, if the file exists. -/
abbrev Files (F : Type) := String → Option (Value F)

/-- L141-144, L163-166: the name of the file and the telescope that remembers it. An empty name counts as not given. -/
def Telescope.fileName (t : Telescope F) (arg : Option String) : Except Err (String × Telescope F) :=
  match arg with
  | some f => if f = "" then known else .ok (f, { t with file := some f })
  | none => known
where known : Except Err (String × Telescope F) :=
  match t.file with
  | some f => .ok (f, t)
  | none => .error .attributeError

/-- `dut_configuration.pop("dut_type", "RectangularPixelDut")`, L156, and the keywords for `add_dut`. A keyword that is not a
string, or that is an argument of `add_dut`, raises TypeError. -/
def dutArgs : Value F → Except Err (Value F × List (Key × Value F))
  | .dict conf =>
    let ty := (get? conf (.text "dut_type")).getD (.text "RectangularPixelDut")
    let kw := conf.filter (fun e => e.1 ≠ .text "dut_type")
    if kw.all (fun e => match e.1 with | .text s => s ≠ "dut_id" | .int _ => false) then .ok (ty, kw) else .error .typeError
  | _ => .error .attributeError

/-- One pass of the loop L155-157. `add_dut` raises ValueError if the type is not a string (L205-206). -/
def loadDut [LinearOrder F] (t : Telescope F) (id : Key) (conf : Value F) : Except Err (Telescope F) := do
  let (ty, kw) ← dutArgs conf
  match ty, id with
  | .text cls, id => t.addDut cls id kw
  | _, _ => .error .valueError

/-- The loop L155-157. The telescope is kept if an exception occurs. -/
def loadDuts [LinearOrder F] (t : Telescope F) : List (Key × Value F) → Telescope F × Option Err
  | [] => (t, none)
  | (id, conf) :: l => match loadDut t id conf with
    | .ok t' => loadDuts t' l
    | .error e => (t, some e)

/-- The loop L158-160. -/
def loadFrame (t : Telescope F) : List (Key × Value F) → Telescope F × Option Err
  | [] => (t, none)
  | (.int _, _) :: l => loadFrame t l
  | (.text s, v) :: l =>
    if s ∈ frameAttributes then
      match frameSet t.frame s v with
      | .ok f => loadFrame { t with frame := f } l
      | .error e => (t, some e)
    else loadFrame t l

/-- L153-160 for the section `TELESCOPE`. Simplification: a section that is not a dictionary raises TypeError, also if it is an
empty list or a string, which would be ignored or raise AttributeError. -/
def loadSection [LinearOrder F] (t : Telescope F) : Value F → Telescope F × Option Err
  | .dict sec => match get? sec (.text "DUT") with
    | some (.dict duts) => match loadDuts t duts with
      | (t', none) => loadFrame t' sec
      | (t', some e) => (t', some e)
    | some _ => (t, some .attributeError)
    | none => loadFrame t sec
  | _ => (t, some .typeError)

/-- L153-160. A file that is empty or has no section `TELESCOPE` changes nothing. Simplification: a file that denotes neither a
dictionary nor None raises TypeError. -/
def loadValue [LinearOrder F] (t : Telescope F) : Value F → Telescope F × Option Err
  | .null => (t, none)
  | .dict conf => match get? conf (.text "TELESCOPE") with
    | some sec => loadSection t sec
    | none => (t, none)
  | _ => (t, some .typeError)

/-- `load_configuration`, L140-160. -/
def Telescope.load [LinearOrder F] (t : Telescope F) (arg : Option String) (files : Files F) : Telescope F × Option Err :=
  match t.fileName arg with
  | .error e => (t, some e)
  | .ok (f, t') => match files f with
    | none => (t', some .valueError)
    | some v => loadValue t' v

/-- The configuration of a DUT, L182-183. -/
def dutConf (d : Dut F) : List (Key × Value F) :=
  put (d.cls.attributes.map (fun a => (Key.text a, getAttr d a))) (.text "dut_type") (.text d.cls.name)

/-- L177-184 for the section `TELESCOPE`. -/
def saveSection (t : Telescope F) (sec : List (Key × Value F)) : List (Key × Value F) :=
  put (frameAttributes.foldl (fun s a => put s (.text a) (frameGet t.frame a)) sec) (.text "DUT")
    (.dict (t.duts.foldl (fun s e => put s e.1 (.dict (dutConf e.2))) []))

/-- L175-186: the configuration to be written, from the configuration that was read. Anything but a dictionary raises TypeError. -/
def saveValue (t : Telescope F) : Value F → Except Err (Value F)
  | .dict conf => match get? conf (.text "TELESCOPE") with
    | none => .ok (.dict (put conf (.text "TELESCOPE") (.dict (saveSection t []))))
    | some (.dict sec) => .ok (.dict (put conf (.text "TELESCOPE") (.dict (saveSection t sec))))
    | some _ => .error .typeError
  | _ => .error .typeError

/-- `save_configuration`, L162-190: the telescope and the files afterwards. -/
def Telescope.save (t : Telescope F) (arg : Option String) (keepOthers : Bool) (files : Files F) :
    Except Err (Telescope F × Files F) := do
  let (f, t') ← t.fileName arg
  let old := if keepOthers then (files f).getD (.dict []) else .dict []
  let conf ← saveValue t' old
  .ok (t', fun g => if g = f then some (yaml conf) else files g)

end
end BTA.Tel
