import Mathlib.Data.List.DropRight
import Mathlib.Data.Char
/-
Model of beam_telescope_analysis/tools/storage_utils.py: `save_configuration_dict` (L23-68) and the decorator `save_arguments` (L71-96).

The decorated function is an arbitrary function on the state (files and the memory of the caller). Simplifications: a group exists exactly
if it is needed, so that the creation of the group (L42-45) has no effect of its own; the Python is Python 3 (a text that is not ASCII cannot
be stored in a `StringCol`); the output file is given by its name, with mode "a".
-/
namespace BTA.Save

abbrev Text := List Char

/-- A table of a configuration: the lines and the attribute `date_created`. -/
structure Table where
  rows : List (Text × Text)
  date : Option Text
  deriving DecidableEq

/-- A pytables file: tables by group and name. -/
abbrev H5 := Text → Text → Option Table

/-- What is found under a path: a pytables file, or another file. -/
inductive Entry
  | h5 (f : H5)
  | other

/-- The state: files by path (none: there is no such file) and the memory. -/
structure World (M : Type) where
  fs : Text → Option Entry
  mem : M

inductive Err
  /-- exception of the decorated function -/
  | func
  /-- UnicodeEncodeError -/
  | unicode
  /-- HDF5ExtError: not a pytables file -/
  | notH5
  deriving DecidableEq

/-- `date_created`: a float (seconds), a `time.struct_time`, or anything else. -/
inductive Date
  | seconds (t : Nat)
  | struct (t : Nat)
  | none

/-- The functions of the module `time`. -/
structure Clock where
  /-- `time.asctime(time.localtime(t))` -/
  local_ : Nat → Text
  /-- `time.asctime()` -/
  now : Text

/-- A text in a column `StringCol(n)`: cut after `n` characters; zeros at the end are lost. -/
def column (n : Nat) (s : Text) : Text := (s.take n).rdropWhile fun c => c = Char.ofNat 0

/-- The text can be stored. -/
def ascii (s : Text) : Bool := s.all fun c => decide (c.toNat < 128)

/-- L49-52: lines of the table; L18-20: 256 characters for the name, 32 * 1024 for the value. `none`: UnicodeEncodeError. -/
def rowsOf : List (Text × Text) → Option (List (Text × Text))
  | [] => some []
  | (k, v) :: l =>
    if ascii k && ascii v then
      match rowsOf l with
      | some r => some ((column 256 k, column (32 * 1024) v) :: r)
      | none => none
    else none

/-- The file with another table. -/
def setTable (f : H5) (group name : Text) (t : Table) : H5 :=
  fun g n => if g = group ∧ n = name then some t else f g n

/-- The table after an exception in L50-51: it has been created (L47), lines and attributes are not there. -/
def emptyTable : Table := ⟨[], none⟩

/-- L53-58: the attribute `date_created`; for a `struct_time` the text is made but not stored (L55-56). -/
def dateOf (c : Clock) : Date → Option Text
  | .seconds t => some (c.local_ t)
  | .struct _ => none
  | .none => some c.now

/-- `save_configuration_dict`, L23-68: the file afterwards. -/
def saveConf (c : Clock) (f : H5) (group name : Text) (dict : List (Text × Text)) (date : Date) : H5 × Option Err :=
  match rowsOf dict with
  | some rows => (setTable f group name ⟨rows, dateOf c date⟩, none)
  | none => (setTable f group name emptyTable, some .unicode)

/-- L64-68: with the path of the file; mode "a". -/
def saveFile {M : Type} (c : Clock) (path group name : Text) (dict : List (Text × Text)) (date : Date) (w : World M) :
    World M × Option Err :=
  match w.fs path with
  | some .other => (w, some .notH5)
  | some (.h5 f) =>
    ({ w with fs := fun p => if p = path then some (.h5 (saveConf c f group name dict date).1) else w.fs p }, (saveConf c f group name dict date).2)
  | none =>
    ({ w with fs := fun p => if p = path then some (.h5 (saveConf c (fun _ _ => none) group name dict date).1) else w.fs p },
      (saveConf c (fun _ _ => none) group name dict date).2)

/-- The value returned by a function. -/
inductive Ret
  | str (s : Text)
  | seq (l : List Ret)
  | other

/-- `isinstance(item, basestring) and os.path.isfile(item)` -/
def fileOf {M : Type} (w : World M) : Ret → Option Text
  | .str s => if (w.fs s).isSome then some s else none
  | _ => none

/-- `all(map(isinstance basestring)) and all(map(os.path.isfile))`: the names. -/
def filesOf {M : Type} (w : World M) : List Ret → Option (List Text)
  | [] => some []
  | r :: l =>
    match fileOf w r, filesOf w l with
    | some s, some ls => some (s :: ls)
    | _, _ => none

/-- L83-86: the first item is a file, or a list of files. -/
def firstOf {M : Type} (w : World M) : List Ret → List Text
  | [] => []
  | r :: _ =>
    match fileOf w r with
    | some s => [s]
    | none =>
      match r with
      | .seq l' => (filesOf w l').getD []
      | _ => []

/-- L77-86: `output_files`; None is the empty list, it makes no difference (L87). -/
def outputFiles {M : Type} (w : World M) : Ret → List Text
  | .str s => if (w.fs s).isSome then [s] else []
  | .seq l =>
    match filesOf w l with
    | some ls => ls
    | none => firstOf w l
  | .other => []

/-- A value in a dictionary: replaced if the key is there, else at the end. -/
def setKey {V : Type} (d : List (Text × V)) (k : Text) (v : V) : List (Text × V) :=
  if d.any fun e => decide (e.1 = k) then d.map fun e => if e.1 = k then (k, v) else e else d ++ [(k, v)]

/-- `dict(zip(all_parameters, args))` and `update(kwargs)`, L90-91. -/
def allKwargs {V : Type} (parameters : List Text) (args : List V) (kwargs : List (Text × V)) : List (Text × V) :=
  kwargs.foldl (fun d e => setKey d e.1 e.2) (parameters.zip args)

/-- L88-92: loop over the output files. -/
def saveAll {M : Type} (c : Clock) (name : Text) (dict : List (Text × Text)) (date : Date) : List Text → World M → World M × Option Err
  | [], w => (w, none)
  | p :: ps, w =>
    match saveFile c p "arguments".toList name dict date w with
    | (w', some e) => (w', some e)
    | (w', none) => saveAll c name dict date ps w'

/-- A function: its name, the names of its parameters, and what it does. -/
structure Func (M V : Type) where
  name : Text
  parameters : List Text
  run : List V → List (Text × V) → World M → World M × Except Unit Ret

/-- `save_arguments`, L71-96. `str`: the text of a value, which depends on the memory. `time`: seconds at the begin (L74). -/
def wrapper {M V : Type} (c : Clock) (str : M → V → Text) (f : Func M V) (time : Nat) (args : List V) (kwargs : List (Text × V))
    (w : World M) : World M × Except Err Ret :=
  match f.run args kwargs w with
  | (w', .error _) => (w', .error .func)
  | (w', .ok r) =>
    match saveAll c f.name ((allKwargs f.parameters args kwargs).map fun e => (e.1, str w'.mem e.2)) (.seconds time) (outputFiles w' r) w' with
    | (w'', some e) => (w'', .error e)
    | (w'', none) => (w'', .ok r)

end BTA.Save
