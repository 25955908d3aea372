import Verif.Model.SaveArguments
/-
Specification of the record of arguments.
-/
namespace BTA.Save.Spec
open BTA.Save

/-- There is a file with this name. -/
def OnDisk {M : Type} (w : World M) (p : Text) : Prop := (w.fs p).isSome = true

/-- The item is the name of a file. -/
def IsFile {M : Type} (w : World M) : Ret → Prop
  | .str p => OnDisk w p
  | _ => False

/-- The files that a value stands for: a file; a list of files; several values, where the first is a file or a list of files. -/
inductive Stands {M : Type} (w : World M) : Ret → List Text → Prop
  | file (p : Text) : OnDisk w p → Stands w (.str p) [p]
  | files (ps : List Text) : (∀ p ∈ ps, OnDisk w p) → Stands w (.seq (ps.map Ret.str)) ps
  | first (p : Text) (rest : List Ret) : OnDisk w p → ¬ (∀ r ∈ rest, IsFile w r) → Stands w (.seq (.str p :: rest)) [p]
  | firstList (ps : List Text) (rest : List Ret) : (∀ p ∈ ps, OnDisk w p) → Stands w (.seq (.seq (ps.map Ret.str) :: rest)) ps

/-- The call fits to the parameters: no parameter has two values, and the values without a name are not more than the parameters. -/
structure Binds {V : Type} (parameters : List Text) (args : List V) (kwargs : List (Text × V)) : Prop where
  nodup : parameters.Nodup
  length : args.length ≤ parameters.length
  keys : (kwargs.map Prod.fst).Nodup
  once : ∀ k ∈ kwargs.map Prod.fst, k ∉ parameters.take args.length

/-- The values given by the caller with the names of the parameters: first those without a name, then those with a name. -/
def given {V : Type} (parameters : List Text) (args : List V) (kwargs : List (Text × V)) : List (Text × V) := parameters.zip args ++ kwargs

/-- The text is stored completely in a column of `n` characters. -/
def Fits (n : Nat) (s : Text) : Prop := s.length ≤ n ∧ s.getLast? ≠ some (Char.ofNat 0)

/-- The text contains ASCII characters only. -/
def IsAscii (s : Text) : Prop := ∀ c ∈ s, c.toNat < 128

/-- The table with this name in the group "arguments" of a file. -/
def record {M : Type} (w : World M) (path name : Text) : Option Table :=
  match w.fs path with
  | some (.h5 f) => f "arguments".toList name
  | _ => none

/-- `w'` is `w` but for tables with the name `name` in the group "arguments" of the given files. -/
def OnlyRecords {M : Type} (w w' : World M) (paths : List Text) (name : Text) : Prop :=
  w'.mem = w.mem ∧ (∀ p, p ∉ paths → w'.fs p = w.fs p) ∧
  ∀ p f, w.fs p = some (.h5 f) → ∃ f', w'.fs p = some (.h5 f') ∧ ∀ g n, g ≠ "arguments".toList ∨ n ≠ name → f' g n = f g n

end BTA.Save.Spec
