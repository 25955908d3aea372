import Mathlib.Data.List.Basic
import Mathlib.Algebra.Order.Field.Basic
import Mathlib.Algebra.Order.AbsoluteValue.Basic
/-
Model of `_call_function_with_args`, `create_fixture` and `check_with_fixture` in beam_telescope_analysis/tools/test_tools.py, L328-L410.
-/
namespace BTA.Fixture

/-- Value of a keyword argument: a list stands for several calls, everything else (numpy arrays as well) is given to the function as it is. -/
inductive Arg (V : Type) where
  | one (v : V)
  | many (vs : List V)

variable {N V K : Type}

/-- Loop over the values of `kwargs`, L343-L351: lists, constant arguments and their positions; `start` is the index of the first. -/
def splitArgs : Nat → List (N × Arg V) → List (List V) × List V × List Nat
  | _, [] => ([], [], [])
  | i, (_, .many vs) :: r => (vs :: (splitArgs (i + 1) r).1, (splitArgs (i + 1) r).2)
  | i, (_, .one v) :: r => ((splitArgs (i + 1) r).1, v :: (splitArgs (i + 1) r).2.1, i :: (splitArgs (i + 1) r).2.2)

/-- `itertools.product`: the last list varies fastest. -/
def product : List (List V) → List (List V)
  | [] => [[]]
  | l :: ls => l.flatMap fun x => (product ls).map (x :: ·)

/-- `list.insert` of Python for an index that is not negative: behind the last element if it is too large. -/
def pyInsert (l : List V) (i : Nat) (v : V) : List V := l.take i ++ v :: l.drop i

/-- Insertion of the constant arguments, L358-L360. -/
def insertFixed (l : List V) (positions : List Nat) (fixed : List V) : List V :=
  (positions.zip fixed).foldl (fun l p => pyInsert l p.1 p.2) l

/-- Arguments of all calls, L352-L362. A dictionary is a list of pairs (the names are different). -/
def callArgs (kwargs : List (N × Arg V)) : List (List (N × V)) :=
  let s := splitArgs 0 kwargs
  (product s.1).map fun call => (kwargs.map Prod.fst).zip (insertFixed call s.2.2 s.2.1)

/-- `_call_function_with_args`, L328-L365. -/
def callFunction {R : Type} (function : List (N × V) → R) (kwargs : List (N × Arg V)) : List R := (callArgs kwargs).map function

/-- `create_fixture`, L368-L395: the data of the fixture file; `none` is the error if an argument has no value, or if there is no result (an array of PyTables has at least one element). The result of a call is a number. -/
def createFixture [DecidableEq N] (names : List N) (function : List (N × V) → K) (kwargs : List (N × Arg V)) : Option (List K) :=
  if names.all fun n => decide (n ∈ kwargs.map Prod.fst) then
    (if (callFunction function kwargs).isEmpty then none else some (callFunction function kwargs))
  else none

variable [Field K] [LinearOrder K]

/-- Two arrays with one dimension after broadcasting; `none` is the error for shapes that do not fit. -/
def broadcast (u v : List K) : Option (List (K × K)) :=
  if u.length = v.length then some (u.zip v)
  else if u.length = 1 then some (v.map fun y => (u.headD 0, y))
  else if v.length = 1 then some (u.map fun x => (x, v.headD 0))
  else none

/-- `np.allclose` with tolerances. NaN and infinite values are not modelled. -/
def allclose (rtol atol : K) (u v : List K) : Option Bool :=
  (broadcast u v).map fun l => l.all fun p => decide (|p.1 - p.2| ≤ atol + rtol * |p.2|)

/-- `check_with_fixture`, L398-L410; the tolerances are the default values of numpy. -/
def checkWithFixture (rtol atol : K) (fixture : List K) (function : List (N × V) → K) (kwargs : List (N × Arg V)) : Option Bool :=
  allclose rtol atol fixture (callFunction function kwargs)

end BTA.Fixture
