import Verif.Model.Fixture
import Mathlib.Algebra.BigOperators.Group.List.Basic
import Mathlib.Algebra.Order.Ring.Rat
import Mathlib.Algebra.Field.Rat
/-
C183: calls with all combinations of arguments. C184: comparison with fixtures.
-/
namespace BTA.Fixture.Props
open BTA.Fixture

variable {N V K : Type}

/-- A value given for an argument, in one of the calls. -/
def Allowed : Arg V → V → Prop
  | .one v, x => x = v
  | .many vs, x => x ∈ vs

/-- Number of values of an argument. -/
def choices : Arg V → Nat
  | .one _ => 1
  | .many vs => vs.length

/-- Nested loops over the arguments, the last one innermost. -/
def nestedLoops : List (N × Arg V) → List (List (N × V))
  | [] => [[]]
  | (k, .one v) :: r => (nestedLoops r).map ((k, v) :: ·)
  | (k, .many vs) :: r => vs.flatMap fun v => (nestedLoops r).map ((k, v) :: ·)

theorem splitArgs_shift (i : Nat) (l : List (N × Arg V)) :
    splitArgs (i + 1) l = ((splitArgs i l).1, (splitArgs i l).2.1, (splitArgs i l).2.2.map (· + 1)) := by
  induction l generalizing i with
  | nil => rfl
  | cons a r ih =>
    obtain ⟨k, a⟩ := a
    cases a <;> simp [splitArgs, ih (i + 1)]

theorem insertFixed_shift (x : V) (l : List V) (pos : List Nat) (fixed : List V) :
    insertFixed (x :: l) (pos.map (· + 1)) fixed = x :: insertFixed l pos fixed := by
  unfold insertFixed
  induction pos generalizing l fixed with
  | nil => rfl
  | cons p pos ih =>
    cases fixed with
    | nil => rfl
    | cons v fixed =>
      simp only [List.map_cons, List.zip_cons_cons, List.foldl_cons]
      have : pyInsert (x :: l) (p + 1) v = x :: pyInsert l p v := by simp [pyInsert]
      rw [this, ih]

theorem splitArgs_length (i : Nat) (l : List (N × Arg V)) : (splitArgs i l).2.1.length = (splitArgs i l).2.2.length := by
  induction l generalizing i with
  | nil => rfl
  | cons a r ih =>
    obtain ⟨k, a⟩ := a
    cases a <;> simp [splitArgs, ih]

/-- C183: the calls are those of nested loops over the arguments in the order of the keywords; each value is given for its own keyword. -/
theorem C183_calls (kwargs : List (N × Arg V)) {R : Type} (function : List (N × V) → R) :
    callFunction function kwargs = (nestedLoops kwargs).map function := by
  unfold callFunction
  congr 1
  induction kwargs with
  | nil => rfl
  | cons a r ih =>
    obtain ⟨k, a⟩ := a
    unfold callArgs at ih ⊢
    cases a with
    | one v =>
      simp only [splitArgs, nestedLoops, splitArgs_shift 0 r, List.map_cons]
      rw [← ih, List.map_map]
      apply List.map_congr_left
      intro call _
      have : insertFixed call (0 :: (splitArgs 0 r).2.2.map (· + 1)) (v :: (splitArgs 0 r).2.1) = v :: insertFixed call (splitArgs 0 r).2.2 (splitArgs 0 r).2.1 := by
        rw [← insertFixed_shift]
        simp [insertFixed, pyInsert]
      rw [this]
      rfl
    | many vs =>
      simp only [splitArgs, nestedLoops, splitArgs_shift 0 r, List.map_cons, product]
      rw [← ih, List.map_flatMap]
      congr 1
      funext v
      rw [List.map_map, List.map_map]
      apply List.map_congr_left
      intro call _
      simp [insertFixed_shift]

/-- C183: a call is made exactly for the choices of a value for each keyword. -/
theorem C183_all_combinations (kwargs : List (N × Arg V)) (call : List (N × V)) :
    call ∈ callFunction id kwargs ↔ List.Forall₂ (fun (a : N × Arg V) c => c.1 = a.1 ∧ Allowed a.2 c.2) kwargs call := by
  rw [C183_calls, List.map_id]
  induction kwargs generalizing call with
  | nil => simp [nestedLoops]
  | cons a r ih =>
    obtain ⟨k, a⟩ := a
    cases call with
    | nil => cases a <;> simp [nestedLoops]
    | cons c call =>
      obtain ⟨k', x⟩ := c
      rw [List.forall₂_cons, ← ih]
      cases a with
      | one v => simp [nestedLoops, Allowed]; tauto
      | many vs =>
        simp only [nestedLoops, Allowed, List.mem_flatMap, List.mem_map, List.cons.injEq, Prod.mk.injEq]
        constructor
        · rintro ⟨v, h1, l, h2, ⟨rfl, rfl⟩, rfl⟩
          exact ⟨⟨rfl, h1⟩, h2⟩
        · rintro ⟨⟨rfl, h1⟩, h2⟩
          exact ⟨x, h1, call, h2, ⟨rfl, rfl⟩, rfl⟩

/-- C183: the number of calls is the product of the numbers of values. -/
theorem C183_number (kwargs : List (N × Arg V)) {R : Type} (function : List (N × V) → R) :
    (callFunction function kwargs).length = (kwargs.map fun a => choices a.2).prod := by
  rw [C183_calls, List.length_map]
  induction kwargs with
  | nil => rfl
  | cons a r ih =>
    obtain ⟨k, a⟩ := a
    cases a with
    | one v => simp [nestedLoops, choices, ih]
    | many vs => simp [nestedLoops, choices, List.length_flatMap, ih]

example : callFunction id [("a", Arg.one 1), ("b", Arg.many [2, 3]), ("c", Arg.one 4), ("d", Arg.many [5, 6])] =
    [[("a", 1), ("b", 2), ("c", 4), ("d", 5)], [("a", 1), ("b", 2), ("c", 4), ("d", 6)], [("a", 1), ("b", 3), ("c", 4), ("d", 5)], [("a", 1), ("b", 3), ("c", 4), ("d", 6)]] := by decide

variable [Field K] [LinearOrder K]

/-- C184: with as many results as values in the fixture, the check passes exactly if each result agrees with the value of its own call. -/
theorem C184_check_partial (rtol atol : K) (fixture : List K) (function : List (N × V) → K) (kwargs : List (N × Arg V)) (hl : fixture.length = (callFunction function kwargs).length) :
    ∃ r, checkWithFixture rtol atol fixture function kwargs = some r ∧
      (r = true ↔ List.Forall₂ (fun x call => |x - function call| ≤ atol + rtol * |function call|) fixture (nestedLoops kwargs)) := by
  unfold checkWithFixture allclose broadcast
  rw [if_pos hl, C183_calls]
  refine ⟨_, rfl, ?_⟩
  rw [C183_calls, List.length_map] at hl
  generalize nestedLoops kwargs = calls at hl ⊢
  induction fixture generalizing calls with
  | nil =>
    cases calls with
    | nil => simp
    | cons => simp at hl
  | cons x fixture ih =>
    cases calls with
    | nil => simp at hl
    | cons c calls =>
      rw [List.forall₂_cons, ← ih calls (by simpa using hl)]
      simp

/-- C184: a fixture made from the function itself is accepted. -/
theorem C184_own_fixture [IsStrictOrderedRing K] [DecidableEq N] (rtol atol : K) (hr : 0 ≤ rtol) (ha : 0 ≤ atol) (names : List N) (function : List (N × V) → K) (kwargs : List (N × Arg V))
    (fixture : List K) (h : createFixture names function kwargs = some fixture) : checkWithFixture rtol atol fixture function kwargs = some true := by
  unfold createFixture at h
  split at h
  · split at h
    · cases h
    obtain rfl := Option.some.inj h
    obtain ⟨r, h1, h2⟩ := C184_check_partial rtol atol (callFunction function kwargs) function kwargs rfl
    rw [h1, h2.mpr ?_]
    rw [C183_calls]
    rw [List.forall₂_map_left_iff]
    apply List.forall₂_same.mpr
    intro c _
    rw [sub_self, abs_zero]
    exact add_nonneg ha (mul_nonneg hr (abs_nonneg _))
  · cases h

/-- C184 is false for other numbers of results: a fixture with one value is compared with the results of all calls. -/
theorem C184_one_value (rtol atol x : K) (function : List (N × V) → K) (kwargs : List (N × Arg V)) (h : ∀ call ∈ nestedLoops kwargs, |x - function call| ≤ atol + rtol * |function call|) :
    checkWithFixture rtol atol [x] function kwargs = some true := by
  unfold checkWithFixture allclose broadcast
  rw [C183_calls]
  split
  · rename_i hl
    match hc : nestedLoops kwargs with
    | [] => simp [hc] at hl
    | [c] => rw [hc] at h; simpa using h c (by simp)
    | _ :: _ :: _ => simp [hc] at hl
  · simp only [List.length_singleton, if_true, Option.map_some, Option.some.injEq, List.all_map, List.headD_cons, List.all_eq_true, Function.comp_def, decide_eq_true_eq]
    exact h

/-- C184: other numbers of results are an error. -/
theorem C184_error (rtol atol : K) (fixture : List K) (function : List (N × V) → K) (kwargs : List (N × Arg V)) (h1 : fixture.length ≠ (callFunction function kwargs).length)
    (h2 : fixture.length ≠ 1) (h3 : (callFunction function kwargs).length ≠ 1) : checkWithFixture rtol atol fixture function kwargs = none := by
  unfold checkWithFixture allclose broadcast
  rw [if_neg h1, if_neg h2, if_neg h3]
  rfl

/-- Function with two arguments. -/
def exFunction (call : List (String × ℚ)) : ℚ := (call.map Prod.snd).sum

example : checkWithFixture (1 / 100) 0 [12, 13] exFunction [("x", Arg.one 10), ("y", Arg.many [2, 3])] = some true ∧
    checkWithFixture (1 / 100) 0 [13, 12] exFunction [("x", Arg.one 10), ("y", Arg.many [2, 3])] = some false ∧
    createFixture ["x", "y"] exFunction [("x", Arg.one 10), ("y", Arg.many [2, 3])] = some [12, 13] ∧
    createFixture ["x", "z"] exFunction [("x", Arg.one 10), ("y", Arg.many [2, 3])] = none := by decide +kernel

end BTA.Fixture.Props
