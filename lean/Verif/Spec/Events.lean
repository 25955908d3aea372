/-
Specification vocabulary for event arrays. Nothing here refers to the model of the code.
-/
namespace BTA.Spec

/-- The rows are sorted by event number (non-decreasing). -/
def SortedBy (ev : α → Int) (l : List α) : Prop := l.Pairwise (fun a b => ev a ≤ ev b)

/-- Event join: all pairs of rows with equal event number, in the order of `d1`, then of `d2`. -/
def join (ev1 : α → Int) (ev2 : β → Int) (d1 : List α) (d2 : List β) : List (α × β) :=
  d1.flatMap fun a => (d2.filter fun b => ev2 b = ev1 a).map fun b => (a, b)

/-- Number of pairs (row of `d1`, row of `d2`) with property `P`. -/
def pairCount (d1 : List α) (d2 : List β) (P : α → β → Bool) : Nat :=
  (d1.flatMap fun a => d2.map fun b => (a, b)).countP fun p => P p.1 p.2

/-- The `k`-th row (counted from 0) of event `e`. -/
def nthOfEvent (ev : β → Int) (l : List β) (e : Int) (k : Nat) : Option β :=
  (l.filter fun b => ev b = e)[k]?

/-- `start ≤ e < stop`, a missing bound is no restriction. -/
def inRange (start stop : Option Int) (e : Int) : Bool :=
  start.all (fun a => decide (a ≤ e)) && stop.all (fun b => decide (e < b))

/-- Number of rows of event `e`. -/
def multiplicity (ev : α → Int) (l : List α) (e : Int) : Nat := (l.filter fun r => ev r = e).length

/-- Largest number of rows of event `e` in one of the tables. -/
def maxMultiplicity (ev : α → Int) (tables : List (List α)) (e : Int) : Nat :=
  (tables.map fun T => multiplicity ev T e).foldl max 0

/-- Tables merged on the event numbers `events`: the `k`-th row of event `e` has in the column of each table the `k`-th
row of event `e` of this table, or nothing if there are fewer rows. -/
def rowsFor (ev : α → Int) (tables : List (List α)) (events : List Int) : List (Int × List (Option α)) :=
  events.zipIdx.map fun p => (p.1, tables.map fun T => nthOfEvent ev T p.1 ((events.take p.2).count p.1))

end BTA.Spec
