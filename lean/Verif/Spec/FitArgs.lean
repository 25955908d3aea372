import Verif.Model.FitArgs
import Mathlib.Data.List.Forall2
/-
What the arguments of `fit_tracks` mean, as described in its documentation. `n` is the number of DUTs of the telescope, `m` the number of
selected DUTs.
-/
namespace BTA.FitArgs.Spec
open BTA.Fit BTA.FitArgs

/-- The value is the number of a DUT (`True` and `False` are numbers in Python). -/
def IsDut (n : Nat) (v : Py) (d : Nat) : Prop := d < n ∧ (v = .int d ∨ ∃ b : Bool, v = .bool b ∧ d = b.toNat)

/-- The value is a sequence with these items. -/
def IsSeq (v : Py) (l : List Py) : Prop := v = .list l ∨ v = .tuple l

/-- The value is a sequence of DUTs. -/
def Duts (n : Nat) (v : Py) (ds : List Nat) : Prop := ∃ l, IsSeq v l ∧ List.Forall₂ (IsDut n) l ds

/-- select_duts: None for all DUTs, a single DUT, or different DUTs. -/
inductive SelectMeans (n : Nat) : Py → List Nat → Prop
  | all : SelectMeans n .none (List.range n)
  | one (v : Py) (d : Nat) : IsDut n v d → SelectMeans n v [d]
  | many (v : Py) (ds : List Nat) : Duts n v ds → ds.Nodup → SelectMeans n v ds

/-- select_fit_duts, select_hit_duts: None for the default, a list for all selected DUTs, or a list for each selected DUT with None for the
default. A tuple has no None. -/
inductive ListMeans (n m : Nat) (default : List Nat) : Py → List (List Nat) → Prop
  | nothing : ListMeans n m default .none (List.replicate m default)
  | same (v : Py) (ds : List Nat) : Duts n v ds → ListMeans n m default v (List.replicate m ds)
  | each (l : List Py) (ls : List (List Nat)) : l.length = m →
      List.Forall₂ (fun x ds => x = .none ∧ ds = default ∨ Duts n x ds) l ls → ListMeans n m default (.list l) ls
  | eachTuple (l : List Py) (ls : List (List Nat)) : l.length = m → List.Forall₂ (Duts n) l ls → ListMeans n m default (.tuple l) ls

/-- The value is a number. -/
def IsNumber (v : Py) (q : ℚ) : Prop := v = .float q ∨ (∃ i : Int, v = .int i ∧ q = i) ∨ ∃ b : Bool, v = .bool b ∧ q = b.toNat

/-- The value is a pair of numbers. -/
def IsPair (v : Py) (p : ℚ × ℚ) : Prop := ∃ x y, IsSeq v [x, y] ∧ IsNumber x p.1 ∧ IsNumber y p.2

/-- quality_distances, isolation_distances: None or a tuple for all DUTs of the telescope, or a list with an item for each DUT. -/
inductive DistMeans (n : Nat) : Py → List (Option (ℚ × ℚ)) → Prop
  | nothing : DistMeans n .none (List.replicate n none)
  | same (l : List Py) (p : ℚ × ℚ) : IsPair (.tuple l) p → DistMeans n (.tuple l) (List.replicate n (some p))
  | each (l : List Py) (ds : List (Option (ℚ × ℚ))) : l.length = n →
      List.Forall₂ (fun x d => x = .none ∧ d = none ∨ ∃ p, IsPair x p ∧ d = some p) l ds → DistMeans n (.list l) ds

/-- exclude_dut_hit: True or False, or a value for each selected DUT. -/
inductive ExcludeMeans (m : Nat) : Py → List Bool → Prop
  | same (b : Bool) : ExcludeMeans m (.bool b) (List.replicate m b)
  | each (v : Py) (bs : List Bool) : IsSeq v (bs.map Py.bool) → bs.length = m → ExcludeMeans m v bs

/-- The value is None or a number of hits. -/
def IsMinHits (v : Py) (k : Option Nat) : Prop :=
  v = .none ∧ k = none ∨ (∃ i : Nat, v = .int i ∧ k = some i) ∨ ∃ b : Bool, v = .bool b ∧ k = some b.toNat

/-- min_track_hits: a value, or a value for each selected DUT. -/
inductive MinMeans (m : Nat) : Py → List (Option Nat) → Prop
  | same (v : Py) (k : Option Nat) : IsMinHits v k → MinMeans m v (List.replicate m k)
  | each (v : Py) (l : List Py) (ks : List (Option Nat)) : IsSeq v l → l.length = m → List.Forall₂ IsMinHits l ks → MinMeans m v ks

/-- The arguments have this meaning. -/
structure Means (n : Nat) (a : Args) (s : Settings) : Prop where
  telescope : n ≠ 0
  duts : SelectMeans n a.selectDuts (s.cfgs.map DutCfg.dut)
  fit : ListMeans n s.cfgs.length (List.range n) a.selectFitDuts (s.cfgs.map DutCfg.fitDuts)
  two : ∀ c ∈ s.cfgs, 2 ≤ c.fitDuts.length
  hit : ListMeans n s.cfgs.length [] a.selectHitDuts (s.cfgs.map DutCfg.hitDuts)
  exclude : ExcludeMeans s.cfgs.length a.excludeDutHit (s.cfgs.map DutCfg.exclude)
  minHits : MinMeans s.cfgs.length a.minTrackHits (s.cfgs.map DutCfg.minHits)
  quality : DistMeans n a.qualityDistances s.quality
  isolation : DistMeans n a.isolationDistances s.isolation

end BTA.FitArgs.Spec
