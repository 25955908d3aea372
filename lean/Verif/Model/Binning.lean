import Mathlib.Algebra.Order.Floor.Ring
import Mathlib.Algebra.Field.Basic
/-
Model of the binned statistics used by `result_analysis.py` and `plot_utils.py`: `np.arange`, `np.linspace`,
`np.histogram`, `scipy.stats.binned_statistic(_2d)` with the statistics `count` and `mean` and the combination of two
chunks with `np.ma.average`. These are functions of numpy and scipy; modelled is what result_analysis.py uses of them.

Floats are an ordered field `K` (no rounding, no NaN except where it is stated). A histogram is a function of the bin.
-/
namespace BTA.Binning

variable {K ρ β : Type} [Field K] [LinearOrder K]

/-- `np.arange(start, stop, step)` for floats: `ceil((stop - start) / step)` values (used in result_analysis.py L136,
L152, L185, L208). -/
def arange [FloorRing K] (start stop step : K) : List K :=
  (List.range ⌈(stop - start) / step⌉.toNat).map fun (i : Nat) => start + (i : K) * step

/-- `np.linspace(start, stop, n + 1, endpoint=True)` (result_analysis.py L215-216, L856-857, L917-918). -/
def linspace (start stop : K) (n : Nat) : List K :=
  (List.range (n + 1)).map fun (i : Nat) => start + (i : K) * ((stop - start) / (n : K))

/-- The bin of a value for given edges as in `np.histogram` and `scipy.stats.binned_statistic`: the bins are half-open,
the last one contains also its upper edge; values outside of the edges have no bin. Simplified: scipy compares with the
last edge after rounding to a relative precision of about 1e-6. -/
def binIndex (edges : List K) (v : K) : Option Nat :=
  match edges.head?, edges.getLast? with
  | some first, some last =>
    if edges.length < 2 then none
    else if v = last then some (edges.length - 2)
    else if v < first ∨ last < v then none
    else some (edges.countP (fun e => decide (e ≤ v)) - 1)
  | _, _ => none

/-- The bin of a point for edges in two dimensions (`stats.binned_statistic_2d`, `np.histogram2d`). -/
def binIndex2 (xEdges yEdges : List K) (x y : K) : Option (Nat × Nat) :=
  match binIndex xEdges x, binIndex yEdges y with
  | some i, some j => some (i, j)
  | _, _ => none

/-- Statistic `count`: the number of rows in a bin. -/
def counts [DecidableEq β] (bin : ρ → Option β) (rows : List ρ) (b : β) : Nat :=
  rows.countP fun r => decide (bin r = some b)

/-- Statistic `mean` followed by `np.nan_to_num`: the mean of the values in a bin, 0 if there are none. -/
def binMean [DecidableEq β] (bin : ρ → Option β) (val : ρ → K) (rows : List ρ) (b : β) : K :=
  let sel := rows.filter fun r => decide (bin r = some b)
  if sel = [] then 0 else (sel.map val).sum / sel.length

/-- One bin of `np.ma.average(a=np.stack([s, s']), axis=0, weights=np.stack([n, n']))`: the weighted average; masked
with the data 0 where the sum of the weights is 0 (numpy replaces the quotient by the numerator). -/
def average (s : K) (n : Nat) (s' : K) (n' : Nat) : K :=
  if n + n' = 0 then 0 else (s * n + s' * n') / ((n + n' : Nat) : K)

end BTA.Binning
