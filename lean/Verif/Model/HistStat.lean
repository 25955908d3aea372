import Verif.Model.Binning
import Mathlib.Analysis.SpecialFunctions.Sqrt
/-
Model of the mean and the standard deviation of a histogram and of the simple peak detection
(beam_telescope_analysis/tools/analysis_utils.py L697-702, L835-854) and of the track angle histograms
(beam_telescope_analysis/result_analysis.py L2361-2449, L2513-2517).

Simplifications: real numbers or an ordered field; NaN is `none`. The Gaussian fits (scipy's `curve_fit`) are not modelled.
-/
namespace BTA.HistStat
open BTA.Binning

section
variable {K : Type} [Field K] [LinearOrder K]

/-- result_analysis.py L2515, analysis_utils.py L858, L872: centres of the bins. -/
def centres : List K → List K
  | a :: b :: es => (b + a) / 2 :: centres (b :: es)
  | _ => []

/-- `np.dot(counts, bin_positions)`. -/
def weighted (counts : List Nat) (pos : List K) : K := (List.zipWith (fun (c : Nat) (x : K) => (c : K) * x) counts pos).sum

/-- `get_mean_from_histogram`, analysis_utils.py L697-698; NaN (0 / 0) for an empty histogram. The lists have the same length (else
`np.dot` raises an exception). -/
def meanFromHist (counts : List Nat) (pos : List K) : Option K :=
  if counts.sum = 0 then none else some (weighted counts pos / (counts.sum : K))

/-- `np.repeat(bin_positions, counts)`. -/
def repeated (counts : List Nat) (pos : List K) : List K := (List.zipWith (fun (c : Nat) (x : K) => List.replicate c x) counts pos).flatten

/-- The positions with `greater[:-1] != greater[1:]`, L839; `i` is the index of the first value of the list. -/
def changes : List Bool → Nat → List Nat
  | a :: b :: l, i => if a ≠ b then i :: changes (b :: l) (i + 1) else changes (b :: l) (i + 1)
  | _, _ => []

/-- `np.argmax`: index of the first largest value; `best` is the largest value so far, `at'` its index, `i` the current index. -/
def argmaxFrom : List K → Nat → Nat → K → Nat
  | [], _, at', _ => at'
  | x :: xs, i, at', best => if best < x then argmaxFrom xs (i + 1) i x else argmaxFrom xs (i + 1) at' best

def argmax : List K → Nat
  | [] => 0
  | x :: xs => argmaxFrom xs 1 0 x

/-- The result of the peak detection. -/
structure Peak (K : Type) where
  maxPosition : K
  center : K
  fwhm : K
  left : K
  right : K
deriving DecidableEq

inductive Err
  /-- RuntimeError: Cannot determine peak -/
  | noPeak
  /-- ValueError: maximum of an empty array; shapes -/
  | value
deriving DecidableEq

/-- L846, L849-854: from the first and the last change. -/
def peakOf (x : List K) (y : List K) (first last : Nat) : Except Err (Peak K) :=
  match (centres x)[first]?, (centres x)[last]?, x[argmax y]? with
  | some l, some r, some m => if r - l = 0 then .error .noPeak else .ok ⟨m, (l + r) / 2, r - l, l, r⟩
  | _, _, _ => .error .noPeak

/-- `simple_peak_detect`, L835-854. `greater[0] is True` and `greater[-1] is True` (L840) compare a numpy boolean with the object `True` and
are always false; they are left out. `x` and `y` have the same length. -/
def simplePeak (x y : List K) : Except Err (Peak K) :=
  match y[argmax y]? with
  | none => .error .value
  | some top =>
    let greater := y.map fun v => decide (top * (1 / 2) < v)
    if ¬ greater.any id then .error .noPeak
    else
      match (changes greater 0).head?, (changes greater 0).getLast? with
      | some f, some l => peakOf x y f l
      | _, _ => .error .noPeak

end

/-- `np.nanmean`. -/
noncomputable def nanmean (vs : List (Option ℝ)) : Option ℝ :=
  if vs.filterMap id = [] then none else some ((vs.filterMap id).sum / (vs.filterMap id).length)

/-- Standard deviation as in `np.std` for a list that is not empty. -/
noncomputable def std (l : List ℝ) : ℝ := Real.sqrt ((l.map fun v => (v - l.sum / l.length) ^ 2).sum / l.length)

/-- `np.nanstd`. -/
noncomputable def nanstd (vs : List (Option ℝ)) : Option ℝ := if vs.filterMap id = [] then none else some (std (vs.filterMap id))

/-- `get_rms_from_histogram`, L701-702; NaN for an empty histogram. -/
noncomputable def rmsFromHist (counts : List Nat) (pos : List ℝ) : Option ℝ :=
  if repeated counts pos = [] then none else some (std (repeated counts pos))

/-- numpy's range of a histogram: a range of length zero is replaced. -/
noncomputable def npRange (lo hi : ℝ) : ℝ × ℝ := open Classical in if lo = hi then (lo - 1 / 2, hi + 1 / 2) else (lo, hi)

/-- result_analysis.py L2400-2408: the range of the histogram; `none` if not finite (ValueError of `np.histogram`). -/
noncomputable def angleRange (vs : List (Option ℝ)) : Option (ℝ × ℝ) :=
  match nanmean vs, nanstd vs with
  | some m, some s => some (npRange (m - 5 * s) (m + 5 * s))
  | _, _ => none

/-- `np.histogram(values, bins=edges)[0]`: NaN has no bin. -/
noncomputable def histogram (edges : List ℝ) (vs : List (Option ℝ)) : List Nat :=
  (List.range (edges.length - 1)).map fun i => counts (binIndex edges) (vs.filterMap id) i

inductive AngleErr
  /-- UnboundLocalError: there is no chunk -/
  | unbound
  /-- ValueError of `np.histogram` -/
  | value
deriving DecidableEq

/-- result_analysis.py L2421-2427: the histogram of a further chunk is added. -/
noncomputable def addChunks (edges : List ℝ) : List Nat → List (List (Option ℝ)) → List Nat
  | hist, [] => hist
  | hist, c :: cs => addChunks edges (List.zipWith (· + ·) hist (histogram edges c)) cs

/-- result_analysis.py L2367-2427 for one of the angles: histogram and edges. `n_bins="auto"` is not modelled. -/
noncomputable def angleHist (nBins : Nat) : List (List (Option ℝ)) → Except AngleErr (List Nat × List ℝ)
  | [] => .error .unbound
  | c :: cs =>
    if nBins = 0 then .error .value
    else
      match angleRange c with
      | none => .error .value
      | some (lo, hi) => .ok (addChunks (linspace lo hi nBins) (histogram (linspace lo hi nBins) c) cs, linspace lo hi nBins)

end BTA.HistStat
