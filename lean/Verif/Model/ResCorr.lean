import Verif.Model.Correlate
import Mathlib.Analysis.SpecialFunctions.Pow.Real
import Mathlib.Analysis.SpecialFunctions.Trigonometric.Basic
/-
Model of `plot_residual_correlation` (beam_telescope_analysis/tools/plot_utils.py L2577-2682), `calculate_residual_correlation` (beam_telescope_analysis/result_analysis.py L2558-2862) as far
as it is executed, and `binned_statistic` (beam_telescope_analysis/tools/analysis_utils.py L972-984).

Not modelled: the drawing itself, the names in titles and labels. Real numbers instead of floating point numbers; the value of a cell that is not finite is `none`.
-/
namespace BTA.ResCorr

inductive Err
  /-- ZeroDivisionError or ValueError of `np.arange` with step 0 (L2621) -/
  | chunkSize
  /-- IndexError: no such column (L2622) or an empty array of bin centres (L2641) -/
  | index
  /-- IndexError: a mask of a different length (L2629) -/
  | mask
  /-- AttributeError: `None` has no attribute `shape` (L2634) -/
  | noData
  /-- ValueError of `curve_fit`: NaN in the data -/
  | nan
  /-- ValueError of `curve_fit`: bounds or start values outside of the bounds -/
  | bounds
  /-- RuntimeError or ValueError of `curve_fit`: no optimal parameters -/
  | fit
  /-- NoSuchNodeError (L2612-2613) -/
  | noNode
deriving DecidableEq

/-- The two arrays of a DUT and a direction (result_analysis.py L2581-2624): the residuals of the other tracks, one column for each distance, the residuals of the reference tracks and the
edges of the bins. -/
structure Node where
  edges : List ℝ
  res : List (List (Option ℝ))
  ref : List ℝ

/-- Bin centres (L2615). -/
noncomputable def binCenters (edges : List ℝ) : List ℝ := List.zipWith (fun a b => (b + a) / 2) edges edges.tail

/-- `res_chunk = res_node.read(...)[:, index]` (L2622). -/
def column (index : Nat) : List (List (Option ℝ)) → Except Err (List (Option ℝ))
  | [] => .ok []
  | row :: r =>
    match row[index]?, column index r with
    | none, _ => .error .index
    | _, .error e => .error e
    | some c, .ok cs => .ok (c :: cs)

/-- One chunk (L2622-2632): the pairs of the residual of the reference track and of the other track, where the latter is finite. -/
def chunkPairs (nd : Node) (index start chunkSize : Nat) : Except Err (List (ℝ × ℝ)) :=
  match column index ((nd.res.drop start).take chunkSize) with
  | .error e => .error e
  | .ok cells =>
    let refs := (nd.ref.drop start).take chunkSize
    if cells.length ≠ refs.length then .error .mask
    else .ok ((List.zip refs cells).filterMap fun p => p.2.map fun v => (p.1, v))

/-- The loop over the chunks (L2619-2632); `none` is the value before the first chunk. -/
def readPairs (nd : Node) (index chunkSize : Nat) : List Nat → Option (List (ℝ × ℝ)) → Except Err (Option (List (ℝ × ℝ)))
  | [], acc => .ok acc
  | s :: r, acc =>
    match chunkPairs nd index s chunkSize with
    | .error e => .error e
    | .ok ps => readPairs nd index chunkSize r (some (acc.getD [] ++ ps))

/-- `np.arange(0, nrows, step=chunk_size)` (L2621). -/
def starts (nrows chunkSize : Nat) : List Nat := (List.range ((nrows + chunkSize - 1) / chunkSize)).map fun k => k * chunkSize

/-- The mean. -/
noncomputable def mean (l : List ℝ) : ℝ := l.sum / l.length

/-- An element of `np.cov(x, y)`: divided by the number of values minus one. -/
noncomputable def cov (ps : List (ℝ × ℝ)) (f g : ℝ × ℝ → ℝ) : ℝ :=
  (ps.map fun p => (f p - mean (ps.map f)) * (g p - mean (ps.map g))).sum / (ps.length - 1)

/-- `np.corrcoef(ref_res, res)[0, 1]` (L2635). NaN is `none`: less than two values or constant values. The result is clipped to -1 ... 1 by numpy. -/
noncomputable def corrcoef (ps : List (ℝ × ℝ)) : Option ℝ :=
  if ps.length ≤ 1 ∨ cov ps Prod.fst Prod.fst = 0 ∨ cov ps Prod.snd Prod.snd = 0 then none
  else some (max (-1) (min 1 (cov ps Prod.fst Prod.snd / Real.sqrt (cov ps Prod.fst Prod.fst) / Real.sqrt (cov ps Prod.snd Prod.snd))))

/-- One bin (L2618-2635): number of pairs and correlation. -/
noncomputable def binPoint (nd : Node) (chunkSize index : Nat) : Except Err (Nat × Option ℝ) :=
  if chunkSize = 0 then .error .chunkSize
  else
    match readPairs nd index chunkSize (starts nd.ref.length chunkSize) none with
    | .error e => .error e
    | .ok none => .error .noData
    | .ok (some ps) => .ok (ps.length, corrcoef ps)

/-- All bins (L2618-2635). -/
noncomputable def binPoints (nd : Node) (chunkSize : Nat) : List Nat → Except Err (List (Nat × Option ℝ))
  | [] => .ok []
  | i :: r =>
    match binPoint nd chunkSize i with
    | .error e => .error e
    | .ok p =>
      match binPoints nd chunkSize r with
      | .error e => .error e
      | .ok ps => .ok (p :: ps)

/-- `np.array(correlations)` without NaN. -/
def finite : List (Option ℝ) → Option (List ℝ)
  | [] => some []
  | none :: _ => none
  | some v :: r => (finite r).map fun l => v :: l

/-- The parameters a, b, c, x_0, p (L2638). -/
structure Param where
  a : ℝ
  b : ℝ
  c : ℝ
  x0 : ℝ
  p : ℝ

/-- `corr_f` (L2638-2639). -/
noncomputable def corrF (q : Param) (x : ℝ) : ℝ := q.a * Real.exp (-x / q.x0) + q.b * Real.sin (x * 2 * Real.pi / q.p + q.c)

/-- `curve_fit` with the bounds of L2640: `opt` are the data `(x, y, sigma)` and the start values handed to the minimisation. -/
abbrev Optimizer := List (ℝ × ℝ × ℝ) → Param → Option Param

/-- The fit (L2640). The checks of scipy come first: NaN, bounds in the wrong order, start values outside of the bounds. `np.sqrt` of the number of pairs is handed over as error. -/
noncomputable def fit (opt : Optimizer) (centers : List ℝ) (points : List (Nat × Option ℝ)) (pixelSize : ℝ) : Except Err Param :=
  match centers.getLast? with
  | none => .error .index
  | some last =>
    match finite (points.map Prod.snd) with
    | none => .error .nan
    | some ys =>
      if last ≤ 0 ∨ pixelSize < 0 ∨ last < pixelSize then .error .bounds
      else
        match opt (List.zip centers (List.zip ys (points.map fun p => Real.sqrt p.1))) ⟨1 / 10, 1 / 2, Real.pi / 2, 1, pixelSize⟩ with
        | none => .error .fit
        | some q => .ok q

/-- What is shown for a DUT and a direction: the points and the fitted parameters. -/
structure Page where
  centers : List ℝ
  points : List (Nat × Option ℝ)
  param : Param

/-- One DUT and one direction (L2611-2674). -/
noncomputable def page (opt : Optimizer) (chunkSize : Nat) (pixelSize : ℝ) (nd : Node) : Except Err Page :=
  match binPoints nd chunkSize (List.range (binCenters nd.edges).length) with
  | .error e => .error e
  | .ok points =>
    match fit opt (binCenters nd.edges) points pixelSize with
    | .error e => .error e
    | .ok q => .ok ⟨binCenters nd.edges, points, q⟩

/-- `plot_residual_correlation` (L2607-2682) for the selected DUTs and their directions, in the order of the pages: the file gives the arrays for DUT and direction (True is column). -/
noncomputable def plot (opt : Optimizer) (chunkSize : Nat) (file : Nat → Bool → Option Node) (pixelSize : Nat → Bool → ℝ) : List (Nat × Bool) → Except Err (List Page)
  | [] => .ok []
  | (d, b) :: r =>
    match file d b with
    | none => .error .noNode
    | some nd =>
      match page opt chunkSize (pixelSize d b) nd with
      | .error e => .error e
      | .ok p =>
        match plot opt chunkSize file pixelSize r with
        | .error e => .error e
        | .ok ps => .ok (p :: ps)

/-- The pages of the selected DUTs (L2608-2610). -/
def pagesOf (select : List Nat) : List (Nat × Bool) := select.flatMap fun d => [(d, true), (d, false)]

/-! ### binned_statistic -/

inductive BinErr
  /-- ZeroDivisionError -/
  | division
  /-- ValueError of `csr_matrix`: different lengths -/
  | lengths
  /-- ValueError of `csr_matrix`: index outside of the matrix -/
  | outside
deriving DecidableEq

/-- analysis_utils.py L980: the number of the bin, cut towards zero. -/
noncomputable def digit (nbins : Nat) (r0 r1 x : ℝ) : Int := Corr.toInt ((nbins : ℝ) / (r1 - r0) * (x - r0))

/-- `binned_statistic` (analysis_utils.py L972-984). The rows of the sparse matrix are the bins, with one column for each value, so the data of a row are the values of the bin in their order.
Simplified: at least one bin and at least one value (scipy does not accept all empty matrices). -/
noncomputable def binnedStatistic {A B : Type} (x : List ℝ) (vals : List A) (func : List A → B) (nbins : Nat) (r0 r1 : ℝ) : Except BinErr (List B) :=
  if r1 - r0 = 0 then .error .division
  else if x.length ≠ vals.length then .error .lengths
  else if (x.any fun v => decide (digit nbins r0 r1 v < 0 ∨ (nbins : Int) ≤ digit nbins r0 r1 v)) then .error .outside
  else .ok ((List.range nbins).map fun b : Nat => func (((List.zip x vals).filter fun p => decide (digit nbins r0 r1 p.1 = (b : Int))).map Prod.snd))

/-! ### calculate_residual_correlation -/

/-- An element of `select_duts`: the number of a DUT or a DUT of the telescope. -/
inductive Selected
  | number (n : Int)
  | dut (columnSize rowSize : ℝ)

inductive CalcErr
  /-- NoSuchNodeError: no alignment (result_analysis.py L2561-2571) or no table of tracks (L2579) -/
  | noNode
  /-- TypeError: `None` is not iterable (L2578) or `%d` of an object (L2579) -/
  | type
  /-- IndexError (L2582) -/
  | index
  /-- AttributeError: a number has no attribute `column_size` (L2582) -/
  | attribute
  /-- exception of the plot -/
  | plot (e : Err)
deriving DecidableEq

/-- The files: the nodes of the file with the alignment, the tables of tracks, the content of the output file (`none` if there is no such file). -/
structure Files where
  preAlignment : Bool
  alignment : Bool
  tracks : Int → Bool
  output : Option (Nat → Bool → Option Node)

/-- The body of the loop over the DUTs (L2578-2582): the first statements. Nothing after them is executed. -/
def dutStep (fs : Files) (nPlot : Nat) (index : Nat) : Selected → CalcErr
  | .dut _ _ => .type
  | .number n => if fs.tracks n = false then .noNode else if nPlot ≤ index then .index else .attribute

/-- `calculate_residual_correlation` (L2558-2862): the result and the files afterwards. `nPlot` is the length of `plot_n_pixels`. The output file is opened in mode `w` (L2577). -/
noncomputable def calculate (opt : Optimizer) (chunkSize : Nat) (usePrealignment useFitLimits plotIt : Bool) (nPlot : Nat) (select : Option (List Selected)) (fs : Files) :
    Except CalcErr Unit × Files :=
  if usePrealignment = true ∧ fs.preAlignment = false then (.error .noNode, fs)
  else if usePrealignment = false ∧ fs.alignment = false then (.error .noNode, fs)
  else if useFitLimits = true ∧ fs.preAlignment = false then (.error .noNode, fs)
  else
    let fs' := { fs with output := some fun _ _ => none }
    match select with
    | none => (.error .type, fs')
    | some (s :: _) => (.error (dutStep fs nPlot 0 s), fs')
    | some [] =>
      if plotIt then
        match plot opt chunkSize (fun _ _ => none) (fun _ _ => 0) (pagesOf []) with
        | .error e => (.error (.plot e), fs')
        | .ok _ => (.ok (), fs')
      else (.ok (), fs')

end BTA.ResCorr
