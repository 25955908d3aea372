import Verif.Model.GaussFit
import Verif.Model.AngleFile
/-
Model of the plots of the residuals, `plot_residuals` and `plot_residuals_vs_position` (beam_telescope_analysis/tools/plot_utils.py L958-1030), which
`calculate_residuals` calls (result_analysis.py L336-520).

Simplifications: real numbers, NaN is `none`. The drawing of matplotlib is a list of bars, cells, points and curves; titles, labels and legends are left
out. A curve is a function (the code draws it at points with a distance of 0.1). The numbers of counts and of edges fit (as in `calculate_residuals`).
-/
namespace BTA.ResidualPlot
open BTA.HistStat BTA.AngleFile

/-- Coefficients of the fit, three for the Gaussian and four for the Gaussian with a box. -/
inductive Fit
  | gauss (A mu sigma : ℝ)
  | box (A mu sigma w : ℝ)

/-- `np.any(fit)`, L981. -/
noncomputable def Fit.any : Fit → Bool
  | .gauss A mu sigma => open Classical in decide (A ≠ 0 ∨ mu ≠ 0 ∨ sigma ≠ 0)
  | .box A mu sigma w => open Classical in decide (A ≠ 0 ∨ mu ≠ 0 ∨ sigma ≠ 0 ∨ w ≠ 0)

/-- `fit[1]`. -/
def Fit.mean : Fit → ℝ
  | .gauss _ mu _ => mu
  | .box _ mu _ _ => mu

/-- L990-993: the function drawn. -/
noncomputable def Fit.curve : Fit → ℝ → Option ℝ
  | .gauss A mu sigma => GaussFit.gauss A mu sigma
  | .box A mu sigma w => GaussFit.gaussBoxErf A mu sigma w

/-- Exceptions of matplotlib. -/
inductive Err
  /-- ValueError of `set_xlim`: a limit is NaN, L970 -/
  | limits
  /-- IndexError: no edges, L995 -/
  | index
deriving DecidableEq

/-- A page with a histogram. -/
structure Page where
  log : Bool
  centres : List ℝ
  widths : List ℝ
  heights : List Nat
  xlim : ℝ × ℝ
  /-- lower and upper end of the logarithmic axis -/
  ylim : Option (Nat × Nat)
  line : Option ℝ
  curve : Option (ℝ → Option ℝ)

/-- `int(ceil(np.amax(histogram) / 10.0)) * 100`, L977. -/
def logTop (hist : List Nat) : Nat := ⌈((hist.foldl max 0 : Nat) : ℚ) / 10⌉.toNat * 100

/-- One page, L963-996. -/
noncomputable def page (hist : List Nat) (edges : List ℝ) (fit : Option Fit) (log : Bool) : Except Err Page :=
  match meanFromHist hist (centres edges) with
  | none => .error .limits
  | some _ =>
    let shown := fit.bind fun f => if f.any then some f else none
    match edges.head?, edges.getLast? with
    | some a, some b =>
      .ok { log := log, centres := centres edges, widths := widths edges, heights := hist, xlim := (a, b),
            ylim := if log then some (1, logTop hist) else none, line := shown.map Fit.mean, curve := shown.map Fit.curve }
    | _, _ => .error .index

/-- `plot_residuals`, L958-996: both pages. -/
noncomputable def plotResiduals (hist : List Nat) (edges : List ℝ) (fit : Option Fit) : Except Err (List Page) :=
  match page hist edges fit false with
  | .error e => .error e
  | .ok p =>
    match page hist edges fit true with
    | .error e => .error e
    | .ok q => .ok [p, q]

/-- A coloured rectangle of the picture. -/
structure Cell where
  left : ℝ
  right : ℝ
  bottom : ℝ
  top : ℝ
  count : Nat

/-- A page with the residuals for each position. -/
structure MapPage where
  cells : List Cell
  blue : List (ℝ × ℝ)
  red : List (ℝ × ℝ)
  line : Option (ℝ → ℝ)
  limits : List ℝ

/-- `imshow` divides the extent from `a` to `b` into `n` cells of the same size: start of cell `i`. -/
noncomputable def cellStart (a b : ℝ) (n i : Nat) : ℝ := a + i * ((b - a) / n)

/-- L1011: empty cells are masked; rows of `hist` are along x. -/
noncomputable def cells (hist : List (List Nat)) (x y : ℝ × ℝ) : List Cell :=
  hist.zipIdx.flatMap fun r => r.1.zipIdx.filterMap fun c =>
    if c.1 = 0 then none
    else some { left := cellStart x.1 x.2 hist.length r.2, right := cellStart x.1 x.2 hist.length (r.2 + 1),
                bottom := cellStart y.1 y.2 r.1.length c.2, top := cellStart y.1 y.2 r.1.length (c.2 + 1), count := c.1 }

/-- L1013-1017: points of the bins that are selected or not. NaN is not drawn. -/
noncomputable def points (xedges : List ℝ) (mean : List (Option ℝ)) (select : List Bool) (which : Bool) : List (ℝ × ℝ) :=
  ((centres xedges).zip (mean.zip select)).filterMap fun p => if p.2.2 = which then p.2.1.map fun m => (p.1, m) else none

/-- `plot_residuals_vs_position`, L999-1030. `fit`: offset and slope, `none` for NaN. -/
noncomputable def plotPosition (hist : List (List Nat)) (xedges yedges : List ℝ) (mean : List (Option ℝ)) (select : List Bool) (fit : Option (ℝ × ℝ))
    (limit : Option (Option ℝ × Option ℝ)) : Except Err MapPage :=
  match xedges.head?, xedges.getLast?, yedges.head?, yedges.getLast? with
  | some a, some b, some c, some d =>
    .ok { cells := cells hist (a, b) (c, d), blue := points xedges mean select true, red := points xedges mean select false,
          line := fit.map fun f x => f.1 + f.2 * x, limits := (limit.map fun l => l.1.toList ++ l.2.toList).getD [] }
  | _, _, _, _ => .error .index

end BTA.ResidualPlot
