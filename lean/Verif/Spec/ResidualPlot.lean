import Verif.Model.ResidualPlot
/-
Specification of the plots of the residuals (C235).
-/
namespace BTA.Spec
open BTA.ResidualPlot

/-- The page shows the histogram: the bar of each bin reaches from its lower to its upper edge, its height is the number of entries, all bins are in the
visible range, and on a logarithmic axis all bins that are not empty are in the visible range, too. -/
structure ShowsHist (hist : List Nat) (edges : List ℝ) (p : Page) : Prop where
  number : p.centres.length = hist.length ∧ p.widths.length = hist.length
  bars : ∀ (i : Nat) (lo hi : ℝ), edges[i]? = some lo → edges[i + 1]? = some hi → ∃ c w, p.centres[i]? = some c ∧ p.widths[i]? = some w ∧
    c - w / 2 = lo ∧ c + w / 2 = hi
  heights : p.heights = hist
  range : ∀ x ∈ edges, p.xlim.1 ≤ x ∧ x ≤ p.xlim.2
  logRange : p.log = true → ∃ lo hi, p.ylim = some (lo, hi) ∧ ∀ n ∈ hist, n ≠ 0 → lo ≤ n ∧ n ≤ hi

/-- The page shows the fit: a line at its mean and the fitted function. -/
def ShowsFit : Fit → Page → Prop
  | .gauss A mu sigma, p => p.line = some mu ∧ p.curve = some (GaussFit.gauss A mu sigma)
  | .box A mu sigma w, p => p.line = some mu ∧ p.curve = some (GaussFit.gaussBoxErf A mu sigma w)

/-- `n` bins of the same width. -/
def EqualBins (n : Nat) (edges : List ℝ) : Prop :=
  ∃ a w : ℝ, edges = (List.range (n + 1)).map fun (i : Nat) => a + i * w

/-- The rectangle shows the entry of the two-dimensional histogram in bin `(i, j)`. -/
def ShowsEntry (hist : List (List Nat)) (xedges yedges : List ℝ) (i j : Nat) (c : Cell) : Prop :=
  xedges[i]? = some c.left ∧ xedges[i + 1]? = some c.right ∧ yedges[j]? = some c.bottom ∧ yedges[j + 1]? = some c.top ∧
  ∃ row, hist[i]? = some row ∧ row[j]? = some c.count

end BTA.Spec
