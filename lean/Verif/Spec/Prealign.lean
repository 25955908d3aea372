import Verif.Model.Prealign
import Mathlib.Data.Set.Card
/-
Specification vocabulary for `prealign` and `hough_transform`. The model is used only for its data types.
-/
namespace BTA.Prealign.Spec
open BTA.Prealign

/-- Bin `j` is the first one with the largest entry. -/
def IsPeak (row : List ℝ) (j : Nat) : Prop :=
  ∃ h : j < row.length, (∀ k (hk : k < row.length), row[k] ≤ row[j]) ∧ ∀ k (hk : k < j), row[k]'(hk.trans h) < row[j]

/-- A value of `np.argsort(-values)`: the same cells, the values do not increase. -/
def Sorts (env : Env) : Prop :=
  ∀ f l, (env.sort f l).Perm l ∧ (env.sort f l).Pairwise fun a b => f b ≤ f a

/-- A two-dimensional array of the size of the DUT and the reference, and bins of equal size. -/
structure Regular (nd : Node) : Prop where
  res : 0 < nd.resolution
  rows : ∀ row ∈ nd.data, row.length = nd.refBins
  extent : nd.dutExtent.2 - nd.dutExtent.1 = nd.data.length * nd.resolution

/-- Centre of a bin of the reference. -/
noncomputable def refCentre (nd : Node) (j : Nat) : ℝ := nd.refExtent.1 + (j + 1 / 2) * nd.resolution

/-- Centre of a bin of the DUT. -/
noncomputable def dutCentre (nd : Node) (i : Nat) : ℝ := nd.dutExtent.1 + (i + 1 / 2) * nd.resolution

/-- Centre of the range of the DUT. -/
noncomputable def dutMiddle (nd : Node) : ℝ := (nd.dutExtent.1 + nd.dutExtent.2) / 2

/-- Centre of the range of the reference. -/
noncomputable def refMiddle (nd : Node) : ℝ := (nd.refExtent.1 + nd.refExtent.2) / 2

/-- The correlation has the direction `s` (1 or -1) and the centre of the DUT is seen at `pos` in the reference: for every bin of the DUT the most
populated bin of the reference is where it is expected, up to the tolerance. -/
def Correlated (nd : Node) (s pos tol : ℝ) : Prop :=
  ∀ i (h : i < nd.data.length) j, IsPeak nd.data[i] j → |refCentre nd j - (s * (dutCentre nd i - dutMiddle nd) + pos)| ≤ tol

/-- Number of pixels of an image whose distance along the direction `theta` is `rho` after rounding to multiples of `res`. -/
noncomputable def votes (img : Image) (theta rho res : ℝ) : Nat :=
  Set.ncard {p : Nat × Nat | p.1 < img.rows ∧ p.2 < img.cols ∧ img.pix p.1 p.2 = true ∧
    rho - res / 2 < p.2 * Real.cos theta + p.1 * Real.sin theta ∧ p.2 * Real.cos theta + p.1 * Real.sin theta ≤ rho + res / 2}

/-- Number of set pixels. -/
noncomputable def setPixels (img : Image) : Nat :=
  Set.ncard {p : Nat × Nat | p.1 < img.rows ∧ p.2 < img.cols ∧ img.pix p.1 p.2 = true}

/-- Number of bins of the DUT with the most populated bin of the reference on the line `x * cos theta + y * sin theta = rho`, within half a bin. -/
noncomputable def support (nd : Node) (theta rho : ℝ) : Nat :=
  Set.ncard {i : Nat | ∃ (h : i < nd.data.length) (j : Nat), IsPeak nd.data[i] j ∧
    rho - 1 / 2 < i * Real.cos theta + j * Real.sin theta ∧ i * Real.cos theta + j * Real.sin theta ≤ rho + 1 / 2}

/-- Local position of the centre of a pixel (column and row start at 1). -/
noncomputable def pixelCentre (d : BTA.Dut.Pixels ℝ) (c r : Nat) : ℝ × ℝ :=
  (d.columnSize * (c - ((d.nColumns : ℝ) + 1) / 2), d.rowSize * (r - ((d.nRows : ℝ) + 1) / 2))

/-- The DUT is to be aligned: it is not the reference, and it is selected or all DUTs are. -/
def Aligned (n ref : Nat) (sel : Option (List Nat)) (i : Nat) : Prop :=
  i ≠ ref ∧ match sel with
    | none => i < n
    | some l => i ∈ l

end BTA.Prealign.Spec
