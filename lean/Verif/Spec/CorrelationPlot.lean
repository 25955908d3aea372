import Verif.Model.CorrelationPlot
import Verif.Spec.Correlate
/-
Specification vocabulary for the plots of correlations. The model is used only for its data types.
-/
namespace BTA.CorrPlot.Spec
open BTA.Corr BTA.CorrPlot

/-- A histogram of a pair of DUTs: the pair, whether it is that of x, and whether the background is reduced. -/
structure Which where
  entry : Entry
  x : Bool
  reduced : Bool

/-- All histograms of the file. -/
def histograms (out : List Entry) : List Which :=
  out.flatMap fun e => [⟨e, true, false⟩, ⟨e, false, false⟩, ⟨e, true, true⟩, ⟨e, false, true⟩]

/-- The axis of the DUT. -/
def Which.dutAxis (w : Which) : Axis := if w.x then w.entry.da.x else w.entry.da.y

/-- The axis of the reference. -/
def Which.refAxis (w : Which) : Axis := if w.x then w.entry.ra.x else w.entry.ra.y

/-- The entries: bin `i` of the DUT and bin `j` of the reference. -/
def Which.value (w : Which) (i j : Nat) : Int :=
  match w.x, w.reduced with
  | true, false => w.entry.x i j
  | false, false => w.entry.y i j
  | true, true => w.entry.xReduced i j
  | false, true => w.entry.yReduced i j

/-- The histogram has an entry above zero. -/
def Which.Filled (w : Which) : Prop := ∃ i < w.dutAxis.bins, ∃ j < w.refAxis.bins, 0 < w.value i j

/-- The name of a DUT: the given one, or DUT with its number. -/
def IsName (names : Option (List (List Char))) (i : Int) (s : List Char) : Prop :=
  match names with
  | none => s = "DUT".toList ++ (toString i.toNat).toList
  | some l => l[i.toNat]? = some s

/-- The range that column `c` of the image covers. -/
noncomputable def columnRange (p : Page) (c : Nat) : ℝ × ℝ :=
  let w := (p.extent.1.2 - p.extent.1.1) / p.width
  (p.extent.1.1 + c * w, p.extent.1.1 + (c + 1) * w)

/-- The range that row `r` of the image covers. -/
noncomputable def rowRange (p : Page) (r : Nat) : ℝ × ℝ :=
  let w := (p.extent.2.2 - p.extent.2.1) / p.height
  (p.extent.2.1 + r * w, p.extent.2.1 + (r + 1) * w)

/-- The range of bin `i` of an axis. -/
noncomputable def binRange (a : Axis) (res : ℝ) (i : Nat) : ℝ × ℝ := (a.start + i * res, a.start + (i + 1) * res)

/-- The page shows the histogram: direction and kind in the title, names of the two DUTs, and every bin at its place, with the DUT on the horizontal axis and
the reference on the vertical axis. -/
structure Shows (names : Option (List (List Char))) (res : ℝ × ℝ) (w : Which) (p : Page) : Prop where
  direction : p.xDirection = w.x
  kind : p.reduced = w.reduced
  dut : IsName names w.entry.dut p.dutName
  ref : IsName names w.entry.ref p.refName
  width : p.width = w.dutAxis.bins
  height : p.height = w.refAxis.bins
  values : ∀ i j, p.image j i = w.value i j
  columns : ∀ i, columnRange p i = binRange w.dutAxis (if w.x then res.1 else res.2) i
  rows : ∀ j, rowRange p j = binRange w.refAxis (if w.x then res.1 else res.2) j

open Classical in
/-- Number of pairs (reference hit, DUT hit) of the same event with the position of the DUT hit in the range `h` and that of the reference hit in the range
`v`. -/
noncomputable def pairsInside (P Q : Plane) (S T : Table) (k : Fin 3) (h v : ℝ × ℝ) : Nat :=
  BTA.Spec.pairCount S.rows T.rows fun r d => decide (r.ev = d.ev ∧
    (h.1 ≤ Corr.Spec.globalPos Q T.positions d k ∧ Corr.Spec.globalPos Q T.positions d k < h.2) ∧
    (v.1 ≤ Corr.Spec.globalPos P S.positions r k ∧ Corr.Spec.globalPos P S.positions r k < v.2))

end BTA.CorrPlot.Spec
