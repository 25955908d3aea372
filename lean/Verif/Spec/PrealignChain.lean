import Verif.Spec.Prealign
import Verif.Spec.Correlate
/-
Specification vocabulary for the pre-alignment with uncorrelated bins and for the chain from the hits to the pre-alignment.
-/
namespace BTA.Prealign.Spec
open BTA.Prealign BTA.Corr BTA.Corr.Spec

/-- Bin `i` of the DUT shows the correlation with the direction `s` and the centre of the DUT at `pos`: the most populated bin of the reference is
exactly where it is expected. -/
def Shows (nd : Node) (s pos : ℝ) (i : Nat) : Prop :=
  ∃ (h : i < nd.data.length) (j : Nat), IsPeak nd.data[i] j ∧ refCentre nd j = s * (dutCentre nd i - dutMiddle nd) + pos

/-- Number of bins of the DUT that do not show the correlation. Nothing is said about their content. -/
noncomputable def bad (nd : Node) (s pos : ℝ) : Nat := Set.ncard {i : Nat | i < nd.data.length ∧ ¬ Shows nd s pos i}

/-- In each half of the DUT there are more bins with the correlation than there are bins without the correlation in the whole DUT. -/
structure MostlyCorrelated (nd : Node) (s pos : ℝ) : Prop where
  left : bad nd s pos < Set.ncard {i : Nat | 2 * i + 1 < nd.data.length ∧ Shows nd s pos i}
  right : bad nd s pos < Set.ncard {i : Nat | nd.data.length < 2 * i + 1 ∧ Shows nd s pos i}

/-- Centre of a bin of an axis. -/
noncomputable def binCentre (a : Axis) (res : ℝ) (i : Nat) : ℝ := a.start + (i + 1 / 2) * res

/-- The hits in bin `i` of the DUT `Q` have the most coincidences with the bin of the reference `P` that is expected for the direction `s` and the centre
of the DUT at `pos`. -/
def Coincides (P Q : Plane) (S T : Table) (k : Fin 3) (res : ℝ) (ra da : Axis) (s pos : ℝ) (i : Nat) : Prop :=
  ∃ j < ra.bins, binCentre ra res j = s * (binCentre da res i - toGlobal Q (0, 0) k) + pos ∧
    ∀ j' < ra.bins, j' ≠ j → pairsInBins P Q S T k ra.start da.start res i j' < pairsInBins P Q S T k ra.start da.start res i j

/-- The hits of the reference `P` (table `S`) and of the DUT `Q` (table `T`) are correlated along the coordinate `k` for more than three quarters of the
bins of the DUT. The bins are those with which the sensors are just covered. -/
def HitsCorrelated (P Q : Plane) (S T : Table) (k : Fin 3) (res s pos : ℝ) : Prop :=
  ∀ ra da, SmallestAxis P k res ra → SmallestAxis Q k res da →
    4 * Set.ncard {i : Nat | i < da.bins ∧ ¬ Coincides P Q S T k res ra da s pos i} + 2 ≤ da.bins

open Classical in
/-- Number of pairs of hits of the same event in column (or row) `c` of the DUT and column (or row) `c'` of the reference. `f` is the number of the column
(or row) of a hit; the mean of a cluster is rounded. -/
noncomputable def pairsInPixels (S T : Table) (f : Row → ℝ) (c c' : Nat) : Nat :=
  BTA.Spec.pairCount S.rows T.rows fun r d => decide (r.ev = d.ev ∧ ((c : ℝ) - 1 / 2 ≤ f d ∧ f d < c + 1 / 2) ∧ (c' : ℝ) - 1 / 2 ≤ f r ∧ f r < c' + 1 / 2)

/-- Column (or row) `c` of the DUT sees the particles that are seen by column (or row) `s * c + K` of the reference, which has `n` of them: there are more
coincidences with this one than with any other. -/
def SeesPartner (S T : Table) (f : Row → ℝ) (n : Nat) (s K : ℝ) (c : Nat) : Prop :=
  ∃ c', 1 ≤ c' ∧ c' ≤ n ∧ (c' : ℝ) = s * c + K ∧ ∀ c'', 1 ≤ c'' → c'' ≤ n → c'' ≠ c' → pairsInPixels S T f c c'' < pairsInPixels S T f c c'

/-- Less than a quarter of the columns (or rows) of the DUT do not see their partner. -/
def MostlySeen (S T : Table) (f : Row → ℝ) (n m : Nat) (s K : ℝ) : Prop :=
  4 * Set.ncard {c : Nat | 1 ≤ c ∧ c ≤ m ∧ ¬ SeesPartner S T f n s K c} + 2 ≤ m

/-- At most one bin of every row and of every column of a histogram has entries: there are no coincidences except those of the correlation. -/
structure OneEach (n m : Nat) (h : Hist2) : Prop where
  row : ∀ i < n, ∀ j < m, ∀ j' < m, h i j ≠ 0 → h i j' ≠ 0 → j = j'
  column : ∀ i < n, ∀ i' < n, ∀ j < m, h i j ≠ 0 → h i' j ≠ 0 → i = i'

/-- Column (or row) `c` of the DUT has coincidences with column (or row) `s * c + K` of the reference only, and less than a quarter of the columns (or
rows), two columns (or rows) more being allowed for, have no coincidences. -/
structure CleanPairs (S T : Table) (f : Row → ℝ) (n m : Nat) (s K : ℝ) : Prop where
  partner : ∀ c c', 1 ≤ c → c ≤ m → 1 ≤ c' → c' ≤ n → 0 < pairsInPixels S T f c c' → (c' : ℝ) = s * c + K
  many : 4 * (Set.ncard {c : Nat | 1 ≤ c ∧ c ≤ m ∧ ∀ c', 1 ≤ c' → c' ≤ n → pairsInPixels S T f c c' = 0} + 2) + 2 ≤ m

/-- A sensor that is perpendicular to the beam and is not rotated. -/
def Upright (d : PDut) : Prop := d.align.alpha = 0 ∧ d.align.beta = 0 ∧ d.align.gamma = 0

end BTA.Prealign.Spec
