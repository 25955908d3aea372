import Verif.Model.FitTracks
import Mathlib.Data.Finset.Card
import Mathlib.Algebra.Order.Field.Basic
/-
Specification vocabulary for the fitted tracks. Of the model only the data types are used (`Cand`, `DutCfg`, `Plane`, `Row`).
-/
namespace BTA.Spec
open BTA.Fit

/-- Number of DUTs of the set that have a hit according to the hit flag. -/
def hitsIn (flag : Nat) (duts : Finset Nat) : Nat := (duts.filter fun d => flag.testBit d = true).card

/-- The DUTs used for fitting the tracks of the selected DUT. -/
def ownFit (c : DutCfg) : Finset Nat := if c.exclude then c.fitDuts.toFinset.erase c.dut else c.fitDuts.toFinset

/-- Required number of hits; all fit DUTs if not given. -/
def required (c : DutCfg) : Nat := c.minHits.getD (ownFit c).card

/-- A candidate is fitted if it has two hits in the fit DUTs; the Kalman filter needs the required number and three. -/
def Fitted (kalman : Bool) (c : DutCfg) (flag : Nat) : Prop :=
  (if kalman then max 3 (required c) else 2) ≤ hitsIn flag (ownFit c)

/-- A candidate is stored if it has a hit in all hit DUTs and the required number of hits in the fit DUTs (Kalman filter: at
least three). -/
def Stored (kalman : Bool) (c : DutCfg) (flag : Nat) : Prop :=
  (∀ d ∈ c.hitDuts, flag.testBit d = true) ∧ required c ≤ hitsIn flag (ownFit c) ∧
  (kalman = true → 3 ≤ hitsIn flag (ownFit c))

instance (kalman : Bool) (c : DutCfg) (flag : Nat) : Decidable (Fitted kalman c flag) := by unfold Fitted; infer_instance
instance (kalman : Bool) (c : DutCfg) (flag : Nat) : Decidable (Stored kalman c flag) := by unfold Stored; infer_instance

/-- Assumption about `np.random.choice(…, replace=False)`: it returns the requested number of different items. -/
def ValidSampling (S : Sampling) : Prop :=
  ∀ idx l n, l.Nodup → n ≤ l.length →
    (S.choice idx l n).Nodup ∧ (∀ e ∈ S.choice idx l n, e ∈ l) ∧ (S.choice idx l n).length = n

variable {K R : Type} [Field K] [LinearOrder K]

/-- Two points, both known, are within the distances: in the ellipse with these half axes, or in the rectangle. -/
def Near (ellipse : Prop) (dx dy : K) (a b : Option K × Option K) : Prop :=
  ∃ ax ay bx byy, a = (some ax, some ay) ∧ b = (some bx, some byy) ∧
    ((ellipse → ((ax - bx) / dx) ^ 2 + ((ay - byy) / dy) ^ 2 ≤ 1) ∧ (¬ ellipse → |ax - bx| ≤ dx ∧ |ay - byy| ≤ dy))

/-- No negative distance. -/
def ValidCuts (P : Plane K) : Prop :=
  (∀ q ∈ P.quality, 0 ≤ q.1 ∧ 0 ≤ q.2) ∧ ∀ q ∈ P.isolation, 0 ≤ q.1 ∧ 0 ≤ q.2

/-- The distance cuts are an ellipse if both are at least 2.5 pixels, or missing. -/
def WideCut (P : Plane K) : Prop := ∀ q ∈ P.quality, 5 / 2 * P.pixelX ≤ q.1 ∧ 5 / 2 * P.pixelY ≤ q.2

/-- The hit is inside the limits of the DUT and close to the track. -/
def GoodHit (P : Plane K) (hit track : Option K × Option K) : Prop :=
  ∃ hx hy tx ty, hit = (some hx, some hy) ∧ track = (some tx, some ty) ∧
    (∀ l ∈ P.xlo, l ≤ hx) ∧ (∀ l ∈ P.xhi, hx ≤ l) ∧ (∀ l ∈ P.ylo, l ≤ hy) ∧ (∀ l ∈ P.yhi, hy ≤ l) ∧
    ∀ q ∈ P.quality, Near (WideCut P) q.1 q.2 hit track

/-- Row number `i` has another row of the same event (selected by `sel`) near to it. -/
def HasNeighbour (T : List (Cand K)) (sel : Cand K → Prop) (near : Cand K → Cand K → Prop) (i : Nat) (c : Cand K) : Prop :=
  ∃ j c', T[j]? = some c' ∧ j ≠ i ∧ c'.event = c.event ∧ sel c' ∧ near c c'

/-- What the stored row of candidate `p.1`, which is row `p.2` of the candidates table `T`, has to look like in the table of
DUT `k`. `est d` is the track extrapolated to DUT `d`. -/
def RowOk (est : Cand K → Nat → Est K R) (planes : List (Plane K)) (T : List (Cand K)) (fitted : Cand K → Prop)
    (k : Nat) (p : Cand K × Nat) (row : Row K R) : Prop :=
  row.cand = p.1 ∧ row.est = est p.1 k ∧
  ∀ d,
    (row.flags.quality.testBit d = true ↔
      ∃ P, planes[d]? = some P ∧ GoodHit P (p.1.x d, p.1.y d) ((est p.1 d).x, (est p.1 d).y)) ∧
    (row.flags.track.testBit d = true ↔
      ∃ P, planes[d]? = some P ∧ ¬ HasNeighbour T fitted (fun c c' =>
        Near (0 < (P.isolation.getD (0, 0)).1 ∧ 0 < (P.isolation.getD (0, 0)).2) (P.isolation.getD (0, 0)).1
          (P.isolation.getD (0, 0)).2 ((est c d).x, (est c d).y) ((est c' d).x, (est c' d).y)) p.2 p.1) ∧
    (row.flags.hit.testBit d = true ↔
      ∃ P, planes[d]? = some P ∧ ¬ HasNeighbour T (fun _ => True) (fun c c' =>
        Near (WideCut P ∧ 0 < (P.isolation.getD (0, 0)).1 ∧ 0 < (P.isolation.getD (0, 0)).2) (P.isolation.getD (0, 0)).1
          (P.isolation.getD (0, 0)).2 (c.x d, c.y d) (c'.x d, c'.y d)) p.2 p.1)

end BTA.Spec
