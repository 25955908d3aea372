import Verif.Spec.Chain
import Verif.Spec.Tracks
import Verif.Spec.Efficiency
import Mathlib.Data.Set.Card
/-
Specification: the true efficiency of a DUT, from the true tracks and the clusters that exist.
-/
namespace BTA.Chain
open BTA.MergedColumns BTA.Line BTA.Dut BTA.Geo BTA.Spec

/-- Track number `p.2` of event `p.1` is a true track of the data: the events end with the last event of the first table. -/
def IsTrack (truth : Int → Truth) (T0 : List (Clust ℝ)) (p : Int × Nat) : Prop := (∃ x ∈ T0, p.1 ≤ x.ev) ∧ p.2 < (truth p.1).m

/-- The track has a cluster in DUT `d`. -/
def HasCluster (truth : Int → Truth) (tables : List (List (Clust ℝ))) (d : Nat) (p : Int × Nat) : Prop :=
  (truth p.1).own p.2 d < (eventOf tables p.1 d).length

open Classical in
/-- The track fulfils the requirements of the user: a cluster in each of the required DUTs and enough clusters in the fit DUTs. -/
def Taken (truth : Int → Truth) (tables : List (List (Clust ℝ))) (c : BTA.Fit.DutCfg) (p : Int × Nat) : Prop :=
  (∀ d ∈ c.hitDuts, HasCluster truth tables d p) ∧ required c ≤ ((ownFit c).filter fun d => HasCluster truth tables d p).card

/-- The true track crosses the DUT `k` in an enabled pixel and at a position with property `P`. -/
def Crosses (truth : Int → Truth) (a : Alignment) (k : Nat) (enabled : ℝ → ℝ → Bool) (P : ℝ → ℝ → Prop) (p : Int × Nat) : Prop :=
  ∃ u w, AtLocal a ((truth p.1).at' p.2 k) u w ∧ enabled u w = true ∧ P u w

end BTA.Chain
