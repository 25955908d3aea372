import Verif.Model.PlotTracks
import Verif.Spec.Statistics
/-
Specification for C199-C201. Of the model only the types of rows are used.
-/
namespace BTA.Spec.PlotTracks
open BTA.PlotTracks Geo

/-- The row is in the range of events. -/
def InEvents (range : Int × Int) (r : EventRow) : Prop := range.1 ≤ r.event ∧ r.event < range.2

/-- The numbers of events and of tracks with fit in the range. -/
def HasTitle (range : Int × Int) (T : List EventRow) (tracks events : Nat) : Prop :=
  tracks = BTA.Spec.number T (fun r => InEvents range r ∧ r.line.isSome) ∧
  ∃ S : Finset Int, events = S.card ∧ ∀ e, e ∈ S ↔ ∃ r ∈ T, InEvents range r ∧ r.event = e

/-- Point of the segment between two points. -/
def Between (a b p : Vec3) : Prop := ∃ t : ℝ, 0 ≤ t ∧ t ≤ 1 ∧ p = a + t • (b - a)

/-- The point (in mm) is on the line of the track (in um). -/
def OnTrack (line : Vec3 × Vec3) (p : Vec3) : Prop := ∃ t : ℝ, p = (1 / 1000 : ℝ) • (line.1 + t • line.2)

/-- Number of candidates with the properties, divided by the number of candidates with the properties of the total; 0 without candidates. -/
def shareOf (chunk : List Cand) (sel total : Cand → Bool) : ℚ := (chunk.countP fun c => total c && sel c : ℚ) / (chunk.countP total : ℚ)

end BTA.Spec.PlotTracks
