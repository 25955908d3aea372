import Verif.Model.Chain
import Verif.Model.FitTracks
import Verif.Model.Efficiency
/-
The connection of `find_tracks`, `fit_tracks` and `calculate_efficiency`: `fit_tracks` selects and stores the track candidates (Verif.Model.FitTracks) and fits straight lines to their
hits (Verif.Model.LineTracks); `calculate_efficiency` reads the columns of the track table (beam_telescope_analysis/result_analysis.py L1017-1062).

Simplification: real numbers; the fit is described for each candidate alone (see `C188_chunk` for the fit of a chunk).
-/
namespace BTA.Chain
open BTA.MergedColumns BTA.Line BTA.Geo

/-- The columns of a track candidate used for the selection and for the flags (track_analysis.py L854-866, L1107-1108): event number, hit flag and the hit positions. -/
def fitCand (row : BTA.FindFile.Row (Value ℝ)) : BTA.Fit.Cand ℝ where
  event := row.ev
  flag := row.flag.toNat
  x d := (hitOf d row.cols).map Hit.x
  y d := (hitOf d row.cols).map Hit.y

/-- The hits used for the fit (track_analysis.py L925-939). The local z position is zero in the merged table; the errors are not used by the fit. -/
def lineHits (c : BTA.Fit.Cand ℝ) : Cand := fun d =>
  match c.x d, c.y d with
  | some x, some y => some ⟨x, y, 0, 1, 1⟩
  | _, _ => none

/-- The settings of the straight line fit for a set of fit DUTs (track_analysis.py L925: the fit DUTs in the order of the telescope). -/
def lineConfig (g : Config) (F : Finset Nat) : Config := { g with fitDuts := (List.range g.duts.length).filter fun d => decide (d ∈ F) }

/-- The track at a DUT (track_analysis.py L923-968, L1068-1101): local position and slope; NaN if there is none. -/
noncomputable def lineEst (g : Config) (F : Finset Nat) (c : BTA.Fit.Cand ℝ) (d : Nat) : BTA.Fit.Est ℝ (Option Vec3) :=
  match fitChunk (lineConfig g F) [lineHits c] with
  | .ok [t] =>
    match t.est d with
    | some e => ⟨some (e.pos 0), some (e.pos 1), e.slope⟩
    | none => ⟨none, none, none⟩
  | _ => ⟨none, none, none⟩

/-- A row of the track table of DUT `k` as read by `calculate_efficiency` (result_analysis.py L1020-1021): hit and intersection. The other columns are arbitrary. -/
noncomputable def effRow {R : Type} (k : Nat) (other : BTA.Fit.Row ℝ R → BTA.Efficiency.Row ℝ) (r : BTA.Fit.Row ℝ R) : BTA.Efficiency.Row ℝ :=
  { other r with
    event := r.cand.event
    hit := match r.cand.x k, r.cand.y k with
      | some x, some y => some (x, y)
      | _, _ => none
    ix := r.est.x.getD 0
    iy := r.est.y.getD 0 }

end BTA.Chain
