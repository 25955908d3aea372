import Verif.Model.MergedColumns
import Verif.Model.LineTracks
import Verif.Model.RealFloats
/-
How the steps of the analysis are connected: `find_tracks` reads the columns of the merged table (beam_telescope_analysis/track_analysis.py L233-271), `fit_tracks` reads those of the
track candidates (L925-939, L1264-1268).

Simplifications: real numbers. A hit is missing if a column of position or error is NaN; `merge_cluster_data` writes all of them or none.
-/
namespace BTA.Chain
open BTA.MergedColumns BTA.Line BTA.Dut BTA.Find BTA.FindFile BTA.Geo

/-- The hit of DUT `d` in a row: columns x, y, z, x_err and y_err of the DUT (L241-244, L934-937, L1268). -/
def hitOf (d : Nat) (cols : List Char → Value ℝ) : Option Hit :=
  match cols (nameOf .x d), cols (nameOf .y d), cols (nameOf .z d), cols (nameOf .xErr d), cols (nameOf .yErr d) with
  | .real x, .real y, .real z, .real ex, .real ey => some ⟨x, y, z, ex, ey⟩
  | _, _, _, _, _ => none

/-- L245-255: the second transformation if `align_to_beam` is True, with position and rotation of the telescope (`none` if it is False). -/
noncomputable def toBeam : Option Alignment → Vec3 → Vec3
  | none, q => q
  | some b, q => applyTransformation (localToGlobalMatrix b.x b.y b.z b.alpha b.beta b.gamma) q

/-- `local_to_global_position` for a hit or NaN (L241-258). -/
noncomputable def globalPos (beam : Option Alignment) (a : Alignment) : Option Hit → Option ℝ × Option ℝ × Option ℝ
  | none => (none, none, none)
  | some h =>
    let q := toBeam beam (globalHit a h)
    (some (q 0), some (q 1), some (q 2))

/-- A DUT which is not moved; only used for indices that do not exist. -/
def noAlignment : Alignment := { x := 0, y := 0, z := 0, alpha := 0, beta := 0, gamma := 0 }

/-- Alignment of DUT `d`. -/
def alignmentOf (als : List Alignment) (d : Nat) : Alignment := als.getD d noAlignment

/-- The arguments of the track finding for a telescope (L235-274): positions of the hits, translation (L259) and normal vector (L260-269, the same computation as in
`get_line_intersections_with_dut`). Translation and normal vector are those of the DUT, also if `align_to_beam` is True. -/
noncomputable def telescopeSetting (beam : Option Alignment) (als : List Alignment) (zs extrap : List Nat) : Setting (Option ℝ) (Value ℝ) where
  n := als.length
  setup :=
    { fl := realFloats
      ev := []
      zs := zs
      extrap := extrap
      tr := fun d => (some (alignmentOf als d).x, some (alignmentOf als d).y, some (alignmentOf als d).z)
      nrm := fun d =>
        let n := dutNormal (alignmentOf als d).alpha (alignmentOf als d).beta (alignmentOf als d).gamma
        (some (n 0), some (n 1), some (n 2)) }
  pos := fun d cols => globalPos beam (alignmentOf als d) (hitOf d cols)
  finite := fun d cols => isFinite (cols (nameOf .x d))

/-- A row of the track candidates as input of the track fit (L925-939). -/
def candOf (row : Row (Value ℝ)) : Cand := fun d => hitOf d row.cols

end BTA.Chain
