import Verif.Model.Geometry
import Verif.Model.Dut
/-
Model of `get_angles`, beam_telescope_analysis/result_analysis.py L2541-2555, of the track slopes stored in the track table
(track_analysis.py L1079-1096) and read by `histogram_track_angle` (result_analysis.py L2375-2402), and of the rotation into the beam in
`find_tracks` (track_analysis.py L245-255).

Simplifications: real numbers; a division by zero (NaN in numpy) is `none`. One track: the function works on arrays row by row. The function
also changes its argument; none of the callers uses the argument afterwards.
-/
namespace BTA.Angle
open BTA.Geo BTA.Dut

/-- L2544-2545, L2547, L2549: division by the length; `none` is NaN. -/
noncomputable def normalize (v : Vec3) : Option Vec3 := open Classical in
  if Real.sqrt (dot v v) = 0 then none else some ((Real.sqrt (dot v v))⁻¹ • v)

/-- L2546, L2548: projection onto the plane with normal vector `n`. -/
def project (n s : Vec3) : Vec3 := s - dot n s • n

/-- L2553, L2554: the angle from the normal vector of the DUT to the track, both in the plane with normal vector `n`. -/
noncomputable def planeAngle (n track normal : Vec3) : ℝ := arctan2 (dot n (planeNormal track normal)) (dot normal track)

/-- The angles of a track; `none` is NaN. -/
structure Angles where
  total : Option ℝ
  alpha : Option ℝ
  beta : Option ℝ

/-- L2543: the z component is made positive. -/
def positiveZ (s : Vec3) : Vec3 := ![s 0, s 1, |s 2|]

/-- `get_angles`, L2541-2555. -/
noncomputable def getAngles (slope xz yz normal : Vec3) : Angles :=
  match normalize (positiveZ slope) with
  | none => ⟨none, none, none⟩
  | some s =>
    { total := some (Real.arccos (dot normal s))
      alpha := (normalize (project yz s)).map fun t => planeAngle yz t (project yz normal)
      beta := (normalize (project xz s)).map fun t => planeAngle xz t (project xz normal) }

/-- The normal vectors of all calls (dut_alignment.py L1715-1719, result_analysis.py L2391-2402): axes of the coordinate system. -/
noncomputable def trackAngles (slope : Vec3) : Angles := getAngles slope ![0, 1, 0] ![1, 0, 0] ![0, 0, 1]

/-- track_analysis.py L1093: the direction is reversed if its z component is negative. -/
noncomputable def forward (s : Vec3) : Vec3 := open Classical in if s 2 < 0 then -s else s

/-- track_analysis.py L1079-1096: the slope stored in the track table of a DUT, from the slope of the track in global coordinates. -/
noncomputable def storedSlope (a : Alignment) (slope : Vec3) : Option Vec3 :=
  normalize (forward (applyTransformation (globalToLocalMatrix 0 0 0 a.alpha a.beta a.gamma) slope))

/-- result_analysis.py L2375-2386: the stored slope in global coordinates. -/
noncomputable def globalSlope (a : Alignment) (stored : Vec3) : Vec3 :=
  applyTransformation (localToGlobalMatrix 0 0 0 a.alpha a.beta a.gamma) stored

/-- result_analysis.py L2388-2392: the global angles of a track in the track table of a DUT. -/
noncomputable def globalAngles (a : Alignment) (slope : Vec3) : Angles :=
  match storedSlope a slope with
  | none => ⟨none, none, none⟩
  | some s => trackAngles (globalSlope a s)

/-- `find_tracks` with `align_to_beam`, track_analysis.py L245-255: a hit of DUT `a` in global coordinates is transformed once more, with the
position and the rotation of the telescope `t`. -/
noncomputable def toBeam (a t : Alignment) (p : Vec3) : Except Err (List Vec3) :=
  localToGlobal a { x := some t.x, y := some t.y, z := some t.z, alpha := some t.alpha, beta := some t.beta, gamma := some t.gamma } [p]

end BTA.Angle
