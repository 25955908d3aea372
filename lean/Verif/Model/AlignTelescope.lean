import Verif.Model.TrackAngle
import Verif.Model.Prealign
/-
Model of `align_telescope` (beam_telescope_analysis/dut_alignment.py L1668-1722) and `line_fit_3d`
(beam_telescope_analysis/track_analysis.py L1462-1482).

Simplifications: real numbers, so that there is no NaN. The first right singular vector of numpy's `svd` is a parameter. A DUT is its
alignment; the other attributes are not touched. The configuration file is the telescope.
-/
namespace BTA.AlignTel
open BTA.Geo BTA.Dut BTA.Angle

inductive Err
  /-- KeyError of the telescope -/
  | noDut
  /-- ValueError of `np.argmin` for an empty list of DUTs -/
  | empty
  /-- bare `raise` of `get_line_intersections_with_plane`: the line is parallel to a DUT -/
  | parallel
  /-- the rotation of the telescope would be NaN -/
  | nan
deriving DecidableEq

/-- A telescope. -/
structure Tel where
  alpha : ℝ
  beta : ℝ
  duts : List Alignment

/-- Position of a DUT. -/
def pos (a : Alignment) : Vec3 := ![a.x, a.y, a.z]

/-- Mean of the positions, track_analysis.py L1470. -/
noncomputable def centre (ps : List Vec3) : Vec3 := (ps.length : ℝ)⁻¹ • ps.sum

/-- track_analysis.py L1474-1478: the direction has length one and a positive z component. -/
noncomputable def orient (v : Vec3) : Vec3 := open Classical in
  let v := (Real.sqrt (dot v v))⁻¹ • v
  if v 2 < 0 then -v else v

/-- `line_fit_3d`, track_analysis.py L1462-1482: offset and slope; `svd` gives the first right singular vector. -/
noncomputable def lineFit (svd : List Vec3 → Vec3) (ps : List Vec3) : Vec3 × Vec3 :=
  (centre ps, orient (svd (ps.map fun p => p - centre ps)))

/-- L1674-1677: the positions of the selected DUTs. -/
def positions (duts : List Alignment) : List Nat → Option (List Vec3)
  | [] => some []
  | i :: is =>
    match duts[i]?, positions duts is with
    | some a, some ps => some (pos a :: ps)
    | _, _ => none

/-- L1679-1683: the reference DUT. -/
noncomputable def referenceDut (ref : Option Nat) (sel : List Nat) (ps : List Vec3) : Nat :=
  match ref with
  | some r => r
  | none => sel.getD (Prealign.argmin (ps.map fun p => p 2)) 0

/-- L1690-1698, L1701-1709: intersection of the line with a DUT. -/
noncomputable def crossing (line : Vec3 × Vec3) (a : Alignment) : Except Err Vec3 :=
  match intersectDut [line] a.x a.y a.z a.alpha a.beta a.gamma with
  | some [p] => .ok p
  | _ => .error .parallel

/-- L1700-1711: loop over the DUTs; `first` is the intersection with the reference DUT minus its position. -/
noncomputable def moveLoop (line : Vec3 × Vec3) (first : Vec3) : List Alignment → Except Err (List Alignment)
  | [] => .ok []
  | a :: as =>
    match crossing line a with
    | .error e => .error e
    | .ok p =>
      match moveLoop line first as with
      | .error e => .error e
      | .ok as' => .ok ({ a with x := a.x - (p 0 - first 0), y := a.y - (p 1 - first 1) } :: as')

/-- L1715-1722: the angles of the line are subtracted from the rotation of the telescope. -/
noncomputable def rotateTel (tel : Tel) (slope : Vec3) (duts : List Alignment) : Except Err Tel :=
  match (trackAngles slope).alpha, (trackAngles slope).beta with
  | some a, some b => .ok ⟨tel.alpha - a, tel.beta - b, duts⟩
  | _, _ => .error .nan

/-- L1684-1722: everything after the choice of the line and the reference DUT. -/
noncomputable def moveTel (tel : Tel) (line : Vec3 × Vec3) (first : Nat) : Except Err Tel :=
  match tel.duts[first]? with
  | none => .error .noDut
  | some f =>
    match crossing line f with
    | .error e => .error e
    | .ok p =>
      match moveLoop line (p - pos f) tel.duts with
      | .error e => .error e
      | .ok duts => rotateTel tel line.2 duts

/-- `align_telescope`, L1668-1722. -/
noncomputable def alignTelescope (svd : List Vec3 → Vec3) (tel : Tel) (sel : List Nat) (ref : Option Nat) : Except Err Tel :=
  match positions tel.duts sel with
  | none => .error .noDut
  | some [] => .error .empty
  | some (p :: ps) => moveTel tel (lineFit svd (p :: ps)) (referenceDut ref sel (p :: ps))

end BTA.AlignTel
