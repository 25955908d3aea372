import Verif.Model.AlignTelescope
/-
Model of the straight line fit in beam_telescope_analysis/track_analysis.py: the fit in `fit_tracks` (L923-968), `_fit_tracks_loop` (L1433-1459),
`line_fit_3d` (L1462-1482) and the track parameters and chi2 in `store_track_data` (L1056-1143, L1264-1274) for method="fit", for the tracks
of a chunk that are selected for fitting.

Simplifications: real numbers; a missing hit (NaN) and the result of a fit that fails (NaN) are `none`. The singular value decomposition of
numpy is a parameter. The correction of the residuals for `select_align_duts` (L1123-1138) is an arbitrary number for each DUT. Where numpy
divides by zero degrees of freedom, the value is arbitrary. The flags are modelled in FitTracks.lean. The local slope is modelled in
TrackAngle.lean.
-/
namespace BTA.Line
open BTA.Geo BTA.Dut BTA.AlignTel

inductive Err
  /-- RuntimeError: The local z positions contain values z!=0. -/
  | zNotZero
  /-- bare `raise` of `get_line_intersections_with_plane` -/
  | parallel
deriving DecidableEq

/-- A hit: local position and errors in x and y. -/
structure Hit where
  x : ℝ
  y : ℝ
  z : ℝ
  ex : ℝ
  ey : ℝ

/-- A track candidate: the hit in each DUT. -/
abbrev Cand := Nat → Option Hit

/-- Settings. `svd` gives the first right singular vector, or none for LinAlgError. -/
structure Config where
  duts : List Alignment
  /-- DUTs used for fitting tracks -/
  fitDuts : List Nat
  /-- correction of the residuals -/
  shift : Nat → ℝ × ℝ
  svd : List Vec3 → Option Vec3
  /-- number of CPU cores -/
  slices : Nat
  /-- value of chi2 / 0 -/
  divZero : ℝ → ℝ

/-- L934-937: a hit in global coordinates. -/
noncomputable def globalHit (a : Alignment) (h : Hit) : Vec3 :=
  applyTransformation (localToGlobalMatrix a.x a.y a.z a.alpha a.beta a.gamma) ![h.x, h.y, h.z]

/-- L934-937 with dut.py L335-336: the hits of a fit DUT must have local z = 0. -/
noncomputable def zBad (g : Config) (cands : List Cand) : Bool :=
  g.duts.zipIdx.any fun p => decide (p.2 ∈ g.fitDuts) && !zClose ((cands.filterMap fun c => c p.2).map Hit.z)

/-- L925-939, L1466-1467: the hits of a track in the fit DUTs, in the order of the DUTs; missing hits are removed. -/
noncomputable def trackHits (g : Config) (c : Cand) : List Vec3 :=
  g.duts.zipIdx.filterMap fun p => if p.2 ∈ g.fitDuts then (c p.2).map (globalHit p.1) else none

/-- L1453-1457 with `line_fit_3d`: offset and slope. (No hits at all does not occur, L860.) -/
noncomputable def fitLine (svd : List Vec3 → Option Vec3) (ps : List Vec3) : Option (Vec3 × Vec3) :=
  (svd (ps.map fun p => p - centre ps)).map fun v => (centre ps, orient v)

/-- `np.array_split(l, n)`, L952: the first `l.length % n` slices have one item more. -/
def arraySplit {V : Type} (n : Nat) (l : List V) : List (List V) :=
  (List.range n).map fun i =>
    (l.drop (i * (l.length / n) + min i (l.length % n))).take (l.length / n + if i < l.length % n then 1 else 0)

/-- L951-968: the slices are fitted by several processes and put together. -/
noncomputable def lines (g : Config) (cands : List Cand) : List (Option (Vec3 × Vec3)) :=
  ((arraySplit g.slices (cands.map (trackHits g))).map fun s => s.map (fitLine g.svd)).flatten

/-- Track at a DUT, in local coordinates. -/
structure Est where
  pos : Vec3
  slope : Option Vec3

/-- L1068-1101: tracks at a DUT. An exception is raised if one of the tracks is parallel to the DUT. -/
noncomputable def atDut (a : Alignment) : List (Option (Vec3 × Vec3)) → Except Err (List (Option Est))
  | [] => .ok []
  | none :: ls =>
    match atDut a ls with
    | .error e => .error e
    | .ok es => .ok (none :: es)
  | some l :: ls =>
    match crossing l a with
    | .error _ => .error .parallel
    | .ok p =>
      match globalToLocal a {} [p] with
      | .ok [q] =>
        match atDut a ls with
        | .error e => .error e
        | .ok es => .ok (some ⟨q, Angle.storedSlope a l.2⟩ :: es)
      | _ => .error .zNotZero

/-- L1056-1101: loop over all DUTs of the telescope. -/
noncomputable def estimates (ls : List (Option (Vec3 × Vec3))) : List Alignment → Except Err (List (List (Option Est)))
  | [] => .ok []
  | a :: as =>
    match atDut a ls with
    | .error e => .error e
    | .ok es =>
      match estimates ls as with
      | .error e => .error e
      | .ok rest => .ok (es :: rest)

/-- A fitted track: the estimates for the DUTs, chi2, chi2 divided by the degrees of freedom, probability. -/
structure Track where
  est : Nat → Option Est
  chi2 : ℝ
  chi2Red : ℝ
  chi2Prob : ℝ

/-- L1111-1112, L1123-1138: the residuals of a track in a DUT. -/
noncomputable def residual (g : Config) (c : Cand) (est : Nat → Option Est) (d : Nat) : Option (ℝ × ℝ) :=
  match c d, est d with
  | some h, some e => some (h.x - e.pos 0 - (g.shift d).1, h.y - e.pos 1 - (g.shift d).2)
  | _, _ => none

/-- L1268: `np.ma.masked_invalid(residual**2 / error**2)`: a quotient that is not finite does not count. -/
noncomputable def pull2 (r e : ℝ) : ℝ := open Classical in if e = 0 then 0 else r ^ 2 / e ^ 2

/-- L1268: the contribution of a DUT. -/
noncomputable def chi2Of (g : Config) (c : Cand) (est : Nat → Option Est) (d : Nat) : ℝ :=
  match c d, residual g c est d with
  | some h, some r => pull2 r.1 h.ex + pull2 r.2 h.ey
  | _, _ => 0

/-- L1268: the sum over the fit DUTs. -/
noncomputable def chi2 (g : Config) (c : Cand) (est : Nat → Option Est) : ℝ := (g.fitDuts.map (chi2Of g c est)).sum

/-- L1273: number of fit DUTs with a hit. -/
noncomputable def nHits (g : Config) (c : Cand) (est : Nat → Option Est) : Nat :=
  (g.fitDuts.filter fun d => (residual g c est d).isSome).length

/-- L1270-1273 -/
noncomputable def chi2Red (g : Config) (c : Cand) (est : Nat → Option Est) : ℝ := open Classical in
  if chi2 g c est = 0 then 0
  else if 2 * ((nHits g c est : ℝ) - 2) = 0 then g.divZero (chi2 g c est)
  else chi2 g c est / (2 * ((nHits g c est : ℝ) - 2))

/-- The estimates of track `i`. -/
def estOf (es : List (List (Option Est))) (i d : Nat) : Option Est := ((es[d]?).bind fun l => l[i]?).join

/-- L923-968 and L1056-1274: the tracks. -/
noncomputable def fitChunk (g : Config) (cands : List Cand) : Except Err (List Track) :=
  if zBad g cands then .error .zNotZero
  else
    match estimates (lines g cands) g.duts with
    | .error e => .error e
    | .ok es => .ok (cands.zipIdx.map fun p =>
        ⟨estOf es p.2, chi2 g p.1 (estOf es p.2), chi2Red g p.1 (estOf es p.2), 0⟩)

end BTA.Line
