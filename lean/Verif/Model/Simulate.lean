import Verif.Model.ChargeSharing
import Verif.Model.Geometry
import Mathlib.Analysis.SpecialFunctions.Log.Basic
/-
Model of the simulation of data, tools/simulate_data.py, class `SimulateData` (L361-869) and the charge fractions (L38-126), over the real
numbers. Random numbers are arbitrary functions: a normal distribution is mean + sigma * (standard normal number), a uniform one is
low + (high - low) * (number between 0 and 1), as in numpy. Not modelled: the random generator and its seed, exceptions of numpy for negative
sigmas and for non-integer numbers of tracks, a beam momentum or bias of zero, the progress bar, the distribution of the deposited charge.
The error function `math.erf` is a parameter.
-/
namespace BTA.Sim
open BTA.Geo

/-! ### Settings -/

/-- The settings (L384-446), those that are used. -/
structure Settings where
  nDuts : Nat
  zPositions : List ℝ
  offsets : List (ℝ × ℝ)
  rotations : List (ℝ × ℝ × ℝ)
  temperature : ℝ
  beamPosition : ℝ × ℝ
  beamPositionSigma : ℝ × ℝ
  beamAngle : ℝ
  beamAngleSigma : ℝ
  beamDirection : ℝ × ℝ
  beamMomentum : ℝ
  dutBias : List ℝ
  dutThickness : List ℝ
  dutThreshold : List ℝ
  dutNoise : List ℝ
  dutPixelSize : List (ℝ × ℝ)
  dutNPixel : List (Int × Int)
  dutEfficiencies : List ℝ
  dutMaterialBudget : List ℝ
  chargeSharing : Bool
  shuffle : Bool
  /-- `digitization_sigma_cc` -/
  sigmaCc : ℝ
  discretization : Bool

/-- `set_std_settings`, L384-446, for the number of DUTs of the object. -/
noncomputable def stdSettings (n : Nat) : Settings where
  nDuts := n
  zPositions := (List.range n).map fun i => (i : ℝ) * 10000
  offsets := List.replicate n (-2500, -2500)
  rotations := List.replicate n (0, 0, 0)
  temperature := 300
  beamPosition := (0, 0)
  beamPositionSigma := (2000, 2000)
  beamAngle := 0
  beamAngleSigma := 1
  beamDirection := (0, 2 * Real.pi)
  beamMomentum := 3200
  dutBias := List.replicate n 50
  dutThickness := List.replicate n 100
  dutThreshold := List.replicate n 0
  dutNoise := List.replicate n 50
  dutPixelSize := List.replicate n (50, 50)
  dutNPixel := List.replicate n (1000, 1000)
  dutEfficiencies := List.replicate n 1
  dutMaterialBudget := List.replicate n (100 * 1e-4 / 9.370)
  chargeSharing := true
  shuffle := true
  sigmaCc := 1.35
  discretization := true

/-- `reset`, L448-452. -/
noncomputable def reset : Settings := stdSettings 6

/-- The setter of `n_duts`, L376-382: `set_std_settings` is called before the number is changed. -/
noncomputable def setNDuts (value : Nat) (s : Settings) : Settings :=
  if s.nDuts < value then { stdSettings s.nDuts with nDuts := value } else { s with nDuts := value }

/-! ### Charge fractions -/

/-- `_calc_sigma_diffusion`, L38-56. -/
noncomputable def sigmaDiffusion (distance temperature bias : ℝ) : ℝ := distance * Real.sqrt (2 * temperature / bias * 8.6173324e-5)

/-- `_bivariante_normal_cdf`, L60-88. -/
noncomputable def bivariateCdf (erf : ℝ → ℝ) (a1 a2 b1 b2 mu1 mu2 sigma : ℝ) : ℝ :=
  1 / 4 * ((erf ((a2 - mu1) / Real.sqrt (2 * sigma ^ 2)) - erf ((a1 - mu1) / Real.sqrt (2 * sigma ^ 2))) *
    (erf ((b2 - mu2) / Real.sqrt (2 * sigma ^ 2)) - erf ((b1 - mu2) / Real.sqrt (2 * sigma ^ 2))))

/-- `_calc_charge_fraction`, L92-126. -/
noncomputable def chargeFraction (erf : ℝ → ℝ) (sizeX sizeY z temperature bias sigmaCc : ℝ) (x y : ℝ) (i j : Int) : ℝ := open Classical in
  let sigma := sigmaDiffusion z temperature bias * sigmaCc
  if sigma = 0 then 1
  else bivariateCdf erf (sizeX * (i - 1 / 2)) (sizeX * (i + 1 / 2)) (sizeY * (j - 1 / 2)) (sizeY * (j + 1 / 2)) x y sigma

/-- L297-326: the fractions used by `_add_charge_sharing_hits`, with the charge at half of the thickness and `digitization_sigma_cc=1.`. -/
noncomputable def sharingFraction (erf : ℝ → ℝ) (sizeX sizeY thickness temperature bias : ℝ) : ℝ → ℝ → Int → Int → ℝ :=
  chargeFraction erf sizeX sizeY (thickness / 2) temperature bias 1

/-! ### Tracks -/

/-- Random numbers of `_create_tracks`: standard normal numbers for x, y and theta, numbers of the repetitions for theta, and numbers between
0 and 1 for phi. -/
structure TrackRandom where
  x : Nat → ℝ
  y : Nat → ℝ
  theta : Nat → ℝ
  high : Nat → Nat → ℝ
  low : Nat → Nat → ℝ
  phi : Nat → ℝ

/-- A track: position at z = 0 and direction. -/
structure Track where
  x : ℝ
  y : ℝ
  phi : ℝ
  theta : ℝ

/-- L523-527 -/
noncomputable def trackX (s : Settings) (g : TrackRandom) (i : Nat) : ℝ := open Classical in
  if s.beamPositionSigma.1 ≠ 0 then s.beamPosition.1 + s.beamPositionSigma.1 * g.x i else s.beamPosition.1

/-- L529-533: with the sigma of x. -/
noncomputable def trackY (s : Settings) (g : TrackRandom) (i : Nat) : ℝ := open Classical in
  if s.beamPositionSigma.2 ≠ 0 then s.beamPosition.2 + s.beamPositionSigma.1 * g.y i else s.beamPosition.2

/-- L535-538 -/
noncomputable def trackTheta (s : Settings) (g : TrackRandom) (i : Nat) : ℝ := open Classical in
  if s.beamAngleSigma ≠ 0 then |s.beamAngle / 1000 + s.beamAngleSigma / 1000 * g.theta i| else s.beamAngle / 1000

/-- L556-560 -/
noncomputable def trackPhi (s : Settings) (g : TrackRandom) (i : Nat) : ℝ := open Classical in
  if s.beamDirection.1 ≠ s.beamDirection.2 then s.beamDirection.1 + (s.beamDirection.2 - s.beamDirection.1) * g.phi i
  else s.beamDirection.1

/-- L543-550: one repetition. The mean and the sigma are not divided by 1000 here. -/
noncomputable def redraw (s : Settings) (high low : ℝ) (theta : ℝ) : ℝ := open Classical in
  let t := if Real.pi < theta then s.beamAngle + s.beamAngleSigma * high else theta
  if t < 0 then s.beamAngle + s.beamAngleSigma * low else t

/-- L540-554: at most 1000 repetitions. -/
noncomputable def thetaLoop (s : Settings) (g : TrackRandom) : Nat → Nat → List ℝ → Except Err (List ℝ)
  | left, round, thetas => open Classical in
    if (thetas.any fun t => decide (Real.pi < t)) || (thetas.any fun t => decide (t < 0)) then
      match left with
      | 0 => .error .theta
      | k + 1 => thetaLoop s g k (round + 1) (thetas.zipIdx.map fun p => redraw s (g.high round p.2) (g.low round p.2) p.1)
    else .ok thetas

/-- `_create_tracks`, L505-562. -/
noncomputable def createTracks (s : Settings) (g : TrackRandom) (n : Nat) : Except Err (List Track) := open Classical in
  if Real.pi < s.beamAngle / 1000 ∨ s.beamAngle / 1000 < 0 then .error .beamAngle
  else
    match thetaLoop s g 1000 0 ((List.range n).map (trackTheta s g)) with
    | .error e => .error e
    | .ok thetas => .ok (thetas.zipIdx.map fun p => ⟨trackX s g p.2, trackY s g p.2, trackPhi s g p.2, p.1⟩)

/-! ### Hits -/

/-- A DUT as a plane with material. -/
structure Plane where
  x : ℝ
  y : ℝ
  z : ℝ
  alpha : ℝ
  beta : ℝ
  gamma : ℝ
  material : ℝ

/-- L589-599, L638: the settings of a DUT are looked up by its number. -/
def planeAt (s : Settings) (i : Nat) (z : ℝ) : Except Err Plane :=
  match s.offsets[i]?, s.rotations[i]?, s.dutMaterialBudget[i]? with
  | some o, some r, some m => .ok ⟨o.1, o.2, z, r.1, r.2.1, r.2.2, m⟩
  | _, _, _ => .error .index

/-- L598-605: third row of the transposed rotation matrix (not turned or scaled). -/
noncomputable def planeNormalOf (p : Plane) : Vec3 := ((rotationMatrix p.alpha p.beta p.gamma).transpose * 1 : Mat3) 2

/-- `_scattering_angle_sigma`, L853-867. -/
noncomputable def scatteringSigma (momentum material : ℝ) : ℝ := open Classical in
  if material = 0 then 0 else 13.6 / momentum * 1 * Real.sqrt material * (1 + 0.038 * Real.log material)

/-- Directions of the tracks, L611-614 and L625-628. -/
noncomputable def directions (angles : List (ℝ × ℝ)) : Except Err (List Vec3) :=
  match sphericalToCartesian (angles.map fun a => (a.1, a.2, 1)) with
  | none => .error .spherical
  | some l => .ok (l.map fun d => ![d.1, d.2.1, d.2.2])

/-- L616-620 and L630-634: the hits on a plane. -/
noncomputable def planeHits (p : Plane) (origins : List Vec3) (dirs : List Vec3) : Except Err (List Vec3) :=
  match intersectPlane (origins.zip dirs) ![p.x, p.y, p.z] (planeNormalOf p) with
  | none => .error .parallel
  | some l => .ok l

/-- L645-664: the angles after scattering; `u i` is between 0 and 1, `v i` a standard normal number. -/
noncomputable def scatter (theta0 : ℝ) (u v : Nat → ℝ) (angles : List (ℝ × ℝ)) (dirs : List Vec3) : Except Err (List (ℝ × ℝ)) :=
  match sphericalToCartesian ((List.range angles.length).map fun i => (0 + (2 * Real.pi - 0) * u i, |0 + theta0 * v i|, 1)) with
  | none => .error .spherical
  | some ds => .ok ((dirs.zip ds).map fun q =>
      ((cartesianToSpherical (q.1 0 + q.2.1) (q.1 1 + q.2.2.1) (q.1 2)).1, (cartesianToSpherical (q.1 0 + q.2.1) (q.1 1 + q.2.2.1) (q.1 2)).2.1))

/-- L579-687: the loop over the DUTs. `u`, `v`: random numbers for each DUT and track. -/
noncomputable def hitLoop (momentum : ℝ) (u v : Nat → Nat → ℝ) : Nat → List Plane → List Vec3 → List (ℝ × ℝ) → Except Err (List (List Vec3))
  | _, [], _, _ => .ok []
  | i, p :: ps, origins, angles => open Classical in
    match directions angles with
    | .error e => .error e
    | .ok dirs =>
      match planeHits p origins dirs with
      | .error e => .error e
      | .ok hits =>
        match (if p.material ≠ 0 ∧ ps ≠ [] then scatter (scatteringSigma momentum p.material) (u i) (v i) angles dirs else .ok angles) with
        | .error e => .error e
        | .ok angles' =>
          match hitLoop momentum u v (i + 1) ps hits angles' with
          | .error e => .error e
          | .ok rest => .ok (hits :: rest)

/-- All planes, one for each z position. -/
def planes (s : Settings) : Nat → List ℝ → Except Err (List Plane)
  | _, [] => .ok []
  | i, z :: zs =>
    match planeAt s i z with
    | .error e => .error e
    | .ok p =>
      match planes s (i + 1) zs with
      | .error e => .error e
      | .ok ps => .ok (p :: ps)

/-- `_create_hits_from_tracks`, L564-687. -/
noncomputable def createHits (s : Settings) (u v : Nat → Nat → ℝ) (tracks : List Track) : Except Err (List (List Vec3)) :=
  match planes s 0 s.zPositions with
  | .error e => .error e
  | .ok ps => hitLoop s.beamMomentum u v 0 ps (tracks.map fun t => ![t.x, t.y, 0]) (tracks.map fun t => (t.phi, t.theta))

/-! ### Data -/

/-- Random numbers of one chunk. -/
structure Draws where
  /-- numbers of tracks, L797-801 -/
  counts : Nat → Int
  tracks : TrackRandom
  scatterU : Nat → Nat → ℝ
  scatterV : Nat → Nat → ℝ
  /-- for each DUT -/
  shuffle : Nat → Nat → List Nat → List Nat
  dut : Nat → Random ℝ

/-- L719-787: the settings of the DUT. -/
noncomputable def responseAt (s : Settings) (i : Nat) : Except Err (Response ℝ × (ℝ × ℝ)) :=
  match s.dutThreshold[i]?, s.dutNoise[i]?, s.dutPixelSize[i]?, s.dutNPixel[i]?, s.dutEfficiencies[i]?, s.dutThickness[i]?, s.dutBias[i]? with
  | some t, some n, some p, some c, some e, some w, some b => .ok (⟨t, n, p.1, p.2, c.1, c.2, e⟩, (w, b))
  | _, _, _, _, _, _, _ => .error .index

/-- L701-714: hits in local coordinates. -/
noncomputable def toLocal (p : Plane) (h : Vec3) : Vec3 := applyTransformation (globalToLocalMatrix p.x p.y p.z p.alpha p.beta p.gamma) h

/-- `_digitize_hits`, L689-793: the loop over the DUTs. -/
noncomputable def digitizeAll (erf : ℝ → ℝ) (s : Settings) (g : Nat → Random ℝ) (events : List Int) :
    Nat → List Plane → List (List Vec3) → Except Err (List (List (Digit ℝ)))
  | i, p :: ps, hits :: rest =>
    match responseAt s i with
    | .error e => .error e
    | .ok (r, w, b) =>
      match digitize 1e-2 s.discretization s.chargeSharing (sharingFraction erf r.sizeX r.sizeY w s.temperature b) r (g i)
          ((events.zip hits).map fun q => ⟨q.1, toLocal p q.2 0, toLocal p q.2 1⟩) with
      | .error e => .error e
      | .ok d =>
        match digitizeAll erf s g events (i + 1) ps rest with
        | .error e => .error e
        | .ok ds => .ok (d :: ds)
  | _, _, _ => .ok []

/-- L797-803: numbers of tracks of the events, not negative. -/
def trackCounts (counts : Nat → Int) (n : Nat) : List Nat := (List.range n).map fun i => (counts i).toNat

/-- L806-809: event number of each track. -/
def trackEvents (start : Int) (counts : List Nat) : List Int := (counts.zipIdx.map fun p => List.replicate p.1 ((p.2 : Int) + start)).flatten

/-- L814: number of tracks of the event for each track. -/
def trackMultiplicity (counts : List Nat) : List Nat := (counts.map fun c => List.replicate c c).flatten

/-- L823-826 -/
def shuffleAll (on : Bool) (shuffle : Nat → Nat → List Nat → List Nat) (events : List Int) (counts : List Nat) (hits : List (List Vec3)) :
    List (List Vec3) :=
  if on then hits.zipIdx.map fun p => shuffleHits (shuffle p.2) events counts p.1 else hits

/-- `_create_data`, L795-831: for each DUT the digitized hits. -/
noncomputable def createData (erf : ℝ → ℝ) (s : Settings) (d : Draws) (start : Int) (n : Nat) : Except Err (List (List (Digit ℝ))) :=
  let counts := trackCounts d.counts n
  let events := trackEvents start counts
  match createTracks s d.tracks events.length with
  | .error e => .error e
  | .ok tracks =>
    match createHits s d.scatterU d.scatterV tracks with
    | .error e => .error e
    | .ok hits =>
      match planes s 0 s.zPositions with
      | .error e => .error e
      | .ok ps => digitizeAll erf s d.dut events 0 ps (shuffleAll s.shuffle d.shuffle events (trackMultiplicity counts) hits)

/-- A row of the hit table. -/
structure Row where
  event : Int
  column : Nat
  row : Nat
  charge : ℝ

/-- L489-495: a row of the table; `u2` converts to unsigned 16 bit integers. -/
noncomputable def toRow (u2 : ℝ → Nat) (d : Digit ℝ) : Row := ⟨d.event, u2 d.column, u2 d.row, d.charge / 10⟩

/-- L486-496: append the hits of a chunk to the tables of the DUTs. -/
noncomputable def appendTables (u2 : ℝ → Nat) (data : List (List (Digit ℝ))) : Nat → List (List Row) → Except Err (List (List Row))
  | _, [] => .ok []
  | i, t :: ts =>
    match data[i]? with
    | none => .error .index
    | some l =>
      match appendTables u2 data (i + 1) ts with
      | .error e => .error e
      | .ok rest => .ok ((t ++ l.map (toRow u2)) :: rest)

/-- L482-498: the loop over the chunks. -/
noncomputable def storeLoop (erf : ℝ → ℝ) (u2 : ℝ → Nat) (s : Settings) (d : Nat → Draws) (chunk : Nat) :
    List Nat → List (List Row) → Except Err (List (List Row))
  | [], tables => .ok tables
  | k :: ks, tables =>
    match createData erf s (d k) ((k * chunk : Nat) : Int) chunk with
    | .error e => .error e
    | .ok data =>
      match appendTables u2 data 0 tables with
      | .error e => .error e
      | .ok tables' => storeLoop erf u2 s d chunk ks tables'

/-- `create_data_and_store`, L454-503: the hit tables of the files. -/
noncomputable def createDataAndStore (erf : ℝ → ℝ) (u2 : ℝ → Nat) (s : Settings) (d : Nat → Draws) (nEvents chunkSize : Nat) :
    Except Err (List (List Row)) :=
  let chunk := if nEvents < chunkSize then nEvents else chunkSize
  if chunk = 0 then .error .zeroStep
  else storeLoop erf u2 s d chunk (List.range ((nEvents + (chunk - 1)) / chunk)) (List.replicate s.nDuts [])

end BTA.Sim
