import Verif.Model.Binning
import Verif.Model.ChunkReader
/-
Model of `calculate_efficiency` (beam_telescope_analysis/result_analysis.py L574-2094): the loop over the DUTs and the
chunks, the selection of valid hits, the 2D histograms and means, the efficiencies per bin, per pixel, per region and per
chunk.

The function has one scope for all DUTs: the 2D histograms of tracks with a valid hit are assigned only if the first
chunk of the DUT has a valid hit, otherwise the variables of the previous DUT remain visible. This is the `Scope` below.

The arguments are modelled in `Verif.Model.EfficiencyArgs`, the in-pixel histograms in `Verif.Model.InPixel`.

Not modelled here (see Verif.Model.RegionHist): 1D histograms, the pixel hits per bin (with
`input_cluster_files`), confidence intervals of the efficiency (see Verif.Model.EfficiencyInterval), plots and the HDF5 file. The nearest pixel (kd-tree of
the pixel centres and image points) and the track angles are parameters. Intersections are numbers (not NaN).
-/
namespace BTA.Efficiency
open BTA.Binning

variable {K : Type} [Field K] [LinearOrder K]

/-- The columns of a row of the track table that are used (L1020-1025, L1054-1062). The hit is NaN if the DUT has no hit
for the track. The angles are those of `get_angles`. -/
structure Row (K : Type) where
  event : Int
  hit : Option (K × K)
  ix : K
  iy : K
  charge : K
  frame : K
  size : K
  total : K
  alpha : K
  beta : K
deriving DecidableEq

/-- The quantities whose means are histogrammed (L1283-1330). -/
inductive Quantity
  | xResidual | yResidual | distance | charge | frame | clusterSize | totalAngle | alphaAngle | betaAngle
deriving DecidableEq

/-- A region: the two corners in x and in y. -/
structure Region (K : Type) where
  x : K × K
  y : K × K

/-- The settings of one DUT. -/
structure Setup (K : Type) where
  /-- edges of the 2D histograms (L856-858) -/
  edgesX : List K
  edgesY : List K
  pixelSize : K × K
  /-- `cut_distance`, `none` for None, which is replaced by infinity (L1064-1070) -/
  cut : Option K × Option K
  /-- `local_offset_x`, `local_offset_y`; 0 if None -/
  offset : K × K
  /-- the pixel closest to the intersection is enabled in `disabled_pixel_mask` (L1033-1040) -/
  enabled : K → K → Bool
  /-- index of the closest of the pixel centres and the image points; the first `nPixels` are pixels (L974-984) -/
  nearest : K → K → Nat
  nPixels : Nat
  regions : List (Region K)
  minimumTrackDensity : K
  sqrt : K → K

inductive Err
  /-- ZeroDivisionError of the efficiency of a region (L1155, L1158) -/
  | zeroDivision
  /-- UnboundLocalError: a histogram has never been assigned -/
  | unbound
  /-- arrays with different shape -/
  | shape
  /-- ValueError of `get_mean_efficiency` -/
  | value
  /-- RuntimeError "All efficiencies for DUT%d are zero" (L1604-1605) -/
  | allZero
  /-- exception of `data_aligned_at_events` -/
  | read (e : ReadErr)
deriving DecidableEq

/-- L1027-1046: shift of the intersections, selection of enabled pixels. -/
def prepare (s : Setup K) (chunk : List (Row K)) : List (Row K) :=
  (chunk.map fun r => { r with ix := r.ix + s.offset.1, iy := r.iy + s.offset.2 }).filter fun r => s.enabled r.ix r.iy

/-- L1048-1049: `x_residuals`, `y_residuals` of a row with the given hit. -/
def residual (r : Row K) (h : K × K) : K × K := (h.1 - r.ix, h.2 - r.iy)

/-- `cut >= 2.5 * pixel` for a cut that may be infinite (L1074). -/
def bigCut (cut : Option K) (pixel : K) : Bool :=
  match cut with
  | none => true
  | some c => decide (5 / 2 * pixel ≤ c)

/-- `np.square(d) / cut**2`, 0 for an infinite cut (L1075). -/
def ellipseTerm (d : K) (cut : Option K) : K :=
  match cut with
  | none => 0
  | some c => d * d / (c * c)

/-- `np.abs(d) <= cut` (L1077-1078). -/
def boxTerm (d : K) (cut : Option K) : Bool :=
  match cut with
  | none => true
  | some c => decide (|d| ≤ c)

/-- L1073-1078: `select_valid_hit`. -/
def validHit (s : Setup K) (r : Row K) : Bool :=
  match r.hit with
  | none => false
  | some h =>
    let d := residual r h
    if bigCut s.cut.1 s.pixelSize.1 && bigCut s.cut.2 s.pixelSize.2 then
      decide (ellipseTerm d.1 s.cut.1 + ellipseTerm d.2 s.cut.2 ≤ 1)
    else boxTerm d.1 s.cut.1 && boxTerm d.2 s.cut.2

/-- The value of a quantity for a row with hit. -/
def value (s : Setup K) (q : Quantity) (r : Row K) : K :=
  let d := residual r (r.hit.getD (0, 0))
  match q with
  | .xResidual => d.1
  | .yResidual => d.2
  | .distance => s.sqrt (d.1 * d.1 + d.2 * d.2)
  | .charge => r.charge
  | .frame => r.frame
  | .clusterSize => r.size
  | .totalAngle => r.total
  | .alphaAngle => r.alpha
  | .betaAngle => r.beta

/-- Shape of the 2D histograms. -/
def Setup.shape (s : Setup K) : Nat × Nat := (s.edgesX.length - 1, s.edgesY.length - 1)

/-- The bin of the intersection. -/
def trackBin (s : Setup K) (r : Row K) : Option (Nat × Nat) := binIndex2 s.edgesX s.edgesY r.ix r.iy

/-- The bin of the hit. -/
def hitBin (s : Setup K) (r : Row K) : Option (Nat × Nat) :=
  r.hit.bind fun h => binIndex2 s.edgesX s.edgesY h.1 h.2

/-- The 2D histograms of tracks with a valid hit (L1279-1330): `count_hits_2d_hist`,
`count_tracks_with_hit_2d_hist` and the `stat_2d_..._hist`. -/
structure Hits (K : Type) where
  shape : Nat × Nat
  countHits : Nat × Nat → Nat
  withHit : Nat × Nat → Nat
  means : Quantity → Nat × Nat → K

/-- The local variables of the function that survive the end of a DUT. `none` is a variable without value. -/
structure Scope (K : Type) where
  /-- `count_tracks_2d_hist` with its shape -/
  tracks : Option ((Nat × Nat) × (Nat × Nat → Nat))
  hits : Option (Hits K)

/-- The histograms of one chunk from its rows with a valid hit: L1279-1330, in a later chunk L1347-1407. -/
def measure (s : Setup K) (valid : List (Row K)) : Hits K where
  shape := s.shape
  countHits := counts (hitBin s) valid
  withHit := counts (trackBin s) valid
  means q := binMean (trackBin s) (value s q) valid

/-- L1346-1417: the histograms of a later chunk; the means are averaged with the counts of tracks with hit as weights,
these counts are updated last. -/
def Hits.add (h t : Hits K) : Hits K where
  shape := h.shape
  countHits b := h.countHits b + t.countHits b
  withHit b := h.withHit b + t.withHit b
  means q b := average (h.means q b) (h.withHit b) (t.means q b) (t.withHit b)

/-- L1272-1418: the 2D histograms, depending on `initialize`. Arrays of different shapes cannot be added (simplified: numpy
would broadcast an array with one bin). -/
def updateScope (s : Setup K) (first : Bool) (rows : List (Row K)) (sc : Scope K) : Except Err (Scope K) :=
  let valid := rows.filter (validHit s)
  let tracks := counts (trackBin s) rows
  if first then
    .ok { tracks := some (s.shape, tracks), hits := if valid = [] then sc.hits else some (measure s valid) }
  else
    match sc.tracks with
    | none => .error .unbound
    | some (sh, old) =>
      if valid = [] then
        if sh = s.shape then .ok { sc with tracks := some (sh, fun b => old b + tracks b) } else .error .shape
      else
        match sc.hits with
        | none => .error .unbound
        | some h =>
          if h.shape ≠ s.shape ∨ sh ≠ s.shape then .error .shape
          else .ok { tracks := some (sh, fun b => old b + tracks b), hits := some (h.add (measure s valid)) }

/-- The sum of a histogram (`array.sum()`). -/
def total (shape : Nat × Nat) (h : Nat × Nat → Nat) : Nat :=
  ((List.range shape.1).map fun i => ((List.range shape.2).map fun j => h (i, j)).sum).sum

/-- `get_mean_efficiency` (tools/analysis_utils.py L709-799): the efficiency k / N. Without tracks, or with more tracks
with hit than tracks, the determination of the interval raises ValueError (empty array in `get_start_values`, bounds
of the minimiser in the wrong order). The interval is not modelled; it is found otherwise. -/
def meanEfficiency (k N : Nat) : Except Err K :=
  if N = 0 ∨ N < k then .error .value else .ok ((k : K) / (N : K))

/-- State of one efficiency region (L893-909). -/
structure RegionState (K : Type) where
  efficiency : K
  stat : Nat
  /-- `efficiency_regions_efficiencies_chunk` -/
  chunk : K
  pixelTracks : Nat → Nat
  pixelHits : Nat → Nat

def RegionState.init : RegionState K := ⟨0, 0, 0, fun _ => 0, fun _ => 0⟩

/-- L1148-1152: the intersection is inside of the region. -/
def inRegion (g : Region K) (r : Row K) : Bool :=
  decide (min g.x.1 g.x.2 < r.ix) && decide (r.ix < max g.x.1 g.x.2) &&
  decide (min g.y.1 g.y.2 < r.iy) && decide (r.iy < max g.y.1 g.y.2)

/-- `np.bincount(closest_indices, minlength=n)[:n]` (L1214-1222, L1265-1269). -/
def pixelCounts (s : Setup K) (rows : List (Row K)) : Nat → Nat :=
  counts (fun r : Row K => if s.nearest r.ix r.iy < s.nPixels then some (s.nearest r.ix r.iy) else none) rows

/-- L1148-1222: update of a region. The counts are integers of Python, so a chunk without track in the region raises
ZeroDivisionError (L1158; L1155 in the first chunk). -/
def updateRegion (s : Setup K) (rows : List (Row K)) (g : Region K) (st : RegionState K) : Except Err (RegionState K) :=
  let sel := rows.filter (inRegion g)
  let nHit := (sel.filter (validHit s)).length
  let n := sel.length
  if st.stat + n = 0 then .error .zeroDivision
  else if n = 0 then .error .zeroDivision
  else .ok {
    efficiency := (st.efficiency * st.stat + nHit) / ((st.stat + n : Nat) : K)
    stat := st.stat + n
    chunk := (nHit : K) / (n : K)
    pixelTracks := fun p => st.pixelTracks p + pixelCounts s sel p
    pixelHits := fun p => st.pixelHits p + pixelCounts s (sel.filter (validHit s)) p }

/-- L1147: the loop over the regions. -/
def updateRegions (s : Setup K) (rows : List (Row K)) : List (Region K) → List (RegionState K) → Except Err (List (RegionState K))
  | g :: gs, st :: sts =>
    match updateRegion s rows g st with
    | .error e => .error e
    | .ok st' =>
      match updateRegions s rows gs sts with
      | .error e => .error e
      | .ok r => .ok (st' :: r)
  | _, _ => .ok []

/-- State of the loop over the chunks of one DUT. -/
structure State (K : Type) where
  /-- `initialize` -/
  first : Bool
  scope : Scope K
  pixelTracks : Nat → Nat
  pixelHits : Nat → Nat
  regions : List (RegionState K)
  /-- `efficiency_chunks` and, for the same chunks, the efficiencies of the regions -/
  chunks : List (K × List K)

/-- L1455-1473: the efficiency of the chunk. `np.all(count_tracks_2d_hist == 0)` means that the sum of the counts is 0;
then nothing is stored for the chunk. -/
def chunkEfficiency (s : Setup K) (rows : List (Row K)) (sc : Scope K) (regs : List K) (effs : List (K × List K)) :
    Except Err (List (K × List K)) :=
  match sc.tracks with
  | none => .error .unbound
  | some (sh, t) =>
    if total sh t = 0 then .ok effs
    else
      let valid := rows.filter (validHit s)
      if valid = [] then .ok (effs ++ [(0, regs)])
      else
        match meanEfficiency (K := K) (total s.shape (counts (trackBin s) valid)) (total s.shape (counts (trackBin s) rows)) with
        | .error e => .error e
        | .ok x => .ok (effs ++ [(x, regs)])

/-- One chunk (L1017-1475). -/
def stepChunk (s : Setup K) (chunk : List (Row K)) (st : State K) : Except Err (State K) :=
  let rows := prepare s chunk
  match updateRegions s rows s.regions st.regions with
  | .error e => .error e
  | .ok regs =>
    match updateScope s st.first rows st.scope with
    | .error e => .error e
    | .ok sc =>
      match chunkEfficiency s rows sc (regs.map RegionState.chunk) st.chunks with
      | .error e => .error e
      | .ok effs => .ok {
          first := false
          scope := sc
          pixelTracks := fun p => st.pixelTracks p + pixelCounts s rows p
          pixelHits := fun p => st.pixelHits p + pixelCounts s (rows.filter (validHit s)) p
          regions := regs
          chunks := effs }

/-- The loop over the chunks. -/
def chunkLoop (s : Setup K) : List (List (Row K)) → State K → Except Err (State K)
  | [], st => .ok st
  | c :: r, st =>
    match stepChunk s c st with
    | .error e => .error e
    | .ok st' => chunkLoop s r st'

/-- L1479-1480, L1496-1497, L1578-1579: efficiency in percent, NaN without tracks. -/
def percent (withHit tracks : Nat) : Option K :=
  if tracks = 0 then none else some ((withHit : K) / (tracks : K) * 100)

/-- L1482, L1498, L1582: bins with too few tracks are masked. -/
def masked (s : Setup K) (tracks : Nat) : Bool := decide ((tracks : K) < s.minimumTrackDensity)

/-- The result for one DUT. -/
structure Output (K : Type) where
  /-- efficiency per bin: value (`none` is NaN) and mask -/
  efficiency : Nat × Nat → Option K
  mask : Nat × Nat → Bool
  /-- efficiency per pixel -/
  pixelEfficiency : Nat → Option K
  pixelMask : Nat → Bool
  /-- `count_tracks_2d_hist`, `count_tracks_with_hit_2d_hist`, `count_hits_2d_hist` and the means -/
  tracks : Nat × Nat → Nat
  hits : Hits K
  /-- efficiency of all tracks in the histogram -/
  mean : K
  /-- efficiency and number of tracks per region, efficiency per region and pixel -/
  regionEfficiency : List K
  regionPixelEfficiency : List (Nat → Option K)
  chunks : List (K × List K)

/-- `not np.any(stat_2d_efficiency_hist)`: no bin that is not masked has a value other than 0 (NaN counts as True). -/
def allZero (shape : Nat × Nat) (eff : Nat × Nat → Option K) (mask : Nat × Nat → Bool) : Bool :=
  (List.range shape.1).all fun i => (List.range shape.2).all fun j => mask (i, j) || decide (eff (i, j) = some 0)

/-- L1478-1605: the efficiencies after the last chunk. -/
def finish (s : Setup K) (st : State K) : Except Err (Output K) :=
  match st.scope.tracks, st.scope.hits with
  | some (sh, t), some h =>
    if h.shape ≠ sh then .error .shape
    else
      let eff := fun b => percent (K := K) (h.withHit b) (t b)
      let mask := fun b => masked s (t b)
      match meanEfficiency (K := K) (total h.shape h.withHit) (total sh t) with
      | .error e => .error e
      | .ok m =>
        if allZero sh eff mask then .error .allZero
        else .ok {
          efficiency := eff
          mask := mask
          pixelEfficiency := fun p => percent (st.pixelHits p) (st.pixelTracks p)
          pixelMask := fun p => masked s (st.pixelTracks p)
          tracks := t
          hits := h
          mean := m
          regionEfficiency := st.regions.map RegionState.efficiency
          regionPixelEfficiency := st.regions.map fun g p => percent (g.pixelHits p) (g.pixelTracks p)
          chunks := st.chunks }
  | _, _ => .error .unbound

/-- One DUT (L815-1700): the result and the variables left behind. -/
def dutEfficiency (s : Setup K) (table : List (Row K)) (chunkSize : Nat) (sc : Scope K) : Except Err (Output K × Scope K) :=
  let g := dataAligned Row.event table { chunkSize := chunkSize }
  let st0 : State K := ⟨true, sc, fun _ => 0, fun _ => 0, s.regions.map fun _ => .init, []⟩
  match chunkLoop s (g.items.map Prod.fst) st0 with
  | .error e => .error e
  | .ok st =>
    match g.err with
    | some e => .error (.read e)
    | none =>
      match finish s st with
      | .error e => .error e
      | .ok o => .ok (o, st.scope)

/-- The loop over the selected DUTs (L810-2094). -/
def efficiencyLoop (chunkSize : Nat) : List (Setup K × List (Row K)) → Scope K → Except Err (List (Output K))
  | [], _ => .ok []
  | (s, T) :: r, sc =>
    match dutEfficiency s T chunkSize sc with
    | .error e => .error e
    | .ok (o, sc') =>
      match efficiencyLoop chunkSize r sc' with
      | .error e => .error e
      | .ok os => .ok (o :: os)

/-- `calculate_efficiency`. -/
def efficiency (chunkSize : Nat) (duts : List (Setup K × List (Row K))) : Except Err (List (Output K)) :=
  efficiencyLoop chunkSize duts ⟨none, none⟩

end BTA.Efficiency
