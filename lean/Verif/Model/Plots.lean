import Verif.Model.ChunkReader
import Verif.Model.Binning
import Verif.Model.ShapeHist
import Mathlib.Data.List.Sort
/-
Model of the numbers shown by functions of beam_telescope_analysis/tools/plot_utils.py: `plot_cluster_hists` (L364-535), `plot_track_chi2` (L847-955), `plot_track_density` (L1033-1111),
`plot_charge_distribution` (L1114-1215) and `plot_tracks_per_event` (L304-361).

Not modelled: the drawing itself, the names in titles, the PDF file. A function has one scope for all DUTs: the histograms are assigned in the first chunk of a DUT, without any chunk
the variables of the previous DUT remain visible.
-/
namespace BTA.Plots
open Binning

inductive Err
  /-- ValueError of `np.max` for an empty array (L454) -/
  | emptyMax
  /-- UnboundLocalError: a histogram has never been assigned -/
  | unbound
  /-- ValueError: arrays with different shape -/
  | shape
  /-- ValueError of `np.histogram` for a range in the wrong order -/
  | range
  /-- IndexError: no digits in the name of a table (L855) -/
  | name
  /-- MaskError: number of entries of a map without entry (L1083-1084, L1089, L1099) -/
  | masked
  /-- ValueError of scipy for NaN -/
  | nan
  /-- a group instead of a table (L328) -/
  | group
  /-- ValueError of the checks of the arguments (L384-394) -/
  | argument
  /-- exception of `data_aligned_at_events` -/
  | read (e : ReadErr)
deriving DecidableEq

/-! ### plot_cluster_hists -/

/-- The columns of a row that are used for a DUT (L444-452). `hit` is False if the position of the DUT is NaN. -/
structure ClusterRow where
  event : Int
  nHits : Nat
  shape : Int
  hit : Bool
deriving DecidableEq

/-- `np.bincount(x, minlength=...)` (L463, L468, L470). -/
def bincount (x : List Nat) (minlength : Nat) : List Nat :=
  (List.range (match x.max? with | none => minlength | some m => max minlength (m + 1))).map fun n => x.count n

/-- `array.resize(n)` (L467): filled up with zeros. -/
def resize (a : List Nat) (n : Nat) : List Nat := a.take n ++ List.replicate (n - a.length) 0

/-- `a += b` for arrays. -/
def addArrays (a b : List Nat) : Except Err (List Nat) := if a.length = b.length then .ok (List.zipWith (· + ·) a b) else .error .shape

/-- `cluster_size_hist` and `cluster_shapes_hist`; `none` is a variable without value. The array of the shapes is a function of the index. -/
structure ClusterScope where
  size : Option (List Nat)
  shapes : Option (Nat → Nat)

/-- `np.histogram(a=cluster_shape, bins=np.arange(2**16))` (L459, L464, L471). -/
def shapeHist (rows : List ClusterRow) : Nat → Nat :=
  counts (fun r : ClusterRow => binIndex (ShapeHist.intEdges (2 ^ 16)) (r.shape : ℚ)) rows

/-- The local variables in the loop over the chunks. -/
structure ClusterState where
  /-- `initialize` -/
  first : Bool
  nHits : Nat
  nClusters : Nat
  scope : ClusterScope

/-- Body of the loop over the chunks (L443-471). `ofDut` is False for a cluster file. -/
def clusterStep (ofDut : Bool) (chunk : List ClusterRow) (st : ClusterState) : Except Err ClusterState :=
  let rows := if ofDut then chunk.filter ClusterRow.hit else chunk
  let sizes := rows.map ClusterRow.nHits
  match sizes.max? with
  | none => .error .emptyMax
  | some m =>
    let nHits := st.nHits + sizes.sum
    let nClusters := st.nClusters + sizes.length
    if st.first then .ok ⟨false, nHits, nClusters, ⟨some (bincount sizes (m + 1)), some (shapeHist rows)⟩⟩
    else
      match st.scope.size, st.scope.shapes with
      | some a, some b =>
        let sum := if a.length < m + 1 then addArrays (resize a (m + 1)) (bincount sizes (m + 1)) else addArrays a (bincount sizes a.length)
        match sum with
        | .error e => .error e
        | .ok s => .ok ⟨false, nHits, nClusters, ⟨some s, some fun i => b i + shapeHist rows i⟩⟩
      | _, _ => .error .unbound

/-- The loop over the chunks (L443-471). -/
def clusterLoop (ofDut : Bool) : List (List ClusterRow) → ClusterState → Except Err ClusterState
  | [], st => .ok st
  | c :: r, st =>
    match clusterStep ofDut c st with
    | .error e => .error e
    | .ok st' => clusterLoop ofDut r st'

/-- The numbers shown for a DUT. -/
structure ClusterPlot where
  /-- bars of the sizes 1, 2, ... (L473-477) -/
  sizes : List Nat
  /-- bars of the sizes 1, 2, ... up to 10 (L487-492) -/
  small : List Nat
  /-- bars of the shapes (L509-513) -/
  shapes : List Nat
  /-- bar "Other" (L511) -/
  others : Int
  /-- numbers in the titles -/
  nHits : Nat
  nClusters : Nat
deriving DecidableEq

/-- `analyze_cluster_shapes` (L509). -/
def shownShapes : List Nat := [1, 3, 5, 6, 9, 13, 14, 7, 11, 19, 261, 15, 95, 783, 4959]

/-- L473-530. -/
def drawClusters (sc : ClusterScope) (nHits nClusters : Nat) : Except Err ClusterPlot :=
  match sc.size, sc.shapes with
  | some size, some shapes =>
    let shown := shownShapes.map shapes
    .ok ⟨size.drop 1, (size.take (min 10 (size.length - 1) + 1)).drop 1, shown, (nClusters : Int) - (shown.sum : Nat), nHits, nClusters⟩
  | _, _ => .error .unbound

/-- `np.sum(np.multiply(cluster_size_hist, range(cluster_size_hist.shape[0])))` (L436). -/
def weightedSum (size : List Nat) : Nat := (size.zipIdx.map fun p => p.1 * p.2).sum

/-- One DUT (L422-530). `stored` are the nodes HistClusterSize and HistClusterShape of the file, if they exist. Simplified: a stored histogram of shapes has all bins. -/
def clusterDut (ofDut : Bool) (stored : Option (List Nat) × Option (List Nat)) (chunkSize : Nat) (table : List ClusterRow) (sc : ClusterScope) : Except Err (ClusterPlot × ClusterScope) :=
  match stored with
  | (some size, some shapes) =>
    let sc' : ClusterScope := ⟨some size, some fun i => shapes.getD i 0⟩
    match drawClusters sc' (weightedSum size) size.sum with
    | .error e => .error e
    | .ok p => .ok (p, sc')
  | (s, _) =>
    let sc' : ClusterScope := ⟨s.or sc.size, sc.shapes⟩
    let g := dataAligned ClusterRow.event table { chunkSize := chunkSize }
    match clusterLoop ofDut (g.items.map Prod.fst) ⟨true, 0, 0, sc'⟩ with
    | .error e => .error e
    | .ok st =>
      match g.err with
      | some e => .error (.read e)
      | none =>
        match drawClusters st.scope st.nHits st.nClusters with
        | .error e => .error e
        | .ok p => .ok (p, st.scope)

/-- The loop over the DUTs (L420-535), the table of each selected DUT. -/
def clusterDuts (ofDut : Bool) (stored : Option (List Nat) × Option (List Nat)) (chunkSize : Nat) : List (List ClusterRow) → ClusterScope → Except Err (List ClusterPlot)
  | [], _ => .ok []
  | t :: r, sc =>
    match clusterDut ofDut stored chunkSize t sc with
    | .error e => .error e
    | .ok (p, sc') =>
      match clusterDuts ofDut stored chunkSize r sc' with
      | .error e => .error e
      | .ok ps => .ok (p :: ps)

/-- Files given to `plot_cluster_hists`. -/
structure ClusterFiles where
  cluster : Option String
  merged : Option String
  candidates : Option String
  tracks : Option String

/-- The checks of the arguments and the choice of the file (L384-412). `telescope`, `selectDuts` and `dutName` tell if these arguments are given (and not empty). -/
def chooseInput (c m k t : Option String) (telescope selectDuts dutName : Bool) : Except Err String :=
  if (c.isSome && (m.isSome || k.isSome || t.isSome)) || (!c.isSome && !m.isSome && !k.isSome && !t.isSome) then .error .argument
  else if c.isSome && telescope then .error .argument
  else if c.isSome && selectDuts then .error .argument
  else if (m.isSome || k.isSome || t.isSome) && dutName then .error .argument
  else
    match ((c.or m).or k).or t with
    | some x => .ok x
    | none => .error .argument

/-- The file that is read (L384-412), or an exception. An empty name counts as no name. -/
def clusterInput (f : ClusterFiles) (telescope selectDuts dutName : Bool) : Except Err String :=
  chooseInput (f.cluster.filter fun s => decide (s ≠ "")) (f.merged.filter fun s => decide (s ≠ "")) (f.candidates.filter fun s => decide (s ≠ "")) (f.tracks.filter fun s => decide (s ≠ ""))
    telescope selectDuts dutName

/-- `plot_cluster_hists` for the tables of the selected DUTs. -/
def plotClusterHists (ofDut : Bool) (stored : Option (List Nat) × Option (List Nat)) (chunkSize : Nat) (tables : List (List ClusterRow)) : Except Err (List ClusterPlot) :=
  clusterDuts ofDut stored chunkSize tables ⟨none, none⟩

/-! ### plot_track_chi2 -/

section chi2
variable {K : Type} [Field K] [LinearOrder K] [FloorRing K]

/-- The columns of a row (L866-868); `none` for a number that is not finite. Simplified: an infinite reduced chi2 or p-value is not distinguished from NaN (both are in no bin). -/
structure Chi2Row (K : Type) where
  event : Int
  chi2 : Option K
  red : Option K
  prob : Option K
deriving DecidableEq

/-- The histograms (L880-888). -/
structure Chi2Hists (K : Type) where
  /-- `edges_full` -/
  edges : List K
  full : Nat → Nat
  narrow : Nat → Nat
  red : Nat → Nat
  prob : Nat → Nat

/-- Bins of `hist_narrow`, `hist_chi2_red`, `hist_pvalue` (L881-883). -/
def narrowEdges : List K := linspace 0 20 100
def redEdges : List K := linspace 0 10 50
def probEdges : List K := linspace 0 1 50

/-- Bin of a value that may be NaN. -/
def optBin (edges : List K) (v : Option K) : Option Nat := v.bind fun x => binIndex edges x

/-- `range_full` and the edges of `np.histogram` (L874-880); `p99` is `np.percentile(..., q=99.0)` of a non-empty array. numpy widens an empty range by 0.5 on both sides. -/
def fullEdges (p99 : List K → K) (chi2s : List K) : Except Err (List K) :=
  let top : K := if chi2s = [] then 1 else (⌈p99 chi2s⌉ : K)
  if top < 0 then .error .range else if top = 0 then .ok (linspace (0 - 1 / 2) (0 + 1 / 2) 250) else .ok (linspace 0 top 250)

/-- The histograms of a chunk for given edges. -/
def chi2Hists (edges : List K) (rows : List (Chi2Row K)) : Chi2Hists K where
  edges := edges
  full := counts (fun r : Chi2Row K => optBin edges r.chi2) rows
  narrow := counts (fun r : Chi2Row K => optBin narrowEdges r.chi2) rows
  red := counts (fun r : Chi2Row K => optBin redEdges r.red) rows
  prob := counts (fun r : Chi2Row K => optBin probEdges r.prob) rows

/-- L885-888. -/
def Chi2Hists.add (h t : Chi2Hists K) : Chi2Hists K :=
  ⟨h.edges, fun i => h.full i + t.full i, fun i => h.narrow i + t.narrow i, fun i => h.red i + t.red i, fun i => h.prob i + t.prob i⟩

/-- The loop over the chunks (L865-888); the flag is `initialize`. -/
def chi2Loop (p99 : List K → K) : List (List (Chi2Row K)) → Bool → Option (Chi2Hists K) → Except Err (Option (Chi2Hists K))
  | [], _, sc => .ok sc
  | c :: r, true, _ =>
    match fullEdges p99 (c.filterMap Chi2Row.chi2) with
    | .error e => .error e
    | .ok edges => chi2Loop p99 r false (some (chi2Hists edges c))
  | c :: r, false, sc =>
    match sc with
    | none => .error .unbound
    | some h => chi2Loop p99 r false (some (h.add (chi2Hists h.edges c)))

/-- The nodes of the file (L853-862): groups are skipped; a table has the number of the DUT in its name. -/
inductive Chi2Node (K : Type)
  | group
  | table (digits : Bool) (rows : List (Chi2Row K))

/-- The loop over the nodes (L853-955): the histograms that are shown for each table. -/
def chi2Nodes (p99 : List K → K) (chunkSize : Nat) : List (Chi2Node K) → Option (Chi2Hists K) → Except Err (List (Chi2Hists K))
  | [], _ => .ok []
  | .group :: r, sc => chi2Nodes p99 chunkSize r sc
  | .table false _ :: _, _ => .error .name
  | .table true t :: r, sc =>
    let g := dataAligned Chi2Row.event t { chunkSize := chunkSize }
    match chi2Loop p99 (g.items.map Prod.fst) true sc with
    | .error e => .error e
    | .ok sc' =>
      match g.err, sc' with
      | some e, _ => .error (.read e)
      | none, none => .error .unbound
      | none, some h =>
        match chi2Nodes p99 chunkSize r (some h) with
        | .error e => .error e
        | .ok hs => .ok (h :: hs)

/-- `plot_track_chi2`. -/
def plotTrackChi2 (p99 : List K → K) (chunkSize : Nat) (nodes : List (Chi2Node K)) : Except Err (List (Chi2Hists K)) := chi2Nodes p99 chunkSize nodes none

end chi2

/-! ### plot_track_density and plot_charge_distribution -/

section maps
variable {K : Type} [Field K] [LinearOrder K]

/-- The columns of a row (L1064-1065, L1145-1147). Simplified: the intersection is finite. -/
structure MapRow (K : Type) where
  event : Int
  ix : K
  iy : K
  hit : Option (K × K)
  charge : Option K
deriving DecidableEq

/-- Number and size of the pixels. -/
structure Sensor (K : Type) where
  nColumns : Nat
  nRows : Nat
  columnSize : K
  rowSize : K

/-- Edges of the maps (L1070-1073, L1160-1163): one bin for each pixel. `x_extent()` of a DUT are minus and plus half of the size. -/
def Sensor.xEdges (s : Sensor K) : List K :=
  linspace (-((s.nColumns : K) * s.columnSize) / 2) ((s.nColumns : K) * s.columnSize / 2) s.nColumns
def Sensor.yEdges (s : Sensor K) : List K :=
  linspace (-((s.nRows : K) * s.rowSize) / 2) ((s.nRows : K) * s.rowSize / 2) s.nRows

/-- Pixel of the intersection. -/
def trackPixel (s : Sensor K) (r : MapRow K) : Option (Nat × Nat) := binIndex2 s.xEdges s.yEdges r.ix r.iy

/-- Pixel of the hit; a hit at NaN has no pixel. -/
def hitPixel (s : Sensor K) (r : MapRow K) : Option (Nat × Nat) := r.hit.bind fun h => binIndex2 s.xEdges s.yEdges h.1 h.2

/-- Sum of a map. -/
def mapSum (s : Sensor K) (h : Nat × Nat → Nat) : Nat := ((List.range s.nColumns).map fun i => ((List.range s.nRows).map fun j => h (i, j)).sum).sum

/-- `hist_tracks` and `hist_hits`. -/
structure Density where
  tracks : Nat × Nat → Nat
  hits : Nat × Nat → Nat

/-- The loop over the chunks (L1061-1080). `strict`: the installed scipy refuses NaN in `binned_statistic_2d` (this depends on the version). -/
def densityLoop (strict : Bool) (s : Sensor K) : List (List (MapRow K)) → Bool → Option Density → Except Err (Option Density)
  | [], _, sc => .ok sc
  | c :: r, init, sc =>
    if strict && c.any (fun row => row.hit.isNone) then .error .nan
    else
      let d : Density := ⟨counts (trackPixel s) c, counts (hitPixel s) c⟩
      if init then densityLoop strict s r false (some d)
      else
        match sc with
        | none => .error .unbound
        | some h => densityLoop strict s r false (some ⟨fun b => h.tracks b + d.tracks b, fun b => h.hits b + d.hits b⟩)

/-- The numbers shown for a DUT (L1082-1111): the maps and the numbers in the titles. -/
structure DensityPlot where
  maps : Density
  nTracks : Nat
  nHits : Nat

/-- L1083-1111: in a map without entry everything is masked, and so is the sum. -/
def drawDensity (s : Sensor K) (h : Density) : Except Err DensityPlot :=
  if mapSum s h.tracks = 0 ∨ mapSum s h.hits = 0 then .error .masked else .ok ⟨h, mapSum s h.tracks, mapSum s h.hits⟩

/-- The loop over the DUTs (L1053-1111). Simplified: the maps of the previous DUT are drawn as they are if there is no chunk (masked again and with the size of the previous sensor). -/
def densityDuts (strict : Bool) (chunkSize : Nat) : List (Sensor K × List (MapRow K)) → Option (Sensor K × Density) → Except Err (List DensityPlot)
  | [], _ => .ok []
  | (s, t) :: r, sc =>
    let g := dataAligned MapRow.event t { chunkSize := chunkSize }
    match densityLoop strict s (g.items.map Prod.fst) true none with
    | .error e => .error e
    | .ok sc' =>
      match g.err with
      | some e => .error (.read e)
      | none =>
        match (sc'.map fun d => (s, d)).or sc with
        | none => .error .unbound
        | some (s', h) =>
          match drawDensity s' h with
          | .error e => .error e
          | .ok p =>
            match densityDuts strict chunkSize r (some (s', h)) with
            | .error e => .error e
            | .ok ps => .ok (p :: ps)

/-- `plot_track_density`. -/
def plotTrackDensity (strict : Bool) (chunkSize : Nat) (duts : List (Sensor K × List (MapRow K))) : Except Err (List DensityPlot) := densityDuts strict chunkSize duts none

/-- Mean charges and counts, for the intersections and for the hits. -/
structure Charge (K : Type) where
  trackMean : Nat × Nat → K
  trackCount : Nat × Nat → Nat
  hitMean : Nat × Nat → K
  hitCount : Nat × Nat → Nat

/-- The histograms of a chunk (L1150-1171, L1173-1184): rows with finite charge. -/
def chargeOf (s : Sensor K) (chunk : List (MapRow K)) : Charge K :=
  let rows := chunk.filter fun r => r.charge.isSome
  { trackMean := binMean (trackPixel s) (fun r => r.charge.getD 0) rows
    trackCount := counts (trackPixel s) rows
    hitMean := binMean (hitPixel s) (fun r => r.charge.getD 0) rows
    hitCount := counts (hitPixel s) rows }

/-- L1176, L1184: average with the counts as weights, and sums of the weights. -/
def Charge.add (h t : Charge K) : Charge K where
  trackMean b := average (h.trackMean b) (h.trackCount b) (t.trackMean b) (t.trackCount b)
  trackCount b := h.trackCount b + t.trackCount b
  hitMean b := average (h.hitMean b) (h.hitCount b) (t.hitMean b) (t.hitCount b)
  hitCount b := h.hitCount b + t.hitCount b

/-- The loop over the chunks (L1142-1184). -/
def chargeLoop (s : Sensor K) : List (List (MapRow K)) → Option (Charge K) → Option (Charge K)
  | [], sc => sc
  | c :: r, none => chargeLoop s r (some (chargeOf s c))
  | c :: r, some h => chargeLoop s r (some (h.add (chargeOf s c)))

/-- The maps shown (L1187-1188; `none` is masked) and the numbers in the titles (L1191-1192). -/
structure ChargePlot (K : Type) where
  tracks : Nat × Nat → Option K
  hits : Nat × Nat → Option K
  nTracks : Nat
  nHits : Nat

/-- L1187-1215. -/
def drawCharge (s : Sensor K) (h : Charge K) : ChargePlot K :=
  ⟨fun b => if h.trackCount b = 0 then none else some (h.trackMean b), fun b => if h.hitCount b = 0 then none else some (h.hitMean b), mapSum s h.trackCount, mapSum s h.hitCount⟩

/-- `plot_charge_distribution` for the first DUT (L1134-1215); for the next DUTs see `densityDuts`: the same scope. Rows with a charge have a hit. -/
def plotCharge (chunkSize : Nat) (s : Sensor K) (t : List (MapRow K)) : Except Err (ChargePlot K) :=
  let g := dataAligned MapRow.event t { chunkSize := chunkSize }
  match chargeLoop s (g.items.map Prod.fst) none, g.err with
  | _, some e => .error (.read e)
  | none, none => .error .unbound
  | some h, none => .ok (drawCharge s h)

end maps

/-! ### plot_tracks_per_event -/

/-- `np.unique(l, return_counts=True)` (L330-331): the different values in increasing order with their numbers. -/
def uniqueCounts {α : Type} [LinearOrder α] (l : List α) : List (α × Nat) := (l.dedup.insertionSort (· ≤ ·)).map fun x => (x, l.count x)

/-- A node of the file: a group, or a table given by its column event_number. -/
inductive EventNode
  | group
  | table (events : List Int)

/-- A page: the bars (tracks per event, number of events) and the number of events in the title (L330-340). -/
structure EventPage where
  bars : List (Nat × Nat)
  nEvents : Nat
deriving DecidableEq

/-- L328-340. -/
def eventPage (events : List Int) : EventPage :=
  let u := uniqueCounts events
  ⟨uniqueCounts (u.map Prod.snd), u.length⟩

/-- `plot_tracks_per_event` (L319-361): the pages and the exception, if any. `node[:]` fails for a group. -/
def plotTracksPerEvent : List EventNode → List EventPage × Option Err
  | [] => ([], none)
  | .group :: _ => ([], some .group)
  | .table ev :: r => let (p, e) := plotTracksPerEvent r; (eventPage ev :: p, e)

end BTA.Plots
