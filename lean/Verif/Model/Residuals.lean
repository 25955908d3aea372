import Verif.Model.Binning
import Verif.Model.ChunkReader
/-
Model of `calculate_residuals` (beam_telescope_analysis/result_analysis.py L26-571) for one DUT. The DUTs are
independent of each other: all histograms are assigned in the first chunk of a DUT.

Not modelled: plots, fits and the HDF5 file. The peak detection that defines the edges of the residual histograms
(L133-181, L190-204) is a parameter; the edges along the position axis are modelled for `npixels_per_bin` set and are a
parameter otherwise ("sturges").
-/
namespace BTA.Residuals
open BTA.Binning

variable {K : Type} [Field K] [LinearOrder K]

/-- The columns of a row of the track table that are used: `x_dut_i`, `y_dut_i` (NaN if there is no hit; both are
written together), `track_chi2` (NaN if there is no track) and `offset_x`, `offset_y`. -/
structure Track (K : Type) where
  event : Int
  hit : Option (K × K)
  chi2 : Option K
  ix : K
  iy : K
deriving DecidableEq

/-- A row after the selection of L84-85: hit position and intersection. -/
structure Pt (K : Type) where
  hx : K
  hy : K
  ix : K
  iy : K
deriving DecidableEq

/-- L84-91: only rows with a hit and a track. -/
def select (c : List (Track K)) : List (Pt K) :=
  c.filterMap fun t =>
    match t.hit, t.chi2 with
    | some (hx, hy), some _ => some ⟨hx, hy, t.ix, t.iy⟩
    | _, _ => none

/-- L92: `difference_local`. -/
def Pt.dx (p : Pt K) : K := p.hx - p.ix
def Pt.dy (p : Pt K) : K := p.hy - p.iy

/-- A limit `(lower, upper)` of a DUT; `none` is an infinite bound. -/
abbrev Limit (K : Type) := Option K × Option K

/-- L94-98 and L100-104: the selection by one limit (no restriction for the limit None). -/
def within (limit : Option (Limit K)) (v : K) : Bool :=
  match limit with
  | none => true
  | some (lo, hi) => lo.all (fun l => decide (l ≤ v)) && hi.all (fun h => decide (v ≤ h))

/-- Parameters of the function and properties of the DUT. -/
structure Setup (K : Type) where
  /-- `x_limit`, `y_limit` of the DUT, None if `use_limits` is False (L74-79) -/
  limitX : Option (Limit K)
  limitY : Option (Limit K)
  /-- edges of the 2D histograms, one bin per pixel (L213-217) -/
  edges2dX : List K
  edges2dY : List K
  /-- edges of the residual histograms from the residuals of the first chunk (L133-181, L190-204), may raise -/
  resEdgesX : List K → Option (List K)
  resEdgesY : List K → Option (List K)
  /-- edges along the position axis from the intersections of the first chunk (L183-188, L206-211), may raise -/
  posEdgesX : List K → Option (List K)
  posEdgesY : List K → Option (List K)
  sqrt : K → K

/-- L184-185, L207-208: edges along the position axis if `npixels_per_bin` is set; `step` is
`npixels_per_bin * column_size`. `np.min` of an empty array raises ValueError. -/
def posEdges [FloorRing K] (step : K) : List K → Option (List K)
  | [] => none
  | v :: r => some (arange (r.foldl min v) (r.foldl max v + step) step)

/-- The edges defined in the first chunk (L133-211). -/
structure Edges (K : Type) where
  resX : List K
  resY : List K
  posX : List K
  posY : List K

/-- A residual against a position: 2D histogram, mean residual and number of entries per position bin. -/
structure Profile (K : Type) where
  hist : Nat × Nat → Nat
  mean : Nat → K
  count : Nat → Nat

/-- The histograms of one DUT (L181-261). -/
structure Hists (K : Type) where
  resX : Nat → Nat
  resY : Nat → Nat
  /-- x residual against x position -/
  xx : Profile K
  /-- y residual against y position -/
  yy : Profile K
  /-- y residual against x position -/
  yx : Profile K
  /-- x residual against y position -/
  xy : Profile K
  mean2d : Nat × Nat → K
  count2d : Nat × Nat → Nat
  hits2d : Nat × Nat → Nat

inductive Err
  /-- ValueError of `np.min` for an empty array (L135, L151, L184, L207) -/
  | emptyFirstChunk
  /-- RuntimeError "No tracks were processed." (L316-317) -/
  | noTracks
  /-- exception of `data_aligned_at_events` -/
  | read (e : ReadErr)
deriving DecidableEq

/-- The edges from the rows of the first chunk (L133-211). -/
def chooseEdges (s : Setup K) (rows : List (Pt K)) : Except Err (Edges K) :=
  let lim := rows.filter fun p => within s.limitX p.hx && within s.limitY p.hy
  match s.resEdgesX (lim.map Pt.dx), s.resEdgesY (lim.map Pt.dy), s.posEdgesX (rows.map Pt.ix), s.posEdgesY (rows.map Pt.iy) with
  | some a, some b, some c, some d => .ok ⟨a, b, c, d⟩
  | _, _, _, _ => .error .emptyFirstChunk

/-- Histogram, means and counts of a residual against a position (L219-226 and the three similar blocks L228-253, in
the later chunks L267-305). -/
def profile (pos val : Pt K → K) (posEdges valEdges : List K) (rows : List (Pt K)) : Profile K where
  hist := counts (fun p => binIndex2 posEdges valEdges (pos p) (val p)) rows
  mean := binMean (fun p => binIndex posEdges (pos p)) val rows
  count := counts (fun p => binIndex posEdges (pos p)) rows

/-- All histograms of one chunk: in the first chunk L181, L204, L219-261, in a later chunk the values that are
added L264-314. -/
def measure (s : Setup K) (e : Edges K) (rows : List (Pt K)) : Hists K :=
  let limX := rows.filter fun p => within s.limitX p.hx
  let limY := rows.filter fun p => within s.limitY p.hy
  let limXY := rows.filter fun p => within s.limitX p.hx && within s.limitY p.hy
  let bin2d := fun p : Pt K => binIndex2 s.edges2dX s.edges2dY p.ix p.iy
  { resX := counts (fun p => binIndex e.resX p.dx) limXY
    resY := counts (fun p => binIndex e.resY p.dy) limXY
    xx := profile Pt.ix Pt.dx e.posX e.resX limY
    yy := profile Pt.iy Pt.dy e.posY e.resY limX
    yx := profile Pt.ix Pt.dy e.posX e.resY limY
    xy := profile Pt.iy Pt.dx e.posY e.resX limX
    mean2d := binMean bin2d (fun p => s.sqrt (p.dx * p.dx + p.dy * p.dy)) rows
    count2d := counts bin2d rows
    hits2d := counts bin2d rows }

/-- L267-275 (and L277-305): the histogram is added, the means are averaged with the counts as weights, the counts are the returned sums of
weights. -/
def Profile.add (p q : Profile K) : Profile K where
  hist b := p.hist b + q.hist b
  mean b := average (p.mean b) (p.count b) (q.mean b) (q.count b)
  count b := p.count b + q.count b

/-- L263-314: adding the data of a later chunk. -/
def Hists.add (h t : Hists K) : Hists K where
  resX b := h.resX b + t.resX b
  resY b := h.resY b + t.resY b
  xx := h.xx.add t.xx
  yy := h.yy.add t.yy
  yx := h.yx.add t.yx
  xy := h.xy.add t.xy
  mean2d b := average (h.mean2d b) (h.count2d b) (t.mean2d b) (t.count2d b)
  count2d b := h.count2d b + t.count2d b
  hits2d b := h.hits2d b + t.hits2d b

/-- The loop over the chunks of a DUT (L81-314); the state is `none` as long as `initialize` is True. -/
def chunkLoop (s : Setup K) : List (List (Track K)) → Option (Edges K × Hists K) → Except Err (Option (Edges K × Hists K))
  | [], st => .ok st
  | c :: r, none =>
    match chooseEdges s (select c) with
    | .error e => .error e
    | .ok e => chunkLoop s r (some (e, measure s e (select c)))
  | c :: r, some (e, h) => chunkLoop s r (some (e, h.add (measure s e (select c))))

/-- A mean after L320-323: NaN (`none`) in bins without entries. -/
def Profile.final (p : Profile K) (b : Nat) : Option K := if p.count b = 0 then none else some (p.mean b)

/-- `calculate_residuals` for one DUT: the edges and the histograms, or an exception (L81-323). -/
def residuals (s : Setup K) (table : List (Track K)) (chunkSize : Nat) : Except Err (Edges K × Hists K) :=
  let g := dataAligned Track.event table { chunkSize := chunkSize }
  match chunkLoop s (g.items.map Prod.fst) none with
  | .error e => .error e
  | .ok st =>
    match g.err, st with
    | some e, _ => .error (.read e)
    | none, none => .error .noTracks
    | none, some r => .ok r

end BTA.Residuals
