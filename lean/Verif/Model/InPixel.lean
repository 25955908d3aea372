import Verif.Model.Efficiency
/-
Model of the in-pixel histograms of `calculate_efficiency` (beam_telescope_analysis/result_analysis.py L862-873, L911-955, L1083-1146,
L1224-1262, L1491-1553): for each region the tracks are folded into the primitive cell of the DUT; the histograms start with the size
of one pixel and grow if a folded intersection is larger; at the end they are extended periodically.

The rest of a chunk (regions, 2D histograms, exceptions) is that of Verif.Model.Efficiency. Not modelled: the third axis of the histogram of
the cluster shape (see Verif.Model.ShapeHist), the 1D histograms, the extents for the plots. Rounding is not modelled.
-/
namespace BTA.InPixel
open BTA.Binning BTA.Efficiency

variable {K : Type} [Field K] [LinearOrder K] [FloorRing K]

/-- The primitive cell: `(column_size, row_size)`, `in_pixel_resolution` and `map_to_primitive_cell` of the DUT. -/
structure Cell (K : Type) where
  pitch : K × K
  res : K × K
  fold : K → K → K × K

/-- L913-914: size of the histogram, at least one pixel, a multiple of the resolution. -/
def firstSize (pitch res : K) : K := (⌈pitch / res⌉ : K) * res

/-- L915-916, L1093, L1098: `int(size / resolution)`, the number of bins (the sizes are positive). -/
def bins (size res : K) : Nat := ⌊size / res⌋.toNat

/-- `np.max`; only used for a list that is not empty. -/
def largest : List K → K
  | [] => 0
  | x :: xs => xs.foldl max x

/-- L1090-1092, L1095-1097: the size after the positions `xs` of a chunk. -/
def grown (pitch res size : K) (xs : List K) : K :=
  if xs.any fun x => decide (size < x) then (⌈(⌈largest xs / pitch⌉ : K) * pitch / res⌉ : K) * res else size

/-- The in-pixel histograms of one region (L925-955): tracks, tracks with valid hit, hits and the means. The code has the means of the
first six quantities of `Quantity` only (residuals, charge, frame, cluster size); the angles have no in-pixel histogram. -/
structure Maps (K : Type) where
  tracks : Nat × Nat → Nat
  withHit : Nat × Nat → Nat
  hits : Nat × Nat → Nat
  means : Quantity → Nat × Nat → K

def Maps.zero : Maps K := ⟨fun _ => 0, fun _ => 0, fun _ => 0, fun _ _ => 0⟩

/-- The variables for the in-pixel histograms: the size and the histograms of each region. -/
structure Area (K : Type) where
  size : K × K
  maps : List (Maps K)

/-- `(hist_in_pixel_x_n_bins, hist_in_pixel_y_n_bins)`. -/
def shapeOf (p : Cell K) (size : K × K) : Nat × Nat := (bins size.1 p.res.1, bins size.2 p.res.2)

/-- L911-955: before the first chunk. -/
def startArea (s : Setup K) (p : Cell K) : Area K where
  size := (firstSize p.pitch.1 p.res.1, firstSize p.pitch.2 p.res.2)
  maps := s.regions.map fun _ => Maps.zero

/-- L1108-1110 and alike: an array of zeros to which the old array is added. -/
def padded {α : Type} (old : Nat × Nat) (zero : α) (h : Nat × Nat → α) (b : Nat × Nat) : α :=
  if b.1 < old.1 ∧ b.2 < old.2 then h b else zero

/-- L1105-1146: the histograms of a region with the new size. -/
def Maps.resize (old : Nat × Nat) (m : Maps K) : Maps K where
  tracks := padded old 0 m.tracks
  withHit := padded old 0 m.withHit
  hits := padded old 0 m.hits
  means q := padded old 0 (m.means q)

/-- The positions of the intersections in the cell (L1087). -/
def cellX (p : Cell K) (rows : List (Row K)) : List K := rows.map fun r => (p.fold r.ix r.iy).1
def cellY (p : Cell K) (rows : List (Row K)) : List K := rows.map fun r => (p.fold r.ix r.iy).2

/-- `resize_in_pixel_hist` (L1089-1096). -/
def mustGrow (p : Cell K) (size : K × K) (rows : List (Row K)) : Bool :=
  ((cellX p rows).any fun x => decide (size.1 < x)) || ((cellY p rows).any fun y => decide (size.2 < y))

/-- L1083-1146: all tracks of the chunk count for the size, not only those of a region. -/
def growArea (p : Cell K) (rows : List (Row K)) (a : Area K) : Area K :=
  if mustGrow p a.size rows then
    { size := (grown p.pitch.1 p.res.1 a.size.1 (cellX p rows), grown p.pitch.2 p.res.2 a.size.2 (cellY p rows))
      maps := a.maps.map (Maps.resize (shapeOf p a.size)) }
  else a

/-- The edges of the histograms (L917-919, L1094, L1099). -/
def cellEdges (p : Cell K) (size : K × K) : List K × List K :=
  (linspace 0 size.1 (bins size.1 p.res.1), linspace 0 size.2 (bins size.2 p.res.2))

/-- The bin of the folded intersection. -/
def trackBin (p : Cell K) (size : K × K) (r : Row K) : Option (Nat × Nat) :=
  binIndex2 (cellEdges p size).1 (cellEdges p size).2 (p.fold r.ix r.iy).1 (p.fold r.ix r.iy).2

/-- The bin of the folded hit; NaN has no bin (L1086). -/
def hitBin (p : Cell K) (size : K × K) (r : Row K) : Option (Nat × Nat) :=
  r.hit.bind fun h => binIndex2 (cellEdges p size).1 (cellEdges p size).2 (p.fold h.1 h.2).1 (p.fold h.1 h.2).2

/-- L1224-1262: one region. The hits (L1231) are those of all tracks in the region, if one of them has a valid hit. -/
def updateMaps (s : Setup K) (p : Cell K) (size : K × K) (rows : List (Row K)) (g : Region K) (m : Maps K) : Maps K :=
  let sel := rows.filter (inRegion g)
  let valid := sel.filter (validHit s)
  if valid = [] then { m with tracks := fun b => m.tracks b + counts (trackBin p size) sel b }
  else {
    tracks := fun b => m.tracks b + counts (trackBin p size) sel b
    withHit := fun b => m.withHit b + counts (trackBin p size) valid b
    hits := fun b => m.hits b + counts (hitBin p size) sel b
    means := fun q b => average (m.means q b) (m.withHit b) (binMean (trackBin p size) (value s q) valid b) (counts (trackBin p size) valid b) }

/-- L1083-1262 for one chunk. -/
def stepArea (s : Setup K) (p : Cell K) (rows : List (Row K)) (a : Area K) : Area K :=
  let a' := growArea p rows a
  { a' with maps := List.zipWith (updateMaps s p a'.size rows) s.regions a'.maps }

/-- One chunk. -/
def step (s : Setup K) (p : Cell K) (chunk : List (Row K)) (st : State K) (a : Area K) : Except Err (State K × Area K) :=
  match stepChunk s chunk st with
  | .error e => .error e
  | .ok st' => .ok (st', stepArea s p (prepare s chunk) a)

/-- The loop over the chunks. -/
def loop (s : Setup K) (p : Cell K) : List (List (Row K)) → State K → Area K → Except Err (State K × Area K)
  | [], st, a => .ok (st, a)
  | c :: r, st, a =>
    match step s p c st a with
    | .error e => .error e
    | .ok (st', a') => loop s p r st' a'

/-- The in-pixel results of one region. -/
structure RegionOutput (K : Type) where
  shape : Nat × Nat
  maps : Maps K
  /-- efficiency in percent, `none` is NaN -/
  efficiency : Nat × Nat → Option K
  mask : Nat × Nat → Bool

/-- L1500-1505. -/
def regionOutput (s : Setup K) (shape : Nat × Nat) (m : Maps K) : RegionOutput K where
  shape := shape
  maps := m
  efficiency b := percent (m.withHit b) (m.tracks b)
  mask b := masked s (m.tracks b)

/-- L1511, L1532: number of bins added on each side; `none` for None. A negative number is an error of `np.pad`, which is not modelled. -/
def padBins (ext : Option K) (res : K) : Nat :=
  match ext with
  | none => 0
  | some e => ⌈e / res⌉.toNat

/-- `np.pad(array, (pad, pad), 'wrap')` on an axis with `n` bins: the bin of the array which is copied to bin `i`. -/
def wrapped (n pad i : Nat) : Nat := (i + (n - pad % n)) % n

/-- L1510-1550: periodic extension in x, then in y. -/
def extendOutput (pad : Nat × Nat) (o : RegionOutput K) : RegionOutput K :=
  let at' : Nat × Nat → Nat × Nat := fun b => (wrapped o.shape.1 pad.1 b.1, wrapped o.shape.2 pad.2 b.2)
  { shape := (o.shape.1 + 2 * pad.1, o.shape.2 + 2 * pad.2)
    maps := ⟨fun b => o.maps.tracks (at' b), fun b => o.maps.withHit (at' b), fun b => o.maps.hits (at' b), fun q b => o.maps.means q (at' b)⟩
    efficiency := fun b => o.efficiency (at' b)
    mask := fun b => o.mask (at' b) }

/-- One DUT with `efficiency_regions`: the in-pixel results for each region, besides the other results of the DUT. `ext` is
`extend_in_pixel_area`. -/
def inPixel (s : Setup K) (p : Cell K) (ext : Option K × Option K) (table : List (Row K)) (chunkSize : Nat) (sc : Scope K) :
    Except Err (Output K × List (RegionOutput K)) :=
  let g := dataAligned Row.event table { chunkSize := chunkSize }
  let st0 : State K := ⟨true, sc, fun _ => 0, fun _ => 0, s.regions.map fun _ => .init, []⟩
  match loop s p (g.items.map Prod.fst) st0 (startArea s p) with
  | .error e => .error e
  | .ok (st, a) =>
    match g.err with
    | some e => .error (.read e)
    | none =>
      match finish s st with
      | .error e => .error e
      | .ok o => .ok (o, a.maps.map fun m => extendOutput (padBins ext.1 p.res.1, padBins ext.2 p.res.2) (regionOutput s (shapeOf p a.size) m))

end BTA.InPixel
