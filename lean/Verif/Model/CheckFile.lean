import Verif.Model.Dut
import Verif.Model.ChunkReader
/-
Model of `check_file` (beam_telescope_analysis/hit_analysis.py L248-422): checks of a table of hits, event numbers of the table and
correlation of consecutive events.

Simplifications: floats are elements of an ordered field (no rounding); the output file is the returned value; the sizes of the
histograms are `ceil(size / resolution)` (`int(ceil(size / resolution) * resolution / resolution)` in the code).
-/
namespace BTA.Check
open BTA.Dut

inductive Err
  /-- L351: RuntimeError('The event number does not always increase.') -/
  | order
  /-- L354: RuntimeError('The column/row index does not start at 1!') -/
  | startsAtOne
  /-- L356: RuntimeError('The column/row index exceeds the number of pixels') -/
  | exceeds
  /-- L361, L363: the message of the RuntimeError uses `dut.x_extent[0]`, but `x_extent` is a method: TypeError -/
  | typeError
  /-- ValueError of numpy: the table has no column `column` or `x` -/
  | noField
  /-- exception of the DUT -/
  | dut (e : Dut.Err)
  /-- L377: index outside of the histogram; Numba does not check this and writes to other memory -/
  | outside
  /-- exception of `data_aligned_at_events` -/
  | read (e : ReadErr)
deriving DecidableEq

/-- A row: event number, `column` and `row` (or `x` and `y`), `mean_column` and `mean_row` (or `mean_x` and `mean_y`; clusters only). -/
structure Row (K : Type) where
  ev : Int
  plain : K × K
  mean : K × K

/-- The table that is found in the file (L294-305): Clusters or Hits, with positions (`x` or `mean_x`) or with indices; `hasPlain`: the
table has the columns `column` and `row` (with positions: `x` and `y`). -/
structure Table (K : Type) where
  clusters : Bool
  positions : Bool
  hasPlain : Bool
  rows : List (Row K)

/-- What is kept between the chunks. -/
structure State where
  xCorr : Hist2
  yCorr : Hist2
  eventDelta : List Int
  eventNumber : List Int
  lastEvent : Option Int
  lastEventNumber : Int

section
variable {K : Type} [Field K] [LinearOrder K] [FloorRing K]

/-- Arguments: DUT, resolution (L308-309: default is the pixel size), event range and chunk size. -/
structure Args (K : Type) where
  dut : Pixels K
  resolution : Option (K × K)
  eventRange : Nat
  chunkSize : Nat

/-- L308-309 -/
def Args.res (a : Args K) : K × K := a.resolution.getD (a.dut.columnSize, a.dut.rowSize)

/-- L317-322: number of bins for a size. -/
def nBins (size res : K) : Nat := ⌈size / res⌉₊

/-- L318, L321: lower end of the histogram. -/
def histStart (size res : K) : K := 0 - nBins size res * res / 2

/-- L375-376: `((pos - start) / resolution).astype(np.uint32)`, cut towards zero; `none` if the index is not in the histogram. -/
def binIndex (size res x : K) : Option Nat :=
  let v := (x - histStart size res) / res
  if v ≤ -1 then none else if ⌊v⌋₊ < nBins size res then some ⌊v⌋₊ else none

/-- `np.all(np.diff(np.r_[last, events]) >= 0)` (L350). -/
def increasing : Int → List Int → Bool
  | _, [] => true
  | last, e :: r => decide (last ≤ e) && increasing e r

/-- `np.unique`. -/
def npUnique (l : List Int) : List Int := (l.mergeSort (fun a b => decide (a ≤ b))).dedup

/-- `np.diff`. -/
def npDiff (l : List Int) : List Int := List.zipWith (fun a b => b - a) l l.tail

/-- L352-363: the checks of the values. -/
def checkRows (d : Pixels K) (t : Table K) (chunk : List (Row K)) : Except Err Unit :=
  if t.positions then
    match xExtent d, yExtent d with
    | .ok ex, .ok ey =>
      if !t.hasPlain then .error .noField
      else if chunk.any (fun r => decide (r.plain.1 < ex.1)) || chunk.any (fun r => decide (ex.2 < r.plain.1)) then .error .typeError
      else if chunk.any (fun r => decide (r.plain.2 < ey.1)) || chunk.any (fun r => decide (ey.2 < r.plain.2)) then .error .typeError
      else .ok ()
    | .error e, _ => .error (.dut e)
    | _, .error e => .error (.dut e)
  else
    if !t.hasPlain then .error .noField
    else if chunk.any (fun r => decide (r.plain.1 < 1)) || chunk.any (fun r => decide (r.plain.2 < 1)) then .error .startsAtOne
    else if chunk.any (fun r => decide ((d.nColumns : K) < r.plain.1)) || chunk.any (fun r => decide ((d.nRows : K) < r.plain.2)) then
      .error .exceeds
    else .ok ()

/-- L365-374: the local positions. -/
def localPositions (d : Pixels K) (t : Table K) (chunk : List (Row K)) : Except Err (List (K × K)) :=
  let pts := chunk.map fun r => if t.clusters then r.mean else r.plain
  if t.positions then .ok pts
  else match indexToLocal d pts with
    | .error e => .error (.dut e)
    | .ok ps => .ok (ps.map fun p => (p.1, p.2.1))

/-- L375-376: the hits with their indices. -/
def toIndices (xSize ySize : K) (res : K × K) : List (Row K) → List (K × K) → Option (List IHit)
  | r :: rows, p :: ps =>
    match binIndex xSize res.1 p.1, binIndex ySize res.2 p.2, toIndices xSize ySize res rows ps with
    | some i, some j, some l => some (⟨r.ev, i, j⟩ :: l)
    | _, _, _ => none
  | _, _ => some []

/-- L352-376: checks, positions and indices of a chunk. -/
def prepare (a : Args K) (t : Table K) (xSize ySize : K) (chunk : List (Row K)) : Except Err (List IHit) :=
  match checkRows a.dut t chunk with
  | .error e => .error e
  | .ok () =>
    match localPositions a.dut t chunk with
    | .error e => .error e
    | .ok ps =>
      match toIndices xSize ySize a.res chunk ps with
      | none => .error .outside
      | some hits => .ok hits

/-- L387-389: the distances of the event numbers; `if last_event:` is false for None and for 0. -/
def deltas (last : Option Int) (events : List Int) : List Int :=
  match last, events with
  | some l, e :: _ => if l ≠ 0 then (e - l) :: npDiff events else npDiff events
  | _, _ => npDiff events

/-- L349-394: one chunk. `xSize`, `ySize`: size of the DUT (L311-314). -/
def stepChunk (a : Args K) (t : Table K) (xSize ySize : K) (s : State) (chunk : List (Row K)) : Except Err State :=
  if increasing s.lastEventNumber (chunk.map Row.ev) then
    match prepare a t xSize ySize chunk with
    | .error e => .error e
    | .ok hits =>
      match correlateHitsOnEventRange hits s.xCorr s.yCorr a.eventRange with
      | none => .error .outside
      | some (xc, yc) =>
        let events := npUnique (chunk.map Row.ev)
        .ok { xCorr := xc, yCorr := yc, eventDelta := s.eventDelta ++ deltas s.lastEvent events,
              eventNumber := s.eventNumber ++ events, lastEvent := events.getLast?, lastEventNumber := events.getLast?.getD 0 }
  else .error .order

/-- L349: the loop over the chunks. -/
def chunkLoop (a : Args K) (t : Table K) (xSize ySize : K) : State → List (List (Row K)) → Except Err State
  | s, [] => .ok s
  | s, c :: r =>
    match stepChunk a t xSize ySize s c with
    | .error e => .error e
    | .ok s' => chunkLoop a t xSize ySize s' r

/-- L325-348: before the first chunk. -/
def State.init : State := ⟨fun _ _ => 0, fun _ _ => 0, [], [], none, 0⟩

/-- `check_file`. An exception of the generator is raised after the delivered chunks have been processed. -/
def checkFile (a : Args K) (t : Table K) : Except Err State :=
  match xExtent a.dut, yExtent a.dut with
  | .ok ex, .ok ey =>
    let g := dataAligned Row.ev t.rows { chunkSize := a.chunkSize }
    match chunkLoop a t (ex.2 - ex.1) (ey.2 - ey.1) State.init (g.items.map Prod.fst) with
    | .error e => .error e
    | .ok s =>
      match g.err with
      | some e => .error (.read e)
      | none => .ok s
  | .error e, _ => .error (.dut e)
  | _, .error e => .error (.dut e)

end
end BTA.Check
