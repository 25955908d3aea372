import Verif.Model.Dut
import Verif.Model.MergeClusters
import Verif.Model.EventArrays
/-
Model of `correlate` and `_correlate_position` (beam_telescope_analysis/hit_analysis.py L1244-1528): correlation histograms of pairs of DUTs.

Simplifications: floats are real numbers; the resolution is positive; int32 counters are unbounded; the workers of the pool are called one after
the other (each has its own histograms); the singular value decomposition is a parameter. The order of the other DUTs (the order of a Python set)
is the order of their first occurrence.
-/
namespace BTA.Corr
open BTA.Dut BTA.Geo

inductive Err
  /-- L1276, L1278, L1282: ValueError -/
  | value
  /-- L1296: IndexError, the reference DUT is not selected -/
  | refNotSelected
  /-- KeyError of the telescope -/
  | noDut
  /-- exception of the DUT -/
  | dut (e : Dut.Err)
  /-- index outside of the histogram; Numba does not check this and writes to other memory -/
  | outside
  /-- exception of `data_aligned_at_events` -/
  | read (e : ReadErr)
  /-- ValueError of PyTables: an array has no bins -/
  | emptyHist
  /-- NodeError of PyTables: the array exists already -/
  | nodeExists
deriving DecidableEq

/-- A DUT of the telescope: pixel matrix and alignment. -/
structure Plane where
  pixels : Pixels ℝ
  align : Alignment

/-- A hit or cluster: event number and the two columns read at L1494-1513, depending on the table (`mean_x` and `mean_y`, `mean_column` and
`mean_row`, `x` and `y`, `column` and `row`). -/
structure Row where
  ev : Int
  coord : ℝ × ℝ

/-- The table of an input file; `positions`: with local coordinates instead of indices (L1351-1354, L1486-1489). -/
structure Table where
  positions : Bool
  rows : List Row

/-- L1494-1513: the global positions of the rows. -/
noncomputable def globalPositions (p : Plane) (positions : Bool) (chunk : List Row) : Except Dut.Err (List Vec3) :=
  if positions then localToGlobal p.align {} (chunk.map fun r => ![r.coord.1, r.coord.2, 0])
  else indexToGlobal p.pixels p.align {} (chunk.map Row.coord)

/-- `x_extent(global_position=True)` (`k = 0`) and `y_extent(global_position=True)` (`k = 1`), telescope/dut.py L261-275. -/
noncomputable def globalExtent (p : Plane) (k : Fin 3) : Except Dut.Err (ℝ × ℝ) :=
  match indexToGlobal p.pixels p.align {} (corners p.pixels) with
  | .error e => .error e
  | .ok ps =>
    let xs := ps.map fun q => q k
    .ok (xs.tail.foldl min (xs.headD 0), xs.tail.foldl max (xs.headD 0))

/-- One axis of a histogram: lower end (first value of `..._hist_x_extent`) and number of bins. -/
structure Axis where
  start : ℝ
  bins : Nat

/-- L1312-1338: the axis for a DUT, with the given centre. -/
noncomputable def axis (p : Plane) (k : Fin 3) (center res : ℝ) : Except Dut.Err Axis :=
  match globalExtent p k with
  | .error e => .error e
  | .ok (lo, hi) => .ok ⟨center - ⌈(hi - lo) / res⌉₊ * res / 2, ⌈(hi - lo) / res⌉₊⟩

/-- The axes of a DUT. -/
structure Axes where
  x : Axis
  y : Axis

/-- L1312-1335 for one DUT. -/
noncomputable def axes (p : Plane) (res : ℝ × ℝ) : Except Dut.Err Axes :=
  match axis p 0 p.align.x res.1, axis p 1 p.align.y res.2 with
  | .ok ax, .ok ay => .ok ⟨ax, ay⟩
  | .error e, _ => .error e
  | _, .error e => .error e

/-- L1514-1517: `((pos - start) / resolution).astype(np.uint32)`, cut towards zero; `none` for values that are not in the range of uint32. -/
noncomputable def toIndex (start res x : ℝ) : Option Nat :=
  if (x - start) / res ≤ -1 then none else some ⌊(x - start) / res⌋₊

/-- A hit with its indices. -/
structure Hit where
  ev : Int
  x : Option Nat
  y : Option Nat

/-- L1514-1517 for all rows. -/
noncomputable def toHits (a : Axes) (res : ℝ × ℝ) (chunk : List Row) (ps : List Vec3) : List Hit :=
  List.zipWith (fun r p => ⟨r.ev, toIndex a.x.start res.1 (p 0), toIndex a.y.start res.2 (p 1)⟩) chunk ps

/-- `hist[dut_index, ref_index] += 1` for an array with `n` rows and `m` columns; `none`: outside of the array. -/
def add (n m : Nat) (h : Hist2) : Option Nat → Option Nat → Option Hist2
  | some i, some j => if i < n ∧ j < m then some (h.inc i j) else none
  | _, _ => none

/-- Body of the loop of `correlate_position_on_event_number` (tools/analysis_utils.py L134-142). -/
def addPair (ra da : Axes) : Option (Hist2 × Hist2) → Hit → Hit → Option (Hist2 × Hist2)
  | none, _, _ => none
  | some h, r, d =>
    match add da.x.bins ra.x.bins h.1 d.x r.x, add da.y.bins ra.y.bins h.2 d.y r.y with
    | some hx, some hy => some (hx, hy)
    | _, _ => none

/-- A DUT to be correlated: the planes, the tables (`refPositions`: the reference table has positions) and the axes. -/
structure Job where
  ref : Plane
  dut : Plane
  refPositions : Bool
  table : Table
  ra : Axes
  da : Axes

/-- L1491-1526: loop over the chunks of the DUT. -/
noncomputable def dutLoop (j : Job) (res : ℝ × ℝ) (refChunk : List Row) :
    List (List Row × Nat) → Hist2 × Hist2 → Except Err (Hist2 × Hist2)
  | [], h => .ok h
  | (d, _) :: rest, h =>
    match globalPositions j.ref j.refPositions refChunk with
    | .error e => .error (.dut e)
    | .ok rp =>
      match globalPositions j.dut j.table.positions d with
      | .error e => .error (.dut e)
      | .ok dp =>
        match eventLoop Hit.ev Hit.ev (toHits j.da res d dp) (addPair j.ra j.da) (toHits j.ra res refChunk rp) 0 (some h) with
        | none => .error .outside
        | some h => dutLoop j res refChunk rest h

/-- Start index and histograms of a DUT. -/
abbrev State := Option Nat × Hist2 × Hist2

/-- `_correlate_position` (L1475-1528) with the arguments of L1368-1385. A chunk is never empty. -/
noncomputable def correlateChunk (res : ℝ × ℝ) (cs : Nat) (refChunk : List Row) (j : Job) (s : State) : Except Err State :=
  match refChunk.head?, refChunk.getLast? with
  | some first, some last =>
    let g := dataAligned Row.ev j.table.rows { startIndex := s.1, startEvent := some first.ev, stopEvent := some (last.ev + 1),
                                               chunkSize := cs, failOnMissing := false }
    match dutLoop j res refChunk g.items s.2 with
    | .error e => .error e
    | .ok h =>
      match g.err with
      | some e => .error (.read e)
      | none => .ok (Merge.indexAfter g.items s.1, h)
  | _, _ => .error (.read .indexError)

/-- L1363-1388: all other DUTs for one chunk of the reference. -/
noncomputable def stepDuts (res : ℝ × ℝ) (cs : Nat) (refChunk : List Row) : List (Int × Job × State) → Except Err (List (Int × Job × State))
  | [] => .ok []
  | (i, j, s) :: rest =>
    match correlateChunk res cs refChunk j s with
    | .error e => .error e
    | .ok s' =>
      match stepDuts res cs refChunk rest with
      | .error e => .error e
      | .ok out => .ok ((i, j, s') :: out)

/-- L1360-1391: loop over the chunks of the reference. -/
noncomputable def refLoop (res : ℝ × ℝ) (cs : Nat) : List (List Row × Nat) → List (Int × Job × State) → Except Err (List (Int × Job × State))
  | [], st => .ok st
  | (c, _) :: rest, st =>
    match stepDuts res cs c st with
    | .error e => .error e
    | .ok st' => refLoop res cs rest st'

/-- `telescope[i]`: the DUTs are numbered from 0. -/
def getDut (tel : List Plane) (i : Int) : Option Plane := if 0 ≤ i then tel[i.toNat]? else none

/-- `input_files[np.where(i == np.array(select_duts))[0][0]]` -/
def getFile (select : List Int) (files : List Table) (i : Int) : Option Table := (select.zip files).lookup i

/-- L1310-1340: what is prepared for each other DUT. -/
noncomputable def makeJobs (tel : List Plane) (select : List Int) (files : List Table) (res : ℝ × ℝ) (ref : Plane) (refPositions : Bool) :
    List Int → Except Err (List (Int × Job × State))
  | [] => .ok []
  | i :: rest =>
    match getDut tel i, getFile select files i with
    | some dut, some t =>
      match axes ref res, axes dut res with
      | .ok ra, .ok da =>
        match makeJobs tel select files res ref refPositions rest with
        | .error e => .error e
        | .ok js => .ok ((i, ⟨ref, dut, refPositions, t, ra, da⟩, none, fun _ _ => 0, fun _ _ => 0) :: js)
      | .error e, _ => .error (.dut e)
      | _, .error e => .error (.dut e)
    | none, _ => .error .noDut
    | _, none => .error .refNotSelected

/-- `list(set(select_duts) - set([ref_index]))` (L1308). -/
def others (select : List Int) (ref : Int) : List Int := (select.filter fun i => decide (i ≠ ref)).reverse.dedup.reverse

/-- One pair of DUTs in the output file: axes (attributes of the arrays), histograms and histograms with reduced background. -/
structure Entry where
  ref : Int
  dut : Int
  ra : Axes
  da : Axes
  x : Hist2
  y : Hist2
  xReduced : Nat → Nat → Int
  yReduced : Nat → Nat → Int

/-- The term of the largest singular value `uu[:, :1] * np.diag(dd[:1]) * vv[:1, :]` of an array with `n` rows and `m` columns (L1460-1461). -/
abbrev Leading := (n m : Nat) → Hist2 → Nat → Nat → ℝ

/-- Conversion to int32: cut towards zero. -/
noncomputable def toInt (v : ℝ) : Int := if 0 ≤ v then ⌊v⌋ else ⌈v⌉

/-- L1462-1463: the background is subtracted. -/
noncomputable def withoutBackground (lead : Leading) (n m : Nat) (h : Hist2) (i j : Nat) : Int := (h i j : Int) - toInt (lead n m h i j)

/-- The values of an array with `n` rows and `m` columns. -/
def values (n m : Nat) (h : Nat → Nat → Int) : List Int := (List.range n).flatMap fun i => (List.range m).map fun j => h i j

/-- `correlation.min()` of an array that is not empty. -/
def minimum (n m : Nat) (h : Nat → Nat → Int) : Int := (values n m h).tail.foldl min ((values n m h).headD 0)

/-- L1459-1464: the histogram with reduced background. -/
noncomputable def reduced (lead : Leading) (n m : Nat) (h : Hist2) (i j : Nat) : Int :=
  withoutBackground lead n m h i j - minimum n m (withoutBackground lead n m h)

/-- L1396-1466: the arrays of all other DUTs. `done` are the reference DUTs that have been stored. -/
noncomputable def store (lead : Leading) (done : List Int) (ref : Int) : List (Int × Job × State) → Except Err (List Entry)
  | [] => .ok []
  | (i, j, s) :: rest =>
    if ref ∈ done then .error .nodeExists
    else if j.da.x.bins = 0 ∨ j.ra.x.bins = 0 ∨ j.da.y.bins = 0 ∨ j.ra.y.bins = 0 then .error .emptyHist
    else
      match store lead done ref rest with
      | .error e => .error e
      | .ok out => .ok (⟨ref, i, j.ra, j.da, s.2.1, s.2.2, reduced lead j.da.x.bins j.ra.x.bins s.2.1,
                         reduced lead j.da.y.bins j.ra.y.bins s.2.2⟩ :: out)

/-- L1295-1467: one reference DUT. -/
noncomputable def correlateRef (tel : List Plane) (select : List Int) (files : List Table) (res : ℝ × ℝ) (cs : Nat) (lead : Leading)
    (done : List Int) (ref : Int) : Except Err (List Entry) :=
  match getFile select files ref, getDut tel ref with
  | none, _ => .error .refNotSelected
  | _, none => .error .noDut
  | some t, some p =>
    match makeJobs tel select files res p t.positions (others select ref) with
    | .error e => .error e
    | .ok jobs =>
      let g := dataAligned Row.ev t.rows { chunkSize := cs }
      match refLoop res cs g.items jobs with
      | .error e => .error e
      | .ok st =>
        match g.err with
        | some e => .error (.read e)
        | none => store lead done ref st

/-- L1295: loop over the reference DUTs. -/
noncomputable def correlateRefs (tel : List Plane) (select : List Int) (files : List Table) (res : ℝ × ℝ) (cs : Nat) (lead : Leading) :
    List Int → List Int → Except Err (List Entry)
  | _, [] => .ok []
  | done, ref :: rest =>
    match correlateRef tel select files res cs lead done ref with
    | .error e => .error e
    | .ok a =>
      match correlateRefs tel select files res cs lead (ref :: done) rest with
      | .error e => .error e
      | .ok b => .ok (a ++ b)

/-- L1273-1274 -/
def selectDuts (tel : List Plane) (select : Option (List Int)) : List Int := select.getD ((List.range tel.length).map Int.ofNat)

/-- L1277: `max(select_duts) > n_duts or min(select_duts) < 0`; an exception (also a ValueError) for an empty list. -/
def badSelection (n : Nat) (select : List Int) : Bool := select.isEmpty || select.any (fun i => decide ((n : Int) < i)) || select.any (fun i => decide (i < 0))

/-- `correlate`. `refs`: list of reference DUTs (a number is a list with one element), `none` for all selected. Result: whether the output file has been
opened for writing (its old content is lost) and the content or the exception. -/
noncomputable def correlate (tel : List Plane) (files : List Table) (res : ℝ × ℝ) (select refs : Option (List Int)) (cs : Nat) (lead : Leading) :
    Bool × Except Err (List Entry) :=
  let sel := selectDuts tel select
  if badSelection tel.length sel then (false, .error .value)
  else if sel.length ≠ files.length then (false, .error .value)
  else (true, correlateRefs tel sel files res cs lead [] (refs.getD sel))

end BTA.Corr
