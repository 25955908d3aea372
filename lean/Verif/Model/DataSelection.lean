import Verif.Model.FitTracks
/-
Model of `tools/data_selection.py`: `combine_files`, `reduce_events` and `select_tracks`.

Files and tables are lists; storing rows in an output table is appending to a list. What a function has stored in
its output file when an exception is raised is part of the result. Not modelled: HDF5 options, table descriptions
(the tables with one name have the same columns), the progress bar, default file names and the normalisation of the
parameters of `select_tracks` (L231-349; the model takes one setting per DUT).
-/
namespace BTA.Sel
open BTA.Fit

/-! ### `combine_files` (L20-106) -/

section
variable {N P : Type} [DecidableEq N]

/-- A row of a table: the column `event_number` (arbitrary if the table has no such column) and all other columns. -/
structure Row (P : Type) where
  event : Int
  data : P
deriving DecidableEq

/-- `data_chunk[:]['event_number'] += offset` (L99). The integers of the code have 64 bits; no overflow here. -/
def Row.shift (r : Row P) (offset : Int) : Row P := { r with event := r.event + offset }

/-- A table of an input file. -/
structure Table (N P : Type) where
  name : N
  rows : List (Row P)

inductive CErr
  /-- `range() arg 3 must not be zero` (L96) -/
  | zeroStep
  /-- `event_number_offsets[file_index]` is out of range (L90) -/
  | index
  /-- `data_chunk` is not defined (L103) -/
  | unbound
  /-- `data_chunk` has no column `event_number` (L103) -/
  | noField
deriving DecidableEq

/-- An output table with `last_event_numbers[name]` and `applied_event_number_offsets[name]`. Both are None if there is no
column `event_number`; the values of the fields are not used in this case. -/
structure OutTable (P : Type) where
  rows : List (Row P)
  last : Int
  offsets : List Int
deriving DecidableEq

/-- State of the loops: the output tables (`out_tables`), and the last row of `data_chunk` with the name of its table
(only this row is used after the loop over the chunks, L103). -/
structure CState (N P : Type) where
  out : N → Option (OutTable P)
  chunk : Option (N × Row P)

/-- `event_number_offset` (L89-94) for a table with a column `event_number`. -/
def eventOffset (manual : Option (List (Option Int))) (file : Nat) (last : Int) : Except CErr Int :=
  match manual with
  | none => .ok (last + 1)
  | some l =>
    match l[file]? with
    | none => .error .index
    | some (some o) => .ok o
    | some none => .ok (last + 1)

/-- L98-99: the offset is added if the table has event numbers (`some`) and the offset is not zero. -/
def addOffset (offset : Option Int) (chunk : List (Row P)) : List (Row P) :=
  match offset with
  | some o => if o ≠ 0 then chunk.map fun r => r.shift o else chunk
  | none => chunk

/-- Loop over the chunks of a table (L96-101): appended rows and the last row of `data_chunk`. -/
def copyLoop (rows : List (Row P)) (name : N) (offset : Option Int) (cs : Nat) :
    List Nat → List (Row P) × Option (N × Row P) → List (Row P) × Option (N × Row P)
  | [], acc => acc
  | i :: rest, acc =>
    let chunk := addOffset offset (readRows rows i (i + cs))
    copyLoop rows name offset cs rest (acc.1 ++ chunk, (chunk.getLast?.map fun r => (name, r)))

/-- `range(0, nrows, cs)` for `cs > 0`. -/
def readIndices (nrows cs : Nat) : List Nat := (List.range ((nrows + cs - 1) / cs)).map (· * cs)

/-- `names is not None and table.name not in names` (L70). -/
def skipName (names : Option (List N)) (n : N) : Bool :=
  match names with
  | none => false
  | some ns => decide (n ∉ ns)

/-- One table of an input file (L69-104). `hasEvent`: the tables with this name have a column `event_number`. -/
def combineTable (hasEvent : N → Bool) (names : Option (List N)) (manual : Option (List (Option Int))) (cs : Nat)
    (file : Nat) (t : Table N P) (s : CState N P) : Except CErr (CState N P) :=
  if skipName names t.name then .ok s                                                       -- L70-71
  else
    let o := (s.out t.name).getD ⟨[], -1, []⟩                                              -- L72-87
    if hasEvent t.name then
      match eventOffset manual file o.last with
      | .error e => .error e
      | .ok offset =>
        if cs = 0 then .error .zeroStep
        else
          let r := copyLoop t.rows t.name (some offset) cs (readIndices t.rows.length cs) (o.rows, s.chunk)
          match r.2 with                                                                    -- L102-104
          | none => .error .unbound
          | some (n, row) =>
            if hasEvent n then
              .ok ⟨Function.update s.out t.name (some ⟨r.1, row.event, o.offsets ++ [offset]⟩), r.2⟩
            else .error .noField
    else if cs = 0 then .error .zeroStep
    else
      let r := copyLoop t.rows t.name none cs (readIndices t.rows.length cs) (o.rows, s.chunk)
      .ok ⟨Function.update s.out t.name (some ⟨r.1, o.last, o.offsets⟩), r.2⟩

/-- Loop over the tables of one file (L69-104). -/
def combineTables (hasEvent : N → Bool) (names : Option (List N)) (manual : Option (List (Option Int))) (cs : Nat)
    (file : Nat) : List (Table N P) → CState N P → Except CErr (CState N P)
  | [], s => .ok s
  | t :: rest, s =>
    match combineTable hasEvent names manual cs file t s with
    | .error e => .error e
    | .ok s => combineTables hasEvent names manual cs file rest s

/-- Loop over the files (L65-104). -/
def combineLoop (hasEvent : N → Bool) (names : Option (List N)) (manual : Option (List (Option Int))) (cs : Nat) :
    Nat → List (List (Table N P)) → CState N P → Except CErr (CState N P)
  | _, [], s => .ok s
  | file, f :: rest, s =>
    match combineTables hasEvent names manual cs file f s with
    | .error e => .error e
    | .ok s => combineLoop hasEvent names manual cs (file + 1) rest s

/-- `combine_files(input_files, names=names, event_number_offsets=manual, chunk_size=cs)` (L20-106): for every name the rows of
the output table with the applied offsets, `none` if there is no output table. -/
def combineFiles (hasEvent : N → Bool) (names : Option (List N)) (manual : Option (List (Option Int))) (cs : Nat)
    (files : List (List (Table N P))) : Except CErr (N → Option (List (Row P) × List Int)) :=
  match combineLoop hasEvent names manual cs 0 files ⟨fun _ => none, none⟩ with
  | .error e => .error e
  | .ok s => .ok fun n => (s.out n).map fun o => (o.rows, o.offsets)
end

/-! ### Selection of events -/

inductive Err
  | chunks (e : ReadErr)
  /-- `np.random.choice` with a negative size, or no number of events could be calculated -/
  | sample
  /-- `ZeroDivisionError` in the summary of `select_tracks` (L476) -/
  | zeroDivision
  /-- a DUT in `select_hit_duts` and `select_no_hit_duts` (L278-282) -/
  | contradiction
deriving DecidableEq

variable {R : Type}

/-- Chunk loop of `reduce_events` (L145-185): stored rows and exception. The number of events to select in a chunk which is
not the last one is arbitrary (`S.size`), as well as the choice of the events. -/
def reduceLoop (ev : R → Int) (S : Sampling) (maxEvents total : Nat) : List (List R × Nat) → Nat → List R × Option Err
  | [], _ => ([], none)
  | (chunk, idx) :: rest, stored =>
    match sampleEvents S maxEvents stored total idx (chunk.map ev).dedup with
    | none => ([], some .sample)
    | some sel =>
      let r := reduceLoop ev S maxEvents total rest (stored + sel.length)
      (chunk.filter (fun t => decide (ev t ∈ sel)) ++ r.1, r.2)

/-- `reduce_events` (L109-188) for one table: stored rows and exception. -/
def reduceEvents (ev : R → Int) (S : Sampling) (maxEvents cs : Nat) (T : List R) : List R × Option Err :=
  let g := dataAligned ev T { chunkSize := cs }
  let r := reduceLoop ev S maxEvents T.length g.items 0
  (r.1, match r.2 with | some e => some e | none => g.err.map Err.chunks)

/-! ### `select_tracks` (L191-478) -/

/-- The columns of a track table used by the selection. The flags are unsigned integers with 32 bits. -/
structure Flags where
  hit : Nat
  quality : Nat
  isoTrack : Nat
  isoHit : Nat

/-- Settings for one DUT; None is the empty list. -/
structure Criteria where
  hit : List Nat
  noHit : List Nat
  quality : List Nat
  isoTrack : List Nat
  isoHit : List Nat

/-- Hit selection (L410-413); `~flag` of an unsigned integer with 32 bits. -/
def passHit (c : Criteria) (f : Flags) : Bool :=
  (if dutMask c.hit ≠ 0 then f.hit &&& dutMask c.hit == dutMask c.hit else true) &&
  (if dutMask c.noHit ≠ 0 then (2 ^ 32 - 1 - f.hit) &&& dutMask c.noHit == dutMask c.noHit else true)

/-- Quality selection (L415-419). -/
def passQuality (c : Criteria) (f : Flags) : Bool :=
  if dutMask c.quality ≠ 0 then f.quality &&& (dutMask c.quality &&& f.hit) == dutMask c.quality &&& f.hit else true

/-- Selection of isolated tracks (L421-422). -/
def passIsoTrack (c : Criteria) (f : Flags) : Bool :=
  if dutMask c.isoTrack ≠ 0 then f.isoTrack &&& dutMask c.isoTrack == dutMask c.isoTrack else true

/-- Selection of isolated hits (L424-428). -/
def passIsoHit (c : Criteria) (f : Flags) : Bool :=
  if dutMask c.isoHit ≠ 0 then f.isoHit &&& (dutMask c.isoHit &&& f.hit) == dutMask c.isoHit &&& f.hit else true

/-- Some mask is not zero (L408). -/
def anyMask (c : Criteria) : Bool :=
  dutMask c.hit != 0 || dutMask c.noHit != 0 || dutMask c.quality != 0 || dutMask c.isoTrack != 0 || dutMask c.isoHit != 0

/-- `n_tracks_hit_mask`, `n_tracks_quality_mask`, `n_tracks_iso_track_mask` and `n_tracks_iso_hit_mask`. -/
structure Counts where
  hit : Nat
  quality : Nat
  isoTrack : Nat
  isoHit : Nat

/-- Mask selection of a chunk (L408-430). -/
def maskSelect (c : Criteria) (flags : R → Flags) (chunk : List R) (n : Counts) : List R × Counts :=
  if anyMask c then
    let s1 := chunk.map fun t => passHit c (flags t)
    let s2 := List.zipWith (fun b t => b && passQuality c (flags t)) s1 chunk
    let s3 := List.zipWith (fun b t => b && passIsoTrack c (flags t)) s2 chunk
    let s4 := List.zipWith (fun b t => b && passIsoHit c (flags t)) s3 chunk
    (compress chunk s4, ⟨n.hit + s1.count true, n.quality + s2.count true, n.isoTrack + s3.count true, n.isoHit + s4.count true⟩)
  else (chunk, n)

/-- Selection with a query string (L431-435); None if the string is empty. -/
def tableWhere (query : Option (R → Bool)) (tracks : List R) : List R :=
  match query with
  | none => tracks
  | some q => tracks.filter q

/-- Chunk loop (L406-474): stored rows, counters and exception. `query`: None if the string is empty, else the rows for
which the expression is true (`table_where`, L431-435). `maxEvents = 0` stands for None and 0. -/
def selectLoop (ev : R → Int) (flags : R → Flags) (c : Criteria) (query : Option (R → Bool)) (S : Sampling)
    (maxEvents total : Nat) : List (List R × Nat) → Nat → Counts → List R × Counts × Option Err
  | [], _, n => ([], n, none)
  | (chunk, idx) :: rest, stored, n =>
    let (tracks, n) := maskSelect c flags chunk n
    let tracks := tableWhere query tracks
    if maxEvents = 0 then
      let r := selectLoop ev flags c query S maxEvents total rest stored n
      (tracks ++ r.1, r.2)
    else
      match sampleEvents S maxEvents stored total idx (tracks.map ev).dedup with
      | none => ([], n, some .sample)
      | some sel =>
        let r := selectLoop ev flags c query S maxEvents total rest (stored + sel.length) n
        (tracks.filter (fun t => decide (ev t ∈ sel)) ++ r.1, r.2)

/-- Selection for one DUT (L354-476): rows of its output table and exception. The counters are Python integers: the divisions in
the summary (L476) raise an exception if one of the counters is zero. -/
def selectDut (ev : R → Int) (flags : R → Flags) (c : Criteria) (query : Option (R → Bool)) (S : Sampling)
    (maxEvents cs : Nat) (T : List R) : List R × Option Err :=
  let g := dataAligned ev T { chunkSize := cs }
  let r := selectLoop ev flags c query S maxEvents T.length g.items 0 ⟨0, 0, 0, 0⟩
  (r.1, match r.2.2 with
    | some e => some e
    | none =>
      match g.err with
      | some e => some (.chunks e)
      | none =>
        let n := r.2.1
        if n.hit = 0 ∨ n.quality = 0 ∨ n.isoTrack = 0 ∨ n.isoHit = 0 then some .zeroDivision else none)

/-- A DUT to be processed: number, settings, query and the input table. -/
structure Job (R : Type) where
  dut : Nat
  criteria : Criteria
  query : Option (R → Bool)
  table : List R

/-- Loop over the DUTs (L353-476): output tables and exception. -/
def selectJobs (ev : R → Int) (flags : R → Flags) (S : Sampling) (maxEvents cs : Nat) :
    List (Job R) → List (Nat × List R) × Option Err
  | [] => ([], none)
  | j :: rest =>
    match selectDut ev flags j.criteria j.query S maxEvents cs j.table with
    | (rows, some e) => ([(j.dut, rows)], some e)
    | (rows, none) =>
      let r := selectJobs ev flags S maxEvents cs rest
      ((j.dut, rows) :: r.1, r.2)

/-- `select_tracks` (L191-478): output tables and exception. -/
def selectTracks (ev : R → Int) (flags : R → Flags) (S : Sampling) (maxEvents cs : Nat) (jobs : List (Job R)) :
    List (Nat × List R) × Option Err :=
  if jobs.any fun j => j.criteria.noHit.any fun d => decide (d ∈ j.criteria.hit) then ([], some .contradiction)  -- L278-282
  else selectJobs ev flags S maxEvents cs jobs

end BTA.Sel
