import Verif.Model.FindTracks
import Verif.Model.DataSelection
/-
Model of `find_tracks` (beam_telescope_analysis/track_analysis.py L179-303): loop over the chunks of the merged file, `max_events`, and the rows of the track
candidates. The track finding in a chunk is `runFindTracks` of FindTracks.lean.

Simplifications: the global positions of the hits (L237-256, with `align_to_beam`) are a function of the columns of a row; the number of events selected in a
chunk and the random choice are parameters (`Sampling`, as in DataSelection.lean). None and 0 for `max_events` are both 0. `none` means that the call does not end.
-/
namespace BTA.FindFile
open BTA.Find BTA.Sel
open BTA.Fit (Sampling sampleEvents)

/-- A row: event number, hit flag and all other columns by their name. -/
structure Row (E : Type) where
  ev : Int
  flag : BitVec 32
  cols : List Char → E

/-- What does not depend on the chunk. -/
structure Setting (F E : Type) where
  /-- number of DUTs -/
  n : Nat
  /-- z order of the DUTs, extrapolation DUTs, positions and normal vectors of the DUTs; the event numbers are not used -/
  setup : Setup F
  /-- position of the hit of a DUT -/
  pos : Nat → (List Char → E) → F × F × F
  /-- `np.isfinite(x_dut_%d)` -/
  finite : Nat → (List Char → E) → Bool

variable {F E : Type} (G : Setting F E)

/-- Arrays x, y, z of a chunk (L237-271). -/
def posOf (chunk : List (Row E)) (r d : Nat) : F × F × F :=
  match chunk[r]? with
  | some row => G.pos d row.cols
  | none => (G.setup.fl.minusOne, G.setup.fl.minusOne, G.setup.fl.minusOne)

/-- L287-294: the columns of row `r` after copying, and the new hit flag. -/
def outRow (chunk : List (Row E)) (idx : Nat → Nat → Nat) (row : Row E) (r : Nat) : Row E :=
  let cols := fun name => (copyColumn G.n idx name (fun r' => chunk.getD r' row) r).cols name
  { ev := row.ev, flag := hitFlag G.n fun d => G.finite d cols, cols := cols }

/-- Track finding for a chunk (L231-298). -/
def findChunk (chunk : List (Row E)) : Option (List (Row E)) :=
  match runFindTracks { G.setup with ev := chunk.map Row.ev } (fun r d => (posOf G chunk r d).1) (fun r d => (posOf G chunk r d).2.1)
      (fun r d => (posOf G chunk r d).2.2) with
  | none => none
  | some t => some (chunk.zipIdx.map fun p => outRow G chunk t.idx p.1 p.2)

/-- L205-229: the rows of the chunk that are used and the number of selected events; `none` if an exception is raised. -/
def pick (S : Sampling) (maxEvents total stored : Nat) (chunk : List (Row E)) (idx : Nat) : Option (List (Row E) × Nat) :=
  if maxEvents = 0 then some (chunk, 0)
  else
    match sampleEvents S maxEvents stored total idx (chunk.map Row.ev).dedup with
    | none => none
    | some sel => some (chunk.filter (fun t => decide (t.ev ∈ sel)), sel.length)

/-- Loop over the chunks (L202-301): rows of the output table and exception. -/
def fileLoop (S : Sampling) (maxEvents total : Nat) : List (List (Row E) × Nat) → Nat → Option (List (Row E) × Option Err)
  | [], _ => some ([], none)
  | (chunk, idx) :: rest, stored =>
    match pick S maxEvents total stored chunk idx with
    | none => some ([], some .sample)
    | some (rows, k) =>
      match findChunk G rows, fileLoop S maxEvents total rest (stored + k) with
      | some out, some r => some (out ++ r.1, r.2)
      | _, _ => none

/-- `find_tracks` (L179-303). -/
def findFile (S : Sampling) (maxEvents cs : Nat) (T : List (Row E)) : Option (List (Row E) × Option Err) :=
  match fileLoop G S maxEvents T.length (dataAligned Row.ev T { chunkSize := cs }).items 0 with
  | none => none
  | some (rows, some e) => some (rows, some e)
  | some (rows, none) => some (rows, (dataAligned Row.ev T { chunkSize := cs }).err.map Err.chunks)

end BTA.FindFile
