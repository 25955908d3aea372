import Verif.Model.ChunkReader
/-
Model of `merge_cluster_data`, beam_telescope_analysis/hit_analysis.py L1532-1722.

Simplifications:
* A cluster is an element of a type `C` with event number `ev`. The conversion of its position to local coordinates
  (L1651-1677, L1690-1710) is left out: a cell of the merged table is `some c` if it holds the data of cluster `c`, `none`
  if it has the default values (NaN). Clusters have a position (`mean_column`, `mean_x` not NaN).
* The event number arithmetic is exact (int64 in the code).
* The result is the list of rows of the output table; an exception ends the function (the partially written file is not
  modelled).
-/
namespace BTA.Merge

/-- Ways in which `merge_cluster_data` fails. -/
inductive Err
  /-- exception of `data_aligned_at_events` -/
  | read (e : ReadErr)
  /-- exception or endless loop of `get_max_events_in_both_arrays` -/
  | events
deriving DecidableEq, Repr

variable {C : Type} (ev : C → Int)

/-- L1619: the inner loop over the chunks of another DUT, updating `common_event_numbers`. -/
def commonOfChunks : List (List C × Nat) → List Int → Except Err (List Int)
  | [], common => .ok common
  | (d, _) :: rest, common =>
    match maxEventsInBoth common (d.map ev) with
    | some (.ok r) => commonOfChunks rest r
    | _ => .error .events

/-- `for actual_cluster, start_indices[dut] in ...`: value of the index variable after the loop. -/
def indexAfter (items : List (List C × Nat)) (s : Option Nat) : Option Nat :=
  match items.getLast? with
  | none => s
  | some (_, i) => some i

/-- First loop (L1616-1620) over the other DUTs, given with their `start_indices_merging_loop`. `stop` is
`actual_event_numbers[-1] + 1`. -/
def firstLoop (start : Option Int) (stop : Int) (cs : Nat) :
    List (List C × Option Nat) → List Int → Except Err (List Int × List (Option Nat))
  | [], common => .ok (common, [])
  | (T, s) :: rest, common =>
    let g := dataAligned ev T { startIndex := s, startEvent := start, stopEvent := some stop, chunkSize := cs,
                                failOnMissing := false }
    match commonOfChunks ev g.items common with
    | .error e => .error e
    | .ok common =>
      match g.err with
      | some e => .error (.read e)
      | none =>
        match firstLoop start stop cs rest common with
        | .error e => .error e
        | .ok (common, ss) => .ok (common, indexAfter g.items s :: ss)

/-- Event number of a possibly undefined row of the array given to `map_cluster`; only rows of clusters are read. -/
def evO : Option C → Int
  | none => 0
  | some c => ev c

/-- `mapped_clusters` filled with NaN and `map_cluster` (L1635-1648, L1681-1689). -/
def mapped (common : List Int) (clusters : List C) : List (Option C) :=
  mapCluster (evO ev) common (clusters.map some) (List.replicate common.length none)

/-- `merged[selection] = mapped[selection]` with the rows that have a position (L1653-1672, L1692-1711). -/
def overlay (col new : List (Option C)) : List (Option C) := List.zipWith (fun old n => n <|> old) col new

/-- Second loop (L1675-1711) over the other DUTs with their `start_indices_data_loop`: the columns of these DUTs. -/
def secondLoop (common : List Int) (start stop : Int) (cs : Nat) :
    List (List C × Option Nat) → Except Err (List (List (Option C)) × List (Option Nat))
  | [] => .ok ([], [])
  | (T, s) :: rest =>
    let g := dataAligned ev T { startIndex := s, startEvent := some start, stopEvent := some stop, chunkSize := cs,
                                failOnMissing := false }
    match g.err with
    | some e => .error (.read e)
    | none =>
      let col := g.items.foldl (fun col it => overlay col (mapped ev common it.1)) (List.replicate common.length none)
      match secondLoop common start stop cs rest with
      | .error e => .error e
      | .ok (cols, ss) => .ok (col :: cols, indexAfter g.items s :: ss)

/-- Rows of the merged array (L1621, L1649): event number and one cell per DUT. -/
def mergedRows (common : List Int) (cols : List (List (Option C))) : List (Int × List (Option C)) :=
  common.zipIdx.map fun p => (p.1, cols.map fun c => c[p.2]?.getD none)

/-- Main loop (L1612-1719) over the chunks of DUT 0: `sm`, `sd` are `start_indices_merging_loop[1:]` and
`start_indices_data_loop[1:]`, `start` is `actual_start_event_number`. An empty chunk is never delivered. -/
def mainLoop (others : List (List C)) (cs : Nat) :
    List (List C × Nat) → Option Int → List (Option Nat) → List (Option Nat) → Except Err (List (Int × List (Option C)))
  | [], _, _, _ => .ok []
  | (d0, _) :: rest, start, sm, sd =>
    match (d0.map ev).getLast? with
    | none => .error (.read .indexError)
    | some last =>
      match firstLoop ev start (last + 1) cs (others.zip sm) (d0.map ev) with
      | .error e => .error e
      | .ok (common, sm') =>
        match common.head?, common.getLast? with
        | some f, some l =>
          match secondLoop ev common f (l + 1) cs (others.zip sd) with
          | .error e => .error e
          | .ok (cols, sd') =>
            match mainLoop others cs rest (some (l + 1)) sm' sd' with
            | .error e => .error e
            | .ok out =>
              let col0 := overlay (List.replicate common.length none) (mapped ev common d0)
              .ok (mergedRows common (col0 :: cols) ++ out)
        | _, _ => .error (.read .indexError)

/-- `merge_cluster_data` (L1532-1722) for the cluster tables of DUT 0 and of the other DUTs. -/
def mergeClusterData (T0 : List C) (others : List (List C)) (cs : Nat) : Except Err (List (Int × List (Option C))) :=
  let g := dataAligned ev T0 { chunkSize := cs }
  match mainLoop ev others cs g.items none (others.map fun _ => none) (others.map fun _ => none) with
  | .error e => .error e
  | .ok out =>
    match g.err with
    | some e => .error (.read e)
    | none => .ok out

end BTA.Merge
