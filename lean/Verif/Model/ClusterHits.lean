import Verif.Model.ConvertCoordinates
import Verif.Model.SmcCombine
import Verif.Model.Hist
/-
Model of `cluster_hits`, beam_telescope_analysis/hit_analysis.py L782-1240.

Simplifications:
* The clusterizer (package pixel_clusterizer) is any function of the kind of coordinates, the noisy and disabled pixels and the hits of
  a chunk; it gives the table of hits and the table of clusters. Its own exceptions are left out. The summary of the cluster
  calculated by the functions of L889-968 is modelled in Verif/Model/ClusterShape.lean.
* `SMC` is modelled by its result: the function is applied to one chunk after the other (C27), and nothing is stored if the table is
  empty, if reading fails or if the function raises (C61). In these cases `cluster_hits` raises an exception or does not return
  if the table ClusterHits or Clusters is missing, because later steps need the table; both are an error here.
* Tables as in Verif/Model/ConvertCoordinates.lean; a cluster has its event number, number of hits, errors in both directions and any
  other values. The histogram of the cluster shape is modelled in Verif/Model/ShapeHist.lean; it is stored exactly if the histogram of
  the cluster size is stored.
* Plots, log messages and the file with the masks copied to the output (L1222-1232) are left out; the DUT is one with rectangular pixels.
-/
namespace BTA.ClusterHits
open BTA.Convert BTA.Dut

/-- A cluster. -/
structure Cluster (K : Type) where
  event : Int
  nHits : Nat
  errX : K
  errY : K
  value : String → K

inductive Err
  /-- ValueError: masks cannot be used with local coordinates, L883-884 -/
  | masksWithPositions
  /-- the table `Hits` cannot be read in chunks; `ClusterHits` is missing -/
  | read (e : ReadErr)
  /-- the table `Hits` is empty; nothing is stored -/
  | noHits
  /-- the function of SMC raises, conversion to positions -/
  | convert (e : Convert.Err)
  /-- ValueError: array shapes are different, L1086-1096 -/
  | shape
  /-- there is no cluster: SMC leaves the output file open, the next step cannot open it -/
  | noClusters
  /-- NoSuchNodeError: HistClusterShape is missing, L1198 -/
  | noHistogram

/-- What is done with the coordinates. -/
structure Mode where
  positions : Bool
  convert : Bool
  copy : Bool
deriving DecidableEq

/-- L844-858: `use_positions` and `convert_to_positions`. -/
def coordinates (use : Option Bool) (names : List String) : Bool × Bool :=
  match use with
  | none => (decide ("x" ∈ names), false)
  | some true => (true, !decide ("x" ∈ names))
  | some false => (false, false)

/-- L840-866. -/
def mode (use : Option Bool) (names : List String) : Mode :=
  { positions := (coordinates use names).1, convert := (coordinates use names).2, copy := (coordinates use names).1 && decide ("column" ∈ names) }

/-- The nodes of the file with the masks, by column and row. -/
structure Masks where
  disabled : Option (List (List Bool))
  noisy : Option (List (List Bool))

/-- `np.dstack(np.nonzero(mask))[0] + 1` (L872, L876): column and row of all pixels of a mask. -/
def pixelList (mask : List (List Bool)) : List (Nat × Nat) :=
  mask.zipIdx.flatMap fun p => p.1.zipIdx.filterMap fun q => if q.1 then some (p.2 + 1, q.2 + 1) else none

/-- L868-881: disabled and noisy pixels. -/
def pixelLists : Option Masks → Option (List (Nat × Nat)) × Option (List (Nat × Nat))
  | some m => (m.disabled.map pixelList, m.noisy.map pixelList)
  | none => (none, none)

/-- The clusterizer: positions (or indices), noisy pixels, disabled pixels, hits. -/
abbrev Clusterizer (K : Type) := Bool → Option (List (Nat × Nat)) → Option (List (Nat × Nat)) → List (Row K) → List (Row K) × List (Cluster K)

section
variable {K : Type} [Field K] [LinearOrder K]

/-- L1059-1085: the hits given to the clusterizer. -/
def clusterInput (convert : Bool) (d : Pixels K) (names : List String) (hits : List (Row K)) : Except Err (List (Row K)) :=
  if convert then
    if (outNames true names).Nodup then                                     -- L1061-1069
      match chunkToLocal d names hits with
      | .error e => .error (.convert e)
      | .ok new => .ok new
    else .error (.convert .duplicateName)
  else .ok hits

/-- L1089-1095: column and row of the hit are stored. -/
def setIndices (h c : Row K) : Row K :=
  { event := c.event, value := fun n => if n = "column" then h.value "column" else if n = "row" then h.value "row" else c.value n }

/-- L1086-1096. One hit that is used for all rows (broadcasting of numpy) is left out. -/
def copyIndices (copy : Bool) (hits clusterHits : List (Row K)) : Except Err (List (Row K)) :=
  if copy then
    if clusterHits.length = hits.length then .ok (List.zipWith setIndices hits clusterHits) else .error .shape
  else .ok clusterHits

/-- `seed_x` and `seed_y` are of type uint16 (L996-997) as `seed_column` and `seed_row` (L1020-1021); `u2` is the conversion. -/
def storeSeed (u2 : K → Nat) (c : Cluster K) : Cluster K :=
  { c with value := fun n =>
      if n = "seed_x" ∨ n = "seed_y" ∨ n = "seed_column" ∨ n = "seed_row" then ((u2 (c.value n) % 2 ^ 16 : Nat) : K) else c.value n }

/-- `cluster_func`, L1058-1097. -/
def clusterFunc (clusterizer : Clusterizer K) (u2 : K → Nat) (noisy disabled : Option (List (Nat × Nat))) (d : Pixels K) (m : Mode)
    (names : List String) (hits : List (Row K)) : Except Err (List (Row K) × List (Cluster K)) :=
  match clusterInput m.convert d names hits with
  | .error e => .error e
  | .ok input =>
    match copyIndices m.copy hits (clusterizer m.positions noisy disabled input).1 with
    | .error e => .error e
    | .ok out => .ok (out, (clusterizer m.positions noisy disabled input).2.map (storeSeed u2))

/-- L1099-1113: the tables of all chunks. -/
def chunkLoop (f : List (Row K) → Except Err (List (Row K) × List (Cluster K))) : List (List (Row K)) →
    Except Err (List (Row K) × List (Cluster K))
  | [] => .ok ([], [])
  | c :: cs =>
    match f c with
    | .error e => .error e
    | .ok r =>
      match chunkLoop f cs with
      | .error e => .error e
      | .ok rs => .ok (r.1 ++ rs.1, r.2 ++ rs.2)

/-- SMC with a function that gives tables, L1099-1113. -/
def smcTables (f : List (Row K) → Except Err (List (Row K) × List (Cluster K))) (chunkSize : Nat) (rows : List (Row K)) :
    Except Err (List (Row K) × List (Cluster K)) :=
  if rows = [] then .error .noHits
  else
    match chunkLoop f ((dataAligned Row.event rows { chunkSize := chunkSize }).items.map Prod.fst) with
    | .error e => .error e
    | .ok r =>
      match (dataAligned Row.event rows { chunkSize := chunkSize }).err with
      | some e => .error (.read e)
      | none => .ok r

/-- `cluster_size_hist_func`, L1116-1119; the chunk is not empty, the index is always inside of the shape. -/
def sizeHist (clusters : List (Cluster K)) : List Nat :=
  (List.range ((clusters.map Cluster.nHits).foldl max 0 + 1)).map fun (i : Nat) => (clusters.map Cluster.nHits).count i

/-- `SMC._writer` (tools/smc.py L287-297) for histograms with one axis. -/
def addHist (a b : List Nat) : List Nat :=
  List.zipWith (· + ·) (Smc.resize [max a.length b.length] a) (Smc.resize [max a.length b.length] b)

/-- L1121-1128: the histograms of all chunks are added up, nothing is stored if reading fails. -/
def smcSizeHist (chunkSize : Nat) (clusters : List (Cluster K)) : Option (List Nat) :=
  match (dataAligned Cluster.event clusters { chunkSize := chunkSize }).err with
  | some _ => none
  | none => some (((dataAligned Cluster.event clusters { chunkSize := chunkSize }).items.map fun c => sizeHist c.1).foldl addHist [])

/-- L1174-1176, L1180-1182: `sqrt12` is `np.sqrt(12)`. -/
def setErrors (sqrt12 : K) (positions : Bool) (d : Pixels K) (c : Cluster K) : Cluster K :=
  if positions then { c with errX := d.columnSize / sqrt12, errY := d.rowSize / sqrt12 }
  else { c with errX := d.columnSize / sqrt12 / d.columnSize, errY := d.rowSize / sqrt12 / d.rowSize }

/-- L1184-1193, L1208-1220: the table is replaced, unless reading fails. -/
def smcErrors (sqrt12 : K) (positions : Bool) (d : Pixels K) (chunkSize : Nat) (clusters : List (Cluster K)) : List (Cluster K) :=
  match (dataAligned Cluster.event clusters { chunkSize := chunkSize }).err with
  | some _ => clusters
  | none => (dataAligned Cluster.event clusters { chunkSize := chunkSize }).items.flatMap fun c => c.1.map (setErrors sqrt12 positions d)

/-- The output file. -/
structure Output (K : Type) where
  clusterHits : List (Row K)
  clusters : List (Cluster K)
  histClusterSize : Option (List Nat)

/-- L1115-1220: with the tables of hits and clusters. -/
def finish (sqrt12 : K) (positions : Bool) (d : Pixels K) (chunkSize : Nat) (t : List (Row K) × List (Cluster K)) : Except Err (Output K) :=
  if t.2 = [] then .error .noClusters
  else if !positions && (smcSizeHist chunkSize t.2).isNone then .error .noHistogram
  else .ok { clusterHits := t.1, clusters := smcErrors sqrt12 positions d chunkSize t.2, histClusterSize := smcSizeHist chunkSize t.2 }

/-- L883-884. -/
def masksRefused (m : Mode) (masks : Option Masks) : Bool :=
  m.positions && ((pixelLists masks).1.isSome || (pixelLists masks).2.isSome)

/-- `cluster_hits`. -/
def clusterHits (clusterizer : Clusterizer K) (u2 : K → Nat) (sqrt12 : K) (d : Pixels K) (use : Option Bool) (masks : Option Masks)
    (chunkSize : Nat) (t : Table K) : Except Err (Output K) :=
  if masksRefused (mode use t.names) masks then .error .masksWithPositions
  else
    match smcTables (clusterFunc clusterizer u2 (pixelLists masks).2 (pixelLists masks).1 d (mode use t.names) t.names) chunkSize t.rows with
    | .error e => .error e
    | .ok r => finish sqrt12 (mode use t.names).positions d chunkSize r

end

end BTA.ClusterHits
