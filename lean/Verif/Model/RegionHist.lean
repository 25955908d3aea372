import Verif.Model.ArrayTools
import Verif.Model.HistStat
import Mathlib.Data.Prod.Lex
import Mathlib.Algebra.Order.Floor.Defs
/-
Model of further histograms of `calculate_efficiency` (beam_telescope_analysis/result_analysis.py):
the histograms of charge, frame, cluster size and track angles in the efficiency regions over the chunks (L1159-1207; the same for the whole DUT:
L1299-1306, L1356-1382), and the hits of the pixels around the pixel of the track with `input_cluster_files` (L985-1005, L1419-1453).

Simplifications: exact numbers. The keyword `dims` of `np.unravel_index` (L1434, L1437) is accepted (numpy before 1.21; later versions raise a
TypeError). The warning of L1449-1450 is left out, not the division.
-/
namespace BTA.RegionHist
open BTA.HistStat

/-! ### Histograms of integers -/

/-- `x.astype(np.int64)`: truncation. -/
def truncInt {K : Type} [Field K] [LinearOrder K] [FloorRing K] (x : K) : Int := if 0 ≤ x then ⌊x⌋ else ⌈x⌉

/-- The largest value plus 1, zero for no value. -/
def upper (vs : List Int) : Nat := vs.foldl (fun m v => max m (v.toNat + 1)) 0

/-- `np.bincount(values)`; `none` is the ValueError for negative values. -/
def bincount (vs : List Int) : Option (List Nat) :=
  if vs.any fun v => decide (v < 0) then none
  else some ((List.range (upper vs)).map fun i : Nat => vs.countP fun v => decide (v = (i : Int)))

/-- `a.resize(n, refcheck=False)`: new entries are zero. -/
def resize (n : Nat) (l : List Nat) : List Nat := l.take n ++ List.replicate (n - l.length) 0

/-- L1162-1167 (also L1171-1176, L1180-1185): the histogram of the next chunk is added, the smaller one is enlarged before. -/
def addHist (old new : List Nat) : List Nat :=
  if new.length > old.length then List.zipWith (· + ·) (resize new.length old) new
  else List.zipWith (· + ·) old (resize old.length new)

/-- L1159-1185 over the chunks, for the selected values of each chunk: `none` is the ValueError, `some none` that there is no chunk. -/
def accumulate : Option (List Nat) → List (List Int) → Option (Option (List Nat))
  | h, [] => some h
  | h, c :: cs =>
    match bincount c with
    | none => none
    | some new =>
      match h with
      | none => accumulate (some new) cs
      | some old => accumulate (some (addHist old new)) cs

/-- L1159-1167: the charge is truncated before. -/
def chargeHist {K : Type} [Field K] [LinearOrder K] [FloorRing K] (chunks : List (List K)) : Option (Option (List Nat)) :=
  accumulate none (chunks.map fun c => c.map truncInt)

/-! ### Track angles -/

/-- What a track contributes to a region: it has a valid hit, its angle. -/
structure RegionTrack where
  hit : Bool
  angle : ℝ

inductive RegionErr
  /-- ZeroDivisionError, L1158 -/
  | zeroDivision
  /-- of the histogram, L1189 -/
  | angle (e : AngleErr)

/-- L1158, L1186-1192 (the same for alpha and beta: L1193-1206): the chunks with the tracks in a region. The efficiency is calculated in every
chunk before the histogram. -/
noncomputable def regionAngles (nBins : Nat) (chunks : List (List RegionTrack)) : Except RegionErr (List Nat × List ℝ) :=
  match chunks with
  | [] => .error (.angle .unbound)
  | c :: cs =>
    if c = [] then .error .zeroDivision
    else
      match angleHist nBins ((c :: cs).map fun c => (c.filter RegionTrack.hit).map fun t => some t.angle) with
      | .error e => .error (.angle e)
      | .ok r => if cs.any List.isEmpty then .error .zeroDivision else .ok r

/-! ### Hits of pixels -/

/-- A row of the table `ClusterHits`. -/
structure CHit where
  event : Int
  cluster : Int
  column : Int
  row : Int
deriving DecidableEq

/-- A track of the chunk with valid hit: event, cluster of the DUT, its number of hits, and the bin of the intersection. -/
structure VTrack where
  event : Int
  cluster : Int
  nHits : Nat
  bin : Nat
deriving DecidableEq

def CHit.key (h : CHit) : Int ×ₗ Int := toLex (h.event, h.cluster)
def VTrack.key (t : VTrack) : Int ×ₗ Int := toLex (t.event, t.cluster)

inductive PixelErr
  /-- IndexError: there is no track with valid hit (`in1d_index`) -/
  | noTrack
  /-- ValueError or IndexError: arrays of different lengths -/
  | shape
  /-- ZeroDivisionError: no hit is selected (L1449) -/
  | zeroDivision
deriving DecidableEq

/-- L993-1002: size of the array of relative indices. -/
def relShape {K : Type} [Field K] [LinearOrder K] [FloorRing K] (size : K) : Nat :=
  if ⌈1000 / size⌉.toNat % 2 = 0 then ⌈1000 / size⌉.toNat + 1 else ⌈1000 / size⌉.toNat + 2

/-- L1433: the bin of every selected track, repeated. -/
def repeatedBins (tracks : List VTrack) (sel : List (Nat × Nat)) : List Nat :=
  sel.flatMap fun p => match tracks[p.2]? with | some t => List.replicate t.nHits t.bin | none => []

/-- L1441-1451: rows of both arrays together. A single hit is used for all bins; other different lengths are an error. -/
def together (hits : List CHit) (bins : List Nat) : Option (List (CHit × Nat)) :=
  if hits.length = bins.length then some (hits.zip bins)
  else
    match hits with
    | [h] => some (bins.map fun b => (h, b))
    | _ => none

/-- L1441-1451: the bin with the relative column and row, if inside of the array. -/
def cell (pixelOf : Nat → Int × Int) (sx sy : Nat) (p : CHit × Nat) : Option (Nat × Nat × Nat) :=
  let i := p.1.column - 1 - (pixelOf p.2).1 + ((sx / 2 : Nat) : Int)
  let j := p.1.row - 1 - (pixelOf p.2).2 + ((sy / 2 : Nat) : Int)
  if 0 ≤ i ∧ i < sx ∧ 0 ≤ j ∧ j < sy then some (p.2, i.toNat, j.toNat) else none

/-- L1426-1453 for a chunk of hits: the entries of `count_pixel_hits_2d_hist` that are incremented (one for each hit). `sorter` is the result of
`np.argsort`, `pixelOf` gives column and row (from zero) of the pixel of a bin. -/
def pixelHits (pixelOf : Nat → Int × Int) (sx sy : Nat) (sorter : List Nat) (hits : List CHit) (tracks : List VTrack) :
    Except PixelErr (List (Nat × Nat × Nat)) :=
  if tracks = [] then .error .noTrack
  else
    let sel := in1dIndex (hits.map CHit.key) (tracks.map VTrack.key) (some sorter)
    match together (sel.filterMap fun p => hits[p.1]?) (repeatedBins tracks sel) with
    | none => .error .shape
    | some l => if l = [] then .error .zeroDivision else .ok (l.filterMap (cell pixelOf sx sy))

end BTA.RegionHist
