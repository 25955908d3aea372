import Verif.Model.Efficiency
import Verif.Spec.Statistics
/-
Specification vocabulary for the efficiency. Of the model only the types of the inputs (`Row`, `Setup`, `Region`,
`Quantity`) are used.
-/
namespace BTA.Efficiency.Spec
open BTA.Efficiency BTA.Spec

variable {K : Type} [Field K] [LinearOrder K]

/-- Intersection of the track with the DUT, corrected by the offset given by the user. -/
def posX (s : Setup K) (r : Row K) : K := r.ix + s.offset.1
def posY (s : Setup K) (r : Row K) : K := r.iy + s.offset.2

/-- The track goes through an enabled pixel. -/
def Used (s : Setup K) (r : Row K) : Prop := s.enabled (posX s r) (posY s r) = true

/-- The cut is at least 2.5 pixels (or infinite). -/
def LargeCut (cut : Option K) (pixel : K) : Prop := ∀ c, cut = some c → 5 / 2 * pixel ≤ c

/-- The distance in units of the cut, 0 for an infinite cut. -/
def scaled (d : K) (cut : Option K) : K := cut.elim 0 fun c => d / c

/-- The distance (dx, dy) between hit and track passes the cut: inside of the ellipse if both cuts are large, otherwise inside
of the rectangle. -/
def Close (s : Setup K) (dx dy : K) : Prop :=
  (LargeCut s.cut.1 s.pixelSize.1 ∧ LargeCut s.cut.2 s.pixelSize.2 ∧ scaled dx s.cut.1 ^ 2 + scaled dy s.cut.2 ^ 2 ≤ 1) ∨
  (¬ (LargeCut s.cut.1 s.pixelSize.1 ∧ LargeCut s.cut.2 s.pixelSize.2) ∧
    (∀ c, s.cut.1 = some c → |dx| ≤ c) ∧ (∀ c, s.cut.2 = some c → |dy| ≤ c))

/-- The DUT has a hit close to the track. -/
def Matched (s : Setup K) (r : Row K) : Prop :=
  ∃ h, r.hit = some h ∧ Close s (h.1 - posX s r) (h.2 - posY s r)

/-- The track is in bin (i, j). -/
def TrackIn (s : Setup K) (i j : Nat) (r : Row K) : Prop := InBin s.edgesX i (posX s r) ∧ InBin s.edgesY j (posY s r)

/-- The hit is in bin (i, j). -/
def HitIn (s : Setup K) (i j : Nat) (r : Row K) : Prop :=
  ∃ h, r.hit = some h ∧ InBin s.edgesX i h.1 ∧ InBin s.edgesY j h.2

/-- The track is inside of the region. -/
def InRegion (s : Setup K) (g : Region K) (r : Row K) : Prop :=
  min g.x.1 g.x.2 < posX s r ∧ posX s r < max g.x.1 g.x.2 ∧ min g.y.1 g.y.2 < posY s r ∧ posY s r < max g.y.1 g.y.2

/-- A measured quantity of a track with hit. -/
def quantity (s : Setup K) (q : Quantity) (r : Row K) : K :=
  let dx := (r.hit.elim 0 Prod.fst) - posX s r
  let dy := (r.hit.elim 0 Prod.snd) - posY s r
  match q with
  | .xResidual => dx
  | .yResidual => dy
  | .distance => s.sqrt (dx ^ 2 + dy ^ 2)
  | .charge => r.charge
  | .frame => r.frame
  | .clusterSize => r.size
  | .totalAngle => r.total
  | .alphaAngle => r.alpha
  | .betaAngle => r.beta

/-- Efficiency in percent from two numbers, undefined without tracks. -/
def ratio (k n : Nat) : Option K := if n = 0 then none else some (100 * k / n)

/-- The output for the table `T` is right: every histogram counts the tracks of the complete table. -/
structure Correct (s : Setup K) (T : List (Row K)) (o : Output K) : Prop where
  /-- number of tracks per bin -/
  tracks : ∀ i j, o.tracks (i, j) = number T fun r => Used s r ∧ TrackIn s i j r
  /-- number of tracks with a close hit per bin -/
  withHit : ∀ i j, o.hits.withHit (i, j) = number T fun r => Used s r ∧ TrackIn s i j r ∧ Matched s r
  /-- number of hits close to a track per bin of the hit -/
  hits : ∀ i j, o.hits.countHits (i, j) = number T fun r => Used s r ∧ HitIn s i j r ∧ Matched s r
  /-- mean of each quantity over the tracks with close hit in the bin, 0 if there are none -/
  means : ∀ q i j, o.hits.means q (i, j) =
    (mean (valuesOf T (fun r => Used s r ∧ TrackIn s i j r ∧ Matched s r) (quantity s q))).getD 0
  /-- efficiency per bin -/
  efficiency : ∀ i j, o.efficiency (i, j) =
    ratio (number T fun r => Used s r ∧ TrackIn s i j r ∧ Matched s r) (number T fun r => Used s r ∧ TrackIn s i j r)
  /-- bins with few tracks are masked -/
  mask : ∀ i j, o.mask (i, j) = true ↔ ((number T fun r => Used s r ∧ TrackIn s i j r : Nat) : K) < s.minimumTrackDensity
  /-- efficiency of all tracks inside of the histogram -/
  mean : o.mean = ((number T fun r => Used s r ∧ (∃ i j, TrackIn s i j r) ∧ Matched s r : Nat) : K) /
    ((number T fun r => Used s r ∧ ∃ i j, TrackIn s i j r : Nat) : K)
  /-- there are tracks inside of the histogram -/
  some_track : number T (fun r => Used s r ∧ ∃ i j, TrackIn s i j r) ≠ 0

end BTA.Efficiency.Spec
