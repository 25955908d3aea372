import Mathlib.Algebra.Order.Floor.Ring
import Mathlib.Algebra.Order.Field.Basic
/-
Model of the digitization in tools/simulate_data.py: `_create_cs_hits` (L130-293), `_add_charge_sharing_hits` (L297-326), `shuffle_event_hits`
(L330-358) and `_digitize_hits` (L689-793) for one DUT and hits in local coordinates. Exact arithmetic in an ordered field; random numbers
are arbitrary functions, `np.random.shuffle` is an arbitrary function giving a permutation. Arrays of the same length are lists of records.
-/
namespace BTA.Sim

variable {K : Type} [Field K] [LinearOrder K]

/-- Exceptions. -/
inductive Err
  /-- RuntimeError: Provided result hist does not fit charge sharing hits -/
  | sharing
  /-- ValueError of `_create_tracks`: beam_angle -/
  | beamAngle
  /-- RuntimeError: Cannot create theta -/
  | theta
  /-- RuntimeError of `spherical_to_cartesian` -/
  | spherical
  /-- bare `raise` in `get_line_intersections_with_plane` -/
  | parallel
  /-- list index out of range -/
  | index
  /-- ValueError: step of `range` is zero -/
  | zeroStep
  deriving DecidableEq, Repr

/-- A pixel with charge. -/
structure PixelHit (K : Type) where
  column : Int
  row : Int
  charge : K
  deriving DecidableEq, Repr

/-- `range(a, b)` -/
def upTo (a b : Int) : List Int := (List.range (b - a).toNat).map fun (k : Nat) => a + (k : Int)

/-- `range(a - 1, 0, -1)` -/
def downFrom (a : Int) : List Int := (List.range (a - 1).toNat).map fun (k : Nat) => a - 1 - (k : Int)

/-- State of the loops of `_create_cs_hits`: the sum of the fractions and the hits created for this seed. -/
structure CsState (K : Type) where
  total : K
  hits : List (PixelHit K)

/-- L163-189 and the three other loops over rows: `fraction` is that of the row in the actual column, `room` the number of hits that fit into
the result array. -/
def csRows (minFraction charge : K) (room : Nat) (column : Int) (fraction : Int → K) :
    List Int → CsState K → Except Err (CsState K)
  | [], s => .ok s
  | r :: rs, s =>
    if fraction r < minFraction then .ok ⟨s.total + fraction r, s.hits⟩
    else if room ≤ s.hits.length then .error .sharing
    else if 1 - minFraction ≤ s.total + fraction r then .ok ⟨s.total + fraction r, s.hits ++ [⟨column, r, fraction r * charge⟩]⟩
    else csRows minFraction charge room column fraction rs ⟨s.total + fraction r, s.hits ++ [⟨column, r, fraction r * charge⟩]⟩

/-- L147-216 and L220-291: the loop over columns. `fraction i j` is the fraction of the pixel relative to the seed. The loop towards lower
rows begins whatever the sum of the fractions is. -/
def csColumns (minFraction charge : K) (room : Nat) (column row maxRow : Int) (fraction : Int → Int → K) :
    List Int → CsState K → Except Err (CsState K)
  | [], s => .ok s
  | c :: cs, s =>
    if 1 - minFraction ≤ s.total ∨ fraction (c - column) 0 < minFraction then .ok s
    else
      match csRows minFraction charge room c (fun r => fraction (c - column) (r - row)) (upTo row maxRow) s with
      | .error e => .error e
      | .ok s1 =>
        match csRows minFraction charge room c (fun r => fraction (c - column) (r - row)) (downFrom row) s1 with
        | .error e => .error e
        | .ok s2 => csColumns minFraction charge room column row maxRow fraction cs s2

/-- `_create_cs_hits`, L130-293: the hits made from one seed. -/
def createCs (minFraction charge : K) (room : Nat) (column row maxColumn maxRow : Int) (fraction : Int → Int → K) :
    Except Err (List (PixelHit K)) :=
  match csColumns minFraction charge room column row maxRow fraction (upTo column maxColumn) ⟨0, []⟩ with
  | .error e => .error e
  | .ok s =>
    match csColumns minFraction charge room column row maxRow fraction (downFrom column) s with
    | .error e => .error e
    | .ok s => .ok s.hits

/-- A seed: the event, the pixel, the charge, and the position relative to the centre of the pixel. -/
structure Seed (K : Type) where
  event : Int
  hit : PixelHit K
  relX : K
  relY : K

/-- A digitized hit (a row of the array with the event number). Without discretization, column and row are positions. -/
structure Digit (K : Type) where
  event : Int
  column : K
  row : K
  charge : K
  deriving DecidableEq

/-- L297-326 with L747 (`np.repeat` of the event numbers): all seeds; `used` hits are in the result array of `size` rows already. -/
def addCs (minFraction : K) (maxColumn maxRow : Int) (fraction : K → K → Int → Int → K) (size : Nat) :
    Nat → List (Seed K) → Except Err (List (Int × PixelHit K))
  | _, [] => .ok []
  | used, s :: ss =>
    match createCs minFraction s.hit.charge (size - used) s.hit.column s.hit.row maxColumn maxRow (fraction s.relX s.relY) with
    | .error e => .error e
    | .ok hits =>
      match addCs minFraction maxColumn maxRow fraction size (used + hits.length) ss with
      | .error e => .error e
      | .ok rest => .ok ((hits.map fun h => (s.event, h)) ++ rest)

/-- `np.around`: to the nearest integer, half to even. -/
def around [FloorRing K] (x : K) : Int :=
  if x - (⌊x⌋ : K) < 1 / 2 then ⌊x⌋
  else if 1 / 2 < x - (⌊x⌋ : K) then ⌊x⌋ + 1
  else if ⌊x⌋ % 2 = 0 then ⌊x⌋ else ⌊x⌋ + 1

/-- L725-729: column or row of a position; the first one is 1. -/
def pixelOf [FloorRing K] (x size : K) : Int := around (x / size - 1 / 2) + 1

/-- Settings of one DUT (L406-430). -/
structure Response (K : Type) where
  threshold : K
  noise : K
  sizeX : K
  sizeY : K
  columns : Int
  rows : Int
  efficiency : K

/-- Random numbers for one DUT: deposited charges (`_get_charge_deposited`), standard normal numbers for the noise, a shuffle. -/
structure Random (K : Type) where
  charge : Nat → K
  noise : Nat → K
  shuffle : List Nat → List Nat

/-- A hit of a track: event and local position. -/
structure TrackHit (K : Type) where
  event : Int
  x : K
  y : K

/-- L718-736: the seeds. -/
def seeds [FloorRing K] (r : Response K) (charge : Nat → K) (hits : List (TrackHit K)) : List (Seed K) :=
  hits.zipIdx.map fun p =>
    let c := pixelOf p.1.x r.sizeX
    let w := pixelOf p.1.y r.sizeY
    ⟨p.1.event, ⟨c, w, charge p.2⟩, p.1.x - ((c : K) - 1 / 2) * r.sizeX, p.1.y - ((w : K) - 1 / 2) * r.sizeY⟩

def toDigit (p : Int × PixelHit K) : Digit K := ⟨p.1, (p.2.column : K), (p.2.row : K), p.2.charge⟩

/-- L749-756: hits inside of the sensor. -/
def inside (r : Response K) (d : Digit K) : Bool :=
  decide (0 < d.column) && decide (d.column ≤ (r.columns : K)) && (decide (0 < d.row) && decide (d.row ≤ (r.rows : K)))

/-- L722-765: pixels or positions. -/
def positions [FloorRing K] (minFraction : K) (discretization sharing : Bool) (fraction : K → K → Int → Int → K) (r : Response K)
    (charge : Nat → K) (hits : List (TrackHit K)) : Except Err (List (Digit K)) :=
  if discretization then
    if sharing then
      match addCs minFraction r.columns r.rows fraction (5 * hits.length) 0 (seeds r charge hits) with
      | .error e => .error e
      | .ok l => .ok ((l.map toDigit).filter (inside r))
    else .ok (((seeds r charge hits).map fun s => toDigit (s.event, s.hit)).filter (inside r))
  else
    .ok ((hits.zipIdx.map fun p => (⟨p.1.event, p.1.x, p.1.y, charge p.2⟩ : Digit K)).filter fun d =>
      decide (0 < d.column) && decide (0 < d.row))

/-- L767-778: a number of hits is removed. -/
def inefficient [FloorRing K] (r : Response K) (shuffle : List Nat → List Nat) (l : List (Digit K)) : List (Digit K) :=
  if r.efficiency < 1 then
    (l.zipIdx.filter fun p =>
      decide (p.2 ∉ (shuffle (List.range l.length)).take ⌊(l.length : K) * (1 - r.efficiency)⌋.toNat)).map Prod.fst
  else l

/-- L780-782: noise. -/
def addNoise (r : Response K) (noise : Nat → K) (l : List (Digit K)) : List (Digit K) :=
  if r.noise ≠ 0 then l.zipIdx.map fun p => { p.1 with charge := p.1.charge + (0 + r.noise * noise p.2) } else l

/-- L784-787: threshold. -/
def aboveThreshold (r : Response K) (l : List (Digit K)) : List (Digit K) :=
  if r.threshold ≠ 0 then l.filter fun d => decide (r.threshold ≤ d.charge) else l

/-- `_digitize_hits`, L689-793, for one DUT. -/
def digitize [FloorRing K] (minFraction : K) (discretization sharing : Bool) (fraction : K → K → Int → Int → K) (r : Response K)
    (g : Random K) (hits : List (TrackHit K)) : Except Err (List (Digit K)) :=
  match positions minFraction discretization sharing fraction r g.charge hits with
  | .error e => .error e
  | .ok l => .ok (aboveThreshold r (addNoise r g.noise (inefficient r g.shuffle l)))

/-! ### shuffle_event_hits -/

/-- L350-353: the last index of the event, with an upper limit on the number of steps. -/
def eventEnd (events : List Int) : Nat → Nat → Nat
  | 0, index => index
  | fuel + 1, index =>
    if index + 1 < events.length then
      if events[index]? ≠ events[index + 1]? then index else eventEnd events fuel (index + 1)
    else index

/-- L334-355: the loop; `shuffle` depends on the state of the generator, here on the index. -/
def shuffleLoop (shuffle : Nat → List Nat → List Nat) (events : List Int) (counts : List Nat) : Nat → Nat → List Nat → List Nat
  | 0, _, indices => indices
  | fuel + 1, index, indices =>
    if index < events.length then
      match counts[index]? with
      | none => indices
      | some n =>
        if n = 1 then shuffleLoop shuffle events counts fuel (index + 1) indices
        else
          shuffleLoop shuffle events counts fuel (eventEnd events events.length index + 1)
            (indices.take index ++ (shuffle index ((indices.drop index).take n) ++ indices.drop (index + n)))
    else indices

/-- `shuffle_event_hits`, L330-358. -/
def shuffleHits {H : Type} (shuffle : Nat → List Nat → List Nat) (events : List Int) (counts : List Nat) (hits : List H) : List H :=
  (shuffleLoop shuffle events counts hits.length 0 (List.range hits.length)).filterMap fun i => hits[i]?

end BTA.Sim
