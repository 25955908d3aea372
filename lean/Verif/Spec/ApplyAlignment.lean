import Verif.Model.ApplyAlignment
import Verif.Spec.Geometry
/-
Specification vocabulary for `apply_alignment`. Of the model only the types of tables and alignments are used, and `rotationMatrix`
(specified by C31).
-/
namespace BTA.Apply.Spec
open BTA.Geo BTA.Dut

/-- A local position of a body with this alignment, in global coordinates: rotation, then translation. -/
noncomputable def moved (a : Alignment) (p : Vec3) : Vec3 := (rotationMatrix a.alpha a.beta a.gamma).mulVec p + ![a.x, a.y, a.z]

/-- A local direction in global coordinates: rotation only. -/
noncomputable def turned (a : Alignment) (s : Vec3) : Vec3 := (rotationMatrix a.alpha a.beta a.gamma).mulVec s

/-- A local position of a DUT in global coordinates; with a telescope alignment the telescope is moved too. -/
noncomputable def globalPosition (beam : Option Alignment) (a : Alignment) (p : Vec3) : Vec3 :=
  match beam with
  | none => moved a p
  | some t => moved t (moved a p)

/-- A local direction in global coordinates. -/
noncomputable def globalDirection (beam : Option Alignment) (a : Alignment) (s : Vec3) : Vec3 :=
  match beam with
  | none => turned a s
  | some t => turned t (turned a s)

/-- A vector of errors in global coordinates, as calculated by the code: the absolute values of the turned vector. -/
noncomputable def globalError (beam : Option Alignment) (a : Alignment) (e : Vec3) : Vec3 :=
  match beam with
  | none => fun k => |turned a e k|
  | some t => fun k => |turned t (fun j => |turned a e j|) k|

/-- The table holds tracks. -/
def IsTracks {α : Type} (n : Node α) : Prop := ∃ pre post, n.name.toList = pre ++ "Tracks".toList ++ post

/-- The track table of DUT `k`. -/
def TracksOf {α : Type} (n : Node α) (k : Nat) : Prop := n.name = "Tracks_DUT" ++ toString k

/-- `r'` is the row `r` with local coordinates replaced by global ones: `beam` is the alignment of the telescope, if used. -/
structure Converted {α : Type} (beam : Option Alignment) (duts : List Alignment) (n : Node α) (r r' : Row α) : Prop where
  event : r'.event = r.event
  rest : r'.rest = r.rest
  hits : ∀ i a, duts[i]? = some a → r'.pos (.hit i) = (r.pos (.hit i)).map (globalPosition beam a)
  offsets : IsTracks n → ∀ i a, duts[i]? = some a → n.has (.offsetDut i) = true →
    r'.pos (.offsetDut i) = (r.pos (.offsetDut i)).map (globalPosition beam a)
  slopes : IsTracks n → ∀ i a, duts[i]? = some a → n.has (.slopeDut i) = true →
    r'.pos (.slopeDut i) = (r.pos (.slopeDut i)).map (globalDirection beam a)
  errors : IsTracks n → ∀ i a, duts[i]? = some a → n.has (.err i) = true →
    r'.pos (.err i) = (r.pos (.err i)).map (globalError beam a)
  /-- nothing else is changed in tables without tracks -/
  candidates : ¬ IsTracks n → ∀ c, (∀ i, c ≠ .hit i) → r'.pos c = r.pos c
  /-- nothing is changed for unknown DUTs -/
  unknown : ∀ i, duts.length ≤ i →
    r'.pos (.hit i) = r.pos (.hit i) ∧ r'.pos (.offsetDut i) = r.pos (.offsetDut i) ∧ r'.pos (.slopeDut i) = r.pos (.slopeDut i) ∧
    r'.pos (.err i) = r.pos (.err i)

/-- In the track table of the DUT with alignment `a`, the track itself is converted as well. -/
structure TrackConverted {α : Type} (beam : Option Alignment) (a : Alignment) (r r' : Row α) : Prop where
  offset : r'.pos .offset = (r.pos .offset).map (globalPosition beam a)
  slope : r'.pos .slope = (r.pos .slope).map (globalDirection beam a)

/-- Tables of merged clusters or track candidates, and track tables of one of `n` DUTs. -/
def KnownTable {α : Type} (n : Nat) (t : Node α) : Prop := ¬ IsTracks t ∨ ∃ k, k < n ∧ TracksOf t k

/-- Two tables that differ at most in the errors. -/
structure SameButErrors {α : Type} (t t' : Node α) : Prop where
  name : t'.name = t.name
  has : t'.has = t.has
  rows : List.Forall₂ (fun r r' : Row α => r'.event = r.event ∧ r'.rest = r.rest ∧ ∀ c, (∀ i, c ≠ .err i) → r'.pos c = r.pos c)
    t.rows t'.rows

/-- All hits of known DUTs are on the sensor, up to the tolerance of the code. -/
def HitsOnSensor {α : Type} (duts : List Alignment) (r : Row α) : Prop :=
  ∀ i p, i < duts.length → r.pos (.hit i) = some p → |p 2| ≤ 1 / 10 ^ 8

/-- The errors (standard deviations) of the coordinates of a turned point, if those of the point are `e` and independent. -/
noncomputable def propagated (a : Alignment) (e : Vec3) (k : Fin 3) : ℝ :=
  Real.sqrt (∑ j, (rotationMatrix a.alpha a.beta a.gamma k j * e j) ^ 2)

/-- Turns which exchange axes or reverse them: no coordinate of a turned point depends on two coordinates of the point. -/
def AxisTurn (a : Alignment) : Prop :=
  ∀ k i j, i ≠ j → rotationMatrix a.alpha a.beta a.gamma k i = 0 ∨ rotationMatrix a.alpha a.beta a.gamma k j = 0

end BTA.Apply.Spec
