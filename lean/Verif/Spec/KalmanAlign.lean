import Verif.Model.KalmanAlign
import Verif.Spec.Geometry
import Verif.Spec.Events
/-
Specification of the alignment with a Kalman filter, independent of how it is computed.
-/
namespace BTA.Spec
open BTA.KAlign BTA.Geo

/-- The six alignment parameters of a DUT: translations in x, y, z, then rotations around x, y, z. -/
def par (a : Dut.Alignment) : Fin 6 → ℝ := ![a.x, a.y, a.z, a.alpha, a.beta, a.gamma]

/-- Parameter `k` of a DUT is not to be aligned: the DUT is not selected, the name of the parameter is not in the list of the DUT, or
the DUT is the first or the last telescope plane and the parameter is not the rotation around z. -/
def Excluded (select telescopeDuts : List Nat) (parameters : List (Option (List String))) (d : Nat) (k : Fin 6) : Prop :=
  d ∉ select ∨ (∃ names, parameters[d]? = some (some names) ∧ parName k ∉ names) ∨
    ((telescopeDuts.head? = some d ∨ telescopeDuts.getLast? = some d) ∧ k ≠ 5)

/-- The rotation is given by the usual angles: between -180 and 180 degrees, around y between -90 and 90 degrees, and no angle is
below the precision of the numbers without being zero. -/
def UsualAngles (a : Dut.Alignment) : Prop :=
  a.alpha ∈ Set.Ioc (-Real.pi) Real.pi ∧ a.gamma ∈ Set.Ioc (-Real.pi) Real.pi ∧ a.beta ∈ Set.Ioo (-(Real.pi / 2)) (Real.pi / 2) ∧
    ∀ t ∈ [a.alpha, a.beta, a.gamma], t = 0 ∨ eps < |t|

/-- The covariance matrices of the fit of a track are covariance matrices. -/
def SoundFit {n : Nat} {T : Type} (cfg : Config n T) : Prop :=
  ∀ al ann t f, cfg.fit al ann t = some f → ∀ d, (f.V d).PosSemidef ∧ (f.C0 d).PosSemidef

/-- The track has a hit in every required DUT. -/
def HasHits {n : Nat} {T : Type} (duts : List Nat) (t : Track n T) : Prop := ∀ d ∈ duts, t.flag.testBit d = true

instance {n : Nat} {T : Type} (duts : List Nat) (t : Track n T) : Decidable (HasHits duts t) := by unfold HasHits; infer_instance

/-- The tracks to be used, in the order of the file. -/
def usable {n : Nat} {T : Type} (duts : List Nat) (tracks : List (Track n T)) : List (Track n T) :=
  tracks.filter fun t => HasHits duts t

/-- The file with the track candidates can be read: sorted by event, and no event fills a whole chunk. -/
def ReadableTracks {n : Nat} {T : Type} (chunkSize : Nat) (tracks : List (Track n T)) : Prop :=
  SortedBy Track.event tracks ∧ ∀ e, multiplicity Track.event tracks e < chunkSize

end BTA.Spec
