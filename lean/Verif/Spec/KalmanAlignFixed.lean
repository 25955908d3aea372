import Verif.Spec.KalmanAlign
import Verif.Spec.KalmanExact
import Verif.Spec.AlignTelescope
import Verif.Model.KalmanAlignFit
/-
Specification of a telescope that is aligned already. Of the model only the types of tracks and planes are used.
-/
namespace BTA.KAlign
open BTA.Geo BTA.Kalman BTA.Spec

/-- A telescope that can be used with the Kalman filter: the DUTs are numbered in the order of the beam, not parallel to the beam, have material and a
resolution that is not zero (if it is given). The numerical functions do what they should. -/
structure Ready {n : Nat} (k : Tracker n) (al : Fin n → Dut.Alignment) : Prop where
  sorts : ∀ z, SortsIndices z (k.argsort z)
  singular : ∀ rows, AlignTel.IsFirstSingular rows (k.svd rows)
  order : InBeamOrder (List.ofFn (k.plane al))
  beam : ∀ d, Crosses (k.plane al d) ![0, 0, 1]
  material : ∀ d, 1e-8 < k.budget d
  resolution : ∀ d r, k.resolution d = some r → r.1 ≠ 0 ∧ r.2 ≠ 0

/-- Where the hit is in space if the DUT has the given alignment. -/
noncomputable def space {n : Nat} (k : Tracker n) (al : Fin n → Dut.Alignment) (d : Fin n) (m : Obs) : Vec3 := globalPoint (k.plane al d) ![m 0, m 1, 0]

/-- The alignment is right for the track: a particle on a straight line has crossed all DUTs and has left a hit in every DUT exactly there, at different
points. The hits have errors. -/
def ExactHits {n : Nat} (k : Tracker n) (al : Fin n → Dut.Alignment) (t : Candidate n) : Prop :=
  ∃ origin direction : Vec3, (∀ d, Crosses (k.plane al d) direction) ∧
    (∀ d, ∃ m, t.hit d = some m ∧ OnLine origin direction (space k al d m) ∧ (t.data d).1 ≠ 0 ∧ (t.data d).2 ≠ 0) ∧
    ∀ d e m m', d ≠ e → t.hit d = some m → t.hit e = some m' → space k al d m ≠ space k al e m'

/-- The DUTs for the fit: DUTs of the telescope, at least two. -/
def FitDuts (n : Nat) (duts : List Nat) : Prop := (∀ d ∈ duts, d < n) ∧ ∃ d ∈ duts, ∃ e ∈ duts, d ≠ e

/-- Input of `align_kalman` for a telescope that is aligned already: all track candidates that `find_tracks` writes have exact hits. -/
structure AlignedInput (k : Tracker n) (conf : KDriver.Conf n) (S : KDriver.Setup n (Fin n → ℝ × ℝ)) (a : KDriver.Args) : Prop where
  fit : S.fit = trackFit k
  factor : 0 < a.annealingFactor
  cut : ∀ l, a.chi2 = .many l → ∀ c ∈ l, 0 ≤ c
  usual : ∀ d, UsualAngles (conf d)
  ready : Ready k conf
  read : ∀ index max, ReadableTracks S.chunkSize (S.candidates index max)
  exact : ∀ index max, ∀ t ∈ S.candidates index max, ExactHits k conf t

end BTA.KAlign
