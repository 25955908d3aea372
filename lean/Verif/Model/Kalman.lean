import Verif.Model.Geometry
import Mathlib.LinearAlgebra.Matrix.PosDef
import Mathlib.Analysis.SpecialFunctions.Log.Basic
import Mathlib.Analysis.SpecialFunctions.Sqrt
import Mathlib.Data.Real.StarOrdered
/-
Model of beam_telescope_analysis/tools/kalman.py and of `_fit_tracks_kalman_loop` in
beam_telescope_analysis/track_analysis.py.

Simplifications: floating point numbers are real numbers, there are no rounding errors; a division by zero gives 0 (the
theorems exclude it). The functions work on all tracks of a chunk at the same time and treat the tracks independently; they
are modelled for one track. The helper functions `_vec_vec_mul`, `_mat_mul`, `_vec_mul`, `_mat_trans` (L438-490) are the
operations on vectors and matrices. A missing hit (NaN in x) is `none`.
-/
namespace BTA.Kalman
open BTA.Geo Matrix

/-- Track state `[x, y, x', y']` in the local coordinates of a plane. -/
abbrev State := Fin 4 → ℝ
abbrev Cov := Matrix (Fin 4) (Fin 4) ℝ
abbrev Obs := Fin 2 → ℝ
abbrev ObsCov := Matrix (Fin 2) (Fin 2) ℝ
abbrev ObsMat := Matrix (Fin 2) (Fin 4) ℝ
abbrev Gain := Matrix (Fin 4) (Fin 2) ℝ

/-- The attributes of a DUT or scattering plane used here. -/
structure Plane where
  pos : Vec3
  alpha : ℝ
  beta : ℝ
  gamma : ℝ
  budget : ℝ
  /-- `intrinsic_resolution` -/
  resolution : Option (ℝ × ℝ)

/-- Rotation matrix of the plane, from local to global coordinates. -/
noncomputable def Plane.rot (P : Plane) : Mat3 := rotationMatrix P.alpha P.beta P.gamma

/-! ### Track model -/

/-- `_extrapolate_state` (L568-596). -/
noncomputable def extrapolateState (p : State) (pos tpos : Vec3) (R Rt : Mat3) : State :=
  let x : Vec3 := ![p 0, p 1, 0]
  let d : Vec3 := ![p 2, p 3, 1]
  let M := Rt.transpose * R
  let x0 := R.transpose.mulVec (tpos - pos)
  let td := M.mulVec d
  let w : Vec3 := ![0, 0, 1]
  let s := (M.mulVec (x0 - x) ⬝ᵥ w) / td 2
  let tp := M.mulVec (x + s • d - x0)
  ![tp 0, tp 1, td 0 / td 2, td 1 / td 2]

/-- `_calculate_track_jacobian` (L656-726). The matrices are from global to local coordinates. -/
noncomputable def trackJacobian (ref : State) (pos tpos : Vec3) (R Rt : Mat3) : Cov :=
  let M := Rt * R.transpose
  let x0 := R.mulVec (tpos - pos)
  let x : Vec3 := ![ref 0, ref 1, 0]
  let d : Vec3 := ![ref 2, ref 3, 1]
  let td := M.mulVec d
  let w : Vec3 := ![0, 0, 1]
  let s := (M.mulVec (x0 - x) ⬝ᵥ w) / td 2
  let up := td 0 / td 2
  let vp := td 1 / td 2
  let J00 := M 0 0 - M 2 0 * up
  let J01 := M 0 1 - M 2 1 * up
  let J10 := M 1 0 - M 2 0 * vp
  let J11 := M 1 1 - M 2 1 * vp
  !![J00, J01, s * J00, s * J01;
     J10, J11, s * J10, s * J11;
     0, 0, (M 0 0 * td 2 - td 0 * M 2 0) / (td 2 * td 2), (M 0 1 * td 2 - td 0 * M 2 1) / (td 2 * td 2);
     0, 0, (M 1 0 * td 2 - td 1 * M 2 0) / (td 2 * td 2), (M 1 1 * td 2 - td 1 * M 2 1) / (td 2 * td 2)]

/-- `np.cross`. -/
def cross (a b : Vec3) : Vec3 := ![a 1 * b 2 - a 2 * b 1, a 2 * b 0 - a 0 * b 2, a 0 * b 1 - a 1 * b 0]

/-- Division by the norm. -/
noncomputable def normalise (v : Vec3) : Vec3 := (Real.sqrt (v ⬝ᵥ v))⁻¹ • v

/-- Direction of the track and the two directions perpendicular to it (L603-631): `n_trk`, `u_trk`, `v_trk`. -/
noncomputable def trackAxes (ref : State) : Vec3 × Vec3 × Vec3 :=
  let n := normalise ![ref 2, ref 3, 1]
  let v := normalise (cross n ![1, 0, 0])
  let u := normalise (cross v n)
  (n, u, v)

/-- `_calculate_scatter_gain_matrix` (L600-652). -/
noncomputable def scatterGain (ref : State) : Gain :=
  let (n, u, v) := trackAxes ref
  !![0, 0;
     0, 0;
     (u 0 * n 2 - n 0 * u 2) / (n 2 * n 2), (v 0 * n 2 - n 0 * v 2) / (n 2 * n 2);
     (u 1 * n 2 - n 1 * u 2) / (n 2 * n 2), (v 1 * n 2 - n 1 * v 2) / (n 2 * n 2)]

/-! ### Filter -/

/-- `_mat_inverse` (L494-512): a singular matrix is returned unchanged. -/
noncomputable def matInverse {n : Nat} (X : Matrix (Fin n) (Fin n) ℝ) : Matrix (Fin n) (Fin n) ℝ :=
  open Classical in if X.det = 0 then X else X⁻¹

/-- `_filter_predict_f` (L11-50). -/
def predictF (J : Cov) (G : Gain) (Q : ObsCov) (x : State) (C : Cov) : State × Cov :=
  let G' := J * G
  (J.mulVec x, J * (C * J.transpose) + G' * (Q * G'.transpose))

/-- `_filter_predict_b` (L54-93). -/
def predictB (J : Cov) (G : Gain) (Q : ObsCov) (x : State) (C : Cov) : State × Cov :=
  (J.mulVec x, J * (C * J.transpose) + G * (Q * G.transpose))

/-- Chi-square of a residual (L152, L287, L427, L928, L935). -/
noncomputable def chiSquare (r : Obs) (V : ObsCov) : ℝ := r ⬝ᵥ (matInverse V).mulVec r

/-- `_filter_correct` (L97-154): Kalman gain, filtered state and covariance, chi-square. The code calculates the
correction also for a missing hit and replaces it afterwards. -/
noncomputable def filterCorrect (ref : State) (H : ObsMat) (V : ObsCov) (x : State) (C : Cov) (obs : Option Obs) :
    Gain × State × Cov × Option ℝ :=
  match obs with
  | none => (0, x, C, none)
  | some m =>
    let S := H * (C * H.transpose) + V
    let K := C * (H.transpose * matInverse S)
    let xf := x + K.mulVec (m - H.mulVec (x + ref))
    let Cf := C - K * (H * C)
    (K, xf, Cf, some (chiSquare (m - H.mulVec (xf + ref)) (V - H * (Cf * H.transpose))))

/-- What `_make_matrix_psd` (L529-565) returns for matrices which are not positive semi-definite; `none`: RuntimeError. -/
structure Fixer where
  four : Cov → Option Cov
  two : ObsCov → Option ObsCov

/-- `check_covariance_matrix` (L515-525). The condition is that the eigenvalues calculated with `eigvalsh` are non-negative. -/
noncomputable def checkCov (fx : Fixer) (C : Cov) : Option Cov :=
  open Classical in if C.PosSemidef then some C else fx.four C

/-- `check_covariance_matrix` for a covariance of residuals. -/
noncomputable def checkObsCov (fx : Fixer) (V : ObsCov) : Option ObsCov :=
  open Classical in if V.PosSemidef then some V else fx.two V

/-- Input of the filter for all planes. -/
structure Setup where
  planes : Nat → Plane
  H : Nat → ObsMat
  V : Nat → ObsCov
  obs : Nat → Option Obs
  fit : Nat → Bool
  x0 : State
  C0 : Cov

/-- Result of the filter for one plane. -/
structure Out where
  predX : State
  predC : Cov
  gain : Gain
  x : State
  C : Cov
  chi2 : Option ℝ

/-- Correction at a plane (L261-288, L401-428): with the hit if the plane is a fit plane, else the prediction is used and the
chi-square is calculated with the sum of the covariances. -/
noncomputable def correctPlane (S : Setup) (fx : Fixer) (ref : State) (d : Nat) (x : State) (C : Cov) : Option Out :=
  if S.fit d then
    let r := filterCorrect ref (S.H d) (S.V d) x C (S.obs d)
    (checkCov fx r.2.2.1).map fun Cf => ⟨x, C, r.1, r.2.1, Cf, r.2.2.2⟩
  else
    (checkCov fx C).bind fun Cf =>
      match S.obs d with
      | none => some ⟨x, C, 0, x, Cf, none⟩
      | some m =>
        (checkObsCov fx (S.V d + S.H d * (Cf * (S.H d).transpose))).map fun W =>
          ⟨x, C, 0, x, Cf, some (chiSquare (m - (S.H d).mulVec (x + ref)) W)⟩

/-- Jacobian from plane `p` to plane `d` (L223-246, L363-387). -/
noncomputable def jacobian (S : Setup) (ref : Nat → State) (p d : Nat) : Cov :=
  trackJacobian (ref p) (S.planes p).pos (S.planes d).pos (S.planes p).rot.transpose (S.planes d).rot.transpose

/-- Prediction from plane `p` to plane `d` in the forward filter (L222-259). -/
noncomputable def stepF (S : Setup) (fx : Fixer) (ref : Nat → State) (Q : Nat → ObsCov) (p d : Nat) (o : Out) : Option (State × Cov) :=
  let r := predictF (jacobian S ref p d) (scatterGain (ref p)) (Q p) o.x o.C
  (checkCov fx r.2).map fun C => (r.1, C)

/-- Prediction in the backward filter (L362-399). The check of the transition covariance (L366) does nothing: it is
`theta ** 2` times the identity. -/
noncomputable def stepB (S : Setup) (ref : Nat → State) (Q : Nat → ObsCov) (p d : Nat) (o : Out) : Option (State × Cov) :=
  some (predictB (jacobian S ref p d) (scatterGain (ref d)) (Q d) o.x o.C)

/-- Prediction at plane `d` (L219-259, L359-399): the initial state at the first plane. -/
def predictAt (S : Setup) (step : Nat → Nat → Out → Option (State × Cov)) (d : Nat) : Option (Nat × Out) → Option (State × Cov)
  | none => some (S.x0, S.C0)
  | some (p, o) => step p d o

/-- Loop over the planes (L215-288, L355-428). -/
noncomputable def filterLoop (S : Setup) (fx : Fixer) (ref : Nat → State) (step : Nat → Nat → Out → Option (State × Cov)) :
    Option (Nat × Out) → List Nat → Option (List (Nat × Out))
  | _, [] => some []
  | prev, d :: rest =>
    match (predictAt S step d prev).bind fun r => correctPlane S fx (ref d) d r.1 r.2 with
    | none => none
    | some o => (filterLoop S fx ref step (some (d, o)) rest).map fun l => (d, o) :: l

/-- Final check of the chi-square values (L290-292, L430-432). -/
noncomputable def finalCheck (l : List (Nat × Out)) : Option (List (Nat × Out)) :=
  open Classical in if ∃ o ∈ l, ∃ c, o.2.chi2 = some c ∧ c < 0 then none else some l

/-- `_filter_f` (L157-294). -/
noncomputable def filterF (S : Setup) (fx : Fixer) (ref : Nat → State) (Q : Nat → ObsCov) (order : List Nat) :
    Option (List (Nat × Out)) :=
  (filterLoop S fx ref (stepF S fx ref Q) none order).bind finalCheck

/-- `_filter_b` (L297-434). -/
noncomputable def filterB (S : Setup) (fx : Fixer) (ref : Nat → State) (Q : Nat → ObsCov) (order : List Nat) :
    Option (List (Nat × Out)) :=
  (filterLoop S fx ref (stepB S ref Q) none order.reverse).bind finalCheck

/-! ### Smoother -/

/-- Variance of the scattering angle (L812-817, L862-867). The logarithm of 0 is 0 instead of minus infinity: a plane
without material gives 0 instead of NaN. -/
noncomputable def scatterCov (momentum beta budget : ℝ) (ref : State) : ObsCov :=
  let b := budget * Real.sqrt (1 + ref 2 ^ 2 + ref 3 ^ 2)
  let theta := (13.6 / momentum / beta) * Real.sqrt b * (1 + 0.038 * Real.log b)
  !![theta ^ 2, 0; 0, theta ^ 2]

/-- Reference state at a plane: the seed, or the seed extrapolated from the seed plane (L784-810, L836-859). -/
noncomputable def seedAt (planes : Nat → Plane) (seedDut : Nat) (seed : State) (i d : Nat) : State :=
  if i = 0 then seed
  else extrapolateState seed (planes seedDut).pos (planes d).pos (planes seedDut).rot (planes d).rot

/-- First loop (L782-817): reference states and transition covariances, with index `dut_index`. -/
noncomputable def refLoop1 (planes : Nat → Plane) (momentum beta : ℝ) (seedDut : Nat) (seed : State) :
    List (Nat × Nat) → (Nat → State) × (Nat → ObsCov) → (Nat → State) × (Nat → ObsCov)
  | [], s => s
  | (d, i) :: rest, s =>
    let ref := Function.update s.1 d (seedAt planes seedDut seed i d)
    refLoop1 planes momentum beta seedDut seed rest
      (ref, Function.update s.2 d (scatterCov momentum beta (planes d).budget (ref d)))

/-- Second loop (L835-867): the reference states are stored with index `i`, the transition covariances with index
`dut_index`. -/
noncomputable def refLoop2 (planes : Nat → Plane) (momentum beta : ℝ) (seedDut : Nat) (seed : State) :
    List (Nat × Nat) → (Nat → State) × (Nat → ObsCov) → (Nat → State) × (Nat → ObsCov)
  | [], s => s
  | (d, i) :: rest, s =>
    let ref := Function.update s.1 i (seedAt planes seedDut seed i d)
    refLoop2 planes momentum beta seedDut seed rest
      (ref, Function.update s.2 d (scatterCov momentum beta (planes d).budget (ref d)))

/-- Result of the filter for a plane; the arrays are initialised with zeros. -/
noncomputable def outAt (l : List (Nat × Out)) (d : Nat) : Out := (l.lookup d).getD ⟨0, 0, 0, 0, 0, none⟩

/-- Smoothed state and covariance of a plane (L903-919). -/
noncomputable def smoothPlane (F B : Out) (i n : Nat) : State × Cov :=
  if i = 0 then (B.x, B.C)
  else if i = n - 1 then (F.x, F.C)
  else
    let Fi := matInverse F.C
    let Bi := matInverse B.C
    let Cs := matInverse (Fi + Bi)
    (Cs.mulVec (Fi.mulVec F.x + Bi.mulVec B.x), Cs)

/-- Chi-square with the smoothed result (L921-936). -/
noncomputable def smoothChi2 (S : Setup) (fx : Fixer) (ref : State) (d : Nat) (r : State × Cov) : Option (Option ℝ) :=
  match S.obs d with
  | none => some none
  | some m =>
    let W := if S.fit d then S.V d - S.H d * (r.2 * (S.H d).transpose) else S.V d + S.H d * (r.2 * (S.H d).transpose)
    (checkObsCov fx W).map fun W => some (chiSquare (m - (S.H d).mulVec (r.1 + ref)) W)

/-- Fitted track at a plane. -/
structure Smoothed where
  x : State
  C : Cov
  chi2 : Option ℝ

/-- Loop of the smoother (L903-936); the reference state is added to the result (L960). -/
noncomputable def smoothLoop (S : Setup) (fx : Fixer) (ref : Nat → State) (F B : List (Nat × Out)) (n : Nat) :
    List (Nat × Nat) → Option (List (Nat × Smoothed))
  | [] => some []
  | (d, i) :: rest =>
    let r := smoothPlane (outAt F d) (outAt B d) i n
    match smoothChi2 S fx (ref d) d r with
    | none => none
    | some c => (smoothLoop S fx ref F B n rest).map fun l => (d, ⟨r.1 + ref d, r.2, c⟩) :: l

/-- Reference states and transition covariances of the final filters (L778-867): the seed is extrapolated to all planes, the
backward filter is run, the seed is updated with the state with index 0, and extrapolated again. -/
noncomputable def references (S : Setup) (fx : Fixer) (momentum beta : ℝ) (seed : State) (order : List Nat) :
    Option ((Nat → State) × (Nat → ObsCov)) :=
  let seedDut := order.headD 0
  let s1 := refLoop1 S.planes momentum beta seedDut seed order.zipIdx (fun _ => 0, fun _ => 0)
  (filterB S fx s1.1 s1.2 order).map fun b =>
    refLoop2 S.planes momentum beta seedDut (s1.1 0 + (outAt b 0).x) order.zipIdx s1

/-- `KalmanFilter.smooth` (L730-966); `none`: RuntimeError. The final check is L955-957. -/
noncomputable def smooth (S : Setup) (fx : Fixer) (momentum beta : ℝ) (seed : State) (order : List Nat) :
    Option (List (Nat × Smoothed)) :=
  (references S fx momentum beta seed order).bind fun s =>
    (filterF S fx s.1 s.2 order).bind fun F =>
      (filterB S fx s.1 s.2 order).bind fun B =>
        (smoothLoop S fx s.1 F B order.length order.zipIdx).bind fun l =>
          open Classical in if ∃ o ∈ l, ∃ c, o.2.chi2 = some c ∧ c < 0 then none else some l

/-! ### Fit of a track (track_analysis.py) -/

/-- Hit of a track in local coordinates and its error. -/
structure Hit where
  x : ℝ
  y : ℝ
  xErr : ℝ
  yErr : ℝ

/-- Exceptions. -/
inductive Err
  /-- `get_line_intersections_with_dut`: the line is parallel to the plane -/
  | parallel
  /-- ValueError, L1628 -/
  | materialZero
  /-- IndexError -/
  | index
  /-- RuntimeError -/
  | runtime
deriving DecidableEq

/-- Variances of a hit (L1670-1677): intrinsic resolution, or error of the hit, times the annealing factor. Missing errors are
set to 0. -/
noncomputable def obsCov (P : Plane) (hit : Option Hit) (a : ℝ) : ObsCov :=
  match P.resolution, hit with
  | some r, _ => !![r.1 ^ 2 * a, 0; 0, r.2 ^ 2 * a]
  | none, some h => !![h.xErr ^ 2 * a, 0; 0, h.yErr ^ 2 * a]
  | none, none => 0

/-- Loop over all planes (L1669-1675): `alpha[i]`, index error if it is missing. -/
noncomputable def obsCovs (alpha : List ℝ) (hits : Nat → Option Hit) : Nat → List Plane → Option (List ObsCov)
  | _, [] => some []
  | i, P :: rest =>
    match alpha[i]? with
    | none => none
    | some a => (obsCovs alpha hits (i + 1) rest).map fun l => obsCov P (hits i) a :: l

/-- Position of the intersection of the plane with the z axis (L1605-1613). -/
noncomputable def zIntersection (P : Plane) : Option ℝ :=
  (intersectDut [(0, ![0, 0, 1])] (P.pos 0) (P.pos 1) (P.pos 2) P.alpha P.beta P.gamma).map fun l => (l.headD 0) 2

/-- Intersections of all planes (L1603-1613). -/
noncomputable def zIntersections : List Plane → Option (List ℝ)
  | [] => some []
  | P :: rest => (zIntersection P).bind fun z => (zIntersections rest).map fun l => z :: l

/-- `_calculate_track_seed` (L1539-1588). `lineFit` is `line_fit_3d` (singular value decomposition); it gets the global
positions of the hits of the fit DUTs. `dut.local_to_global_position` and `dut.global_to_local_position` are given by the
formulas of C30; the normalisation of the slopes (L1575-1576) has no effect on their ratios and is left out. -/
noncomputable def trackSeed (lineFit : List Vec3 → Vec3 × Vec3) (plane : Nat → Plane) (first : Plane) (fitDuts : List Nat)
    (hits : Nat → Option Hit) : Option State :=
  let points := fitDuts.filterMap fun d => (hits d).map fun h => (plane d).rot.mulVec ![h.x, h.y, 0] + (plane d).pos
  let l := lineFit points
  (intersectDut [l] (first.pos 0) (first.pos 1) (first.pos 2) first.alpha first.beta first.gamma).map fun q =>
    let p := first.rot.transpose.mulVec (q.headD 0 - first.pos)
    let s := first.rot.transpose.mulVec l.2
    let s := open Classical in if s 2 < 0 then -s else s
    ![p 0, p 1, s 0 / s 2, s 1 / s 2]

/-- Initial covariance (L1636-1642). -/
noncomputable def initialCov : Cov := Matrix.diagonal ![2e2, 2e2, (3e-3) ^ 2, (3e-3) ^ 2]

/-- Observation matrix (L1662-1664). -/
def obsMat : ObsMat := !![1, 0, 0, 0; 0, 1, 0, 0]

/-- Result of the fit: state and covariance at each plane, chi-square and degrees of freedom. -/
structure Fit where
  planes : List (Nat × Smoothed)
  chi2 : ℝ
  dof : Int

/-- L1721-1723: chi-square and degrees of freedom of the fit DUTs. -/
noncomputable def summary (fitDuts : List Nat) (l : List (Nat × Smoothed)) : ℝ × Int :=
  let c := fitDuts.filterMap fun d => (l.lookup d).bind Smoothed.chi2
  (c.sum, 2 * c.length - 4)

/-- `_fit_tracks_kalman_loop` (L1485-1726) for one track. `argsort` is `np.argsort` (L1614). The checks of L1690-1693 and
L1717-1718 are left out: variances are squares, and negative chi-square values are already found by the smoother. -/
noncomputable def fitKalman (fx : Fixer) (argsort : List ℝ → List Nat) (lineFit : List Vec3 → Vec3 × Vec3)
    (telescope scattering : List Plane) (alpha : List ℝ) (trackHits : List (Option Hit)) (fitDuts : List Nat)
    (energy mass : ℝ) : Except Err Fit :=
  let all := telescope ++ scattering
  let plane := fun d => all.getD d ⟨0, 0, 0, 0, 0, none⟩
  let hits := fun d => trackHits.getD d none
  match zIntersections all with
  | none => .error .parallel
  | some z =>
    let order := argsort z
    let momentum := Real.sqrt (energy ^ 2 - mass ^ 2)
    let beta := momentum / energy
    open Classical in
    if ∃ d ∈ order.dropLast, |(plane d).budget| ≤ 1e-8 then .error .materialZero
    else
      match obsCovs alpha hits 0 all with
      | none => .error .index
      | some V =>
        match trackSeed lineFit plane (plane (order.headD 0)) fitDuts hits with
        | none => .error .parallel
        | some seed =>
          let S : Setup :=
            { planes := plane, H := fun _ => obsMat, V := fun d => V.getD d 0,
              obs := fun d => (hits d).map fun h => ![h.x, h.y],
              fit := fun d => fitDuts.contains d, x0 := 0, C0 := initialCov }
          match smooth S fx momentum beta seed order with
          | none => .error .runtime
          | some l =>
            let r := summary fitDuts l
            .ok ⟨l.filter fun o => o.1 < telescope.length, r.1, r.2⟩
end BTA.Kalman
