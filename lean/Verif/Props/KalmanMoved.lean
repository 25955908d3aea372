import Verif.Spec.KalmanMoved
import Verif.Model.AlignTelescope
import Verif.Props.Kalman
/-
C234: the Kalman fit of a telescope that is moved as a whole. Floating point numbers are real numbers.
-/
namespace BTA.Props
open BTA.Geo BTA.Kalman BTA.Spec Matrix

section
variable {R : Mat3} {t : Vec3} (hR : R.transpose * R = 1)
include hR

theorem moved_rot {P P' : Plane} (h : Moved R t P P') (v : Vec3) : P'.rot.transpose.mulVec (R.mulVec v) = P.rot.transpose.mulVec v := by
  rw [h.rot, transpose_mul, Matrix.mulVec_mulVec, Matrix.mul_assoc, hR, Matrix.mul_one]

theorem moved_sub {A A' B B' : Plane} (hA : Moved R t A A') (hB : Moved R t B B') : B'.pos - A'.pos = R.mulVec (B.pos - A.pos) := by
  rw [hA.pos, hB.pos, Matrix.mulVec_sub]; abel

theorem moved_mul {A A' B B' : Plane} (hA : Moved R t A A') (hB : Moved R t B B') : B'.rot.transpose * A'.rot = B.rot.transpose * A.rot := by
  rw [hA.rot, hB.rot, transpose_mul, Matrix.mul_assoc, ← Matrix.mul_assoc R.transpose, hR, Matrix.one_mul]

theorem moved_extrapolate {A A' B B' : Plane} (hA : Moved R t A A') (hB : Moved R t B B') (p : State) :
    extrapolateState p A'.pos B'.pos A'.rot B'.rot = extrapolateState p A.pos B.pos A.rot B.rot := by
  unfold extrapolateState
  rw [moved_mul hR hA hB, moved_sub hR hA hB, moved_rot hR hA]

theorem moved_jacobian {A A' B B' : Plane} (hA : Moved R t A A') (hB : Moved R t B B') (p : State) :
    trackJacobian p A'.pos B'.pos A'.rot.transpose B'.rot.transpose = trackJacobian p A.pos B.pos A.rot.transpose B.rot.transpose := by
  unfold trackJacobian
  rw [transpose_transpose, transpose_transpose, moved_mul hR hA hB, moved_sub hR hA hB, moved_rot hR hA]

end

/-! ### The loops -/

theorem filterLoop_steps (S : Setup) (planes' : Nat → Plane) (fx : Fixer) (ref : Nat → State) (step step' : Nat → Nat → Out → Option (State × Cov)) (all : List Nat)
    (hs : ∀ p ∈ all, ∀ d ∈ all, ∀ o, step' p d o = step p d o) : ∀ (order : List Nat) (prev : Option (Nat × Out)), (∀ d ∈ order, d ∈ all) →
      (∀ p o, prev = some (p, o) → p ∈ all) → filterLoop { S with planes := planes' } fx ref step' prev order = filterLoop S fx ref step prev order := by
  intro order
  induction order with
  | nil => intro prev _ _; rfl
  | cons d rest ih =>
    intro prev hall hprev
    have hp : predictAt { S with planes := planes' } step' d prev = predictAt S step d prev := by
      cases prev with
      | none => rfl
      | some a =>
        obtain ⟨p, o⟩ := a
        exact hs p (hprev p o rfl) d (hall d (by simp)) o
    unfold filterLoop
    rw [hp]
    have hc : (fun r : State × Cov => correctPlane { S with planes := planes' } fx (ref d) d r.1 r.2) = fun r => correctPlane S fx (ref d) d r.1 r.2 := rfl
    rw [hc]
    cases (predictAt S step d prev).bind fun r => correctPlane S fx (ref d) d r.1 r.2 with
    | none => rfl
    | some o =>
      simp only
      rw [ih (some (d, o)) (fun k hk => hall k (by simp [hk])) (fun p o' h => by
        obtain ⟨rfl, -⟩ := Prod.mk.inj (Option.some.inj h)
        exact hall _ (by simp))]

theorem refLoop1_moved (planes planes' : Nat → Plane) (momentum beta : ℝ) (sd : Nat) (seed : State) : ∀ (l : List (Nat × Nat)) (s : (Nat → State) × (Nat → ObsCov)),
    (∀ a ∈ l, (∀ p, seedAt planes' sd p a.2 a.1 = seedAt planes sd p a.2 a.1) ∧ (planes' a.1).budget = (planes a.1).budget) →
    refLoop1 planes' momentum beta sd seed l s = refLoop1 planes momentum beta sd seed l s := by
  intro l
  induction l with
  | nil => intro s _; rfl
  | cons a l ih =>
    obtain ⟨d, i⟩ := a
    intro s h
    obtain ⟨h1, h2⟩ := h (d, i) (by simp)
    unfold refLoop1
    simp only at h1 h2 ⊢
    rw [h1, h2]
    exact ih _ fun a ha => h a (by simp [ha])

theorem refLoop2_moved (planes planes' : Nat → Plane) (momentum beta : ℝ) (sd : Nat) (seed : State) : ∀ (l : List (Nat × Nat)) (s : (Nat → State) × (Nat → ObsCov)),
    (∀ a ∈ l, (∀ p, seedAt planes' sd p a.2 a.1 = seedAt planes sd p a.2 a.1) ∧ (planes' a.1).budget = (planes a.1).budget) →
    refLoop2 planes' momentum beta sd seed l s = refLoop2 planes momentum beta sd seed l s := by
  intro l
  induction l with
  | nil => intro s _; rfl
  | cons a l ih =>
    obtain ⟨d, i⟩ := a
    intro s h
    obtain ⟨h1, h2⟩ := h (d, i) (by simp)
    unfold refLoop2
    simp only at h1 h2 ⊢
    rw [h1, h2]
    exact ih _ fun a ha => h a (by simp [ha])

theorem smoothLoop_planes (S : Setup) (planes' : Nat → Plane) (fx : Fixer) (ref : Nat → State) (F B : List (Nat × Out)) (n : Nat) : ∀ l : List (Nat × Nat),
    smoothLoop { S with planes := planes' } fx ref F B n l = smoothLoop S fx ref F B n l
  | [] => rfl
  | (d, i) :: rest => by
    unfold smoothLoop
    rw [smoothLoop_planes S planes' fx ref F B n rest]
    rfl

section
variable {R : Mat3} {t : Vec3} (hR : R.transpose * R = 1) (S : Setup) (planes' : Nat → Plane) (order : List Nat)
  (hm : ∀ d ∈ order, Moved R t (S.planes d) (planes' d))
include hR hm

theorem jacobian_moved (ref : Nat → State) (p d : Nat) (hp : p ∈ order) (hd : d ∈ order) : jacobian { S with planes := planes' } ref p d = jacobian S ref p d :=
  moved_jacobian hR (hm p hp) (hm d hd) (ref p)

theorem stepF_moved (fx : Fixer) (ref : Nat → State) (Q : Nat → ObsCov) (p d : Nat) (hp : p ∈ order) (hd : d ∈ order) (o : Out) :
    stepF { S with planes := planes' } fx ref Q p d o = stepF S fx ref Q p d o := by
  unfold stepF
  rw [jacobian_moved hR S planes' order hm ref p d hp hd]

theorem stepB_moved (ref : Nat → State) (Q : Nat → ObsCov) (p d : Nat) (hp : p ∈ order) (hd : d ∈ order) (o : Out) :
    stepB { S with planes := planes' } ref Q p d o = stepB S ref Q p d o := by
  unfold stepB
  rw [jacobian_moved hR S planes' order hm ref p d hp hd]

theorem filterF_moved (fx : Fixer) (ref : Nat → State) (Q : Nat → ObsCov) : filterF { S with planes := planes' } fx ref Q order = filterF S fx ref Q order := by
  unfold filterF
  exact congrArg (·.bind finalCheck) (filterLoop_steps S planes' fx ref (stepF S fx ref Q) (stepF { S with planes := planes' } fx ref Q) order
    (fun p hp d hd o => stepF_moved hR S planes' order hm fx ref Q p d hp hd o) order none (fun _ h => h) (by simp))

theorem filterB_moved (fx : Fixer) (ref : Nat → State) (Q : Nat → ObsCov) : filterB { S with planes := planes' } fx ref Q order = filterB S fx ref Q order := by
  unfold filterB
  exact congrArg (·.bind finalCheck) (filterLoop_steps S planes' fx ref (stepB S ref Q) (stepB { S with planes := planes' } ref Q) order
    (fun p hp d hd o => stepB_moved hR S planes' order hm ref Q p d hp hd o) order.reverse none (fun d h => List.mem_reverse.mp h) (by simp))

theorem seeds_moved (hne : order ≠ []) (a : Nat × Nat) (ha : a ∈ order.zipIdx) :
    (∀ p, seedAt planes' (order.headD 0) p a.2 a.1 = seedAt S.planes (order.headD 0) p a.2 a.1) ∧ (planes' a.1).budget = (S.planes a.1).budget := by
  have hsd : order.headD 0 ∈ order := by
    cases order with
    | nil => exact absurd rfl hne
    | cons d rest => simp
  have had : a.1 ∈ order := by rw [← List.zipIdx_map_fst 0 order]; exact List.mem_map_of_mem ha
  refine ⟨fun p => ?_, (hm _ had).budget⟩
  unfold seedAt
  rw [moved_extrapolate hR (hm _ hsd) (hm _ had)]

theorem references_moved (hne : order ≠ []) (fx : Fixer) (momentum beta : ℝ) (seed : State) :
    references { S with planes := planes' } fx momentum beta seed order = references S fx momentum beta seed order := by
  unfold references
  simp only
  have h1 := refLoop1_moved S.planes planes' momentum beta (order.headD 0) seed order.zipIdx (fun _ => 0, fun _ => 0) (seeds_moved hR S planes' order hm hne)
  rw [h1]
  generalize refLoop1 S.planes momentum beta (order.headD 0) seed order.zipIdx (fun _ => 0, fun _ => 0) = s1
  rw [filterB_moved hR S planes' order hm fx s1.1 s1.2]
  congr 1
  funext b
  exact refLoop2_moved S.planes planes' momentum beta (order.headD 0) _ order.zipIdx s1 (seeds_moved hR S planes' order hm hne)

end

/-- C234: the Kalman filter gives the same local states, covariances and chi-squares for all planes if the whole telescope is moved and rotated and the
local hits and the local seed are the same. -/
theorem C234_filter (S : Setup) (planes' : Nat → Plane) (R : Mat3) (t : Vec3) (hR : R.transpose * R = 1) (fx : Fixer) (momentum beta : ℝ) (seed : State)
    (order : List Nat) (hne : order ≠ []) (hm : ∀ d ∈ order, Moved R t (S.planes d) (planes' d)) :
    smooth { S with planes := planes' } fx momentum beta seed order = smooth S fx momentum beta seed order := by
  unfold smooth
  rw [references_moved hR S planes' order hm hne fx momentum beta seed]
  congr 1
  funext s
  rw [filterF_moved hR S planes' order hm, filterB_moved hR S planes' order hm]
  congr 1
  funext F
  congr 1
  funext B
  rw [smoothLoop_planes]

/-! ### The fit -/

theorem intersect_local (P : Plane) (o d : Vec3) : intersectDut [(o, d)] (P.pos 0) (P.pos 1) (P.pos 2) P.alpha P.beta P.gamma =
    if P.rot.transpose.mulVec d 2 = 0 then none
    else some [o + (P.rot.transpose.mulVec (P.pos - o) 2 / P.rot.transpose.mulVec d 2) • d] := by
  have hpos : ![P.pos 0, P.pos 1, P.pos 2] = P.pos := by ext i; fin_cases i <;> rfl
  have hcol : ∀ v : Vec3, dot (fun i => rotationMatrix P.alpha P.beta P.gamma i 2) v = P.rot.transpose.mulVec v 2 := by
    intro v
    rw [dot_eq]
    rfl
  have hneg : ∀ v : Vec3, dot (-(fun i => rotationMatrix P.alpha P.beta P.gamma i 2)) v = -(P.rot.transpose.mulVec v 2) := by
    intro v
    rw [← hcol, dot_eq, dot_eq, neg_dotProduct]
  unfold intersectDut intersectPlane
  simp only [List.any_cons, List.any_nil, Bool.or_false, decide_eq_true_eq, List.map_cons, List.map_nil, hpos]
  rcases dutNormal_eq P.alpha P.beta P.gamma with h | h
  · rw [h]
    simp only [hcol]
  · rw [h]
    simp only [hneg, neg_eq_zero, neg_div_neg_eq]

theorem orient_ratio (v : Vec3) (k : Fin 3) : (open Classical in (if v 2 < 0 then -v else v)) k / (open Classical in (if v 2 < 0 then -v else v)) 2 = v k / v 2 := by
  split
  · rw [Pi.neg_apply, Pi.neg_apply, neg_div_neg_eq]
  · rfl

theorem intersect_ne_nil (P : Plane) (l : Vec3 × Vec3) : ∀ q, intersectDut [l] (P.pos 0) (P.pos 1) (P.pos 2) P.alpha P.beta P.gamma = some q → q ≠ [] := by
  intro q h
  have := intersect_local P l.1 l.2
  rw [show ((l.1, l.2) : Vec3 × Vec3) = l from rfl, h] at this
  by_cases h0 : P.rot.transpose.mulVec l.2 2 = 0
  · rw [if_pos h0] at this; exact absurd this (by simp)
  · rw [if_neg h0] at this
    rw [Option.some.inj this]
    exact List.cons_ne_nil _ _

/-- Local position and slope of a line at the point where it crosses a plane. -/
noncomputable def crossing (P : Plane) (l : Vec3 × Vec3) (q : List Vec3) : State :=
  ![P.rot.transpose.mulVec (q.headD 0 - P.pos) 0, P.rot.transpose.mulVec (q.headD 0 - P.pos) 1,
    P.rot.transpose.mulVec l.2 0 / P.rot.transpose.mulVec l.2 2, P.rot.transpose.mulVec l.2 1 / P.rot.transpose.mulVec l.2 2]

theorem seed_crossing (lineFit : List Vec3 → Vec3 × Vec3) (plane : Nat → Plane) (first : Plane) (fitDuts : List Nat) (hits : Nat → Option Hit) (pts : List Vec3)
    (hp : pts = fitDuts.filterMap fun d => (hits d).map fun h => (plane d).rot.mulVec ![h.x, h.y, 0] + (plane d).pos) :
    trackSeed lineFit plane first fitDuts hits =
      (intersectDut [lineFit pts] (first.pos 0) (first.pos 1) (first.pos 2) first.alpha first.beta first.gamma).map (crossing first (lineFit pts)) := by
  subst hp
  unfold trackSeed
  simp only
  congr 1
  funext q
  unfold crossing
  rw [orient_ratio, orient_ratio]

section
variable {R : Mat3} {t : Vec3} (hR : R.transpose * R = 1)
include hR

theorem moved_pos {P P' : Plane} (h : Moved R t P P') (o o' : Vec3) (ho : o' = R.mulVec o + t) : P'.pos - o' = R.mulVec (P.pos - o) := by
  rw [h.pos, ho, Matrix.mulVec_sub]; abel

/-- The point where the moved line crosses the moved plane. -/
theorem moved_intersect {P P' : Plane} (h : Moved R t P P') (l l' : Vec3 × Vec3) (hl : MovedLine R t l l') :
    intersectDut [l'] (P'.pos 0) (P'.pos 1) (P'.pos 2) P'.alpha P'.beta P'.gamma =
      (intersectDut [l] (P.pos 0) (P.pos 1) (P.pos 2) P.alpha P.beta P.gamma).map fun q => q.map fun x => R.mulVec x + t := by
  obtain ⟨o, d⟩ := l
  obtain ⟨o', d'⟩ := l'
  obtain ⟨ho, hd⟩ := hl
  simp only at ho hd
  rw [intersect_local, intersect_local, moved_pos hR h o o' ho, moved_rot hR h]
  rcases hd with rfl | rfl
  · rw [moved_rot hR h]
    split
    · rfl
    · simp only [Option.map_some, List.map_cons, List.map_nil]
      rw [ho, Matrix.mulVec_add, Matrix.mulVec_smul, add_right_comm]
  · simp only [Matrix.mulVec_neg, moved_rot hR h, Pi.neg_apply, neg_eq_zero]
    split
    · rfl
    · simp only [Option.map_some, List.map_cons, List.map_nil]
      rw [ho, Matrix.mulVec_add, Matrix.mulVec_smul, add_right_comm, div_neg, neg_smul, smul_neg, neg_neg]

theorem moved_state {P P' : Plane} (h : Moved R t P P') (l l' : Vec3 × Vec3) (hl : MovedLine R t l l') (q : List Vec3) (hq : q ≠ []) :
    crossing P' l' (q.map fun x => R.mulVec x + t) = crossing P l q := by
  obtain ⟨x, r, rfl⟩ := List.exists_cons_of_ne_nil hq
  have e2 : ∀ k : Fin 3, P'.rot.transpose.mulVec l'.2 k / P'.rot.transpose.mulVec l'.2 2 = P.rot.transpose.mulVec l.2 k / P.rot.transpose.mulVec l.2 2 := by
    intro k
    rcases hl.2 with e | e
    · rw [e, moved_rot hR h]
    · rw [e, Matrix.mulVec_neg, moved_rot hR h, Pi.neg_apply, Pi.neg_apply, neg_div_neg_eq]
  have e1 : P'.rot.transpose.mulVec (R.mulVec x + t - P'.pos) = P.rot.transpose.mulVec (x - P.pos) := by
    have : R.mulVec x + t - P'.pos = R.mulVec (x - P.pos) := by rw [h.pos, Matrix.mulVec_sub]; abel
    rw [this, moved_rot hR h]
  unfold crossing
  rw [List.map_cons, List.headD_cons, List.headD_cons, e1, e2 0, e2 1]

theorem moved_seed (lineFit : List Vec3 → Vec3 × Vec3) (plane plane' : Nat → Plane) (first first' : Plane) (fitDuts : List Nat) (hits : Nat → Option Hit)
    (hfirst : Moved R t first first') (pts pts' : List Vec3)
    (hp : pts = fitDuts.filterMap fun d => (hits d).map fun h => (plane d).rot.mulVec ![h.x, h.y, 0] + (plane d).pos)
    (hp' : pts' = fitDuts.filterMap fun d => (hits d).map fun h => (plane' d).rot.mulVec ![h.x, h.y, 0] + (plane' d).pos)
    (hl : MovedLine R t (lineFit pts) (lineFit pts')) :
    trackSeed lineFit plane' first' fitDuts hits = trackSeed lineFit plane first fitDuts hits := by
  have h1 := seed_crossing lineFit plane first fitDuts hits pts hp
  have h2 := seed_crossing lineFit plane' first' fitDuts hits pts' hp'
  have h3 := moved_intersect hR hfirst _ _ hl
  have h4 := intersect_ne_nil first (lineFit pts)
  generalize intersectDut [lineFit pts] (first.pos 0) (first.pos 1) (first.pos 2) first.alpha first.beta first.gamma = o at h1 h3 h4
  generalize intersectDut [lineFit pts'] (first'.pos 0) (first'.pos 1) (first'.pos 2) first'.alpha first'.beta first'.gamma = o' at h2 h3
  refine h2.trans (Eq.trans ?_ h1.symm)
  rw [h3, Option.map_map]
  exact Option.map_congr fun q hq => moved_state hR hfirst _ _ hl q (h4 q hq)

end

theorem obsCovs_moved (alpha : List ℝ) (hits : Nat → Option Hit) : ∀ (i : Nat) (l l' : List Plane), List.Forall₂ (fun P P' => P'.resolution = P.resolution) l l' →
    obsCovs alpha hits i l' = obsCovs alpha hits i l := by
  intro i l l' h
  induction h generalizing i with
  | nil => rfl
  | cons h _ ih =>
    unfold obsCovs
    rw [ih]
    unfold obsCov
    rw [h]

theorem getD_moved {R : Mat3} {t : Vec3} {l l' : List Plane} (h : List.Forall₂ (Moved R t) l l') (d : Nat) (hd : d < l.length) (dflt : Plane) :
    Moved R t (l.getD d dflt) (l'.getD d dflt) := by
  have hlen := h.length_eq
  have := (List.forall₂_iff_get.mp h).2 d hd (by omega)
  have e : ∀ (m : List Plane) (hm : d < m.length), m.getD d dflt = m.get ⟨d, hm⟩ := fun m hm => by
    rw [List.getD_eq_getElem?_getD, List.getElem?_eq_getElem hm]; rfl
  rw [e l hd, e l' (by omega)]
  exact this

theorem hitPoints_eq (planes : List Plane) (hits : List (Option Hit)) (fitDuts : List Nat) (hf : ∀ d ∈ fitDuts, d < planes.length) (dflt : Plane) :
    hitPoints planes hits fitDuts = fitDuts.filterMap fun d => (hits.getD d none).map fun h =>
      (planes.getD d dflt).rot.mulVec ![h.x, h.y, 0] + (planes.getD d dflt).pos := by
  unfold hitPoints
  apply List.filterMap_congr
  intro d hd
  have hd' := hf d hd
  rw [List.getD_eq_getElem?_getD (l := planes), List.getElem?_eq_getElem hd', List.getD_eq_getElem?_getD]
  cases h : hits[d]? with
  | none => rfl
  | some o => cases o <;> rfl

theorem zIntersections_length : ∀ (l : List Plane) (z : List ℝ), zIntersections l = some z → z.length = l.length
  | [], z, h => by cases h; rfl
  | P :: rest, z, h => by
    unfold zIntersections at h
    obtain ⟨a, -, h⟩ := Option.bind_eq_some_iff.mp h
    obtain ⟨b, hb, rfl⟩ := Option.map_eq_some_iff.mp h
    simp [zIntersections_length rest b hb]

/-- C234: the Kalman fit of a track gives the same result (local states, covariances, chi-square, or the same error) after a motion of the whole
telescope, if the line through the hits is moved with it, and the order of the planes along the beam is still the same. -/
theorem C234_fit (fx : Fixer) (argsort : List ℝ → List Nat) (lineFit : List Vec3 → Vec3 × Vec3) (R : Mat3) (t : Vec3) (hR : R.transpose * R = 1)
    (telescope scattering telescope' scattering' : List Plane) (hT : List.Forall₂ (Moved R t) telescope telescope') (hSc : List.Forall₂ (Moved R t) scattering scattering')
    (alpha : List ℝ) (hits : List (Option Hit)) (fitDuts : List Nat) (energy mass : ℝ) (hne : telescope ≠ []) (hfd : ∀ d ∈ fitDuts, d < telescope.length)
    (hline : MovedLine R t (lineFit (hitPoints (telescope ++ scattering) hits fitDuts)) (lineFit (hitPoints (telescope' ++ scattering') hits fitDuts)))
    (hsome : (zIntersections (telescope' ++ scattering')).isSome = (zIntersections (telescope ++ scattering)).isSome)
    (horder : ∀ z z', zIntersections (telescope ++ scattering) = some z → zIntersections (telescope' ++ scattering') = some z' → argsort z' = argsort z)
    (hperm : ∀ z, (argsort z).Perm (List.range z.length)) :
    fitKalman fx argsort lineFit telescope' scattering' alpha hits fitDuts energy mass =
      fitKalman fx argsort lineFit telescope scattering alpha hits fitDuts energy mass := by
  have hall : List.Forall₂ (Moved R t) (telescope ++ scattering) (telescope' ++ scattering') := List.rel_append hT hSc
  have hlen := hall.length_eq
  have hlenT := hT.length_eq
  have hpos : 0 < (telescope ++ scattering).length := by
    have := List.length_pos_iff.mpr hne
    rw [List.length_append]; omega
  unfold fitKalman
  simp only
  cases hz : zIntersections (telescope ++ scattering) with
  | none =>
    rw [hz] at hsome
    have : zIntersections (telescope' ++ scattering') = none := by simpa using hsome
    rw [this]
  | some z =>
    cases hz' : zIntersections (telescope' ++ scattering') with
    | none => rw [hz, hz'] at hsome; simp at hsome
    | some z' =>
      have ho := horder z z' hz hz'
      have hzl := zIntersections_length _ z hz
      have hr : ∀ d ∈ argsort z, d < (telescope ++ scattering).length := fun d hd => by
        have := List.mem_range.mp ((hperm z).mem_iff.mp hd)
        omega
      have hon : argsort z ≠ [] := fun h => by
        have := (hperm z).length_eq
        rw [h, List.length_range] at this
        simp only [List.length_nil] at this
        omega
      simp only [ho]
      have hm : ∀ d ∈ argsort z, Moved R t ((telescope ++ scattering).getD d ⟨0, 0, 0, 0, 0, none⟩) ((telescope' ++ scattering').getD d ⟨0, 0, 0, 0, 0, none⟩) :=
        fun d hd => getD_moved hall d (hr d hd) _
      have hbud : (∃ d ∈ (argsort z).dropLast, |((telescope' ++ scattering').getD d ⟨0, 0, 0, 0, 0, none⟩).budget| ≤ 1e-8) ↔
          ∃ d ∈ (argsort z).dropLast, |((telescope ++ scattering).getD d ⟨0, 0, 0, 0, 0, none⟩).budget| ≤ 1e-8 := by
        constructor
        · rintro ⟨d, hd, h⟩
          exact ⟨d, hd, by rw [← (hm d (List.mem_of_mem_dropLast hd)).budget]; exact h⟩
        · rintro ⟨d, hd, h⟩
          exact ⟨d, hd, by rw [(hm d (List.mem_of_mem_dropLast hd)).budget]; exact h⟩
      by_cases hb : ∃ d ∈ (argsort z).dropLast, |((telescope ++ scattering).getD d ⟨0, 0, 0, 0, 0, none⟩).budget| ≤ 1e-8
      · rw [if_pos hb, if_pos (hbud.mpr hb)]
      · rw [if_neg hb, if_neg fun h => hb (hbud.mp h)]
        rw [obsCovs_moved alpha (fun d => hits.getD d none) 0 (telescope ++ scattering) (telescope' ++ scattering') (hall.imp fun _ _ h => h.resolution)]
        cases obsCovs alpha (fun d => hits.getD d none) 0 (telescope ++ scattering) with
        | none => rfl
        | some V =>
          simp only
          have hhead : (argsort z).headD 0 < (telescope ++ scattering).length := by
            cases e : argsort z with
            | nil => simpa using hpos
            | cons a r => exact hr a (by rw [e]; simp)
          rw [moved_seed hR lineFit (fun d => (telescope ++ scattering).getD d ⟨0, 0, 0, 0, 0, none⟩) (fun d => (telescope' ++ scattering').getD d ⟨0, 0, 0, 0, 0, none⟩)
            _ _ fitDuts (fun d => hits.getD d none) (getD_moved hall _ hhead _) _ _
            (hitPoints_eq _ hits fitDuts (fun d hd => by have := hfd d hd; rw [List.length_append]; omega) _)
            (hitPoints_eq _ hits fitDuts (fun d hd => by have := hfd d hd; rw [List.length_append]; omega) _) hline]
          cases trackSeed lineFit (fun d => (telescope ++ scattering).getD d ⟨0, 0, 0, 0, 0, none⟩)
              ((telescope ++ scattering).getD ((argsort z).headD 0) ⟨0, 0, 0, 0, 0, none⟩) fitDuts (fun d => hits.getD d none) with
          | none => rfl
          | some seed =>
            simp only
            have := C234_filter ⟨fun d => (telescope ++ scattering).getD d ⟨0, 0, 0, 0, 0, none⟩, fun _ => obsMat, fun d => V.getD d 0,
                fun d => (hits.getD d none).map fun h => ![h.x, h.y], fun d => fitDuts.contains d, 0, initialCov⟩
              (fun d => (telescope' ++ scattering').getD d ⟨0, 0, 0, 0, 0, none⟩) R t hR fx (Real.sqrt (energy ^ 2 - mass ^ 2))
              (Real.sqrt (energy ^ 2 - mass ^ 2) / energy) seed (argsort z) hon hm
            simp only at this
            rw [this, hlenT]

/-! ### A shift along the beam -/

theorem shiftZ_moved (c : ℝ) (P : Plane) : Moved 1 ![0, 0, c] P (shiftZ c P) where
  rot := by rw [Matrix.one_mul]; rfl
  pos := by rw [Matrix.one_mulVec]; rfl
  budget := rfl
  resolution := rfl

theorem zIntersection_shift (c : ℝ) (P : Plane) : zIntersection (shiftZ c P) = (zIntersection P).map (· + c) := by
  have h1 := intersect_local P 0 ![0, 0, 1]
  have h2 := intersect_local (shiftZ c P) 0 ![0, 0, 1]
  have hr : (shiftZ c P).rot = P.rot := rfl
  have hp : (shiftZ c P).pos - 0 = (P.pos - 0) + c • ![0, 0, 1] := by
    show P.pos + ![0, 0, c] - 0 = _
    rw [sub_zero, sub_zero]
    congr 1
    ext i; fin_cases i <;> simp
  rw [hr, hp, Matrix.mulVec_add, Matrix.mulVec_smul] at h2
  unfold zIntersection
  rw [h1, h2]
  by_cases h0 : P.rot.transpose.mulVec ![0, 0, 1] 2 = 0
  · rw [if_pos h0, if_pos h0]; rfl
  · rw [if_neg h0, if_neg h0]
    simp only [Option.map_some, List.headD_cons]
    congr 1
    simp only [Pi.add_apply, Pi.smul_apply, smul_eq_mul, Pi.zero_apply, zero_add]
    have : (![0, 0, 1] : Vec3) 2 = 1 := rfl
    rw [this]
    field_simp

theorem zIntersections_shift (c : ℝ) : ∀ l : List Plane, zIntersections (l.map (shiftZ c)) = (zIntersections l).map fun z => z.map (· + c)
  | [] => rfl
  | P :: rest => by
    rw [List.map_cons]
    unfold zIntersections
    rw [zIntersection_shift, zIntersections_shift c rest]
    cases zIntersection P with
    | none => rfl
    | some z =>
      cases zIntersections rest with
      | none => rfl
      | some l => rfl

theorem centre_shift (v : Vec3) (ps : List Vec3) (h : ps ≠ []) : AlignTel.centre (ps.map (· + v)) = AlignTel.centre ps + v := by
  have hs : ∀ l : List Vec3, (l.map (· + v)).sum = l.sum + (l.length : ℝ) • v := by
    intro l
    induction l with
    | nil => simp
    | cons a l ih =>
      rw [List.map_cons, List.sum_cons, List.sum_cons, ih, List.length_cons, Nat.cast_add, Nat.cast_one, add_smul, one_smul]
      abel
  have hl : (ps.length : ℝ) ≠ 0 := by
    have := List.length_pos_iff.mpr h
    exact_mod_cast this.ne'
  unfold AlignTel.centre
  rw [hs, List.length_map, smul_add, smul_smul, inv_mul_cancel₀ hl, one_smul]

theorem lineFit_shift (svd : List Vec3 → Vec3) (v : Vec3) (ps : List Vec3) (h : ps ≠ []) :
    MovedLine 1 v (AlignTel.lineFit svd ps) (AlignTel.lineFit svd (ps.map (· + v))) := by
  unfold MovedLine AlignTel.lineFit
  rw [centre_shift v ps h, List.map_map]
  have : ((fun p => p - (AlignTel.centre ps + v)) ∘ fun x => x + v) = fun p => p - AlignTel.centre ps := by
    funext p
    simp only [Function.comp]
    abel
  rw [this, Matrix.one_mulVec, Matrix.one_mulVec]
  exact ⟨rfl, .inl rfl⟩

theorem hitPoints_shift (c : ℝ) (planes : List Plane) (hits : List (Option Hit)) (fitDuts : List Nat) :
    hitPoints (planes.map (shiftZ c)) hits fitDuts = (hitPoints planes hits fitDuts).map (· + ![0, 0, c]) := by
  unfold hitPoints
  rw [List.map_filterMap]
  apply List.filterMap_congr
  intro d _
  rw [List.getElem?_map]
  cases planes[d]? with
  | none => rfl
  | some P =>
    cases hits[d]? with
    | none => rfl
    | some o =>
      cases o with
      | none => rfl
      | some h =>
        simp only [Option.map_some]
        unfold globalPoint
        congr 1
        show _ + (P.pos + ![0, 0, c]) = _
        rw [← add_assoc]
        rfl

/-- C234: if all planes are shifted by the same distance along the beam, the Kalman fit of a track with a hit gives the same result. -/
theorem C234_shift (fx : Fixer) (argsort : List ℝ → List Nat) (svd : List Vec3 → Vec3) (c : ℝ) (telescope scattering : List Plane)
    (alpha : List ℝ) (hits : List (Option Hit)) (fitDuts : List Nat) (energy mass : ℝ) (hne : telescope ≠ []) (hfd : ∀ d ∈ fitDuts, d < telescope.length)
    (hhit : ∃ d ∈ fitDuts, ∃ h, hits[d]? = some (some h)) (hperm : ∀ z, (argsort z).Perm (List.range z.length))
    (hsort : ∀ z : List ℝ, argsort (z.map (· + c)) = argsort z) :
    fitKalman fx argsort (AlignTel.lineFit svd) (telescope.map (shiftZ c)) (scattering.map (shiftZ c)) alpha hits fitDuts energy mass =
      fitKalman fx argsort (AlignTel.lineFit svd) telescope scattering alpha hits fitDuts energy mass := by
  have hmap : ∀ l : List Plane, List.Forall₂ (Moved 1 ![0, 0, c]) l (l.map (shiftZ c)) := by
    intro l
    induction l with
    | nil => exact .nil
    | cons P l ih => exact .cons (shiftZ_moved c P) ih
  have happ : telescope.map (shiftZ c) ++ scattering.map (shiftZ c) = (telescope ++ scattering).map (shiftZ c) := List.map_append.symm
  refine C234_fit fx argsort _ 1 ![0, 0, c] (by rw [Matrix.transpose_one, Matrix.one_mul]) telescope scattering _ _ (hmap _) (hmap _) alpha hits fitDuts energy mass
    hne hfd ?_ ?_ ?_ hperm
  · rw [happ, hitPoints_shift]
    refine lineFit_shift svd _ _ fun h0 => ?_
    obtain ⟨d, hd, h, hh⟩ := hhit
    have hlt : d < (telescope ++ scattering).length := by have := hfd d hd; rw [List.length_append]; omega
    have := List.filterMap_eq_nil_iff.mp h0 d hd
    rw [List.getElem?_eq_getElem hlt, hh] at this
    cases this
  · rw [happ, zIntersections_shift, Option.isSome_map]
  · intro z z' hz hz'
    rw [happ, zIntersections_shift, hz] at hz'
    rw [← Option.some.inj hz']
    exact hsort z

/-- Three flat planes 10 cm apart, two hits, shifted by 1 m. -/
example : ([flat 0, flat 100000, flat 200000] : List Plane) ≠ [] ∧ (∀ d ∈ [0, 2], d < ([flat 0, flat 100000, flat 200000] : List Plane).length) ∧
    (∃ d ∈ [0, 2], ∃ h, ([some ⟨10, 20, 5, 5⟩, none, some ⟨15, 18, 5, 5⟩] : List (Option Hit))[d]? = some (some h)) ∧
    (∀ z : List ℝ, ((fun z : List ℝ => List.range z.length) z).Perm (List.range z.length)) ∧
    (∀ z : List ℝ, (fun z : List ℝ => List.range z.length) (z.map (· + 1000000)) = (fun z : List ℝ => List.range z.length) z) := by
  refine ⟨by simp, by simp, ⟨0, by simp, _, rfl⟩, fun z => .refl _, fun z => ?_⟩
  simp only [List.length_map]

/-- The motion of C234 is not only a shift: a rotation by 90 degrees around z with a shift. -/
example : (!![0, -1, 0; 1, 0, 0; 0, 0, 1] : Mat3).transpose * !![0, -1, 0; 1, 0, 0; 0, 0, 1] = 1 ∧
    Moved !![0, -1, 0; 1, 0, 0; 0, 0, 1] ![1, 2, 3] (flat 10) ⟨![1, 2, 13], 0, 0, Real.pi / 2, 0.01, some (5, 5)⟩ := by
  have h1 : (!![0, -1, 0; 1, 0, 0; 0, 0, 1] : Mat3).transpose * !![0, -1, 0; 1, 0, 0; 0, 0, 1] = 1 := by
    ext i j
    fin_cases i <;> fin_cases j <;> simp [Matrix.mul_apply, Fin.sum_univ_succ]
  refine ⟨h1, ⟨?_, ?_, rfl, rfl⟩⟩
  · rw [flat_rot, Matrix.mul_one]
    show rotationMatrix 0 0 (Real.pi / 2) = _
    rw [rotationMatrix_eq]
    ext i j
    fin_cases i <;> fin_cases j <;> simp
  · ext i
    fin_cases i <;> simp [flat, Matrix.mulVec, dotProduct, Fin.sum_univ_succ] <;> norm_num

end BTA.Props
