import Verif.Spec.KalmanAlignShift
import Verif.Props.KalmanAlignFixed
/-
The alignment with a Kalman filter of a telescope with shifted DUTs: C219.
-/
namespace BTA.KAlign.Props
open BTA.Geo BTA.Kalman BTA.Spec BTA.KAlign Matrix
variable {n : Nat} {T : Type}

/-! ### One update -/

theorem psd_row (M : Mat6) (hM : M.PosSemidef) (w : Vec6) (k : Fin 6) : (M.mulVec w k) ^ 2 ≤ M k k * (w ⬝ᵥ M.mulVec w) := by
  have hsym : ∀ i j, M i j = M j i := by
    intro i j
    have := congrFun (congrFun hM.isHermitian.eq j) i
    simpa using this
  have key : ∀ t : ℝ, 0 ≤ M k k * (t * t) + (2 * M.mulVec w k) * t + w ⬝ᵥ M.mulVec w := by
    intro t
    have := hM.dotProduct_mulVec_nonneg (w + t • Pi.single k 1)
    simp only [star_trivial] at this
    have e1 : M.mulVec (t • Pi.single k 1) = t • fun i => M i k := by
      rw [Matrix.mulVec_smul]
      congr 1
      ext i
      simp
    have e2 : (w ⬝ᵥ fun i => M i k) = M.mulVec w k := by
      unfold mulVec
      rw [dotProduct_comm]
      congr 1
      ext i
      exact hsym i k
    rw [Matrix.mulVec_add, e1, add_dotProduct, dotProduct_add, dotProduct_add, dotProduct_smul, e2, smul_dotProduct, smul_dotProduct, single_one_dotProduct, dotProduct_smul,
      single_one_dotProduct] at this
    simp only [smul_eq_mul] at this
    linarith
  have := discrim_le_zero key
  unfold discrim at this
  nlinarith

theorem shift_step {H : ObsMat} {V : ObsCov} {C0 : Cov} {p0 : State} {E0 : Mat6} {R : Mat3} {a target w : Vec6} {m : Obs} (hV : V.PosDef) (hC : C0.PosSemidef)
    (hE : E0.PosSemidef) (he : target - a = E0.mulVec w) (hr : m - H.mulVec p0 = (KAlign.jacobian p0 R).mulVec (target - a)) :
    ∃ a1 E1, calculateParameters H V C0 p0 (some a) E0 R (some m) = .ok (some a1, E1) ∧ E1.PosSemidef ∧ target - a1 = E1.mulVec w ∧
      (E0 - E1).PosSemidef ∧ w ⬝ᵥ E1.mulVec w ≤ w ⬝ᵥ E0.mulVec w ∧ (∀ k, (∀ j, E0 k j = 0) → ∀ j, E1 k j = 0) ∧ ∀ k, E1 k k ≤ E0 k k := by
  have hS : (innovation H V C0 (KAlign.jacobian p0 R) E0).PosDef := by
    unfold innovation
    rw [add_assoc]
    exact hV.add_posSemidef ((psd_conj hC H).add (psd_conj hE _))
  have hd : (innovation H V C0 (KAlign.jacobian p0 R) E0).det ≠ 0 := hS.det_pos.ne'
  have hsym : E0ᵀ = E0 := by simpa using hE.isHermitian.eq
  refine ⟨_, _, by unfold calculateParameters; dsimp only; rw [if_neg hd]; rfl, newCov_psd (D := KAlign.jacobian p0 R) hV.posSemidef hC hE hd, ?_, ?_, ?_, ?_, ?_⟩
  · unfold newCov
    rw [hr, he, hsym, Matrix.sub_mulVec, ← sub_sub, he]
    simp only [Matrix.mulVec_mulVec, Matrix.mul_assoc]
  · unfold newCov
    rw [sub_sub_cancel]
    exact drop_psd hE hS
  · have := (drop_psd (D := KAlign.jacobian p0 R) hE hS).dotProduct_mulVec_nonneg w
    unfold newCov
    rw [Matrix.sub_mulVec, dotProduct_sub]
    simp only [star_trivial] at this
    linarith
  · intro k hk j
    exact newCov_row k hk _ j
  · intro k
    exact newCov_diag hE hS k

/-- State of the alignment of a DUT on its way to the true position. -/
structure Following (target w : Fin n → Vec6) (E : Fin n → Mat6) (s : Dyn n) (d : Fin n) : Prop where
  state : ∃ a, s.state d = some a ∧ target d - a = (s.cov d).mulVec (w d)
  psd : (s.cov d).PosSemidef
  less : w d ⬝ᵥ (s.cov d).mulVec (w d) ≤ w d ⬝ᵥ (E d).mulVec (w d)
  rows : ∀ k, (∀ j, E d k j = 0) → ∀ j, s.cov d k j = 0
  diag : ∀ k, s.cov d k k ≤ E d k k

theorem Following.congr {target w : Fin n → Vec6} {E : Fin n → Mat6} {s s' : Dyn n} {d : Fin n} (h : Following target w E s d) (h1 : s'.state d = s.state d)
    (h2 : s'.cov d = s.cov d) : Following target w E s' d := by
  obtain ⟨a, b, c, e, f⟩ := h
  exact ⟨by rw [h1, h2]; exact a, by rw [h2]; exact b, by rw [h2]; exact c, by rw [h2]; exact e, by rw [h2]; exact f⟩

/-- The fit gives the residual expected from the shift. -/
structure Points (al : Fin n → Dut.Alignment) (target : Fin n → Vec6) (f : Fit n) (t : Track n T) (s : Dyn n) (d : Fin n) : Prop where
  V : (f.V d).PosDef
  C0 : (f.C0 d).PosSemidef
  hit : ∃ m, t.hit d = some m ∧ ∀ a, s.state d = some a →
    m - (f.H d).mulVec (f.p0 d) = (KAlign.jacobian (f.p0 d) (rotationMatrix (al d).alpha (al d).beta (al d).gamma)ᵀ).mulVec (target d - a)

/-- If the distance is at most 5 percent of the initial errors, no step is too large. -/
theorem close_step {E0 E1 : Mat6} {a a1 target w : Vec6} (hE : E0.PosSemidef) (h1 : E1.PosSemidef) (hd : (E0 - E1).PosSemidef) (he : target - a = E0.mulVec w)
    (he1 : target - a1 = E1.mulVec w) (hw : w ⬝ᵥ E0.mulVec w ≤ 0.05 ^ 2) : changeTooLarge (some a) (some a1) E0 = false := by
  unfold changeTooLarge
  rw [List.any_eq_false]
  intro k _
  rw [decide_eq_true_eq, not_and, not_lt]
  intro _
  have hch : a1 k - a k = (E0 - E1).mulVec w k := by
    rw [Matrix.sub_mulVec, ← he, ← he1]
    simp
  have hrow := psd_row _ hd w k
  rw [hch]
  unfold deviationCuts
  have hkk : (E0 - E1) k k ≤ E0 k k := by
    rw [Matrix.sub_apply]
    have := h1.diag_nonneg (i := k)
    linarith
  have hww : w ⬝ᵥ (E0 - E1).mulVec w ≤ 0.05 ^ 2 := by
    rw [Matrix.sub_mulVec, dotProduct_sub]
    have := h1.dotProduct_mulVec_nonneg w
    simp only [star_trivial] at this
    linarith
  refine abs_le_of_sq_le_sq ?_ (mul_nonneg (by norm_num) (Real.sqrt_nonneg _))
  rw [mul_pow, Real.sq_sqrt hE.diag_nonneg, mul_comm]
  have h0 := hd.diag_nonneg (i := k)
  calc _ ≤ (E0 - E1) k k * (w ⬝ᵥ (E0 - E1).mulVec w) := hrow
    _ ≤ (E0 - E1) k k * 0.05 ^ 2 := mul_le_mul_of_nonneg_left hww h0
    _ ≤ E0 k k * 0.05 ^ 2 := mul_le_mul_of_nonneg_right hkk (by norm_num)

theorem updateLoop_shift {al : Fin n → Dut.Alignment} {target w : Fin n → Vec6} {E : Fin n → Mat6} {f : Fit n} {t : Track n T} (l : List (Fin n)) (hl : l.Nodup) (s : Dyn n)
    (hf : ∀ d ∈ l, Points al target f t s d) (hs : ∀ d, Following target w E s d) :
    ∃ s', updateLoop al f t l s = .ok s' ∧ (∀ d, Following target w E s' d) ∧
      ∀ d, w d ⬝ᵥ (E d).mulVec (w d) ≤ 0.05 ^ 2 → s'.count d = if d ∈ l then s.count d + 1 else s.count d := by
  induction l generalizing s with
  | nil => exact ⟨s, by rw [updateLoop], hs, by simp⟩
  | cons d ds ih =>
    rw [List.nodup_cons] at hl
    obtain ⟨hV, hC, m, hm, hres⟩ := hf d List.mem_cons_self
    obtain ⟨⟨a, ha, hea⟩, hpsd, hless, hrows, hdiag⟩ := hs d
    obtain ⟨a1, E1, k1, k2, k3, kd, k4, k5, k6⟩ := shift_step (w := w d) hV hC hpsd hea (hres a ha)
    by_cases hbig : changeTooLarge (some a) (some a1) (s.cov d) = true
    · have hstep : updateDut al f t d s = .ok s := by
        unfold updateDut
        rw [ha, hm, k1]
        dsimp only
        rw [hbig]
        simp
      obtain ⟨s', h1, h2, h3⟩ := ih hl.2 s (fun e he => hf e (List.mem_cons_of_mem _ he)) hs
      refine ⟨s', by rw [updateLoop, hstep]; exact h1, h2, fun e hw => ?_⟩
      rw [h3 e hw]
      by_cases he : e = d
      · subst he
        exact absurd hbig (by rw [close_step hpsd k2 kd hea k3 (hless.trans hw)]; simp)
      · simp [he]
    · have hstep : updateDut al f t d s = .ok { state := Function.update s.state d (some a1), cov := Function.update s.cov d E1, count := Function.update s.count d (s.count d + 1) } := by
        unfold updateDut
        rw [ha, hm, k1]
        dsimp only
        rw [if_neg hbig]
      obtain ⟨s', h1, h2, h3⟩ := ih hl.2 { state := Function.update s.state d (some a1), cov := Function.update s.cov d E1, count := Function.update s.count d (s.count d + 1) }
        (fun e he => by
          have hne : e ≠ d := fun h => hl.1 (h ▸ he)
          obtain ⟨p, q, m', r, u⟩ := hf e (List.mem_cons_of_mem _ he)
          exact ⟨p, q, m', r, fun b hb => u b (by simpa [hne] using hb)⟩)
        (fun e => by
          by_cases he : e = d
          · subst he
            refine ⟨⟨a1, by simp, by simpa using k3⟩, by simpa using k2, by simpa using k4.trans hless, ?_, ?_⟩
            · intro k hk
              simpa using k5 k (hrows k hk)
            · intro k
              simpa using (k6 k).trans (hdiag k)
          · exact (hs e).congr (by simp [he]) (by simp [he]))
      refine ⟨s', by rw [updateLoop, hstep]; exact h1, h2, fun e hw => ?_⟩
      rw [h3 e hw]
      by_cases he : e = d
      · subst he; simp [hl.1]
      · simp [he]

/-! ### The loops -/

/-- What a step has to give. -/
def Runs (cfg : Config n T) (Inv : Dyn n → Prop) (t : Track n T) : Prop :=
  ∀ s, Inv s → ∃ al', (∀ al0, setAlignments cfg s (List.finRange n) al0 = .ok al') ∧
    ∃ s' u, useTrack cfg s al' t (cfg.fit al' (record cfg s al').annealing t) = .ok (s', u) ∧ Inv s'

theorem trackLoop_runs (cfg : Config n T) (Inv : Dyn n → Prop) (ts : List (Track n T)) (ht : ∀ t ∈ ts, Runs cfg Inv t) (s : Dyn n) (hs : Inv s) (al : Fin n → Dut.Alignment) :
    ∃ c, trackLoop cfg ts s al = .ok c ∧ Inv c.dyn := by
  induction ts generalizing s al with
  | nil => exact ⟨_, by rw [trackLoop], hs⟩
  | cons t ts ih =>
    obtain ⟨al', h1, s', u, h2, h3⟩ := ht t List.mem_cons_self s hs
    rw [trackLoop, h1 al]
    dsimp only
    rw [h2]
    dsimp only
    split
    · exact ⟨_, rfl, h3⟩
    · obtain ⟨c, h4, h5⟩ := ih (fun t' h => ht t' (List.mem_cons_of_mem _ h)) s' h3 al'
      rw [h4]
      exact ⟨_, rfl, h5⟩

theorem chunkLoop_runs (cfg : Config n T) (Inv : Dyn n → Prop) (cs : List (List (Track n T))) (ht : ∀ t ∈ cs.flatten.filter (valid cfg.hitMask), Runs cfg Inv t) (s : Dyn n) (hs : Inv s)
    (al saved : Fin n → Dut.Alignment) (table : List (Record n)) : (chunkLoop cfg none cs s al saved table).err = none := by
  induction cs generalizing s al saved table with
  | nil => rfl
  | cons c cs ih =>
    rw [List.flatten_cons, List.filter_append] at ht
    obtain ⟨r, h1, h2⟩ := trackLoop_runs cfg Inv (c.filter (valid cfg.hitMask)) (fun t h => ht t (List.mem_append_left _ h)) s hs al
    rw [chunkLoop, h1]
    dsimp only
    split
    · rfl
    · exact ih (fun t h => ht t (List.mem_append_right _ h)) _ h2 _ _ _

/-- If every track can be used in every state with the invariant, the alignment runs through, and the invariant holds for every line of the tables. -/
theorem alignmentLoop_runs (cfg : Config n T) (Inv : Dyn n → Prop) (al : Fin n → Dut.Alignment) (cs : Nat) (cov : Fin n → Mat6) (tracks : List (Track n T)) (hread : ReadableTracks cs tracks)
    (hitDuts : List Nat) (hm : cfg.hitMask = hitMask hitDuts) (ht : ∀ t ∈ usable hitDuts tracks, Runs (startConfig cfg al) Inv t) (hs : Inv (initialDyn cov)) :
    (alignmentLoop cfg cs al cov tracks).err = none ∧
      (∀ r ∈ (alignmentLoop cfg cs al cov tracks).table, ∃ s, Inv s ∧ RecOf (startConfig cfg al) s r) ∧
      (alignmentLoop cfg cs al cov tracks).saved = lastAl al (alignmentLoop cfg cs al cov tracks).table := by
  obtain ⟨he, hv⟩ := tracks_read hread hitDuts
  obtain ⟨l, sf, htr, htab, hsaved, hpre, -⟩ := alignmentLoop_trace cfg cs al cov tracks
  rw [hm, hv] at hpre
  refine ⟨?_, ?_, hsaved⟩
  · unfold alignmentLoop
    dsimp only
    rw [he]
    refine chunkLoop_runs (startConfig cfg al) Inv _ ?_ _ hs _ _ _
    show ∀ t ∈ List.filter (valid cfg.hitMask) _, _
    rw [hm, hv]
    exact ht
  · have hinv := htr.invariant Inv (fun t => t ∈ usable hitDuts tracks) (fun s t r s' u h1 h2 h3 => by
      obtain ⟨al', k1, s'', u', k2, k3⟩ := ht t h2 s h1
      have hal : r.align = al' := by
        funext d
        have a1 := h3.1.1 d
        have a2 := (setAlignments_ok (List.finRange n) (List.nodup_finRange n) (k1 al)).1 d (List.mem_finRange d)
        rw [a1] at a2
        exact Except.ok.inj a2
      have hann : r.annealing = (record (startConfig cfg al) s al').annealing := by rw [h3.1.2]; rfl
      have h4 := h3.2
      rw [hal, hann, k2] at h4
      have := Except.ok.inj h4
      rw [Prod.mk.injEq] at this
      rw [← this.1]
      exact k3) hs (fun p hp => hpre.subset (List.mem_map_of_mem hp))
    intro r hr
    rw [htab, List.mem_map] at hr
    obtain ⟨p, hp, rfl⟩ := hr
    exact hinv.2 p hp

/-! ### The fit -/

/-- The position of the DUT is wrong: the residual of the hit, to all orders. -/
theorem residual_shift (P Q : Plane) (hrot : Q.rot = P.rot) (p : State) (m : Obs) (origin direction : Vec3) (hp : Describes P p origin direction)
    (hh : OnLine origin direction (globalPoint Q ![m 0, m 1, 0])) :
    m - obsMat.mulVec p = (KAlign.jacobian p P.rotᵀ).mulVec ![Q.pos 0 - P.pos 0, Q.pos 1 - P.pos 1, Q.pos 2 - P.pos 2, 0, 0, 0] := by
  obtain ⟨t, ht⟩ := (hp _).mpr hh
  have horth : P.rotᵀ * P.rot = 1 := rotationMatrix_orth _ _ _
  have := congrArg (fun v => P.rotᵀ.mulVec (v - P.pos)) ht
  simp only [trackPoint, trackDir, globalPoint, hrot] at this
  rw [add_sub_assoc, add_sub_right_comm, add_sub_cancel_right] at this
  rw [Matrix.mulVec_add, Matrix.mulVec_add, Matrix.mulVec_smul] at this
  simp only [Matrix.mulVec_mulVec, horth, Matrix.one_mulVec] at this
  have e0 := congrFun this 0
  have e1 := congrFun this 1
  have e2 := congrFun this 2
  generalize hR : P.rotᵀ = R at *
  simp [mulVec, dotProduct, Fin.sum_univ_succ] at e0 e1 e2
  ext i
  fin_cases i
  · simp [obsMat, KAlign.jacobian, extendSix, mulVec, dotProduct, Fin.sum_univ_succ, Matrix.mul_apply]
    linear_combination e0 - p 2 * e2
  · simp [obsMat, KAlign.jacobian, extendSix, mulVec, dotProduct, Fin.sum_univ_succ, Matrix.mul_apply]
    linear_combination e1 - p 3 * e2

theorem trackFit_shift (k : Tracker n) (al truth : Fin n → Dut.Alignment) (hk : Ready k al) (hang : ∀ d, SameAngles (al d) (truth d)) (fitDuts : List Nat) (hfit : FitDuts n fitDuts)
    (hsame : ∀ d : Fin n, d.val ∈ fitDuts → truth d = al d) (t : Candidate n) (ht : ExactHits k truth t) (ann : Fin n → ℝ) (hann : ∀ d, 0 < ann d) :
    ∃ f, trackFit k fitDuts al ann t = some f ∧ (f.chi2 = none ∨ f.chi2 = some 0) ∧
      ∀ d, (f.V d).PosDef ∧ (f.C0 d).PosSemidef ∧ ∃ m, t.hit d = some m ∧
        m - (f.H d).mulVec (f.p0 d) = (KAlign.jacobian (f.p0 d) (rotationMatrix (al d).alpha (al d).beta (al d).gamma)ᵀ).mulVec
          ![(truth d).x - (al d).x, (truth d).y - (al d).y, (truth d).z - (al d).z, 0, 0, 0] := by
  obtain ⟨origin, direction, hcr, hhit, hdiff⟩ := ht
  have hrot : ∀ d, (k.plane truth d).rot = (k.plane al d).rot := by
    intro d
    obtain ⟨h1, h2, h3⟩ := hang d
    show rotationMatrix (truth d).alpha (truth d).beta (truth d).gamma = rotationMatrix (al d).alpha (al d).beta (al d).gamma
    rw [h1, h2, h3]
  have hplane : ∀ d : Fin n, d.val ∈ fitDuts → k.plane truth d = k.plane al d := by
    intro d hd
    unfold Tracker.plane
    rw [hsame d hd]
  have hcr' : ∀ d, Crosses (k.plane al d) direction := by
    intro d
    have := hcr d
    unfold Crosses planeNormalOf at this ⊢
    rwa [hrot d] at this
  have hget : ∀ {α : Type} (g : Fin n → α) (d : Nat) (x : α), (List.ofFn g)[d]? = some x ↔ ∃ h : d < n, x = g ⟨d, h⟩ := by
    intro α g d x
    rw [List.getElem?_ofFn]
    by_cases h : d < n
    · simp [h, eq_comm]
    · simp [h]
  have hmem : ∀ {p : Plane → Prop}, (∀ d, p (k.plane al d)) → ∀ P ∈ List.ofFn (k.plane al) ++ [], p P := by
    intro p hp P hP
    rw [List.append_nil, List.mem_ofFn] at hP
    obtain ⟨d, rfl⟩ := hP
    exact hp d
  have herr : ∀ (d : Nat) (P : Plane) (hit : Hit), (List.ofFn (k.plane al))[d]? = some P → (List.ofFn (hitAt t))[d]? = some (some hit) → BTA.Props.HasError P hit := by
    intro d P hit hP hh
    obtain ⟨hd, rfl⟩ := (hget _ _ _).mp hP
    obtain ⟨_, e⟩ := (hget _ _ _).mp hh
    obtain ⟨m, hm, hon, he1, he2⟩ := hhit ⟨d, hd⟩
    unfold hitAt at e
    rw [hm] at e
    obtain rfl := Option.some.inj e
    unfold BTA.Props.HasError
    split
    · rename_i r hr
      exact hk.resolution ⟨d, hd⟩ r hr
    · exact ⟨he1, he2⟩
  obtain ⟨f, h1, h2, h3, h4, -⟩ := BTA.Props.C216_exact k.fx k.argsort k.svd (List.ofFn (k.plane al)) [] (List.ofFn ann) (List.ofFn (hitAt t)) fitDuts k.energy k.mass origin direction
    hk.sorts hk.singular (by rw [List.append_nil]; exact hk.order) (hmem hk.beam) (hmem hcr') (hmem hk.material) (by simp)
    (by
      intro a ha
      rw [List.mem_ofFn] at ha
      obtain ⟨d, rfl⟩ := ha
      exact hann d)
    (by
      intro d P hit _ hP hh
      rw [List.append_nil] at hP
      exact herr d P hit hP hh)
    (by simpa using hfit.1)
    (by
      intro d P hit hdf hP hh
      obtain ⟨hd, rfl⟩ := (hget _ _ _).mp hP
      obtain ⟨_, e⟩ := (hget _ _ _).mp hh
      obtain ⟨m, hm, hon, -⟩ := hhit ⟨d, hd⟩
      unfold hitAt at e
      rw [hm] at e
      obtain rfl := Option.some.inj e
      unfold space at hon
      rw [hplane ⟨d, hd⟩ hdf] at hon
      exact hon)
    (by
      obtain ⟨d, hd, e, he, hne⟩ := hfit.2
      obtain ⟨m, hm, -⟩ := hhit ⟨d, hfit.1 d hd⟩
      obtain ⟨m', hm', -⟩ := hhit ⟨e, hfit.1 e he⟩
      have hdi := hdiff ⟨d, hfit.1 d hd⟩ ⟨e, hfit.1 e he⟩ m m' (fun h => hne (congrArg Fin.val h)) hm hm'
      unfold space at hdi
      rw [hplane ⟨d, hfit.1 d hd⟩ hd, hplane ⟨e, hfit.1 e he⟩ he] at hdi
      refine ⟨d, hd, e, he, _, _, ⟨m 0, m 1, (t.data ⟨d, hfit.1 d hd⟩).1, (t.data ⟨d, hfit.1 d hd⟩).2⟩, ⟨m' 0, m' 1, (t.data ⟨e, hfit.1 e he⟩).1, (t.data ⟨e, hfit.1 e he⟩).2⟩, (hget _ _ _).mpr ⟨hfit.1 d hd, rfl⟩, (hget _ _ _).mpr ⟨hfit.1 e he, rfl⟩, (hget _ _ _).mpr ⟨hfit.1 d hd, ?_⟩, (hget _ _ _).mpr ⟨hfit.1 e he, ?_⟩,
        hdi⟩
      · unfold hitAt; rw [hm]; rfl
      · unfold hitAt; rw [hm']; rfl)
  have hlen : (List.ofFn (k.plane al)).length = n := List.length_ofFn
  refine ⟨_, by unfold trackFit; rw [h1]; dsimp only; rw [if_neg (by rw [h4]; simp)], ?_, ?_⟩
  · unfold reducedChi2
    dsimp only
    split
    · exact Or.inl rfl
    · exact Or.inr (by rw [h4, zero_div])
  · intro d
    obtain ⟨s, hs⟩ := BTA.Props.lookup_isSome f.planes d.val (by rw [h2, hlen]; exact List.mem_range.mpr d.isLt)
    obtain ⟨⟨P, hP, hdesc⟩, hpd⟩ := h3 _ (BTA.Props.lookup_some_mem f.planes d.val s hs)
    obtain ⟨_, rfl⟩ := (hget _ _ _).mp hP
    obtain ⟨m, hm, hon, he1, he2⟩ := hhit d
    have hat : hitAt t d = some ⟨m 0, m 1, (t.data d).1, (t.data d).2⟩ := by unfold hitAt; rw [hm]; rfl
    have hsm : smoothedAt f d = s := by unfold smoothedAt; rw [hs]; rfl
    dsimp only
    rw [hsm, hat]
    refine ⟨BTA.Props.obsCov_pd _ _ _ (hann d) (herr d.val _ _ ((hget _ _ _).mpr ⟨d.isLt, rfl⟩) ((hget _ _ _).mpr ⟨d.isLt, hat.symm⟩)), hpd.posSemidef, m, hm, ?_⟩
    exact residual_shift (k.plane al d) (k.plane truth d) (hrot d) s.x m origin direction hdesc hon

/-! ### The beginning -/

theorem initial_value {select tel : List Nat} {parameters : List (Option (List String))} {errors : Vec6} {cov : Fin n → Mat6}
    (h : initialAlignment select tel parameters errors = .ok cov) (d : Fin n) (k : Fin 6) (hk : ¬ Excluded select tel parameters d k) : cov d k k = errors k ^ 2 := by
  obtain ⟨C, hC, hc⟩ := initialAlignment_ok h d
  unfold Excluded at hk
  rw [not_or, not_or, not_not] at hk
  obtain ⟨h1, h2, h3⟩ := hk
  rcases initialCov_cases hC with ⟨hn, -⟩ | ⟨names, -, hn, rfl⟩
  · exact absurd h1 hn
  · have hin : parName k ∈ names := by
      by_contra hc'
      exact h2 ⟨names, hn, hc'⟩
    rw [hc]
    split
    · rename_i ht
      have h5 : k = 5 := by
        by_contra hne
        exact h3 ⟨ht, hne⟩
      subst h5
      unfold fixFive
      rw [if_neg (by decide), Matrix.diagonal_apply_eq]
      unfold variances
      rw [if_pos hin]
    · rw [Matrix.diagonal_apply_eq]
      unfold variances
      rw [if_pos hin]

theorem newAlignment_shift {a : Dut.Alignment} (hu : UsualAngles a) (v : Vec6) (h3 : v 3 = 0) (h4 : v 4 = 0) (h5 : v 5 = 0) :
    newAlignment (initialRotation a) (initialPosition a) (some v) = .ok { a with x := v 0 + a.x, y := v 1 + a.y, z := v 2 + a.z } := by
  unfold newAlignment
  have h1 : rotationMatrix 0 0 0 = 1 := by
    rw [rotationMatrix_eq]
    ext i j
    fin_cases i <;> fin_cases j <;> simp
  dsimp only
  rw [h3, h4, h5, h1, Matrix.transpose_one, Matrix.one_mul]
  unfold initialRotation
  rw [BTA.Props.C32_angles a.alpha a.beta a.gamma hu.1 hu.2.1 hu.2.2.1 hu.2.2.2]
  simp [initialPosition]

/-! ### The theorem -/

section
variable (select tel : List Nat) (parameters : List (Option (List String))) (errors : Vec6) (fitDuts : List Nat) (al truth : Fin n → Dut.Alignment)

/-- The shift of the DUTs. -/
def targetOf (al truth : Fin n → Dut.Alignment) (d : Fin n) : Vec6 := ![(truth d).x - (al d).x, (truth d).y - (al d).y, (truth d).z - (al d).z, 0, 0, 0]

/-- The shift divided by the initial variances. -/
noncomputable def weightOf (errors : Vec6) (al truth : Fin n → Dut.Alignment) (d : Fin n) : Vec6 := fun k => targetOf al truth d k / errors k ^ 2

theorem targetOf_par (hang : ∀ d, SameAngles (al d) (truth d)) (d : Fin n) (k : Fin 6) : targetOf al truth d k = par (truth d) k - par (al d) k := by
  obtain ⟨h1, h2, h3⟩ := hang d
  fin_cases k <;> simp [targetOf, par, h1, h2, h3]

variable {select tel parameters errors fitDuts al truth}

theorem initial_following (hsh : Shifted select tel parameters errors fitDuts al truth) {cov : Fin n → Mat6} (hcov : initialAlignment select tel parameters errors = .ok cov) (d : Fin n) :
    Following (targetOf al truth) (weightOf errors al truth) cov (initialDyn cov) d ∧
      weightOf errors al truth d ⬝ᵥ (cov d).mulVec (weightOf errors al truth d) = shiftInErrors errors (al d) (truth d) ^ 2 := by
  obtain ⟨v, hv, -, -⟩ := initial_diagonal hcov d
  have hval : ∀ k, targetOf al truth d k ≠ 0 → v k = errors k ^ 2 ∧ errors k ≠ 0 := by
    intro k hk
    rw [targetOf_par al truth hsh.angles d k, sub_ne_zero] at hk
    obtain ⟨h1, h2⟩ := hsh.aligned d k hk
    have := initial_value hcov d k h1
    rw [hv, Matrix.diagonal_apply_eq] at this
    exact ⟨this, h2⟩
  refine ⟨⟨⟨0, rfl, ?_⟩, initial_psd hcov d, le_refl _, fun _ h => h, fun _ => le_refl _⟩, ?_⟩
  · rw [sub_zero]
    show _ = (cov d).mulVec _
    rw [hv]
    ext k
    rw [Matrix.mulVec_diagonal]
    unfold weightOf
    by_cases h : targetOf al truth d k = 0
    · rw [h]; simp
    · obtain ⟨h1, h2⟩ := hval k h
      rw [h1]
      field_simp
  · have hsq : ∀ k, weightOf errors al truth d k * (v k * weightOf errors al truth d k) = (targetOf al truth d k / errors k) ^ 2 := by
      intro k
      unfold weightOf
      by_cases h : targetOf al truth d k = 0
      · rw [h]; simp
      · obtain ⟨h1, h2⟩ := hval k h
        rw [h1]
        field_simp
    unfold shiftInErrors
    rw [Real.sq_sqrt (by positivity), hv]
    unfold dotProduct
    simp only [Matrix.mulVec_diagonal, hsq]
    simp [Fin.sum_univ_succ, targetOf]
    ring

/-- The alignment that belongs to a state. -/
theorem following_alignment (hu : ∀ d, UsualAngles (al d)) (hsh : Shifted select tel parameters errors fitDuts al truth) {cov : Fin n → Mat6}
    (hcov : initialAlignment select tel parameters errors = .ok cov) (s : Dyn n) (hs : ∀ d, Following (targetOf al truth) (weightOf errors al truth) cov s d) (d : Fin n) :
    ∃ a b, s.state d = some a ∧ newAlignment (initialRotation (al d)) (initialPosition (al d)) (s.state d) = .ok b ∧ SameAngles (al d) b ∧
      targetOf al truth d - a = ![(truth d).x - b.x, (truth d).y - b.y, (truth d).z - b.z, 0, 0, 0] ∧
      ∀ k : Fin 6, k.val < 3 → par (truth d) k - par b k = (s.cov d).mulVec (weightOf errors al truth d) k ∧ (Excluded select tel parameters d k → par b k = par (al d) k) := by
  obtain ⟨⟨a, ha, hea⟩, -, -, hrows, -⟩ := hs d
  have hex : ∀ k, Excluded select tel parameters d k → a k = targetOf al truth d k := by
    intro k hk
    obtain ⟨-, hrow⟩ := initial_fixed hcov d k hk
    have h0 : (s.cov d).mulVec (weightOf errors al truth d) k = 0 := by
      unfold mulVec dotProduct
      exact Finset.sum_eq_zero fun j _ => by show s.cov d k j * _ = 0; rw [hrows k hrow j, zero_mul]
    have := congrFun hea k
    rw [h0, Pi.sub_apply, sub_eq_zero] at this
    exact this.symm
  have hrot : ∀ k : Fin 6, 3 ≤ k.val → a k = 0 := by
    intro k hk
    have ht : targetOf al truth d k = 0 := by
      fin_cases k <;> simp at hk <;> simp [targetOf]
    by_cases hd : truth d = al d
    · have hw : weightOf errors al truth d = 0 := by
        funext j
        unfold weightOf
        rw [targetOf_par al truth hsh.angles d j, hd]
        simp
      rw [hw, Matrix.mulVec_zero] at hea
      have := congrFun hea k
      rw [Pi.sub_apply, ht, Pi.zero_apply, zero_sub, neg_eq_zero] at this
      exact this
    · rw [hex k (hsh.rotations d hd k hk), ht]
  refine ⟨a, { al d with x := a 0 + (al d).x, y := a 1 + (al d).y, z := a 2 + (al d).z }, ha, by rw [ha]; exact newAlignment_shift (hu d) a (hrot 3 (by decide)) (hrot 4 (by decide)) (hrot 5 (by decide)), ⟨rfl, rfl, rfl⟩, ?_, ?_⟩
  · ext k
    have h3 := hrot 3 (by decide)
    have h4 := hrot 4 (by decide)
    have h5 := hrot 5 (by decide)
    fin_cases k <;> simp [targetOf, h3, h4, h5] <;> ring
  · intro k hk
    constructor
    · rw [← congrFun hea k]
      fin_cases k <;> simp at hk <;> simp [targetOf, par] <;> ring
    · intro he
      have h1 := hex k he
      have h2 : targetOf al truth d k = 0 := by
        rw [targetOf_par al truth hsh.angles d k, sub_eq_zero]
        by_contra hne
        exact (hsh.aligned d k hne).1 he
      rw [h2] at h1
      fin_cases k <;> simp at hk <;> simp at h1 <;> simp [par, h1]

theorem following_bound (hsh : Shifted select tel parameters errors fitDuts al truth) {cov : Fin n → Mat6} (hcov : initialAlignment select tel parameters errors = .ok cov) (s : Dyn n)
    (hs : ∀ d, Following (targetOf al truth) (weightOf errors al truth) cov s d) (d : Fin n) (k : Fin 6) :
    |(s.cov d).mulVec (weightOf errors al truth d) k| ≤ Real.sqrt (s.cov d k k) * shiftInErrors errors (al d) (truth d) ∧ Real.sqrt (s.cov d k k) ≤ |errors k| := by
  obtain ⟨-, hpsd, hless, -, hdiag⟩ := hs d
  rw [(initial_following hsh hcov d).2] at hless
  have h1 := psd_row _ hpsd (weightOf errors al truth d) k
  have h0 : 0 ≤ shiftInErrors errors (al d) (truth d) := Real.sqrt_nonneg _
  constructor
  · refine abs_le_of_sq_le_sq ?_ (mul_nonneg (Real.sqrt_nonneg _) h0)
    rw [mul_pow, Real.sq_sqrt hpsd.diag_nonneg]
    exact h1.trans (mul_le_mul_of_nonneg_left hless hpsd.diag_nonneg)
  · rw [← Real.sqrt_sq_eq_abs]
    refine Real.sqrt_le_sqrt ((hdiag k).trans ?_)
    obtain ⟨v, hv, hb, -⟩ := initial_diagonal hcov d
    rw [hv, Matrix.diagonal_apply_eq]
    exact (hb k).2

theorem following_step (k : Tracker n) (hready : ∀ al', OnTheWay select tel parameters errors al truth al' → Ready k al') (hu : ∀ d, UsualAngles (al d)) (hfit : FitDuts n fitDuts)
    (cfg : Config n (Fin n → ℝ × ℝ)) (hcfg : cfg.fit = trackFit k fitDuts) (hcut : 0 ≤ cfg.chi2Cut) (hf : 0 < cfg.annealingFactor)
    (hsh : Shifted select tel parameters errors fitDuts al truth) {cov : Fin n → Mat6} (hcov : initialAlignment select tel parameters errors = .ok cov) (t : Candidate n)
    (ht : ExactHits k truth t) (s : Dyn n) (hs : ∀ d, Following (targetOf al truth) (weightOf errors al truth) cov s d) :
    ∃ al', (∀ al0, setAlignments (startConfig cfg al) s (List.finRange n) al0 = .ok al') ∧
      ∃ s', useTrack (startConfig cfg al) s al' t ((startConfig cfg al).fit al' (record (startConfig cfg al) s al').annealing t) = .ok (s', true) ∧
        (∀ d, Following (targetOf al truth) (weightOf errors al truth) cov s' d) ∧
        ∀ d, shiftInErrors errors (al d) (truth d) ≤ 0.05 → s'.count d = s.count d + 1 := by
  choose a b h1 h2 h3 h4 h5 using following_alignment hu hsh hcov s hs
  have hset : ∀ al0, setAlignments (startConfig cfg al) s (List.finRange n) al0 = .ok b := by
    intro al0
    obtain ⟨al', h⟩ := setAlignments_exists (cfg := startConfig cfg al) (s := s) (List.finRange n) al0 (fun d _ => ⟨_, h2 d⟩)
    rw [h]
    have := (setAlignments_ok (List.finRange n) (List.nodup_finRange n) h).1
    congr 1
    funext d
    have h' := this d (List.mem_finRange d)
    have h'' : newAlignment ((startConfig cfg al).rot0 d) ((startConfig cfg al).pos0 d) (s.state d) = .ok (b d) := h2 d
    rw [h''] at h'
    exact (Except.ok.inj h').symm
  have hway : OnTheWay select tel parameters errors al truth b := by
    intro d
    refine ⟨h3 d, fun j hj => ⟨(h5 d j hj).2, ?_⟩⟩
    rw [(h5 d j hj).1]
    obtain ⟨g1, g2⟩ := following_bound hsh hcov s hs d j
    exact g1.trans (mul_le_mul_of_nonneg_right g2 (Real.sqrt_nonneg _))
  have hsame : ∀ d : Fin n, d.val ∈ fitDuts → truth d = b d := by
    intro d hd
    have htd := hsh.fit d hd
    have hpar : ∀ j : Fin 6, j.val < 3 → par (truth d) j = par (b d) j := by
      intro j hj
      have := (hway d).2 j hj
      have h0 : shiftInErrors errors (al d) (truth d) = 0 := by
        unfold shiftInErrors
        rw [htd]
        simp
      rw [h0, mul_zero] at this
      exact sub_eq_zero.mp (abs_nonpos_iff.mp this.2)
    have e0 := hpar 0 (by decide)
    have e1 := hpar 1 (by decide)
    have e2 := hpar 2 (by decide)
    simp [par] at e0 e1 e2
    obtain ⟨g1, g2, g3⟩ := h3 d
    obtain ⟨k1, k2, k3⟩ := hsh.angles d
    cases hb : b d
    cases htt : truth d
    rw [hb] at e0 e1 e2 g1 g2 g3
    rw [htt] at e0 e1 e2 k1 k2 k3
    simp only at e0 e1 e2 g1 g2 g3 k1 k2 k3
    rw [e0, e1, e2, k1, k2, k3, g1, g2, g3]
  have hang : ∀ d, SameAngles (b d) (truth d) := by
    intro d
    obtain ⟨g1, g2, g3⟩ := h3 d
    obtain ⟨k1, k2, k3⟩ := hsh.angles d
    exact ⟨k1.trans g1.symm, k2.trans g2.symm, k3.trans g3.symm⟩
  obtain ⟨f, f1, f2, f3⟩ := trackFit_shift k b truth (hready b hway) hang fitDuts hfit hsame t ht (record (startConfig cfg al) s b).annealing (fun d => annealing_pos _ hf _)
  obtain ⟨s', k1, k2, kc⟩ := updateLoop_shift (al := b) (target := targetOf al truth) (w := weightOf errors al truth) (E := cov) (f := f) (t := t) (List.finRange n) (List.nodup_finRange n) s
    (fun d _ => by
      obtain ⟨u1, u2, m, u3, u4⟩ := f3 d
      refine ⟨u1, u2, m, u3, fun a' ha' => ?_⟩
      rw [h1 d] at ha'
      obtain rfl := Option.some.inj ha'
      rw [h4 d]
      exact u4) hs
  refine ⟨b, hset, s', ?_, k2, fun d hd => by
    rw [kc d ?_, if_pos (List.mem_finRange d)]
    rw [(initial_following hsh hcov d).2]
    exact pow_le_pow_left₀ (Real.sqrt_nonneg _) hd 2⟩
  have hfit' : (startConfig cfg al).fit b (record (startConfig cfg al) s b).annealing t = some f := by
    show cfg.fit _ _ _ = _
    rw [hcfg]
    exact f1
  rw [hfit']
  unfold useTrack
  dsimp only
  have hgood : badChi2 f.chi2 (startConfig cfg al).chi2Cut = false := by
    show badChi2 f.chi2 cfg.chi2Cut = false
    rcases f2 with f2 | f2 <;> rw [f2] <;> simp [badChi2, hcut]
  rw [hgood, k1]
  simp

/-- A step of a trace is the step of `following_step`. -/
theorem step_unique {cfg : Config n T} {s s' s'' : Dyn n} {t : Track n T} {r : Record n} {u u' : Bool} {al' : Fin n → Dut.Alignment} (h : StepOf cfg s t r s' u)
    (h1 : ∀ al0, setAlignments cfg s (List.finRange n) al0 = .ok al') (h2 : useTrack cfg s al' t (cfg.fit al' (record cfg s al').annealing t) = .ok (s'', u')) : s' = s'' := by
  have hal : r.align = al' := by
    funext d
    have a1 := h.1.1 d
    have a2 := (setAlignments_ok (List.finRange n) (List.nodup_finRange n) (h1 r.align)).1 d (List.mem_finRange d)
    rw [a1] at a2
    exact Except.ok.inj a2
  have hann : r.annealing = (record cfg s al').annealing := by rw [h.1.2, hal]
  have h4 := h.2
  rw [hal, hann, h2] at h4
  have := Except.ok.inj h4
  rw [Prod.mk.injEq] at this
  exact this.1.symm

theorem trace_counts {cfg : Config n T} (Inv : Dyn n → Prop) (Q : Track n T → Prop) (d : Fin n)
    (hstep : ∀ s t r s' u, Inv s → Q t → StepOf cfg s t r s' u → Inv s' ∧ s'.count d = s.count d + 1) {s sf : Dyn n} {l : List (Track n T × Record n)} (h : Trace cfg s l sf)
    (hs : Inv s) (hq : ∀ p ∈ l, Q p.1) : sf.count d = s.count d + l.length := by
  induction h with
  | nil s => simp
  | cons h1 _ ih =>
    obtain ⟨k1, k2⟩ := hstep _ _ _ _ _ hs (hq _ List.mem_cons_self) h1
    rw [ih k1 (fun p hp => hq p (List.mem_cons_of_mem _ hp)), k2, List.length_cons]
    omega

end

/-- C219: DUTs that are not used for the fit are shifted, the tracks are straight and all hits exact, the translations of these DUTs are aligned. Then the
alignment runs through, and in every line of the output tables (the last one is the saved alignment) the distance to the true position is at most the error
given there, multiplied with the distance at the beginning in units of the initial errors. If only one coordinate is shifted, the part of the shift that is left
is exactly the square of the part of the error that is left. The rotations are not changed. -/
theorem C219_approaches_partial (k : Tracker n) (al truth : Fin n → Dut.Alignment) (select tel : List Nat) (parameters : List (Option (List String))) (errors : Vec6)
    (fitDuts : List Nat) (hfit : FitDuts n fitDuts) (hsh : Shifted select tel parameters errors fitDuts al truth)
    (hready : ∀ al', OnTheWay select tel parameters errors al truth al' → Ready k al') (hu : ∀ d, UsualAngles (al d))
    (cfg : Config n (Fin n → ℝ × ℝ)) (hcfg : cfg.fit = trackFit k fitDuts) (hcut : 0 ≤ cfg.chi2Cut) (hf : 0 < cfg.annealingFactor) (hitDuts : List Nat) (hm : cfg.hitMask = hitMask hitDuts)
    (cov : Fin n → Mat6) (hcov : initialAlignment select tel parameters errors = .ok cov)
    (cs : Nat) (tracks : List (Candidate n)) (hread : ReadableTracks cs tracks) (hex : ∀ t ∈ usable hitDuts tracks, ExactHits k truth t) :
    (alignmentLoop cfg cs al cov tracks).err = none ∧
    (alignmentLoop cfg cs al cov tracks).saved = (((alignmentLoop cfg cs al cov tracks).table.getLast?.map Record.align).getD al) ∧
    ∀ r ∈ (alignmentLoop cfg cs al cov tracks).table, ∀ d, SameAngles (al d) (r.align d) ∧ ∀ j : Fin 6, j.val < 3 →
      |par (truth d) j - par (r.align d) j| ≤ r.err d j * shiftInErrors errors (al d) (truth d) ∧
      ((∀ i, i ≠ j → par (truth d) i = par (al d) i) →
        (par (truth d) j - par (r.align d) j) * errors j ^ 2 = (par (truth d) j - par (al d) j) * r.err d j ^ 2) := by
  obtain ⟨h1, h2, h3⟩ := alignmentLoop_runs cfg (fun s => ∀ d, Following (targetOf al truth) (weightOf errors al truth) cov s d) al cs cov tracks hread hitDuts hm
    (fun t ht s hs => by
      obtain ⟨al', g1, s', g2, g3, -⟩ := following_step k hready hu hfit cfg hcfg hcut hf hsh hcov t (hex t ht) s hs
      exact ⟨al', g1, s', true, g2, g3⟩) (fun d => (initial_following hsh hcov d).1)
  refine ⟨h1, h3, fun r hr d => ?_⟩
  obtain ⟨s, hs, hrec⟩ := h2 r hr
  obtain ⟨a, b, -, g2, g3, -, g5⟩ := following_alignment hu hsh hcov s hs d
  have hb : r.align d = b := by
    have := hrec.1 d
    have g2' : newAlignment ((startConfig cfg al).rot0 d) ((startConfig cfg al).pos0 d) (s.state d) = .ok b := g2
    rw [g2'] at this
    exact (Except.ok.inj this).symm
  have he : ∀ j, r.err d j = Real.sqrt (s.cov d j j) := by intro j; rw [hrec.2]; rfl
  rw [hb]
  refine ⟨g3, fun j hj => ⟨?_, fun hone => ?_⟩⟩
  · rw [(g5 j hj).1, he]
    exact (following_bound hsh hcov s hs d j).1
  · rw [(g5 j hj).1, he, Real.sq_sqrt (hs d).psd.diag_nonneg]
    have hw : ∀ i, i ≠ j → weightOf errors al truth d i = 0 := by
      intro i hi
      unfold weightOf
      rw [targetOf_par al truth hsh.angles d i, hone i hi]
      simp
    have hsum : (s.cov d).mulVec (weightOf errors al truth d) j = s.cov d j j * weightOf errors al truth d j := by
      unfold mulVec dotProduct
      exact Finset.sum_eq_single j (fun i _ hi => by rw [hw i hi, mul_zero]) (fun h => absurd (Finset.mem_univ j) h)
    rw [hsum]
    unfold weightOf
    rw [targetOf_par al truth hsh.angles d j]
    by_cases h0 : errors j = 0
    · have : par (truth d) j - par (al d) j = 0 := by
        rw [sub_eq_zero]
        by_contra hne
        exact (hsh.aligned d j hne).2 h0
      rw [this]
      simp
    · field_simp

/-- C219: if the DUT is not further away than 5 percent of the initial errors, every track is used: the annealing factor in line `i` (counted from 0) is that
for `i` used tracks, and there is a line for every usable track (if there are not more than the maximum number). -/
theorem C219_close_partial (k : Tracker n) (al truth : Fin n → Dut.Alignment) (select tel : List Nat) (parameters : List (Option (List String))) (errors : Vec6)
    (fitDuts : List Nat) (hfit : FitDuts n fitDuts) (hsh : Shifted select tel parameters errors fitDuts al truth)
    (hready : ∀ al', OnTheWay select tel parameters errors al truth al' → Ready k al') (hu : ∀ d, UsualAngles (al d))
    (cfg : Config n (Fin n → ℝ × ℝ)) (hcfg : cfg.fit = trackFit k fitDuts) (hcut : 0 ≤ cfg.chi2Cut) (hf : 0 < cfg.annealingFactor) (hitDuts : List Nat) (hm : cfg.hitMask = hitMask hitDuts)
    (cov : Fin n → Mat6) (hcov : initialAlignment select tel parameters errors = .ok cov)
    (cs : Nat) (tracks : List (Candidate n)) (hread : ReadableTracks cs tracks) (hex : ∀ t ∈ usable hitDuts tracks, ExactHits k truth t)
    (d : Fin n) (hd : shiftInErrors errors (al d) (truth d) ≤ 0.05) :
    ((usable hitDuts tracks).length ≤ cfg.maxTracks → (alignmentLoop cfg cs al cov tracks).table.length = (usable hitDuts tracks).length) ∧
    ∀ i r, (alignmentLoop cfg cs al cov tracks).table[i]? = some r →
      r.annealing d = if i < cfg.annealingTracks then cfg.annealingFactor ^ (1 - (i : ℝ) / cfg.annealingTracks) else 1 := by
  have herr := (C219_approaches_partial k al truth select tel parameters errors fitDuts hfit hsh hready hu cfg hcfg hcut hf hitDuts hm cov hcov cs tracks hread hex).1
  refine ⟨fun hmax => (BTA.Props.C97_saved_partial cfg d cs al cov tracks hread hitDuts hm hmax herr).1, fun i r hr => ?_⟩
  obtain ⟨l, sf, htr, htab, -, hpre, -⟩ := alignmentLoop_trace cfg cs al cov tracks
  rw [hm, (tracks_read hread hitDuts).2] at hpre
  rw [htab, List.getElem?_map, Option.map_eq_some_iff] at hr
  obtain ⟨p, hp, rfl⟩ := hr
  obtain ⟨si, s', used, k1, k2, -⟩ := htr.get i p hp
  have hc := trace_counts (fun s => ∀ d, Following (targetOf al truth) (weightOf errors al truth) cov s d) (fun t => t ∈ usable hitDuts tracks) d
    (fun s t r s' u h1 h2 h3 => by
      obtain ⟨al', g1, s'', g2, g3, g4⟩ := following_step k hready hu hfit cfg hcfg hcut hf hsh hcov t (hex t h2) s h1
      rw [step_unique h3 g1 g2]
      exact ⟨g3, g4 d hd⟩) k1 (fun d => (initial_following hsh hcov d).1) (fun q hq => hpre.subset (List.mem_map_of_mem (List.mem_of_mem_take hq)))
  have hlt := (List.getElem?_eq_some_iff.mp hp).1
  have hsi : si.count d = i := by
    rw [hc, List.length_take]
    show 0 + _ = _
    omega
  have : p.2.annealing d = annealing (si.count d) cfg.annealingFactor cfg.annealingTracks := by rw [k2.1.2]; rfl
  rw [this, hsi]
  unfold annealing
  split
  · rename_i hlt
    have h0 : (cfg.annealingTracks : ℝ) ≠ 0 := by
      have : 0 < cfg.annealingTracks := by omega
      exact_mod_cast this.ne'
    rw [sub_div, div_self h0]
  · rfl

/-! ### Far away -/

/-- Nothing has changed, and the covariance of the DUT `d` is as at the beginning. -/
structure Stuck (d : Fin n) (E : Mat6) (s : Dyn n) : Prop where
  state : ∀ e, s.state e = some 0
  cov : ∀ e, (s.cov e).PosSemidef
  same : s.cov d = E

theorem updateLoop_stuck {al : Fin n → Dut.Alignment} {f : Fit n} {t : Track n T} {d : Fin n} {E : Mat6}
    (hf : ∀ e, e ≠ d → (f.V e).PosDef ∧ (f.C0 e).PosSemidef ∧ t.hit e = some ((f.H e).mulVec (f.p0 e)))
    (hd : ∃ a1 E1, calculateParameters (f.H d) (f.V d) (f.C0 d) (f.p0 d) (some 0) E (rotationMatrix (al d).alpha (al d).beta (al d).gamma)ᵀ (t.hit d) = .ok (some a1, E1) ∧
      changeTooLarge (some 0) (some a1) E = true) (l : List (Fin n)) (s : Dyn n) (hs : Stuck d E s) :
    ∃ s', updateLoop al f t l s = .ok s' ∧ Stuck d E s' := by
  induction l generalizing s with
  | nil => exact ⟨s, by rw [updateLoop], hs⟩
  | cons e es ih =>
    by_cases hed : e = d
    · subst hed
      obtain ⟨a1, E1, h1, h2⟩ := hd
      have hstep : updateDut al f t e s = .ok s := by
        unfold updateDut
        rw [hs.state, hs.same, h1]
        dsimp only
        rw [h2]
        simp
      obtain ⟨s', h3, h4⟩ := ih s hs
      exact ⟨s', by rw [updateLoop, hstep]; exact h3, h4⟩
    · obtain ⟨E1, h1, h2⟩ := calculateParameters_same (H := f.H e) (p0 := f.p0 e) (R := (rotationMatrix (al e).alpha (al e).beta (al e).gamma)ᵀ) (hf e hed).1 (hf e hed).2.1 (hs.cov e)
      have hstep : updateDut al f t e s = .ok { state := Function.update s.state e (some 0), cov := Function.update s.cov e E1, count := Function.update s.count e (s.count e + 1) } := by
        unfold updateDut
        rw [hs.state, (hf e hed).2.2, h1]
        dsimp only
        rw [changeTooLarge_same]
        simp
      obtain ⟨s', h3, h4⟩ := ih { state := Function.update s.state e (some 0), cov := Function.update s.cov e E1, count := Function.update s.count e (s.count e + 1) }
        ⟨fun e' => by
          by_cases he : e' = e
          · subst he; simp
          · simp [he, hs.state e'], fun e' => by
          by_cases he : e' = e
          · subst he; simpa using h2
          · simpa [he] using hs.cov e', by simpa [Ne.symm hed] using hs.same⟩
      exact ⟨s', by rw [updateLoop, hstep]; exact h3, h4⟩

/-- The update of a DUT that is far away is too large. -/
theorem far_update {V : ObsCov} {C0 : Cov} {p0 : State} {v : Vec6} (hV : V.PosDef) (hC : C0.PosSemidef) (hE : (diagonal v : Mat6).PosSemidef) (hv : 0 < v 0) :
    ∃ B : ℝ, ∀ x m : _, B < |x| → m - obsMat.mulVec p0 = (KAlign.jacobian p0 1).mulVec ![x, 0, 0, 0, 0, 0] →
      ∃ a1 E1, calculateParameters obsMat V C0 p0 (some 0) (diagonal v) 1 (some m) = .ok (some a1, E1) ∧ changeTooLarge (some 0) (some a1) (diagonal v) = true := by
  have hS : (innovation obsMat V C0 (KAlign.jacobian p0 1) (diagonal v)).PosDef := by
    unfold innovation
    rw [add_assoc]
    exact hV.add_posSemidef ((psd_conj hC _).add (psd_conj hE _))
  have hd : (innovation obsMat V C0 (KAlign.jacobian p0 1) (diagonal v)).det ≠ 0 := hS.det_pos.ne'
  generalize hSdef : innovation obsMat V C0 (KAlign.jacobian p0 1) (diagonal v) = S at hS hd
  have hcol : ∀ x : ℝ, (KAlign.jacobian p0 1).mulVec ![x, 0, 0, 0, 0, 0] = x • ![-1, 0] := by
    intro x
    ext i
    fin_cases i <;> simp [KAlign.jacobian, extendSix, mulVec, dotProduct, Fin.sum_univ_succ, Matrix.mul_apply]
  have hpos : 0 < S⁻¹ 0 0 := hS.inv.diag_pos
  have hsq := Real.sqrt_pos.mpr hv
  refine ⟨0.05 / (Real.sqrt (v 0) * S⁻¹ 0 0), fun x m hx hm => ⟨_, _, by unfold calculateParameters; dsimp only; rw [hSdef, if_neg hd]; rfl, ?_⟩⟩
  unfold changeTooLarge
  rw [List.any_eq_true]
  refine ⟨0, List.mem_finRange 0, ?_⟩
  rw [decide_eq_true_eq]
  refine ⟨by unfold deviationCuts; norm_num, ?_⟩
  rw [hm, hcol, Matrix.diagonal_apply_eq]
  have hval : ((diagonal v * ((KAlign.jacobian p0 1)ᵀ * S⁻¹)).mulVec (x • ![-1, 0])) 0 = v 0 * (S⁻¹ 0 0 * x) := by
    rw [← Matrix.mulVec_mulVec, Matrix.mulVec_diagonal, ← Matrix.mulVec_mulVec]
    congr 1
    simp [KAlign.jacobian, extendSix, mulVec, dotProduct, Fin.sum_univ_succ, Matrix.mul_apply]
  simp only [Pi.add_apply, Pi.zero_apply, zero_add, sub_zero, hval]
  rw [abs_mul, abs_mul, abs_of_pos hv, abs_of_pos hpos]
  rw [div_lt_iff₀ (mul_pos hsq hpos)] at hx
  unfold deviationCuts
  have : Real.sqrt (v 0) * Real.sqrt (v 0) = v 0 := Real.mul_self_sqrt hv.le
  nlinarith

theorem smoothed_same (l l' : List (Nat × Smoothed)) (h : l.map (fun r => (r.1, r.2.x, r.2.C)) = l'.map (fun r => (r.1, r.2.x, r.2.C))) (d : Nat) :
    ((l.lookup d).getD ⟨0, 0, none⟩).x = ((l'.lookup d).getD ⟨0, 0, none⟩).x ∧ ((l.lookup d).getD ⟨0, 0, none⟩).C = ((l'.lookup d).getD ⟨0, 0, none⟩).C := by
  induction l generalizing l' with
  | nil =>
    cases l' with
    | nil => exact ⟨rfl, rfl⟩
    | cons => simp at h
  | cons a l ih =>
    cases l' with
    | nil => simp at h
    | cons b l' =>
      rw [List.map_cons, List.map_cons, List.cons.injEq, Prod.mk.injEq, Prod.mk.injEq] at h
      obtain ⟨⟨h1, h2, h3⟩, h4⟩ := h
      obtain ⟨a1, a2⟩ := a
      obtain ⟨b1, b2⟩ := b
      simp only at h1 h2 h3
      subst h1
      rw [List.lookup_cons, List.lookup_cons]
      split
      · exact ⟨h2, h3⟩
      · exact ih l' h4

/-- The hit of a DUT that is not used for the fit has no influence. -/
theorem trackFit_same (k : Tracker n) (fitDuts : List Nat) (hfit : FitDuts n fitDuts) (al : Fin n → Dut.Alignment) (ann : Fin n → ℝ) (d : Fin n) (hd : d.val ∉ fitDuts)
    (t t' : Candidate n) (h : SameParticle d t t') (f f' : Fit n) (hf : trackFit k fitDuts al ann t = some f) (hf' : trackFit k fitDuts al ann t' = some f') :
    f'.p0 = f.p0 ∧ f'.C0 = f.C0 ∧ f'.H = f.H ∧ ((t.hit d).isSome = true → (t'.hit d).isSome = true → f'.V = f.V) := by
  obtain ⟨-, -, hdata, hhits⟩ := h
  unfold trackFit at hf hf'
  split at hf
  · cases hf
  rename_i g hg
  split at hf
  · cases hf
  split at hf'
  · cases hf'
  rename_i g' hg'
  split at hf'
  · cases hf'
  obtain rfl := Option.some.inj hf
  obtain rfl := Option.some.inj hf'
  have hat : ∀ e, e ≠ d → hitAt t' e = hitAt t e := by
    intro e he
    unfold hitAt
    rw [hhits e he, hdata]
  obtain ⟨hpl, -, -⟩ := BTA.Props.C69_unbiased _ _ _ _ _ _ _ _ _ _ _ (by simpa using hfit.1) (by
    intro e he
    rw [List.getElem?_ofFn, List.getElem?_ofFn]
    split
    · rename_i hlt
      rw [hat ⟨e, hlt⟩ (fun hc => hd (by rw [← hc]; exact he))]
    · rfl) _ _ hg hg'
  refine ⟨?_, ?_, rfl, ?_⟩
  · funext e
    exact (smoothed_same _ _ hpl e.val).1.symm
  · funext e
    exact (smoothed_same _ _ hpl e.val).2.symm
  · intro h1 h2
    funext e
    show obsCov (k.plane al e) (hitAt t' e) (ann e) = obsCov (k.plane al e) (hitAt t e) (ann e)
    by_cases he : e = d
    · subst he
      obtain ⟨m, hm⟩ := Option.isSome_iff_exists.mp h1
      obtain ⟨m', hm'⟩ := Option.isSome_iff_exists.mp h2
      unfold hitAt
      rw [hm, hm', hdata]
      unfold obsCov
      cases (k.plane al e).resolution <;> rfl
    · rw [hat e he]

theorem annealing_min (i : Nat) (factor : ℝ) (tracks : Nat) : annealing i factor tracks = annealing (min i tracks) factor tracks := by
  unfold annealing
  rcases Nat.lt_or_ge i tracks with h | h
  · rw [Nat.min_eq_left h.le]
  · rw [Nat.min_eq_right h, if_neg (by omega), if_neg (by omega)]

/-- One particle and given annealing factors: from some shift on the track is not used. -/
theorem far_track (k : Tracker n) (al : Fin n → Dut.Alignment) (hk : Ready k al) (fitDuts : List Nat) (hfit : FitDuts n fitDuts) (d : Fin n) (hd : d.val ∉ fitDuts)
    (hflat : (al d).alpha = 0 ∧ (al d).beta = 0 ∧ (al d).gamma = 0) (v : Vec6) (hE : (diagonal v : Mat6).PosSemidef) (hv : 0 < v 0)
    (ann : Fin n → ℝ) (hann : ∀ e, 0 < ann e) (t : Candidate n) (ht : ExactHits k al t) :
    ∃ B : ℝ, ∀ x : ℝ, B < |x| → ∀ t', SameParticle d t t' → ExactHits k (movedX al d x) t' →
      ∃ f, trackFit k fitDuts al ann t' = some f ∧ (f.chi2 = none ∨ f.chi2 = some 0) ∧
        (∀ e, e ≠ d → (f.V e).PosDef ∧ (f.C0 e).PosSemidef ∧ t'.hit e = some ((f.H e).mulVec (f.p0 e))) ∧
        ∃ a1 E1, calculateParameters (f.H d) (f.V d) (f.C0 d) (f.p0 d) (some 0) (diagonal v) (rotationMatrix (al d).alpha (al d).beta (al d).gamma)ᵀ (t'.hit d) = .ok (some a1, E1) ∧
          changeTooLarge (some 0) (some a1) (diagonal v) = true := by
  obtain ⟨f, h1, -, h3⟩ := trackFit_exact k al hk fitDuts hfit t ht ann hann
  obtain ⟨B, hB⟩ := far_update (p0 := f.p0 d) (h3 d).1 (h3 d).2.1 hE hv
  refine ⟨B, fun x hx t' hsame hex => ?_⟩
  have hang : ∀ e, SameAngles (al e) (movedX al d x e) := by
    intro e
    unfold movedX
    split
    · rename_i he
      subst he
      exact ⟨rfl, rfl, rfl⟩
    · exact ⟨rfl, rfl, rfl⟩
  obtain ⟨f', g1, g2, g3⟩ := trackFit_shift k al (movedX al d x) hk hang fitDuts hfit (fun e he => by
    unfold movedX
    rw [if_neg (fun hc => hd (by rw [← hc]; exact he))]) t' hex ann hann
  obtain ⟨m, hm, hres⟩ := (g3 d).2.2
  obtain ⟨e1, e2, e3, e4⟩ := trackFit_same k fitDuts hfit al ann d hd t t' hsame f f' h1 g1
  have e5 := e4 (by rw [(h3 d).2.2]; rfl) (by rw [hm]; rfl)
  have hH : f.H d = obsMat := by
    unfold trackFit at h1
    split at h1
    · cases h1
    · split at h1
      · cases h1
      · obtain rfl := Option.some.inj h1
        rfl
  have hrot : (rotationMatrix (al d).alpha (al d).beta (al d).gamma)ᵀ = 1 := by
    rw [hflat.1, hflat.2.1, hflat.2.2, rotationMatrix_eq]
    ext i j
    fin_cases i <;> fin_cases j <;> simp
  refine ⟨f', g1, g2, ?_, ?_⟩
  · intro e he
    obtain ⟨u1, u2, m', u3, u4⟩ := g3 e
    refine ⟨u1, u2, ?_⟩
    have h0 : (![(movedX al d x e).x - (al e).x, (movedX al d x e).y - (al e).y, (movedX al d x e).z - (al e).z, 0, 0, 0] : Vec6) = 0 := by
      unfold movedX
      rw [if_neg he]
      ext j
      fin_cases j <;> simp
    rw [h0, Matrix.mulVec_zero, sub_eq_zero] at u4
    rw [u3, u4]
  · rw [hrot, hm, e1, e2, e3, e5, hH]
    refine hB x m hx ?_
    rw [hrot, e1, e3, hH] at hres
    rw [hres]
    congr 1
    unfold movedX
    rw [if_pos rfl]
    ext j
    fin_cases j <;> simp

/-- A bound for all elements of a finite set. -/
theorem common_bound {α : Type} (s : Finset α) (P : α → ℝ → Prop) (h : ∀ a ∈ s, ∃ B : ℝ, P a B) (hmono : ∀ a B B', B ≤ B' → P a B → P a B') : ∃ B, ∀ a ∈ s, P a B := by
  classical
  induction s using Finset.induction_on with
  | empty => exact ⟨0, by simp⟩
  | insert a s _ ih =>
    obtain ⟨B, hB⟩ := ih (fun b hb => h b (Finset.mem_insert_of_mem hb))
    obtain ⟨B', hB'⟩ := h a (Finset.mem_insert_self a s)
    refine ⟨max B B', fun b hb => ?_⟩
    rcases Finset.mem_insert.mp hb with rfl | hb
    · exact hmono _ _ _ (le_max_right _ _) hB'
    · exact hmono _ _ _ (le_max_left _ _) (hB b hb)

/-- C219: but a DUT that is too far away is not moved at all. For every telescope, every file with tracks and every DUT that is not rotated and not used for the
fit, there is a distance: if the DUT is further away in x than that, the alignment runs through without an error and returns the configuration that it got. -/
theorem C219_far_fails (k : Tracker n) (al : Fin n → Dut.Alignment) (hk : Ready k al) (hu : ∀ d, UsualAngles (al d)) (fitDuts : List Nat) (hfit : FitDuts n fitDuts)
    (d : Fin n) (hd : d.val ∉ fitDuts) (hflat : (al d).alpha = 0 ∧ (al d).beta = 0 ∧ (al d).gamma = 0)
    (cfg : Config n (Fin n → ℝ × ℝ)) (hcfg : cfg.fit = trackFit k fitDuts) (hcut : 0 ≤ cfg.chi2Cut) (hf : 0 < cfg.annealingFactor) (hitDuts : List Nat) (hm : cfg.hitMask = hitMask hitDuts)
    (select tel : List Nat) (parameters : List (Option (List String))) (errors : Vec6) (hsel : ¬ Excluded select tel parameters d 0) (herr : errors 0 ≠ 0)
    (cov : Fin n → Mat6) (hcov : initialAlignment select tel parameters errors = .ok cov)
    (tracks : List (Candidate n)) (hex : ∀ t ∈ tracks, ExactHits k al t) :
    ∃ B : ℝ, ∀ x : ℝ, B < |x| → ∀ (cs : Nat) (tracks' : List (Candidate n)), ReadableTracks cs tracks' → (∀ t' ∈ tracks', ∃ t ∈ tracks, SameParticle d t t') →
      (∀ t' ∈ usable hitDuts tracks', ExactHits k (movedX al d x) t') →
      (alignmentLoop cfg cs al cov tracks').err = none ∧ (alignmentLoop cfg cs al cov tracks').saved = al ∧
      ∀ r ∈ (alignmentLoop cfg cs al cov tracks').table, r.align = al := by
  classical
  obtain ⟨v, hv, -, -⟩ := initial_diagonal hcov d
  have hE : (diagonal v : Mat6).PosSemidef := by rw [← hv]; exact initial_psd hcov d
  have hv0 : 0 < v 0 := by
    have := initial_value hcov d 0 hsel
    rw [hv, Matrix.diagonal_apply_eq] at this
    rw [this]
    positivity
  obtain ⟨B, hB⟩ := common_bound (tracks.toFinset ×ˢ (Finset.univ : Finset (Fin n → Fin (cfg.annealingTracks + 1))))
    (fun a B => ∀ x : ℝ, B < |x| → ∀ t', SameParticle d a.1 t' → ExactHits k (movedX al d x) t' →
      ∃ f, trackFit k fitDuts al (fun e => annealing (a.2 e).val cfg.annealingFactor cfg.annealingTracks) t' = some f ∧ (f.chi2 = none ∨ f.chi2 = some 0) ∧
        (∀ e, e ≠ d → (f.V e).PosDef ∧ (f.C0 e).PosSemidef ∧ t'.hit e = some ((f.H e).mulVec (f.p0 e))) ∧
        ∃ a1 E1, calculateParameters (f.H d) (f.V d) (f.C0 d) (f.p0 d) (some 0) (diagonal v) (rotationMatrix (al d).alpha (al d).beta (al d).gamma)ᵀ (t'.hit d) = .ok (some a1, E1) ∧
          changeTooLarge (some 0) (some a1) (diagonal v) = true)
    (fun a ha => far_track k al hk fitDuts hfit d hd hflat v hE hv0 _ (fun e => annealing_pos _ hf _) a.1 (hex a.1 (by
      rw [Finset.mem_product] at ha
      exact List.mem_toFinset.mp ha.1)))
    (fun a B B' hle h x hx => h x (lt_of_le_of_lt hle hx))
  refine ⟨B, fun x hx cs tracks' hread hpart hexact => ?_⟩
  have hrun : ∀ t' ∈ usable hitDuts tracks', Runs (startConfig cfg al) (Stuck d (cov d)) t' := by
    intro t' ht' s hs
    obtain ⟨t, ht, hsame⟩ := hpart t' (List.mem_filter.mp ht').1
    obtain ⟨f, f1, f2, f3, f4⟩ := hB (t, fun e => ⟨min (s.count e) cfg.annealingTracks, by omega⟩) (by simp [ht]) x hx t' hsame (hexact t' ht')
    rw [← hv] at f4
    obtain ⟨s', h3, h4⟩ := updateLoop_stuck (al := al) f3 f4 (List.finRange n) s hs
    refine ⟨al, setAlignments_same cfg al hu s hs.state, s', true, ?_, h4⟩
    have hfit' : (startConfig cfg al).fit al (record (startConfig cfg al) s al).annealing t' = some f := by
      show cfg.fit _ _ _ = _
      rw [hcfg, ← f1]
      congr 1
      funext e
      exact annealing_min _ _ _
    rw [hfit']
    unfold useTrack
    dsimp only
    have hgood : badChi2 f.chi2 (startConfig cfg al).chi2Cut = false := by
      show badChi2 f.chi2 cfg.chi2Cut = false
      rcases f2 with f2 | f2 <;> rw [f2] <;> simp [badChi2, hcut]
    rw [hgood, h3]
    simp
  obtain ⟨h1, h2, h3⟩ := alignmentLoop_runs cfg (Stuck d (cov d)) al cs cov tracks' hread hitDuts hm hrun ⟨fun _ => rfl, initial_psd hcov, rfl⟩
  have hall : ∀ r ∈ (alignmentLoop cfg cs al cov tracks').table, r.align = al := by
    intro r hr
    obtain ⟨s, hs, hrec⟩ := h2 r hr
    funext e
    have := hrec.1 e
    rw [hs.state e] at this
    have hz : newAlignment ((startConfig cfg al).rot0 e) ((startConfig cfg al).pos0 e) (some 0) = .ok (al e) := newAlignment_zero (hu e)
    rw [hz] at this
    exact (Except.ok.inj this).symm
  refine ⟨h1, ?_, hall⟩
  rw [h3]
  unfold lastAl
  cases hl : (alignmentLoop cfg cs al cov tracks').table.getLast? with
  | none => rfl
  | some r => exact hall r (List.mem_of_getLast? hl)

/-! ### Example: three DUTs, the one in the middle is shifted by any distance -/

/-- The tracks of C218, seen with the DUT in the middle shifted by `x`. -/
noncomputable def slantedX (x : ℝ) (i : Nat) : Candidate 3 := ⟨i, 7, fun d => some ![i + 5 * d.val - if d = 1 then x else 0, 2], fun _ => (4, 4)⟩

/-- Three DUTs in a row, shifted in x. -/
def Row (al : Fin 3 → Dut.Alignment) : Prop := ∀ d, al d = ⟨(al d).x, 0, 10 * d.val, 0, 0, 0⟩

theorem row_normal (k : Tracker 3) (al : Fin 3 → Dut.Alignment) (hrow : Row al) (d : Fin 3) : (k.plane al d).rot = 1 ∧ planeNormalOf (k.plane al d) = ![0, 0, 1] := by
  have h : (k.plane al d).rot = 1 := by
    show rotationMatrix (al d).alpha (al d).beta (al d).gamma = 1
    rw [hrow d, rotationMatrix_eq]
    ext i j
    fin_cases i <;> fin_cases j <;> simp
  refine ⟨h, ?_⟩
  unfold planeNormalOf
  rw [h, one_mulVec]

theorem row_ready (k : Tracker 3) (hs : ∀ z, SortsIndices z (k.argsort z)) (hsvd : ∀ rows, AlignTel.IsFirstSingular rows (k.svd rows)) (hb : k.budget = fun _ => 0.01)
    (hr : k.resolution = fun _ => some (5, 5)) (al : Fin 3 → Dut.Alignment) (hrow : Row al) : Ready k al := by
  refine ⟨hs, hsvd, ?_, ?_, ?_, ?_⟩
  · have hz : ∀ (i : Nat) (P : Plane) (z : ℝ), (List.ofFn (k.plane al))[i]? = some P → OnPlane P.pos (planeNormalOf P) ![0, 0, z] → z = 10 * i := by
      intro i P z hP h
      rw [List.getElem?_ofFn] at hP
      split at hP
      · rename_i hi
        obtain rfl := Option.some.inj hP
        unfold OnPlane at h
        rw [(row_normal k al hrow _).2] at h
        have hz := congrArg Dut.Alignment.z (hrow ⟨i, hi⟩)
        simp only at hz
        simp [Geo.dot, Tracker.plane, hz] at h
        linarith
      · cases hP
    intro i j P Q z z' hij hP hQ h1 h2
    rw [hz i P z hP h1, hz j Q z' hQ h2]
    have : (i : ℝ) < j := by exact_mod_cast hij
    linarith
  · intro d
    unfold Crosses
    rw [(row_normal k al hrow d).2]
    simp [Geo.dot]
  · intro d
    rw [hb]
    norm_num
  · intro d r h
    rw [hr] at h
    obtain rfl := Option.some.inj h
    norm_num

theorem row_moved (x : ℝ) : Row (movedX rowOfThree 1 x) := by
  intro d
  unfold movedX
  split
  · rename_i h; subst h; rfl
  · rfl

theorem slantedX_exact (k : Tracker 3) (x : ℝ) (i : Nat) : ExactHits k (movedX rowOfThree 1 x) (slantedX x i) := by
  have hspace : ∀ (d : Fin 3) m, space k (movedX rowOfThree 1 x) d m = ![m 0 + (if d = 1 then x else 0), m 1, 10 * (d.val : ℝ)] := by
    intro d m
    unfold space globalPoint
    rw [(row_normal k _ (row_moved x) d).1, one_mulVec]
    ext j
    fin_cases j <;> fin_cases d <;> simp [Tracker.plane, movedX, rowOfThree]
  refine ⟨![i, 2, 0], ![0.5, 0, 1], ?_, ?_, ?_⟩
  · intro d
    unfold Crosses
    rw [(row_normal k _ (row_moved x) d).2]
    simp [Geo.dot]
  · intro d
    refine ⟨_, rfl, ⟨10 * d.val, ?_⟩, by simp [slantedX], by simp [slantedX]⟩
    rw [hspace]
    ext j
    fin_cases j <;> simp
    ring
  · intro d e m m' hne _ _ h
    rw [hspace, hspace] at h
    have := congrFun h 2
    simp at this
    exact hne (Fin.ext this)

theorem slantedX_read (x : ℝ) (N : Nat) : ReadableTracks 10 ((List.range N).map (slantedX x)) := by
  have h := slanted_read N
  have e : ((List.range N).map (slantedX x)).map Track.event = ((List.range N).map slanted).map Track.event := by
    rw [List.map_map, List.map_map]
    rfl
  unfold ReadableTracks SortedBy at h ⊢
  refine ⟨?_, fun ev => ?_⟩
  · have h1 := h.1
    rw [← List.pairwise_map (f := Track.event) (R := (· ≤ ·))] at h1 ⊢
    rw [e]
    exact h1
  · have h2 := h.2 ev
    unfold BTA.Spec.multiplicity at h2 ⊢
    rw [← List.countP_eq_length_filter] at h2 ⊢
    have : ∀ l : List (Candidate 3), l.countP (fun r => decide (r.event = ev)) = (l.map Track.event).countP (fun a => decide (a = ev)) := by
      intro l
      rw [List.countP_map]
      rfl
    rw [this] at h2 ⊢
    rw [e]
    exact h2

/-- C219: the DUT in the middle is at `x` instead of 0, the fit uses the other two. In every line, the part of the shift that is left is the square of the
error (the initial error is 1). -/
example (fx : Fixer) (x : ℝ) (N : Nat) : ∃ (k : Tracker 3) (cov : Fin 3 → Mat6) (cfg : Config 3 (Fin 3 → ℝ × ℝ)), cfg.fit = trackFit k [0, 2] ∧
    initialAlignment [1] [0, 2] (BTA.Props.exParameters "translation_x") (fun _ => 1) = .ok cov ∧
    (alignmentLoop cfg 10 rowOfThree cov ((List.range N).map (slantedX x))).err = none ∧
    ∀ r ∈ (alignmentLoop cfg 10 rowOfThree cov ((List.range N).map (slantedX x))).table, x - (r.align 1).x = x * r.err 1 0 ^ 2 := by
  obtain ⟨svd, hsvd⟩ := AlignTel.exists_svd
  obtain ⟨argsort, hsort⟩ := BTA.Props.exists_argsort
  obtain ⟨cov, hc, -⟩ := BTA.Props.exInitial "translation_x"
  let k : Tracker 3 := ⟨fun _ => 0.01, fun _ => some (5, 5), 5000, 0.511, fx, argsort, svd⟩
  let cfg : Config 3 (Fin 3 → ℝ × ℝ) := ⟨fun _ => 1, fun _ => 0, trackFit k [0, 2], 10, 100, 20, 100, hitMask [0, 1, 2]⟩
  have hex0 : ∀ j : Fin 6, j ≠ 0 → parName j ∉ ["translation_x"] := by decide
  have hexc : ∀ j : Fin 6, j ≠ 0 → Excluded [1] [0, 2] (BTA.Props.exParameters "translation_x") 1 j := by
    intro j hj
    exact Or.inr (Or.inl ⟨["translation_x"], rfl, hex0 j hj⟩)
  have hang : ∀ d, SameAngles (rowOfThree d) (movedX rowOfThree 1 x d) := by
    intro d
    unfold movedX
    split <;> exact ⟨rfl, rfl, rfl⟩
  have hother : ∀ d : Fin 3, d ≠ 1 → movedX rowOfThree 1 x d = rowOfThree d := by
    intro d hd
    unfold movedX
    rw [if_neg hd]
  have hsh : Shifted [1] [0, 2] (BTA.Props.exParameters "translation_x") (fun _ => 1) [0, 2] rowOfThree (movedX rowOfThree 1 x) := by
    refine ⟨hang, ?_, ?_, ?_⟩
    · intro d hd
      refine hother d ?_
      rintro rfl
      revert hd
      decide
    · intro d j hne
      have hd : d = 1 := by
        by_contra hd
        exact hne (by rw [hother d hd])
      subst hd
      have hj : j = 0 := by
        by_contra hj
        apply hne
        fin_cases j <;> simp [movedX, rowOfThree, par] at hj ⊢
      subst hj
      refine ⟨?_, one_ne_zero⟩
      rintro (h | ⟨names, h, h'⟩ | ⟨h, -⟩)
      · exact h (by decide)
      · have : names = ["translation_x"] := by
          have := Option.some.inj (Option.some.inj (show some (some ["translation_x"]) = some (some names) from h))
          exact this.symm
        rw [this] at h'
        exact h' (by decide)
      · rcases h with h | h <;> exact absurd h (by decide)
    · intro d hne j hj
      have hd : d = 1 := by
        by_contra hd
        exact hne (hother d hd)
      subst hd
      exact hexc j (fun h => by rw [h] at hj; exact absurd hj (by decide))
  have hready : ∀ al', OnTheWay [1] [0, 2] (BTA.Props.exParameters "translation_x") (fun _ => 1) rowOfThree (movedX rowOfThree 1 x) al' → Ready k al' := by
    intro al' h
    refine row_ready k hsort hsvd rfl rfl al' (fun d => ?_)
    obtain ⟨⟨a1, a2, a3⟩, hp⟩ := h d
    have hyz : (al' d).y = (rowOfThree d).y ∧ (al' d).z = (rowOfThree d).z := by
      by_cases hd : d = 1
      · subst hd
        exact ⟨by simpa [par] using (hp 1 (by decide)).1 (hexc 1 (by decide)), by simpa [par] using (hp 2 (by decide)).1 (hexc 2 (by decide))⟩
      · have h0 : shiftInErrors (fun _ => 1) (rowOfThree d) (movedX rowOfThree 1 x d) = 0 := by
          rw [hother d hd]
          simp [shiftInErrors]
        have e1 := (hp 1 (by decide)).2
        have e2 := (hp 2 (by decide)).2
        rw [h0, mul_zero, hother d hd] at e1 e2
        exact ⟨by simpa [par] using (sub_eq_zero.mp (abs_nonpos_iff.mp e1)).symm, by simpa [par] using (sub_eq_zero.mp (abs_nonpos_iff.mp e2)).symm⟩
    cases hb : al' d
    rw [hb] at a1 a2 a3 hyz
    simp only [rowOfThree] at a1 a2 a3 hyz
    rw [a1, a2, a3, hyz.1, hyz.2]
  obtain ⟨h1, -, h3⟩ := C219_approaches_partial k rowOfThree (movedX rowOfThree 1 x) [1] [0, 2] (BTA.Props.exParameters "translation_x") (fun _ => 1) [0, 2]
    ⟨by decide, 0, by decide, 2, by decide, by decide⟩ hsh hready row_usual cfg rfl (show (0 : ℝ) ≤ 10 by norm_num) (show (0 : ℝ) < 100 by norm_num) [0, 1, 2] rfl cov hc 10 _
    (slantedX_read x N) (fun t ht => by
      obtain ⟨i, -, rfl⟩ := List.mem_map.mp (List.mem_filter.mp ht).1
      exact slantedX_exact k x i)
  refine ⟨k, cov, cfg, rfl, hc, h1, fun r hr => ?_⟩
  have := ((h3 r hr 1).2 0 (by decide)).2 (fun j hj => by fin_cases j <;> simp [movedX, rowOfThree, par] at hj ⊢)
  simpa [movedX, rowOfThree, par] using this

/-- C219: and if it is far enough away, it stays at 0. -/
example (fx : Fixer) (N : Nat) : ∃ (k : Tracker 3) (cov : Fin 3 → Mat6) (cfg : Config 3 (Fin 3 → ℝ × ℝ)) (B : ℝ), cfg.fit = trackFit k [0, 2] ∧
    initialAlignment [1] [0, 2] (BTA.Props.exParameters "translation_x") (fun _ => 1) = .ok cov ∧
    ∀ x : ℝ, B < |x| → (∀ i, ExactHits k (movedX rowOfThree 1 x) (slantedX x i)) ∧
      (alignmentLoop cfg 10 rowOfThree cov ((List.range N).map (slantedX x))).err = none ∧
      (alignmentLoop cfg 10 rowOfThree cov ((List.range N).map (slantedX x))).saved = rowOfThree := by
  obtain ⟨svd, hsvd⟩ := AlignTel.exists_svd
  obtain ⟨argsort, hsort⟩ := BTA.Props.exists_argsort
  obtain ⟨cov, hc, -⟩ := BTA.Props.exInitial "translation_x"
  let k : Tracker 3 := ⟨fun _ => 0.01, fun _ => some (5, 5), 5000, 0.511, fx, argsort, svd⟩
  let cfg : Config 3 (Fin 3 → ℝ × ℝ) := ⟨fun _ => 1, fun _ => 0, trackFit k [0, 2], 10, 100, 20, 100, hitMask [0, 1, 2]⟩
  obtain ⟨hp, hk⟩ := ready_row k hsort hsvd rfl rfl
  obtain ⟨B, hB⟩ := C219_far_fails k rowOfThree hk row_usual [0, 2] ⟨by decide, 0, by decide, 2, by decide, by decide⟩ 1 (by decide) ⟨rfl, rfl, rfl⟩ cfg rfl
    (show (0 : ℝ) ≤ 10 by norm_num) (show (0 : ℝ) < 100 by norm_num) [0, 1, 2] rfl [1] [0, 2] (BTA.Props.exParameters "translation_x") (fun _ => 1) (by
      rintro (h | ⟨names, h, h'⟩ | ⟨h, -⟩)
      · exact h (by decide)
      · have : names = ["translation_x"] := by
          have := Option.some.inj (Option.some.inj (show some (some ["translation_x"]) = some (some names) from h))
          exact this.symm
        rw [this] at h'
        exact h' (by decide)
      · rcases h with h | h <;> exact absurd h (by decide)) one_ne_zero cov hc ((List.range N).map slanted) (fun t ht => by
      obtain ⟨i, -, rfl⟩ := List.mem_map.mp ht
      exact slanted_exact k hp i)
  refine ⟨k, cov, cfg, B, rfl, hc, fun x hx => ⟨slantedX_exact k x, ?_⟩⟩
  obtain ⟨h1, h2, -⟩ := hB x hx 10 ((List.range N).map (slantedX x)) (slantedX_read x N) (fun t' ht' => by
    obtain ⟨i, hi, rfl⟩ := List.mem_map.mp ht'
    refine ⟨slanted i, List.mem_map_of_mem hi, rfl, rfl, rfl, fun e he => ?_⟩
    simp [slantedX, slanted, he]) (fun t ht => by
      obtain ⟨i, -, rfl⟩ := List.mem_map.mp (List.mem_filter.mp ht).1
      exact slantedX_exact k x i)
  exact ⟨h1, h2⟩

end BTA.KAlign.Props
