import Verif.Lemmas.KalmanFilter
import Verif.Lemmas.KalmanTrack
/-
The filters and the smoother for any number of planes.
-/
namespace BTA.Kalman
open BTA.Geo BTA.Spec Matrix

theorem chiSquare_nonneg {V : ObsCov} (h : V.PosSemidef) (r : Obs) : 0 ≤ chiSquare r V := by
  unfold chiSquare matInverse
  split
  · exact quad_nonneg h r
  · exact quad_nonneg h.inv r

theorem checkCov_psd (fx : Fixer) {C : Cov} (h : C.PosSemidef) : checkCov fx C = some C := by
  unfold checkCov; rw [if_pos h]

theorem checkObsCov_psd (fx : Fixer) {C : ObsCov} (h : C.PosSemidef) : checkObsCov fx C = some C := by
  unfold checkObsCov; rw [if_pos h]

/-- What a correct filter does at a plane. -/
structure OutOk (S : Setup) (ref : State) (d : Nat) (o : Out) : Prop where
  psd : o.C.PosSemidef
  atMost : AtMost o.C o.predC
  some_iff : o.chi2.isSome = (S.obs d).isSome
  nonneg : ∀ c, o.chi2 = some c → 0 ≤ c
  unused : S.fit d = false ∨ S.obs d = none → o.x = o.predX ∧ o.C = o.predC ∧ o.gain = 0
  used : S.fit d = true → ∀ m, S.obs d = some m →
    o.gain = gainOf o.predC (S.H d) (S.V d) ∧
    o.x = o.predX + o.gain.mulVec (m - (S.H d).mulVec (o.predX + ref)) ∧ o.C = updCov o.predC (S.H d) (S.V d) ∧
    o.chi2 = some (chiSquare (m - (S.H d).mulVec (o.x + ref)) (S.V d - S.H d * (o.C * (S.H d).transpose)))

theorem correctPlane_spec (S : Setup) (hS : Regular S) (fx : Fixer) (ref : State) (d : Nat) (x : State) (C : Cov) (hC : C.PosSemidef) :
    ∃ o, correctPlane S fx ref d x C = some o ∧ o.predX = x ∧ o.predC = C ∧ OutOk S ref d o := by
  unfold correctPlane
  by_cases hf : S.fit d = true
  · rw [if_pos hf]
    cases hm : S.obs d with
    | none =>
      refine ⟨⟨x, C, 0, x, C, none⟩, ?_, rfl, rfl, ?_⟩
      · simp only [filterCorrect, checkCov_psd fx hC, Option.map_some]
      · exact ⟨hC, fun _ => le_refl _, by rw [hm]; rfl, fun c h => by simp at h, fun _ => ⟨rfl, rfl, rfl⟩, fun _ m h => by rw [hm] at h; simp at h⟩
    | some m =>
      have hV := hS.used d hf (by rw [hm]; rfl)
      have hSd := S_posDef hC hV (S.H d)
      have hK : C * ((S.H d).transpose * matInverse (S.H d * (C * (S.H d).transpose) + S.V d)) = gainOf C (S.H d) (S.V d) := by
        rw [matInverse_pd hSd]; rfl
      have hp : (updCov C (S.H d) (S.V d)).PosSemidef := upd_psd hC hV
      refine ⟨⟨x, C, gainOf C (S.H d) (S.V d), x + (gainOf C (S.H d) (S.V d)).mulVec (m - (S.H d).mulVec (x + ref)), updCov C (S.H d) (S.V d),
          some (chiSquare (m - (S.H d).mulVec (x + (gainOf C (S.H d) (S.V d)).mulVec (m - (S.H d).mulVec (x + ref)) + ref))
            (S.V d - S.H d * (updCov C (S.H d) (S.V d) * (S.H d).transpose)))⟩, ?_, rfl, rfl, ?_⟩
      · simp only [filterCorrect, hK]
        have : C - gainOf C (S.H d) (S.V d) * (S.H d * C) = updCov C (S.H d) (S.V d) := rfl
        simp only [this, checkCov_psd fx hp, Option.map_some]
      · refine ⟨hp, upd_atMost hC hV, by rw [hm]; rfl, ?_, ?_, ?_⟩
        · intro c h
          simp only [Option.some.injEq] at h
          rw [← h]
          exact chiSquare_nonneg (upd_residual_pd hC hV).posSemidef _
        · rintro (h | h)
          · rw [hf] at h; simp at h
          · rw [hm] at h; simp at h
        · intro _ m' h
          rw [hm] at h
          obtain rfl := Option.some.inj h
          exact ⟨rfl, rfl, rfl, rfl⟩
  · rw [if_neg hf]
    have hf' : S.fit d = false := by simpa using hf
    simp only [checkCov_psd fx hC, Option.bind_some]
    cases hm : S.obs d with
    | none =>
      refine ⟨_, rfl, rfl, rfl, ⟨hC, fun _ => le_refl _, by rw [hm]; rfl, fun c h => by simp at h, fun _ => ⟨rfl, rfl, rfl⟩, fun h => absurd h hf⟩⟩
    | some m =>
      have hW : (S.V d + S.H d * (C * (S.H d).transpose)).PosSemidef := (hS.noise d).add (psd_conj hC _)
      simp only [checkObsCov_psd fx hW, Option.map_some]
      refine ⟨_, rfl, rfl, rfl, ⟨hC, fun _ => le_refl _, by rw [hm]; rfl, ?_, fun _ => ⟨rfl, rfl, rfl⟩, fun h => absurd h hf⟩⟩
      intro c h
      simp only [Option.some.injEq] at h
      rw [← h]
      exact chiSquare_nonneg hW _

/-- The updated covariance has the same property. -/
theorem outOk_pd {S : Setup} (hS : Regular S) {ref : State} {d : Nat} {o : Out} (h : OutOk S ref d o) (hp : o.predC.PosDef) : o.C.PosDef := by
  by_cases hf : S.fit d = true
  · cases hm : S.obs d with
    | none => rw [(h.unused (.inr hm)).2.1]; exact hp
    | some m =>
      rw [(h.used hf m hm).2.2.1]
      exact upd_pd hp (hS.used d hf (by rw [hm]; rfl))
  · rw [(h.unused (.inl (by simpa using hf))).2.1]; exact hp

/-- The predictions of a filter: first the initial state, then from the plane before. -/
def Chain (S : Setup) (step : Nat → Nat → Out → Option (State × Cov)) : Option (Nat × Out) → List (Nat × Out) → Prop
  | _, [] => True
  | none, (d, o) :: rest => o.predX = S.x0 ∧ o.predC = S.C0 ∧ Chain S step (some (d, o)) rest
  | some (p, q), (d, o) :: rest => step p d q = some (o.predX, o.predC) ∧ Chain S step (some (d, o)) rest

theorem filterLoop_spec (S : Setup) (hS : Regular S) (fx : Fixer) (ref : Nat → State) (step : Nat → Nat → Out → Option (State × Cov))
    (P : Cov → Prop) (h0 : P S.C0) (hP : ∀ C, P C → C.PosSemidef) (hu : ∀ d o, OutOk S (ref d) d o → P o.predC → P o.C)
    (all : List Nat) (hstep : ∀ p d o, p ∈ all → d ∈ all → P o.C → ∃ r, step p d o = some r ∧ P r.2) :
    ∀ (order : List Nat) (prev : Option (Nat × Out)), (∀ d ∈ order, d ∈ all) → (∀ p o, prev = some (p, o) → p ∈ all ∧ P o.C) →
      ∃ l, filterLoop S fx ref step prev order = some l ∧ l.map Prod.fst = order ∧ Chain S step prev l ∧
        ∀ r ∈ l, OutOk S (ref r.1) r.1 r.2 ∧ P r.2.predC ∧ P r.2.C := by
  intro order
  induction order with
  | nil => intro prev _ _; exact ⟨[], rfl, rfl, by unfold Chain; trivial, by simp⟩
  | cons d rest ih =>
    intro prev hall hprev
    have hd : d ∈ all := hall d (by simp)
    obtain ⟨r, hr, hrP, hch⟩ : ∃ r : State × Cov, predictAt S step d prev = some r ∧ P r.2 ∧
          ∀ o rest', o.predX = r.1 → o.predC = r.2 → Chain S step (some (d, o)) rest' → Chain S step prev ((d, o) :: rest') := by
      rcases prev with _ | ⟨p, o⟩
      · exact ⟨_, rfl, h0, fun o rest' h1 h2 h3 => ⟨h1, h2, h3⟩⟩
      · obtain ⟨hp, ho⟩ := hprev p o rfl
        obtain ⟨r, h1, h2⟩ := hstep p d o hp hd ho
        exact ⟨r, h1, h2, fun o' rest' e1 e2 h3 => ⟨by rw [h1, e1, e2], h3⟩⟩
    obtain ⟨o, ho, e1, e2, hok⟩ := correctPlane_spec S hS fx (ref d) d r.1 r.2 (hP _ hrP)
    have hoP : P o.C := hu d o hok (by rw [e2]; exact hrP)
    obtain ⟨l, hl, hmap, hchain, hlP⟩ := ih (some (d, o)) (fun x hx => hall x (by simp [hx])) (by
      intro p o' h; obtain ⟨rfl, rfl⟩ := Prod.mk.inj (Option.some.inj h); exact ⟨hd, hoP⟩)
    refine ⟨(d, o) :: l, ?_, by simp [hmap], hch o l e1 e2 hchain, ?_⟩
    · unfold filterLoop
      simp only [hr, Option.bind_some, ho, hl, Option.map_some]
    · intro x hx
      rcases List.mem_cons.mp hx with rfl | hx
      · exact ⟨hok, by rw [e2]; exact hrP, hoP⟩
      · exact hlP x hx

theorem finalCheck_ok (l : List (Nat × Out)) (h : ∀ r ∈ l, ∀ c, r.2.chi2 = some c → 0 ≤ c) : finalCheck l = some l := by
  unfold finalCheck
  rw [if_neg]
  rintro ⟨o, ho, c, hc, hneg⟩
  exact absurd hneg (not_lt.mpr (h o ho c hc))

theorem scatterCov_psd (momentum beta budget : ℝ) (ref : State) : (scatterCov momentum beta budget ref).PosSemidef := by
  have : scatterCov momentum beta budget ref = Matrix.diagonal ![(scatterCov momentum beta budget ref) 0 0, (scatterCov momentum beta budget ref) 0 0] := by
    ext i j; fin_cases i <;> fin_cases j <;> simp [scatterCov]
  rw [this]
  apply PosSemidef.diagonal
  intro i
  fin_cases i <;> simp [scatterCov] <;> positivity

theorem predictF_psd (J : Cov) (G : Gain) {Q : ObsCov} (hQ : Q.PosSemidef) (x : State) {C : Cov} (hC : C.PosSemidef) :
    (predictF J G Q x C).2.PosSemidef := (psd_conj hC J).add (psd_conj hQ (J * G))

theorem predictB_psd (J : Cov) (G : Gain) {Q : ObsCov} (hQ : Q.PosSemidef) (x : State) {C : Cov} (hC : C.PosSemidef) :
    (predictB J G Q x C).2.PosSemidef := (psd_conj hC J).add (psd_conj hQ G)

theorem pd_conj {C : Cov} (hC : C.PosDef) (J L : Cov) (hL : L * J = 1) : (J * (C * J.transpose)).PosDef := by
  have h2 := hC.mul_mul_conjTranspose_same (B := J) (by
    intro x y h
    have := congrArg (fun z => z ᵥ* L) h
    simpa [Matrix.vecMul_vecMul, mul_eq_one_comm.mp hL] using this)
  rwa [conjTranspose_eq_transpose_of_trivial, Matrix.mul_assoc] at h2

theorem predictF_pd (J L : Cov) (hL : L * J = 1) (G : Gain) {Q : ObsCov} (hQ : Q.PosSemidef) (x : State) {C : Cov} (hC : C.PosDef) :
    (predictF J G Q x C).2.PosDef := (pd_conj hC J L hL).add_posSemidef (psd_conj hQ (J * G))

theorem predictB_pd (J L : Cov) (hL : L * J = 1) (G : Gain) {Q : ObsCov} (hQ : Q.PosSemidef) (x : State) {C : Cov} (hC : C.PosDef) :
    (predictB J G Q x C).2.PosDef := (pd_conj hC J L hL).add_posSemidef (psd_conj hQ G)

theorem jacobian_eq (S : Setup) (ref : Nat → State) (p d : Nat) : jacobian S ref p d = jacobianOf (S.planes p) (S.planes d) (ref p) := rfl

theorem filterF_psd (S : Setup) (hS : Regular S) (fx : Fixer) (ref : Nat → State) (Q : Nat → ObsCov) (hQ : ∀ d, (Q d).PosSemidef) (order : List Nat) :
    ∃ l, filterF S fx ref Q order = some l ∧ l.map Prod.fst = order ∧ Chain S (stepF S fx ref Q) none l ∧
      ∀ r ∈ l, OutOk S (ref r.1) r.1 r.2 ∧ r.2.predC.PosSemidef := by
  obtain ⟨l, h1, h2, h3, h4⟩ := filterLoop_spec S hS fx ref (stepF S fx ref Q) (fun C => C.PosSemidef) hS.initial.posSemidef (fun _ h => h)
    (fun d o h _ => h.psd) order (by
      intro p d o _ _ ho
      have := predictF_psd (jacobian S ref p d) (scatterGain (ref p)) (hQ p) o.x ho
      refine ⟨_, ?_, this⟩
      simp only [stepF, checkCov_psd fx this, Option.map_some]) order none (fun _ h => h) (by simp)
  refine ⟨l, ?_, h2, h3, fun r hr => ⟨(h4 r hr).1, (h4 r hr).2.1⟩⟩
  unfold filterF
  rw [h1, Option.bind_some, finalCheck_ok _ fun r hr => (h4 r hr).1.nonneg]

theorem filterB_psd (S : Setup) (hS : Regular S) (fx : Fixer) (ref : Nat → State) (Q : Nat → ObsCov) (hQ : ∀ d, (Q d).PosSemidef) (order : List Nat) :
    ∃ l, filterB S fx ref Q order = some l ∧ l.map Prod.fst = order.reverse ∧ Chain S (stepB S ref Q) none l ∧
      ∀ r ∈ l, OutOk S (ref r.1) r.1 r.2 ∧ r.2.predC.PosSemidef := by
  obtain ⟨l, h1, h2, h3, h4⟩ := filterLoop_spec S hS fx ref (stepB S ref Q) (fun C => C.PosSemidef) hS.initial.posSemidef (fun _ h => h)
    (fun d o h _ => h.psd) order.reverse (by
      intro p d o _ _ ho
      exact ⟨_, rfl, predictB_psd (jacobian S ref p d) (scatterGain (ref d)) (hQ d) o.x ho⟩) order.reverse none (fun _ h => h) (by simp)
  refine ⟨l, ?_, h2, h3, fun r hr => ⟨(h4 r hr).1, (h4 r hr).2.1⟩⟩
  unfold filterB
  rw [h1, Option.bind_some, finalCheck_ok _ fun r hr => (h4 r hr).1.nonneg]

theorem filterF_pd (S : Setup) (hS : Regular S) (fx : Fixer) (ref : Nat → State) (Q : Nat → ObsCov) (hQ : ∀ d, (Q d).PosSemidef) (order : List Nat)
    (hx : ∀ p ∈ order, ∀ d ∈ order, Crosses (S.planes d) (trackDir (S.planes p) (ref p))) :
    ∃ l, filterF S fx ref Q order = some l ∧ l.map Prod.fst = order ∧ Chain S (stepF S fx ref Q) none l ∧
      ∀ r ∈ l, OutOk S (ref r.1) r.1 r.2 ∧ r.2.predC.PosDef ∧ r.2.C.PosDef := by
  obtain ⟨l, h1, h2, h3, h4⟩ := filterLoop_spec S hS fx ref (stepF S fx ref Q) (fun C => C.PosDef) hS.initial (fun _ h => h.posSemidef)
    (fun d o h hp => outOk_pd hS h hp) order (by
      intro p d o hp hd ho
      have := predictF_pd (jacobian S ref p d) _ (jacobian_back _ _ _ (hx p hp d hd)) (scatterGain (ref p)) (hQ p) o.x ho
      refine ⟨_, ?_, this⟩
      simp only [stepF, checkCov_psd fx this.posSemidef, Option.map_some]) order none (fun _ h => h) (by simp)
  refine ⟨l, ?_, h2, h3, h4⟩
  unfold filterF
  rw [h1, Option.bind_some, finalCheck_ok _ fun r hr => (h4 r hr).1.nonneg]

theorem filterB_pd (S : Setup) (hS : Regular S) (fx : Fixer) (ref : Nat → State) (Q : Nat → ObsCov) (hQ : ∀ d, (Q d).PosSemidef) (order : List Nat)
    (hx : ∀ p ∈ order, ∀ d ∈ order, Crosses (S.planes d) (trackDir (S.planes p) (ref p))) :
    ∃ l, filterB S fx ref Q order = some l ∧ l.map Prod.fst = order.reverse ∧ Chain S (stepB S ref Q) none l ∧
      ∀ r ∈ l, OutOk S (ref r.1) r.1 r.2 ∧ r.2.predC.PosDef ∧ r.2.C.PosDef := by
  obtain ⟨l, h1, h2, h3, h4⟩ := filterLoop_spec S hS fx ref (stepB S ref Q) (fun C => C.PosDef) hS.initial (fun _ h => h.posSemidef)
    (fun d o h hp => outOk_pd hS h hp) order.reverse (by
      intro p d o hp hd ho
      exact ⟨_, rfl, predictB_pd (jacobian S ref p d) _ (jacobian_back _ _ _ (hx p (by simpa using hp) d (by simpa using hd)))
        (scatterGain (ref d)) (hQ d) o.x ho⟩) order.reverse none (fun _ h => h) (by simp)
  refine ⟨l, ?_, h2, h3, h4⟩
  unfold filterB
  rw [h1, Option.bind_some, finalCheck_ok _ fun r hr => (h4 r hr).1.nonneg]

theorem outAt_mem (l : List (Nat × Out)) (d : Nat) (h : d ∈ l.map Prod.fst) : (d, outAt l d) ∈ l := by
  induction l with
  | nil => simp at h
  | cons a rest ih =>
    obtain ⟨k, o⟩ := a
    unfold outAt
    by_cases hk : d = k
    · subst hk; simp
    · have : (d == k) = false := by simpa using hk
      rw [List.lookup_cons, this]
      simp only [List.mem_cons, Prod.mk.injEq]
      right
      exact ih (by simpa [hk] using h)

/-- The weighted mean of two covariances. -/
theorem mean_eq {A B : Cov} (hA : A.PosDef) (hB : B.PosDef) :
    matInverse (matInverse A + matInverse B) = updCov A 1 B := by
  rw [matInverse_pd hA, matInverse_pd hB, matInverse_pd (hA.inv.add hB.inv)]
  have h := upd_info (H := (1 : Cov)) hA hB
  simp only [transpose_one, Matrix.one_mul, Matrix.mul_one] at h
  rw [← h, Matrix.nonsing_inv_nonsing_inv]
  exact (Matrix.isUnit_iff_isUnit_det _).mp (upd_pd hA hB).isUnit

theorem smoothPlane_pd (F B : Out) (i n : Nat) (hF : F.C.PosDef) (hB : B.C.PosDef) : (smoothPlane F B i n).2.PosDef := by
  unfold smoothPlane
  split
  · exact hB
  · split
    · exact hF
    · simp only [mean_eq hF hB]; exact upd_pd hF hB

theorem smoothPlane_atMost (F B : Out) (i n : Nat) (hF : F.C.PosDef) (hB : B.C.PosDef) :
    (F.C - (smoothPlane F B i n).2).PosSemidef ∨ (B.C - (smoothPlane F B i n).2).PosSemidef := by
  unfold smoothPlane
  split
  · right; simp only [sub_self]; exact PosSemidef.zero
  · left
    split
    · simp only [sub_self]; exact PosSemidef.zero
    · simp only [mean_eq hF hB]
      rw [gain_diff hF.posSemidef hB]
      exact psd_conj (S_posDef hF.posSemidef hB 1).posSemidef _

theorem residual_pd_of (V : ObsCov) (H : ObsMat) (A B : Cov) (h : (V - H * (A * H.transpose)).PosDef) (hAB : (A - B).PosSemidef) :
    (V - H * (B * H.transpose)).PosDef := by
  have e : V - H * (B * H.transpose) = (V - H * (A * H.transpose)) + H * ((A - B) * H.transpose) := by
    rw [Matrix.sub_mul, Matrix.mul_sub]; abel
  rw [e]
  exact h.add_posSemidef (psd_conj hAB H)

theorem smoothChi2_spec (S : Setup) (hS : Regular S) (fx : Fixer) (ref : State) (d : Nat) (F B : Out) (i n : Nat)
    (okF : OutOk S ref d F) (okB : OutOk S ref d B) (pF : F.predC.PosDef) (pB : B.predC.PosDef) :
    ∃ c, smoothChi2 S fx ref d (smoothPlane F B i n) = some c ∧ c.isSome = (S.obs d).isSome ∧ ∀ v, c = some v → 0 ≤ v := by
  unfold smoothChi2
  cases hm : S.obs d with
  | none => exact ⟨none, rfl, rfl, by simp⟩
  | some m =>
    have hF := outOk_pd hS okF pF
    have hB := outOk_pd hS okB pB
    simp only []
    have hW : (if S.fit d = true then S.V d - S.H d * ((smoothPlane F B i n).2 * (S.H d).transpose)
        else S.V d + S.H d * ((smoothPlane F B i n).2 * (S.H d).transpose)).PosSemidef := by
      split
      · rename_i hf
        have hV := hS.used d hf (by rw [hm]; rfl)
        rcases smoothPlane_atMost F B i n hF hB with h | h
        · refine (residual_pd_of _ _ _ _ ?_ h).posSemidef
          rw [(okF.used hf m hm).2.2.1]; exact upd_residual_pd pF.posSemidef hV
        · refine (residual_pd_of _ _ _ _ ?_ h).posSemidef
          rw [(okB.used hf m hm).2.2.1]; exact upd_residual_pd pB.posSemidef hV
      · exact (hS.noise d).add (psd_conj (smoothPlane_pd F B i n hF hB).posSemidef _)
    rw [checkObsCov_psd fx hW]
    refine ⟨_, rfl, rfl, ?_⟩
    intro v h
    simp only [Option.some.injEq] at h
    rw [← h]
    exact chiSquare_nonneg hW _

theorem smoothLoop_spec (S : Setup) (hS : Regular S) (fx : Fixer) (ref : Nat → State) (F B : List (Nat × Out)) (n : Nat) :
    ∀ l : List (Nat × Nat),
      (∀ r ∈ l, OutOk S (ref r.1) r.1 (outAt F r.1) ∧ (outAt F r.1).predC.PosDef ∧ OutOk S (ref r.1) r.1 (outAt B r.1) ∧ (outAt B r.1).predC.PosDef) →
      ∃ res, smoothLoop S fx ref F B n l = some res ∧ res.map Prod.fst = l.map Prod.fst ∧
        (∀ r ∈ res, r.2.C.PosDef ∧ r.2.chi2.isSome = (S.obs r.1).isSome ∧ ∀ v, r.2.chi2 = some v → 0 ≤ v) := by
  intro l
  induction l with
  | nil => intro _; exact ⟨[], rfl, rfl, by simp⟩
  | cons a rest ih =>
    obtain ⟨d, i⟩ := a
    intro h
    obtain ⟨okF, pF, okB, pB⟩ := h (d, i) (by simp)
    obtain ⟨res, h1, h2, h3⟩ := ih (fun r hr => h r (by simp [hr]))
    obtain ⟨c, hc, hs, hv⟩ := smoothChi2_spec S hS fx (ref d) d _ _ i n okF okB pF pB
    refine ⟨(d, ⟨(smoothPlane (outAt F d) (outAt B d) i n).1 + ref d, (smoothPlane (outAt F d) (outAt B d) i n).2, c⟩) :: res, ?_,
      by simp [h2], ?_⟩
    · unfold smoothLoop
      simp only [hc, h1, Option.map_some]
    · intro r hr
      rcases List.mem_cons.mp hr with rfl | hr
      · exact ⟨smoothPlane_pd _ _ _ _ (outOk_pd hS okF pF) (outOk_pd hS okB pB), hs, hv⟩
      · exact h3 r hr

theorem smoothLoop_eq (S : Setup) (fx : Fixer) (ref : Nat → State) (F B : List (Nat × Out)) (n : Nat) :
    ∀ (l : List (Nat × Nat)) (res : List (Nat × Smoothed)), smoothLoop S fx ref F B n l = some res →
      List.Forall₂ (fun (a : Nat × Nat) (r : Nat × Smoothed) => r.1 = a.1 ∧
        r.2.x = (smoothPlane (outAt F a.1) (outAt B a.1) a.2 n).1 + ref a.1 ∧ r.2.C = (smoothPlane (outAt F a.1) (outAt B a.1) a.2 n).2 ∧
        smoothChi2 S fx (ref a.1) a.1 (smoothPlane (outAt F a.1) (outAt B a.1) a.2 n) = some r.2.chi2) l res := by
  intro l
  induction l with
  | nil => intro res h; simp [smoothLoop] at h; subst h; exact List.Forall₂.nil
  | cons a rest ih =>
    obtain ⟨d, i⟩ := a
    intro res h
    unfold smoothLoop at h
    simp only [] at h
    cases hc : smoothChi2 S fx (ref d) d (smoothPlane (outAt F d) (outAt B d) i n) with
    | none => rw [hc] at h; simp at h
    | some c =>
      rw [hc] at h
      simp only [Option.map_eq_some_iff] at h
      obtain ⟨l', h1, rfl⟩ := h
      exact List.Forall₂.cons ⟨rfl, rfl, rfl, hc⟩ (ih l' h1)

theorem refLoop1_psd (planes : Nat → Plane) (momentum beta : ℝ) (seedDut : Nat) (seed : State) :
    ∀ (l : List (Nat × Nat)) (s : (Nat → State) × (Nat → ObsCov)), (∀ d, (s.2 d).PosSemidef) →
      ∀ d, ((refLoop1 planes momentum beta seedDut seed l s).2 d).PosSemidef := by
  intro l
  induction l with
  | nil => intro s h; exact h
  | cons a rest ih =>
    intro s h
    obtain ⟨d, i⟩ := a
    unfold refLoop1
    apply ih
    intro e
    simp only [Function.update_apply]
    split
    · exact scatterCov_psd _ _ _ _
    · exact h e

theorem refLoop2_psd (planes : Nat → Plane) (momentum beta : ℝ) (seedDut : Nat) (seed : State) :
    ∀ (l : List (Nat × Nat)) (s : (Nat → State) × (Nat → ObsCov)), (∀ d, (s.2 d).PosSemidef) →
      ∀ d, ((refLoop2 planes momentum beta seedDut seed l s).2 d).PosSemidef := by
  intro l
  induction l with
  | nil => intro s h; exact h
  | cons a rest ih =>
    intro s h
    obtain ⟨d, i⟩ := a
    unfold refLoop2
    apply ih
    intro e
    simp only [Function.update_apply]
    split
    · exact scatterCov_psd _ _ _ _
    · exact h e

theorem references_some (S : Setup) (hS : Regular S) (fx : Fixer) (momentum beta : ℝ) (seed : State) (order : List Nat) :
    ∃ s, references S fx momentum beta seed order = some s ∧ ∀ d, (s.2 d).PosSemidef := by
  unfold references
  have h1 := refLoop1_psd S.planes momentum beta (order.headD 0) seed order.zipIdx (fun _ => 0, fun _ => 0) (fun _ => PosSemidef.zero)
  obtain ⟨b, hb, _⟩ := filterB_psd S hS fx
    (refLoop1 S.planes momentum beta (order.headD 0) seed order.zipIdx (fun _ => 0, fun _ => 0)).1 _ h1 order
  simp only [hb, Option.map_some]
  exact ⟨_, rfl, refLoop2_psd _ _ _ _ _ _ _ h1⟩

/-- Information after the correction. -/
theorem out_info {S : Setup} (hS : Regular S) {ref : State} {d : Nat} {o : Out} (h : OutOk S ref d o) (hp : o.predC.PosDef) :
    o.C⁻¹ = o.predC⁻¹ + hitInfo S d ∧ o.C⁻¹.mulVec o.x = o.predC⁻¹.mulVec o.predX + hitVec S ref d := by
  unfold hitInfo hitVec
  by_cases hf : S.fit d = true
  · cases hm : S.obs d with
    | none =>
      obtain ⟨h1, h2, -⟩ := h.unused (.inr hm)
      rw [h1, h2, hf]; simp
    | some m =>
      have hV := hS.used d hf (by rw [hm]; rfl)
      obtain ⟨h1, h2, h3, -⟩ := h.used hf m hm
      have hpd : (updCov o.predC (S.H d) (S.V d)).PosDef := upd_pd hp hV
      rw [h3, hf, h2, h1, upd_info hp hV]
      refine ⟨by simp, ?_⟩
      rw [Matrix.mulVec_add]
      have e : (o.predC⁻¹ + (S.H d).transpose * ((S.V d)⁻¹ * S.H d)).mulVec
          ((gainOf o.predC (S.H d) (S.V d)).mulVec (m - (S.H d).mulVec (o.predX + ref))) =
          ((S.H d).transpose * (S.V d)⁻¹).mulVec (m - (S.H d).mulVec (o.predX + ref)) := by
        rw [Matrix.mulVec_mulVec, ← upd_info hp hV, gain_eq hp.posSemidef hV, ← Matrix.mul_assoc, pd_inv_mul hpd, Matrix.one_mul]
      rw [e, Matrix.add_mulVec, Matrix.mulVec_add (S.H d)]
      have e2 : ((S.H d).transpose * ((S.V d)⁻¹ * S.H d)).mulVec o.predX = ((S.H d).transpose * (S.V d)⁻¹).mulVec ((S.H d).mulVec o.predX) := by
        rw [Matrix.mulVec_mulVec, Matrix.mul_assoc]
      rw [e2, add_assoc, ← Matrix.mulVec_add]
      congr 2
      abel
  · have hf' : S.fit d = false := by simpa using hf
    obtain ⟨h1, h2, -⟩ := h.unused (.inl hf')
    rw [h1, h2, hf']; simp

theorem smoothPlane_inner (F B : Out) (i n : Nat) (hF : F.C.PosDef) (hB : B.C.PosDef) (h0 : 0 < i) (hn : i + 1 < n) :
    (smoothPlane F B i n).2⁻¹ = F.C⁻¹ + B.C⁻¹ ∧
      (smoothPlane F B i n).2⁻¹.mulVec (smoothPlane F B i n).1 = F.C⁻¹.mulVec F.x + B.C⁻¹.mulVec B.x := by
  have hs : (F.C⁻¹ + B.C⁻¹).PosDef := hF.inv.add hB.inv
  have e : (smoothPlane F B i n) = ((F.C⁻¹ + B.C⁻¹)⁻¹.mulVec (F.C⁻¹.mulVec F.x + B.C⁻¹.mulVec B.x), (F.C⁻¹ + B.C⁻¹)⁻¹) := by
    unfold smoothPlane
    rw [if_neg (by omega), if_neg (by omega)]
    simp only [matInverse_pd hF, matInverse_pd hB, matInverse_pd hs]
  rw [e]
  have e2 : (F.C⁻¹ + B.C⁻¹)⁻¹⁻¹ = F.C⁻¹ + B.C⁻¹ := Matrix.nonsing_inv_nonsing_inv _ ((Matrix.isUnit_iff_isUnit_det _).mp hs.isUnit)
  refine ⟨e2, ?_⟩
  simp only [e2]
  rw [Matrix.mulVec_mulVec, pd_mul_inv hs, Matrix.one_mulVec]

/-- Additional information about the position makes its variance smaller. -/
theorem variance_lt {A : Cov} (hA : A.PosDef) {V : ObsCov} (hV : V.PosDef) (H : ObsMat) (k : Fin 2) (j : Fin 4) (hH : ∀ M : Cov, (H * M) k = M j) :
    (A + H.transpose * (V⁻¹ * H))⁻¹ j j < A⁻¹ j j := by
  have hI := hA.inv
  have e : (A + H.transpose * (V⁻¹ * H))⁻¹ = updCov A⁻¹ H V := by
    have := upd_info (H := H) hI hV
    rw [Matrix.nonsing_inv_nonsing_inv _ ((Matrix.isUnit_iff_isUnit_det _).mp hA.isUnit)] at this
    rw [← this, Matrix.nonsing_inv_nonsing_inv]
    exact (Matrix.isUnit_iff_isUnit_det _).mp (upd_pd hI hV).isUnit
  rw [e]
  have hS := S_posDef hI.posSemidef hV H
  have hd := gain_diff (H := H) hI.posSemidef hV
  have h1 : A⁻¹ j j - updCov A⁻¹ H V j j = (gainOf A⁻¹ H V j) ⬝ᵥ (H * (A⁻¹ * H.transpose) + V).mulVec (gainOf A⁻¹ H V j) := by
    have := congrFun (congrFun hd j) j
    rw [Matrix.sub_apply] at this
    rw [this, Matrix.mul_apply]
    rfl
  have hne : gainOf A⁻¹ H V j ≠ 0 := by
    intro h0
    have hK := gain_S (H := H) hI.posSemidef hV
    have h2 := congrFun (congrFun hK j) k
    rw [Matrix.mul_apply] at h2
    rw [h0] at h2
    have h3 : (A⁻¹ * H.transpose) j k = A⁻¹ j j := by
      have : (A⁻¹ * H.transpose) = (H * A⁻¹).transpose := by rw [transpose_mul, psd_symm hI.posSemidef]
      rw [this, transpose_apply, hH]
    rw [h3] at h2
    have := hI.diag_pos (i := j)
    simp at h2
    rw [← h2] at this
    exact lt_irrefl _ this
  have := quad_pos hS hne
  linarith
end BTA.Kalman
