import Verif.Spec.KalmanPath
import Verif.Lemmas.KalmanFit
import Verif.Lemmas.KalmanLoop
/-
Lemmas for C232.
-/
namespace BTA.Props
open BTA.Spec BTA.Geo BTA.Kalman Matrix

theorem dot_mulVec_left {n m : Nat} (A : Matrix (Fin m) (Fin n) ℝ) (z : Fin m → ℝ) (x : Fin n → ℝ) :
    z ⬝ᵥ A.mulVec x = A.transpose.mulVec z ⬝ᵥ x := by
  rw [Matrix.dotProduct_mulVec, ← Matrix.mulVec_transpose]

theorem quad_fenchel {n : Nat} {A : Matrix (Fin n) (Fin n) ℝ} (h : A.PosSemidef) (v q : Fin n → ℝ) :
    2 * (q ⬝ᵥ A.mulVec v) - q ⬝ᵥ A.mulVec q ≤ v ⬝ᵥ A.mulVec v := by
  have h1 := quad_nonneg h (v + -q)
  rw [quad_add (psd_symm h), Matrix.mulVec_neg, neg_dotProduct, neg_dotProduct_neg] at h1
  linarith

theorem quad_fenchel_inv {n : Nat} {C : Matrix (Fin n) (Fin n) ℝ} (h : C.PosDef) (v p : Fin n → ℝ) :
    2 * (p ⬝ᵥ v) - p ⬝ᵥ C.mulVec p ≤ v ⬝ᵥ C⁻¹.mulVec v := by
  have h1 := quad_fenchel h.inv.posSemidef v (C.mulVec p)
  have e1 : C.mulVec p ⬝ᵥ C⁻¹.mulVec v = p ⬝ᵥ v := by
    have := psd_symm h.posSemidef
    calc C.mulVec p ⬝ᵥ C⁻¹.mulVec v = C.transpose.mulVec p ⬝ᵥ C⁻¹.mulVec v := by rw [this]
      _ = p ⬝ᵥ C.mulVec (C⁻¹.mulVec v) := (dot_mulVec_left C p _).symm
      _ = p ⬝ᵥ v := by rw [Matrix.mulVec_mulVec, pd_mul_inv h, Matrix.one_mulVec]
  have e2 : C.mulVec p ⬝ᵥ C⁻¹.mulVec (C.mulVec p) = p ⬝ᵥ C.mulVec p := by
    rw [Matrix.mulVec_mulVec, pd_inv_mul h, Matrix.one_mulVec, dotProduct_comm]
  rw [e1, e2] at h1
  exact h1

section
variable {C J P : Cov} {G : Gain} {Q : ObsCov}

theorem move_eq (hPe : P = J * (C * J.transpose) + G * (Q * G.transpose)) (z : State) :
    P.mulVec z = J.mulVec (C.mulVec (J.transpose.mulVec z)) + G.mulVec (Q.mulVec (G.transpose.mulVec z)) := by
  rw [hPe, Matrix.add_mulVec]
  simp only [Matrix.mulVec_mulVec]

theorem move_le (hC : C.PosDef) (hQ : Q.PosSemidef) (hP : P.PosDef) (hPe : P = J * (C * J.transpose) + G * (Q * G.transpose))
    (a x y : State) (u : Obs) (hy : y = J.mulVec x + G.mulVec (Q.mulVec u)) :
    distance P⁻¹ (J.mulVec a) y ≤ distance C⁻¹ a x + angleCost Q u := by
  unfold distance angleCost
  set z := P⁻¹.mulVec (y - J.mulVec a) with hz
  have h1 := quad_fenchel_inv hC (x - a) (J.transpose.mulVec z)
  have h2 := quad_fenchel hQ u (G.transpose.mulVec z)
  have e : y - J.mulVec a = J.mulVec (x - a) + G.mulVec (Q.mulVec u) := by rw [hy, Matrix.mulVec_sub]; abel
  have e1 : P.mulVec z = y - J.mulVec a := by rw [hz, Matrix.mulVec_mulVec, pd_mul_inv hP, Matrix.one_mulVec]
  have e2 : z ⬝ᵥ (y - J.mulVec a) = J.transpose.mulVec z ⬝ᵥ (x - a) + G.transpose.mulVec z ⬝ᵥ Q.mulVec u := by
    rw [e, dotProduct_add, dot_mulVec_left, dot_mulVec_left]
  have e3 : z ⬝ᵥ (y - J.mulVec a) =
      J.transpose.mulVec z ⬝ᵥ C.mulVec (J.transpose.mulVec z) + G.transpose.mulVec z ⬝ᵥ Q.mulVec (G.transpose.mulVec z) := by
    rw [← e1, move_eq hPe, dotProduct_add, dot_mulVec_left J, dot_mulVec_left G]
  rw [dotProduct_comm (y - J.mulVec a)]
  linarith

theorem move_ex (hC : C.PosDef) (hP : P.PosDef) (hPe : P = J * (C * J.transpose) + G * (Q * G.transpose)) (a y : State) :
    ∃ x u, y = J.mulVec x + G.mulVec (Q.mulVec u) ∧ distance C⁻¹ a x + angleCost Q u = distance P⁻¹ (J.mulVec a) y := by
  set z := P⁻¹.mulVec (y - J.mulVec a) with hz
  have e1 : P.mulVec z = y - J.mulVec a := by rw [hz, Matrix.mulVec_mulVec, pd_mul_inv hP, Matrix.one_mulVec]
  have e3 : z ⬝ᵥ (y - J.mulVec a) =
      J.transpose.mulVec z ⬝ᵥ C.mulVec (J.transpose.mulVec z) + G.transpose.mulVec z ⬝ᵥ Q.mulVec (G.transpose.mulVec z) := by
    rw [← e1, move_eq hPe, dotProduct_add, dot_mulVec_left J, dot_mulVec_left G]
  refine ⟨a + C.mulVec (J.transpose.mulVec z), G.transpose.mulVec z, ?_, ?_⟩
  · rw [Matrix.mulVec_add, add_assoc, ← move_eq hPe, e1]; abel
  · unfold distance angleCost
    have e4 : C⁻¹.mulVec (C.mulVec (J.transpose.mulVec z)) = J.transpose.mulVec z := by
      rw [Matrix.mulVec_mulVec, pd_inv_mul hC, Matrix.one_mulVec]
    rw [add_sub_cancel_left, e4, ← hz, dotProduct_comm (y - J.mulVec a), e3,
      dotProduct_comm (C.mulVec _)]

end

/-- Chi-square of a plane that is used for the fit. -/
noncomputable def usedChi (S : Setup) (r : Nat × Out) : ℝ := if S.fit r.1 then r.2.chi2.getD 0 else 0

theorem hit_eq {S : Setup} (hS : Regular S) {ref : Nat → State} {d : Nat} {o : Out} (h : OutOk S (ref d) d o) (hp : o.predC.PosDef) (y : State) :
    distance o.predC⁻¹ o.predX y + hitCost S ref d y = usedChi S (d, o) + distance o.C⁻¹ o.x y := by
  unfold usedChi hitCost
  by_cases hf : S.fit d = true
  · cases hm : S.obs d with
    | none =>
      obtain ⟨h1, h2, -⟩ := h.unused (.inr hm)
      have h3 := h.some_iff
      rw [hm] at h3
      have h4 : o.chi2 = none := by simpa using h3
      rw [h1, h2, h4, hf]; simp
    | some m =>
      have hV := hS.used d hf (by rw [hm]; rfl)
      obtain ⟨h1, h2, h3, h4⟩ := h.used hf m hm
      have hr : m - (S.H d).mulVec (o.predX + ref d) = (m - (S.H d).mulVec (ref d)) - (S.H d).mulVec o.predX := by
        rw [Matrix.mulVec_add]; abel
      have hc := cost_eq (H := S.H d) hp hV o.predX y (m - (S.H d).mulVec (ref d))
      rw [← hr] at hc
      have hx : m - (S.H d).mulVec (o.x + ref d) =
          (m - (S.H d).mulVec (o.predX + ref d)) - (S.H d).mulVec ((gainOf o.predC (S.H d) (S.V d)).mulVec (m - (S.H d).mulVec (o.predX + ref d))) := by
        rw [h2, h1]; simp only [Matrix.mulVec_add]; abel
      have hchi : o.chi2 = some ((m - (S.H d).mulVec (o.predX + ref d)) ⬝ᵥ
          (S.H d * (o.predC * (S.H d).transpose) + S.V d)⁻¹.mulVec (m - (S.H d).mulVec (o.predX + ref d))) := by
        rw [h4, hx, h3]
        unfold chiSquare
        rw [matInverse_pd (upd_residual_pd hp.posSemidef hV), chi_eq hp.posSemidef hV]
      rw [hchi, hf]
      simp only [if_true, Option.getD_some]
      have hl : leastSquares o.predC (S.H d) (S.V d) o.predX (m - (S.H d).mulVec (ref d)) y =
          distance o.predC⁻¹ o.predX y + distance (S.V d)⁻¹ ((S.H d).mulVec (y + ref d)) m := by
        unfold leastSquares distance
        have : m - (S.H d).mulVec (ref d) - (S.H d).mulVec y = m - (S.H d).mulVec (y + ref d) := by rw [Matrix.mulVec_add]; abel
        rw [this]
      rw [← hl, hc, h3, h2, h1]
      rfl
  · obtain ⟨h1, h2, -⟩ := h.unused (.inl (by simpa using hf))
    have hf' : S.fit d = false := by simpa using hf
    rw [h1, h2, hf']; simp

/-- The predictions of the filter are those of the model. -/
def Predicts (M : Scattering) (step : Nat → Nat → Out → Option (State × Cov)) : Prop :=
  ∀ p d o x C, step p d o = some (x, C) → o.C.PosDef →
    x = (M.J p d).mulVec o.x ∧ C = M.J p d * (o.C * (M.J p d).transpose) + M.G p d * (M.Q p d * (M.G p d).transpose)

section
variable {S : Setup} {ref : Nat → State} {M : Scattering} {step : Nat → Nat → Out → Option (State × Cov)}

def lastOut (o : Out) (l : List (Nat × Out)) : Out := (l.getLast?.map Prod.snd).getD o
def lastState (y : State) (t : List Node) : State := (t.getLast?.map Node.state).getD y

theorem lastOut_cons (q : Out) (d : Nat) (o : Out) (l : List (Nat × Out)) : lastOut q ((d, o) :: l) = lastOut o l := by
  unfold lastOut
  rw [List.getLast?_cons]
  cases l.getLast? <;> rfl

theorem lastState_cons (y : State) (n : Node) (t : List Node) : lastState y (n :: t) = lastState n.state t := by
  unfold lastState
  rw [List.getLast?_cons]
  cases t.getLast? <;> rfl

/-- Everything the filter says about tracks that continue from a plane. -/
theorem loop_le (hS : Regular S) (hM : Predicts M step) (hQ : ∀ p d, (M.Q p d).PosSemidef) : ∀ (l : List (Nat × Out)) (p : Nat) (q : Out),
    Chain S step (some (p, q)) l → q.C.PosDef → (∀ r ∈ l, OutOk S (ref r.1) r.1 r.2 ∧ r.2.predC.PosDef ∧ r.2.C.PosDef) →
    ∀ (y : State) (t : List Node), t.map Node.plane = l.map Prod.fst → Follows M (some (p, y)) t →
      (l.map (usedChi S)).sum + distance (lastOut q l).C⁻¹ (lastOut q l).x (lastState y t) ≤
        distance q.C⁻¹ q.x y + trackCost S ref M (some (p, y)) t := by
  intro l
  induction l with
  | nil =>
    intro p q _ _ _ y t ht _
    have : t = [] := by simpa using ht
    subst this
    simp [lastOut, lastState, trackCost]
  | cons a l ih =>
    obtain ⟨d, o⟩ := a
    intro p q hc hq hok y t ht hf
    cases t with
    | nil => simp at ht
    | cons n t =>
      simp only [List.map_cons, List.cons.injEq] at ht
      obtain ⟨hn, ht⟩ := ht
      obtain ⟨hok1, hp1, hC1⟩ := hok (d, o) (by simp)
      obtain ⟨hs, hc⟩ := hc
      obtain ⟨ex, eC⟩ := hM p d q _ _ hs hq
      obtain ⟨hf1, hf2⟩ := hf
      subst hn
      have h1 := ih n.plane o hc hC1 (fun r hr => hok r (by simp [hr])) n.state t ht hf2
      have h2 := hit_eq hS hok1 hp1 n.state
      have h3 := move_le hq (hQ p n.plane) hp1 eC q.x y n.state n.u hf1
      rw [← ex] at h3
      rw [lastOut_cons, lastState_cons]
      simp only [List.map_cons, List.sum_cons, trackCost]
      linarith

theorem loop_ex (hS : Regular S) (hM : Predicts M step) : ∀ (l : List (Nat × Out)) (p : Nat) (q : Out),
    Chain S step (some (p, q)) l → q.C.PosDef → (∀ r ∈ l, OutOk S (ref r.1) r.1 r.2 ∧ r.2.predC.PosDef ∧ r.2.C.PosDef) →
    ∀ (z : State), ∃ (y : State) (t : List Node), t.map Node.plane = l.map Prod.fst ∧ Follows M (some (p, y)) t ∧ lastState y t = z ∧
      distance q.C⁻¹ q.x y + trackCost S ref M (some (p, y)) t =
        (l.map (usedChi S)).sum + distance (lastOut q l).C⁻¹ (lastOut q l).x z := by
  intro l
  induction l with
  | nil =>
    intro p q _ _ _ z
    exact ⟨z, [], rfl, trivial, rfl, by simp [lastOut, trackCost]⟩
  | cons a l ih =>
    obtain ⟨d, o⟩ := a
    intro p q hc hq hok z
    obtain ⟨hok1, hp1, hC1⟩ := hok (d, o) (by simp)
    obtain ⟨hs, hc⟩ := hc
    obtain ⟨ex, eC⟩ := hM p d q _ _ hs hq
    obtain ⟨y1, t, e1, e2, e3, e4⟩ := ih d o hc hC1 (fun r hr => hok r (by simp [hr])) z
    obtain ⟨y, u, h1, h2⟩ := move_ex hq hp1 eC q.x y1
    have h3 := hit_eq hS hok1 hp1 y1
    refine ⟨y, ⟨d, y1, u⟩ :: t, by simp [e1], ⟨h1, e2⟩, by rw [lastState_cons]; exact e3, ?_⟩
    rw [← ex] at h2
    rw [lastOut_cons]
    simp only [List.map_cons, List.sum_cons, trackCost]
    linarith

/-- The filter over all planes. -/
theorem filter_best (hS : Regular S) (hM : Predicts M step) (hQ : ∀ p d, (M.Q p d).PosSemidef) (l : List (Nat × Out))
    (hc : Chain S step none l) (hok : ∀ r ∈ l, OutOk S (ref r.1) r.1 r.2 ∧ r.2.predC.PosDef ∧ r.2.C.PosDef) (d : Nat) (o : Out)
    (hl : l.getLast? = some (d, o)) :
    (∀ y t, TrackTo M (l.map Prod.fst) y t → (l.map (usedChi S)).sum + distance o.C⁻¹ o.x y ≤ trackCost S ref M none t) ∧
    ∀ y, ∃ t, TrackTo M (l.map Prod.fst) y t ∧ trackCost S ref M none t = (l.map (usedChi S)).sum + distance o.C⁻¹ o.x y := by
  cases l with
  | nil => simp at hl
  | cons a l =>
    obtain ⟨d1, o1⟩ := a
    obtain ⟨ex, eC, hc⟩ := hc
    obtain ⟨hok1, hp1, hC1⟩ := hok (d1, o1) (by simp)
    have hlo : lastOut o1 l = o := by
      rw [← lastOut_cons o d1 o1 l]; unfold lastOut; rw [hl]; rfl
    refine ⟨fun y t ht => ?_, fun y => ?_⟩
    · cases t with
      | nil => have := ht.planes; simp at this
      | cons n t =>
        have hpl := ht.planes
        simp only [List.map_cons, List.cons.injEq] at hpl
        obtain ⟨hn, hpl⟩ := hpl
        subst hn
        have h1 := loop_le (ref := ref) hS hM hQ l n.plane o1 hc hC1 (fun r hr => hok r (by simp [hr])) n.state t hpl ht.follows
        have h2 := hit_eq hS hok1 hp1 n.state
        have h3 : lastState n.state t = y := by
          rw [← lastState_cons y n t]; unfold lastState; rw [ht.last]; rfl
        rw [hlo, h3] at h1
        rw [ex, eC] at h2
        simp only [List.map_cons, List.sum_cons, trackCost]
        linarith
    · obtain ⟨y1, t, e1, e2, e3, e4⟩ := loop_ex (ref := ref) hS hM l d1 o1 hc hC1 (fun r hr => hok r (by simp [hr])) y
      refine ⟨⟨d1, y1, 0⟩ :: t, ⟨by simp [e1], e2, ?_⟩, ?_⟩
      · rw [← lastState_cons y ⟨d1, y1, 0⟩ t] at e3
        unfold lastState at e3
        rw [List.getLast?_cons] at e3 ⊢
        simpa using e3
      · have h2 := hit_eq hS hok1 hp1 y1
        rw [hlo] at e4
        rw [ex, eC] at h2
        simp only [List.map_cons, List.sum_cons, trackCost]
        linarith

end

theorem stepF_predicts (S : Setup) (fx : Fixer) (ref : Nat → State) (Q : Nat → ObsCov) (hQ : ∀ d, (Q d).PosSemidef) :
    Predicts (alongBeam S ref Q) (stepF S fx ref Q) := by
  intro p d o x C h ho
  have hp := predictF_psd (jacobian S ref p d) (scatterGain (ref p)) (hQ p) o.x ho.posSemidef
  simp only [stepF, checkCov_psd fx hp, Option.map_some] at h
  obtain ⟨rfl, rfl⟩ := Prod.mk.inj (Option.some.inj h)
  exact ⟨rfl, rfl⟩

theorem stepB_predicts (S : Setup) (ref : Nat → State) (Q : Nat → ObsCov) : Predicts (againstBeam S ref Q) (stepB S ref Q) := by
  intro p d o x C h _
  unfold stepB at h
  obtain ⟨rfl, rfl⟩ := Prod.mk.inj (Option.some.inj h)
  exact ⟨rfl, rfl⟩

theorem outAt_last : ∀ (l : List (Nat × Out)) (d : Nat) (o : Out), (l.map Prod.fst).Nodup → (d, o) ∈ l → outAt l d = o := by
  intro l
  induction l with
  | nil => intro d o _ h; simp at h
  | cons a l ih =>
    obtain ⟨k, q⟩ := a
    intro d o hn h
    simp only [List.map_cons, List.nodup_cons] at hn
    rcases List.mem_cons.mp h with h | h
    · obtain ⟨rfl, rfl⟩ := Prod.mk.inj h
      simp [outAt]
    · have hne : d ≠ k := fun e => hn.1 (by rw [← e]; exact List.mem_map_of_mem (f := Prod.fst) h)
      rw [← ih d o hn.2 h]
      unfold outAt
      rw [List.lookup_cons]
      have : (d == k) = false := by simpa using hne
      rw [this]

theorem chain_take {S : Setup} {step : Nat → Nat → Out → Option (State × Cov)} : ∀ (l : List (Nat × Out)) (prev : Option (Nat × Out)) (k : Nat),
    Chain S step prev l → Chain S step prev (l.take k) := by
  intro l
  induction l with
  | nil => intro prev k h; simpa using h
  | cons a l ih =>
    obtain ⟨d, o⟩ := a
    intro prev k h
    cases k with
    | zero => unfold Chain; trivial
    | succ k =>
      cases prev with
      | none => exact ⟨h.1, h.2.1, ih _ k h.2.2⟩
      | some p => exact ⟨h.1, ih _ k h.2⟩

theorem distance_add {n : Nat} {A B : Matrix (Fin n) (Fin n) ℝ} (hA : A.PosSemidef) (hB : B.PosSemidef) (x1 x2 xs y : Fin n → ℝ)
    (h : (A + B).mulVec xs = A.mulVec x1 + B.mulVec x2) :
    distance A x1 y + distance B x2 y = distance A x1 xs + distance B x2 xs + distance (A + B) xs y := by
  unfold distance
  have e1 : y - x1 = (xs - x1) + (y - xs) := by abel
  have e2 : y - x2 = (xs - x2) + (y - xs) := by abel
  rw [e1, e2, quad_add (psd_symm hA), quad_add (psd_symm hB), Matrix.add_mulVec, dotProduct_add]
  have h0 : A.mulVec (xs - x1) + B.mulVec (xs - x2) = 0 := by
    rw [Matrix.mulVec_sub, Matrix.mulVec_sub]
    rw [Matrix.add_mulVec] at h
    have : A.mulVec xs - A.mulVec x1 + (B.mulVec xs - B.mulVec x2) = (A.mulVec xs + B.mulVec xs) - (A.mulVec x1 + B.mulVec x2) := by abel
    rw [this, h, sub_self]
  have h1 : (y - xs) ⬝ᵥ A.mulVec (xs - x1) + (y - xs) ⬝ᵥ B.mulVec (xs - x2) = 0 := by
    rw [← dotProduct_add, h0, dotProduct_zero]
  linarith

/-- The costs of the tracks to a plane. -/
theorem take_best {S : Setup} {ref : Nat → State} {M : Scattering} {step : Nat → Nat → Out → Option (State × Cov)}
    (hS : Regular S) (hM : Predicts M step) (hQ : ∀ p d, (M.Q p d).PosSemidef) (l : List (Nat × Out))
    (hc : Chain S step none l) (hok : ∀ r ∈ l, OutOk S (ref r.1) r.1 r.2 ∧ r.2.predC.PosDef ∧ r.2.C.PosDef)
    (hn : (l.map Prod.fst).Nodup) (i d : Nat) (hd : (l.map Prod.fst)[i]? = some d) :
    (outAt l d).C.PosDef ∧
    (∀ y t, TrackTo M ((l.map Prod.fst).take (i + 1)) y t →
      ((l.take (i + 1)).map (usedChi S)).sum + distance (outAt l d).C⁻¹ (outAt l d).x y ≤ trackCost S ref M none t) ∧
    ∀ y, ∃ t, TrackTo M ((l.map Prod.fst).take (i + 1)) y t ∧
      trackCost S ref M none t = ((l.take (i + 1)).map (usedChi S)).sum + distance (outAt l d).C⁻¹ (outAt l d).x y := by
  rw [List.getElem?_map, Option.map_eq_some_iff] at hd
  obtain ⟨⟨d', o⟩, ho, rfl⟩ := hd
  have hm := List.mem_of_getElem? ho
  rw [outAt_last l d' o hn hm, ← List.map_take]
  refine ⟨(hok _ hm).2.2, ?_⟩
  apply filter_best hS hM hQ (l.take (i + 1)) (chain_take l none (i + 1) hc) (fun r hr => hok r (List.mem_of_mem_take hr)) d' o
  obtain ⟨hi, he⟩ := List.getElem?_eq_some_iff.mp ho
  rw [List.getLast?_eq_getElem?, List.length_take, Nat.min_eq_left (by omega), Nat.add_sub_cancel, List.getElem?_take_of_lt (by omega)]
  exact ho

end BTA.Props
