import Verif.Spec.KalmanAlign
import Verif.Props.Geometry
import Verif.Lemmas.KalmanFilter
import Verif.Lemmas.Chunks
import Verif.Lemmas.CheckFile
import Mathlib.Analysis.Matrix.Order
/-
Helper lemmas for the alignment with a Kalman filter.
-/
namespace BTA.KAlign
open BTA.Geo BTA.Kalman Matrix BTA.Spec

variable {n : Nat} {T : Type}

/-! ### The covariance matrix -/

section
variable {H : ObsMat} {V : ObsCov} {C0 : Cov} {D : Matrix (Fin 2) (Fin 6) ℝ} {E0 : Mat6}

theorem noise_psd (hV : V.PosSemidef) (hC : C0.PosSemidef) : (V + H * (C0 * Hᵀ)).PosSemidef := hV.add (psd_conj hC H)

theorem innovation_psd (hV : V.PosSemidef) (hC : C0.PosSemidef) (hE : E0.PosSemidef) : (innovation H V C0 D E0).PosSemidef :=
  (noise_psd hV hC).add (psd_conj hE D)

theorem innovation_pd (hV : V.PosSemidef) (hC : C0.PosSemidef) (hE : E0.PosSemidef) (h : (innovation H V C0 D E0).det ≠ 0) :
    (innovation H V C0 D E0).PosDef :=
  (Matrix.PosSemidef.posDef_iff_det_ne_zero (innovation_psd hV hC hE)).mpr h

theorem drop_psd (hE : E0.PosSemidef) {S : ObsCov} (hS : S.PosDef) : (E0 * (Dᵀ * (S⁻¹ * (D * E0ᵀ)))).PosSemidef := by
  have := psd_conj hS.inv.posSemidef (E0 * Dᵀ)
  have e : E0 * Dᵀ * (S⁻¹ * (E0 * Dᵀ)ᵀ) = E0 * (Dᵀ * (S⁻¹ * (D * E0ᵀ))) := by
    rw [Matrix.transpose_mul, Matrix.transpose_transpose]
    simp only [Matrix.mul_assoc]
  rw [e] at this
  exact this

theorem newCov_psd (hV : V.PosSemidef) (hC : C0.PosSemidef) (hE : E0.PosSemidef) (h : (innovation H V C0 D E0).det ≠ 0) :
    (newCov E0 D (innovation H V C0 D E0)⁻¹).PosSemidef := by
  have hS := innovation_pd hV hC hE h
  generalize hSdef : innovation H V C0 D E0 = S at hS h ⊢
  have hN := noise_psd (H := H) hV hC
  generalize hNdef : V + H * (C0 * Hᵀ) = N at hN
  have hSN : S = N + D * (E0 * Dᵀ) := by rw [← hSdef, ← hNdef]; rfl
  have hEt : E0ᵀ = E0 := psd_symm hE
  have hWt : (S⁻¹)ᵀ = S⁻¹ := psd_symm hS.inv.posSemidef
  have hSW : S * S⁻¹ = 1 := pd_mul_inv hS
  have h1 := psd_conj hE (1 - E0 * Dᵀ * S⁻¹ * D)
  have h2 := psd_conj hN (E0 * Dᵀ * S⁻¹)
  have e : newCov E0 D S⁻¹ = (1 - E0 * Dᵀ * S⁻¹ * D) * (E0 * (1 - E0 * Dᵀ * S⁻¹ * D)ᵀ) +
      E0 * Dᵀ * S⁻¹ * (N * (E0 * Dᵀ * S⁻¹)ᵀ) := by
    have hN' : N = S - D * (E0 * Dᵀ) := by rw [hSN]; abel
    have k1 : S * (S⁻¹ * (D * E0)) = D * E0 := by rw [← Matrix.mul_assoc, hSW, Matrix.one_mul]
    rw [hN']
    unfold newCov
    simp only [Matrix.transpose_sub, Matrix.transpose_mul, Matrix.transpose_one, Matrix.transpose_transpose, hEt, hWt,
      Matrix.mul_assoc, Matrix.sub_mul, Matrix.mul_sub, Matrix.one_mul, Matrix.mul_one, k1]
    abel
  rw [e]
  exact h1.add h2

theorem newCov_diag (hE : E0.PosSemidef) {S : ObsCov} (hS : S.PosDef) (k : Fin 6) : newCov E0 D S⁻¹ k k ≤ E0 k k := by
  have := (drop_psd (D := D) hE hS).diag_nonneg (i := k)
  unfold newCov
  rw [Matrix.sub_apply]
  linarith

theorem newCov_row (k : Fin 6) (h : ∀ j, E0 k j = 0) (W : ObsCov) (j : Fin 6) : newCov E0 D W k j = 0 := by
  unfold newCov
  rw [Matrix.sub_apply, h, Matrix.mul_apply]
  simp [h]

theorem newState_row (k : Fin 6) (h : ∀ j, E0 k j = 0) (W : ObsCov) (a : Vec6) (m Hp : Obs) :
    (a + (E0 * (Dᵀ * W)).mulVec (m - Hp)) k = a k := by
  rw [Pi.add_apply]
  have : (E0 * (Dᵀ * W)).mulVec (m - Hp) k = 0 := by
    rw [Matrix.mulVec_eq_sum, Finset.sum_apply]
    refine Finset.sum_eq_zero fun l _ => ?_
    have e : (E0 * (Dᵀ * W)) k l = 0 := by rw [Matrix.mul_apply]; simp [h]
    have e2 : ((E0 * (Dᵀ * W))ᵀ) l k = 0 := e
    rw [Pi.smul_apply, e2, smul_zero]
  rw [this, add_zero]

end

/-! ### The loops over the DUTs -/

/-- The effect of a used track on one DUT. -/
def DutStep (al : Fin n → Dut.Alignment) (f : Fit n) (t : Track n T) (s s' : Dyn n) (d : Fin n) : Prop :=
  ∃ a1 E1, calculateParameters (f.H d) (f.V d) (f.C0 d) (f.p0 d) (s.state d) (s.cov d)
      (rotationMatrix (al d).alpha (al d).beta (al d).gamma)ᵀ (t.hit d) = .ok (a1, E1) ∧
    ((changeTooLarge (s.state d) a1 (s.cov d) = true ∧ s'.state d = s.state d ∧ s'.cov d = s.cov d ∧ s'.count d = s.count d) ∨
     (changeTooLarge (s.state d) a1 (s.cov d) = false ∧ s'.state d = a1 ∧ s'.cov d = E1 ∧ s'.count d = s.count d + 1))

/-- Nothing changes for a DUT. -/
def DutSame (s s' : Dyn n) (d : Fin n) : Prop := s'.state d = s.state d ∧ s'.cov d = s.cov d ∧ s'.count d = s.count d

theorem updateDut_ok {al : Fin n → Dut.Alignment} {f : Fit n} {t : Track n T} {d : Fin n} {s s' : Dyn n}
    (h : updateDut al f t d s = .ok s') : DutStep al f t s s' d ∧ ∀ d', d' ≠ d → DutSame s s' d' := by
  unfold updateDut at h
  split at h
  · simp at h
  · rename_i a1 E1 hc
    split at h
    · rename_i hl
      injection h with h
      subst h
      exact ⟨⟨a1, E1, hc, Or.inl ⟨hl, rfl, rfl, rfl⟩⟩, fun _ _ => ⟨rfl, rfl, rfl⟩⟩
    · rename_i hl
      injection h with h
      subst h
      refine ⟨⟨a1, E1, hc, Or.inr ⟨by simpa using hl, by simp, by simp, by simp⟩⟩, fun d' hd => ⟨?_, ?_, ?_⟩⟩ <;> simp [hd]

theorem updateLoop_ok {al : Fin n → Dut.Alignment} {f : Fit n} {t : Track n T} (l : List (Fin n)) (hl : l.Nodup) {s s' : Dyn n}
    (h : updateLoop al f t l s = .ok s') :
    (∀ d ∈ l, DutStep al f t s s' d) ∧ ∀ d, d ∉ l → DutSame s s' d := by
  induction l generalizing s with
  | nil =>
    rw [updateLoop] at h
    injection h with h
    subst h
    exact ⟨by simp, fun _ _ => ⟨rfl, rfl, rfl⟩⟩
  | cons d ds ih =>
    rw [updateLoop] at h
    split at h
    · simp at h
    · rename_i s1 h1
      rw [List.nodup_cons] at hl
      obtain ⟨g1, g2⟩ := updateDut_ok h1
      obtain ⟨k1, k2⟩ := ih hl.2 h
      refine ⟨?_, ?_⟩
      · intro d' hd'
        rcases List.mem_cons.mp hd' with rfl | hm
        · obtain ⟨a1, E1, hc, hh⟩ := g1
          obtain ⟨e1, e2, e3⟩ := k2 d' hl.1
          refine ⟨a1, E1, hc, ?_⟩
          rw [e1, e2, e3]
          exact hh
        · have hne : d' ≠ d := fun h => hl.1 (h ▸ hm)
          obtain ⟨e1, e2, e3⟩ := g2 d' hne
          have := k1 d' hm
          unfold DutStep at this
          rw [e1, e2, e3] at this
          exact this
      · intro d' hd'
        rw [List.mem_cons, not_or] at hd'
        obtain ⟨e1, e2, e3⟩ := g2 d' hd'.1
        obtain ⟨e1', e2', e3'⟩ := k2 d' hd'.2
        exact ⟨e1'.trans e1, e2'.trans e2, e3'.trans e3⟩

theorem setAlignments_ok {cfg : Config n T} {s : Dyn n} (l : List (Fin n)) (hl : l.Nodup) {al al' : Fin n → Dut.Alignment}
    (h : setAlignments cfg s l al = .ok al') :
    (∀ d ∈ l, newAlignment (cfg.rot0 d) (cfg.pos0 d) (s.state d) = .ok (al' d)) ∧ ∀ d, d ∉ l → al' d = al d := by
  induction l generalizing al with
  | nil =>
    rw [setAlignments] at h
    injection h with h
    subst h
    simp
  | cons d ds ih =>
    rw [setAlignments] at h
    split at h
    · simp at h
    · rename_i a ha
      rw [List.nodup_cons] at hl
      obtain ⟨g1, g2⟩ := ih hl.2 h
      refine ⟨?_, ?_⟩
      · intro d' hd'
        rcases List.mem_cons.mp hd' with rfl | hm
        · rw [ha, g2 d' hl.1]
          simp
        · exact g1 d' hm
      · intro d' hd'
        rw [List.mem_cons, not_or] at hd'
        rw [g2 d' hd'.2]
        simp [hd'.1]

theorem setAlignments_exists {cfg : Config n T} {s : Dyn n} (l : List (Fin n)) (al : Fin n → Dut.Alignment)
    (h : ∀ d ∈ l, ∃ a, newAlignment (cfg.rot0 d) (cfg.pos0 d) (s.state d) = .ok a) : ∃ al', setAlignments cfg s l al = .ok al' := by
  induction l generalizing al with
  | nil => exact ⟨al, by rw [setAlignments]⟩
  | cons d ds ih =>
    obtain ⟨a, ha⟩ := h d (by simp)
    obtain ⟨al', h'⟩ := ih (Function.update al d a) (fun d' hd' => h d' (List.mem_cons_of_mem _ hd'))
    exact ⟨al', by rw [setAlignments, ha]; exact h'⟩

/-! ### The loops over the tracks -/

/-- What is stored for a track if the variables are `s` before it. -/
def RecOf (cfg : Config n T) (s : Dyn n) (r : Record n) : Prop :=
  (∀ d, newAlignment (cfg.rot0 d) (cfg.pos0 d) (s.state d) = .ok (r.align d)) ∧ r = record cfg s r.align

/-- One track. -/
def StepOf (cfg : Config n T) (s : Dyn n) (t : Track n T) (r : Record n) (s' : Dyn n) (used : Bool) : Prop :=
  RecOf cfg s r ∧ useTrack cfg s r.align t (cfg.fit r.align r.annealing t) = .ok (s', used)

/-- A sequence of tracks. -/
inductive Trace (cfg : Config n T) : Dyn n → List (Track n T × Record n) → Dyn n → Prop
  | nil (s : Dyn n) : Trace cfg s [] s
  | cons {s s' s'' : Dyn n} {t : Track n T} {r : Record n} {used : Bool} {l : List (Track n T × Record n)}
      (h : StepOf cfg s t r s' used) (h' : Trace cfg s' l s'') : Trace cfg s ((t, r) :: l) s''

theorem Trace.append {cfg : Config n T} {s s' s'' : Dyn n} {l l' : List (Track n T × Record n)} (h : Trace cfg s l s')
    (h' : Trace cfg s' l' s'') : Trace cfg s (l ++ l') s'' := by
  induction h with
  | nil s => exact h'
  | cons hs _ ih => exact Trace.cons hs (ih h')

/-- An invariant holds before every track and at the end. -/
theorem Trace.invariant {cfg : Config n T} (P : Dyn n → Prop) (Q : Track n T → Prop)
    (hstep : ∀ s t r s' used, P s → Q t → StepOf cfg s t r s' used → P s') {s s' : Dyn n} {l : List (Track n T × Record n)}
    (h : Trace cfg s l s') (hs : P s) (hq : ∀ p ∈ l, Q p.1) : P s' ∧ ∀ p ∈ l, ∃ s, P s ∧ RecOf cfg s p.2 := by
  induction h with
  | nil s => exact ⟨hs, by simp⟩
  | cons h1 _ ih =>
    have hp := hstep _ _ _ _ _ hs (hq _ List.mem_cons_self) h1
    obtain ⟨g1, g2⟩ := ih hp (fun p hp => hq p (List.mem_cons_of_mem _ hp))
    refine ⟨g1, ?_⟩
    intro p hp'
    rcases List.mem_cons.mp hp' with rfl | hm
    · exact ⟨_, hs, h1.1⟩
    · exact g2 p hm

/-- The alignment of the last line of a table. -/
def lastAl (al : Fin n → Dut.Alignment) (l : List (Record n)) : Fin n → Dut.Alignment := (l.getLast?.map Record.align).getD al

theorem lastAl_append (al : Fin n → Dut.Alignment) (a b : List (Record n)) : lastAl al (a ++ b) = lastAl (lastAl al a) b := by
  unfold lastAl
  rw [List.getLast?_append]
  cases b.getLast? <;> simp

theorem lastAl_cons (al : Fin n → Dut.Alignment) (r : Record n) (b : List (Record n)) : lastAl al (r :: b) = lastAl r.align b := by
  have := lastAl_append al [r] b
  rw [List.singleton_append] at this
  rw [this]
  rfl

theorem finRange_all {P : Fin n → Prop} (h : ∀ d ∈ List.finRange n, P d) (d : Fin n) : P d := h d (List.mem_finRange d)

theorem trackLoop_trace (cfg : Config n T) (ts : List (Track n T)) (s : Dyn n) (al : Fin n → Dut.Alignment) (c : Chunk n)
    (h : trackLoop cfg ts s al = .ok c) :
    ∃ l, Trace cfg s l c.dyn ∧ l.map Prod.snd = c.recs ∧ c.al = lastAl al c.recs ∧ l.map Prod.fst <+: ts ∧
      (c.stop = false → l.map Prod.fst = ts) ∧ (c.stop = true → reached c.dyn.count cfg.maxTracks = true) := by
  induction ts generalizing s al c with
  | nil =>
    rw [trackLoop] at h
    injection h with h
    subst h
    exact ⟨[], Trace.nil _, rfl, rfl, by simp, fun _ => rfl, by simp⟩
  | cons t ts ih =>
    rw [trackLoop] at h
    split at h
    · simp at h
    · rename_i al' hal
      split at h
      · simp at h
      · rename_i s' used hu
        have hst : StepOf cfg s t (record cfg s al') s' used :=
          ⟨⟨fun d => (setAlignments_ok _ (List.nodup_finRange n) hal).1 d (List.mem_finRange d), rfl⟩, hu⟩
        split at h
        · rename_i hr
          injection h with h
          subst h
          rw [Bool.and_eq_true] at hr
          exact ⟨[(t, record cfg s al')], Trace.cons hst (Trace.nil _), rfl, rfl, by simp, by simp, fun _ => hr.2⟩
        · split at h
          · simp at h
          · rename_i c' hc'
            injection h with h
            subst h
            obtain ⟨l, g1, g2, g3, g4, g5, g6⟩ := ih s' al' c' hc'
            refine ⟨(t, record cfg s al') :: l, Trace.cons hst g1, by simp [g2], ?_, ?_, ?_, g6⟩
            · dsimp only
              rw [lastAl_cons]
              exact g3
            · rw [List.map_cons]
              exact List.cons_prefix_cons.mpr ⟨rfl, g4⟩
            · intro hs
              rw [List.map_cons, g5 hs]

/-- The whole alignment. -/
theorem chunkLoop_trace (cfg : Config n T) (re : Option ReadErr) (al0 : Fin n → Dut.Alignment) (cs : List (List (Track n T)))
    (s : Dyn n) (al : Fin n → Dut.Alignment) (table : List (Record n)) (hal : al = lastAl al0 table) :
    ∃ l sf, Trace cfg s l sf ∧ (chunkLoop cfg re cs s al al table).table = table ++ l.map Prod.snd ∧
      (chunkLoop cfg re cs s al al table).saved = lastAl al0 (chunkLoop cfg re cs s al al table).table ∧
      l.map Prod.fst <+: cs.flatten.filter (valid cfg.hitMask) ∧
      ((chunkLoop cfg re cs s al al table).err = none →
        l.map Prod.fst = cs.flatten.filter (valid cfg.hitMask) ∨ reached sf.count cfg.maxTracks = true) := by
  induction cs generalizing s al table with
  | nil => exact ⟨[], s, Trace.nil _, by simp [chunkLoop], by simp [chunkLoop, hal], by simp, fun _ => Or.inl (by simp)⟩
  | cons c cs ih =>
    rw [chunkLoop]
    cases h : trackLoop cfg (c.filter (valid cfg.hitMask)) s al with
    | error e => exact ⟨[], s, Trace.nil _, by simp, by simpa using hal, by simp, by simp⟩
    | ok r =>
      dsimp only
      obtain ⟨l, g1, g2, g3, g4, g5, g6⟩ := trackLoop_trace cfg _ s al r h
      cases hstop : r.stop with
      | true =>
        simp only [if_true]
        refine ⟨l, r.dyn, g1, by rw [g2], ?_, ?_, fun _ => Or.inr (g6 hstop)⟩
        · rw [lastAl_append, ← hal]
          exact g3
        · rw [List.flatten_cons, List.filter_append]
          exact g4.trans (List.prefix_append _ _)
      | false =>
        simp only [Bool.false_eq_true, if_false]
        obtain ⟨l', sf, k1, k2, k3, k4, k5⟩ := ih r.dyn r.al (table ++ r.recs) (by rw [lastAl_append, ← hal]; exact g3)
        refine ⟨l ++ l', sf, g1.append k1, ?_, k3, ?_, ?_⟩
        · rw [k2, List.map_append, g2, List.append_assoc]
        · rw [List.flatten_cons, List.filter_append, List.map_append, g5 hstop]
          exact (List.prefix_append_right_inj _).mpr k4
        · intro he
          rcases k5 he with h | h
          · exact Or.inl (by rw [List.flatten_cons, List.filter_append, List.map_append, g5 hstop, h])
          · exact Or.inr h

/-! ### Reading off a trace -/

theorem RecOf.unique {cfg : Config n T} {s : Dyn n} {r r' : Record n} (h : RecOf cfg s r) (h' : RecOf cfg s r') : r = r' := by
  have : r.align = r'.align := by
    funext d
    have := (h.1 d).symm.trans (h'.1 d)
    injection this
  rw [h.2, h'.2, this]

theorem StepOf.unique {cfg : Config n T} {s s1 s2 : Dyn n} {t : Track n T} {r r' : Record n} {u u' : Bool}
    (h : StepOf cfg s t r s1 u) (h' : StepOf cfg s t r' s2 u') : r = r' ∧ s1 = s2 ∧ u = u' := by
  have hr := h.1.unique h'.1
  subst hr
  have := h.2.symm.trans h'.2
  injection this with this
  injection this with h1 h2
  exact ⟨rfl, h1, h2⟩

/-- The lines depend on the tracks before only. -/
theorem Trace.records_eq {cfg : Config n T} {s sf sf' : Dyn n} {l l' : List (Track n T × Record n)} (h : Trace cfg s l sf)
    (h' : Trace cfg s l' sf') (vs : List (Track n T)) (t t' : Track n T) (e : l.map Prod.fst = vs ++ [t])
    (e' : l'.map Prod.fst = vs ++ [t']) : l.map Prod.snd = l'.map Prod.snd := by
  induction vs generalizing s l l' with
  | nil =>
    cases h with
    | nil => simp at e
    | cons h1 h2 =>
      cases h' with
      | nil => simp at e'
      | cons g1 g2 =>
        simp at e e'
        rw [e.2, e'.2]
        simp [h1.1.unique g1.1]
  | cons v vs ih =>
    cases h with
    | nil => simp at e
    | cons h1 h2 =>
      cases h' with
      | nil => simp at e'
      | cons g1 g2 =>
        rw [List.map_cons, List.cons_append, List.cons.injEq] at e e'
        obtain ⟨e1, e2⟩ := e
        obtain ⟨e1', e2'⟩ := e'
        dsimp only at e1 e1'
        subst e1
        subst e1'
        obtain ⟨hr, hs, -⟩ := h1.unique g1
        subst hs
        rw [List.map_cons, List.map_cons, ih h2 g2 e2 e2', hr]

theorem Trace.deterministic {cfg : Config n T} {s sf sf' : Dyn n} {l l' : List (Track n T × Record n)} (h : Trace cfg s l sf)
    (h' : Trace cfg s l' sf') (e : l.map Prod.fst = l'.map Prod.fst) : l = l' ∧ sf = sf' := by
  induction h generalizing l' with
  | nil s =>
    cases h' with
    | nil => exact ⟨rfl, rfl⟩
    | cons => simp at e
  | cons h1 h2 ih =>
    cases h' with
    | nil => simp at e
    | cons g1 g2 =>
      rw [List.map_cons, List.map_cons, List.cons.injEq] at e
      obtain ⟨e1, e2⟩ := e
      dsimp only at e1
      subst e1
      obtain ⟨hr, hs, -⟩ := h1.unique g1
      subst hs
      obtain ⟨k1, k2⟩ := ih g2 e2
      exact ⟨by rw [k1, hr], k2⟩

/-- The variables before a track. -/
theorem Trace.get {cfg : Config n T} {s sf : Dyn n} {l : List (Track n T × Record n)} (h : Trace cfg s l sf) (i : Nat)
    (p : Track n T × Record n) (hp : l[i]? = some p) :
    ∃ si s' used, Trace cfg s (l.take i) si ∧ StepOf cfg si p.1 p.2 s' used ∧ Trace cfg s' (l.drop (i + 1)) sf := by
  induction h generalizing i with
  | nil s => simp at hp
  | cons h1 h2 ih =>
    cases i with
    | zero =>
      simp at hp
      subst hp
      exact ⟨_, _, _, Trace.nil _, h1, by simpa using h2⟩
    | succ i =>
      rw [List.getElem?_cons_succ] at hp
      obtain ⟨si, s', used, k1, k2, k3⟩ := ih i hp
      exact ⟨si, s', used, Trace.cons h1 k1, k2, by simpa using k3⟩

/-- Invariants and relations that every step keeps. -/
theorem Trace.rel {cfg : Config n T} (P : Dyn n → Prop) (R : Dyn n → Dyn n → Prop) (hrefl : ∀ s, R s s)
    (htrans : ∀ a b c, R a b → R b c → R a c)
    (hstep : ∀ s t r s' used, P s → StepOf cfg s t r s' used → P s' ∧ R s s') {s sf : Dyn n}
    {l : List (Track n T × Record n)} (h : Trace cfg s l sf) (hs : P s) : P sf ∧ R s sf := by
  induction h with
  | nil s => exact ⟨hs, hrefl s⟩
  | cons h1 _ ih =>
    obtain ⟨k1, k2⟩ := hstep _ _ _ _ _ hs h1
    obtain ⟨k3, k4⟩ := ih k1
    exact ⟨k3, htrans _ _ _ k2 k4⟩

theorem Trace.pairs {cfg : Config n T} (P : Dyn n → Prop) (R : Dyn n → Dyn n → Prop) (hrefl : ∀ s, R s s)
    (htrans : ∀ a b c, R a b → R b c → R a c)
    (hstep : ∀ s t r s' used, P s → StepOf cfg s t r s' used → P s' ∧ R s s') {s sf : Dyn n}
    {l : List (Track n T × Record n)} (h : Trace cfg s l sf) (hs : P s) (i j : Nat) (hij : i ≤ j) (p q : Track n T × Record n)
    (hp : l[i]? = some p) (hq : l[j]? = some q) :
    ∃ si sj, P si ∧ P sj ∧ R s si ∧ R si sj ∧ RecOf cfg si p.2 ∧ RecOf cfg sj q.2 := by
  obtain ⟨si, s', used, k1, k2, k3⟩ := h.get i p hp
  obtain ⟨p1, r1⟩ := k1.rel P R hrefl htrans hstep hs
  rcases Nat.eq_or_lt_of_le hij with rfl | hlt
  · rw [hp] at hq
    injection hq with hq
    subst hq
    exact ⟨si, si, p1, p1, r1, hrefl _, k2.1, k2.1⟩
  · obtain ⟨p2, r2⟩ := hstep _ _ _ _ _ p1 k2
    have hq' : (l.drop (i + 1))[j - (i + 1)]? = some q := by
      rw [List.getElem?_drop, show i + 1 + (j - (i + 1)) = j by omega]
      exact hq
    obtain ⟨sj, s'', used', m1, m2, -⟩ := k3.get _ q hq'
    obtain ⟨p3, r3⟩ := m1.rel P R hrefl htrans hstep p2
    exact ⟨si, sj, p1, p3, r1, htrans _ _ _ r2 r3, k2.1, m2.1⟩

/-- Two lines that follow each other. -/
theorem Trace.next {cfg : Config n T} (P : Dyn n → Prop)
    (hstep : ∀ s t r s' used, P s → StepOf cfg s t r s' used → P s') {s sf : Dyn n}
    {l : List (Track n T × Record n)} (h : Trace cfg s l sf) (hs : P s) (i : Nat) (p q : Track n T × Record n)
    (hp : l[i]? = some p) (hq : l[i + 1]? = some q) :
    ∃ si s' used, P si ∧ StepOf cfg si p.1 p.2 s' used ∧ RecOf cfg s' q.2 := by
  obtain ⟨si, s', used, k1, k2, k3⟩ := h.get i p hp
  have p1 := (k1.rel P (fun _ _ => True) (fun _ => trivial) (fun _ _ _ _ _ => trivial)
    (fun s t r s' used h1 h2 => ⟨hstep s t r s' used h1 h2, trivial⟩) hs).1
  have hq' : (l.drop (i + 1))[0]? = some q := by simpa using hq
  obtain ⟨sj, s'', used', m1, m2, -⟩ := k3.get 0 q hq'
  rw [List.take_zero] at m1
  cases m1
  exact ⟨si, s', used, p1, k2, m2.1⟩

/-! ### What a track does to a DUT -/

theorem StepOf.dut {cfg : Config n T} {s s' : Dyn n} {t : Track n T} {r : Record n} {u : Bool} (h : StepOf cfg s t r s' u) (d : Fin n) :
    DutSame s s' d ∨ ∃ f, cfg.fit r.align r.annealing t = some f ∧ badChi2 f.chi2 cfg.chi2Cut = false ∧ DutStep r.align f t s s' d := by
  have h2 := h.2
  unfold useTrack at h2
  split at h2
  · injection h2 with h2
    injection h2 with h2 _
    subst h2
    exact Or.inl ⟨rfl, rfl, rfl⟩
  · rename_i f hf
    split at h2
    · injection h2 with h2
      injection h2 with h2 _
      subst h2
      exact Or.inl ⟨rfl, rfl, rfl⟩
    · rename_i hb
      split at h2
      · simp at h2
      · rename_i s1 hs1
        injection h2 with h2
        injection h2 with h2 _
        subst h2
        exact Or.inr ⟨f, hf, by simpa using hb, (updateLoop_ok _ (List.nodup_finRange n) hs1).1 d (List.mem_finRange d)⟩

theorem calculateParameters_ok {H : ObsMat} {V : ObsCov} {C0 : Cov} {p0 : State} {a0 : Option Vec6} {E0 : Mat6} {R : Mat3}
    {m : Option Obs} {a1 : Option Vec6} {E1 : Mat6} (h : calculateParameters H V C0 p0 a0 E0 R m = .ok (a1, E1)) :
    (innovation H V C0 (jacobian p0 R) E0).det ≠ 0 ∧
    a1 = newState a0 E0 (jacobian p0 R) (innovation H V C0 (jacobian p0 R) E0)⁻¹ m (H.mulVec p0) ∧
    E1 = newCov E0 (jacobian p0 R) (innovation H V C0 (jacobian p0 R) E0)⁻¹ := by
  unfold calculateParameters at h
  dsimp only at h
  split at h
  · simp at h
  · rename_i hd
    injection h with h
    injection h with h1 h2
    exact ⟨hd, h1.symm, h2.symm⟩

/-- Parameter `k` of DUT `d` is fixed. -/
def Fixed (d : Fin n) (k : Fin 6) (s : Dyn n) : Prop := (∀ a, s.state d = some a → a k = 0) ∧ ∀ j, s.cov d k j = 0

theorem fixed_step {cfg : Config n T} (d : Fin n) (k : Fin 6) (s : Dyn n) (t : Track n T) (r : Record n) (s' : Dyn n) (u : Bool)
    (hf : Fixed d k s) (h : StepOf cfg s t r s' u) : Fixed d k s' := by
  rcases h.dut d with ⟨e1, e2, -⟩ | ⟨f, -, -, a1, E1, hc, hh⟩
  · exact ⟨by rw [e1]; exact hf.1, by rw [e2]; exact hf.2⟩
  · rcases hh with ⟨-, e1, e2, -⟩ | ⟨-, e1, e2, -⟩
    · exact ⟨by rw [e1]; exact hf.1, by rw [e2]; exact hf.2⟩
    · obtain ⟨-, g1, g2⟩ := calculateParameters_ok hc
      refine ⟨?_, ?_⟩
      · rw [e1, g1]
        intro a ha
        unfold newState at ha
        split at ha
        · rename_i a0 m h0 _
          injection ha with ha
          rw [← ha, newState_row k hf.2]
          exact hf.1 _ h0
        · simp at ha
      · rw [e2, g2]
        exact fun j => newCov_row k hf.2 _ j

theorem psd_step {cfg : Config n T} (hS : SoundFit cfg) (d : Fin n) (s : Dyn n) (t : Track n T) (r : Record n) (s' : Dyn n) (u : Bool)
    (hp : (s.cov d).PosSemidef) (h : StepOf cfg s t r s' u) :
    (s'.cov d).PosSemidef ∧ ∀ k, s'.cov d k k ≤ s.cov d k k := by
  rcases h.dut d with ⟨-, e2, -⟩ | ⟨f, hfit, -, a1, E1, hc, hh⟩
  · rw [e2]; exact ⟨hp, fun _ => le_refl _⟩
  · rcases hh with ⟨-, -, e2, -⟩ | ⟨-, -, e2, -⟩
    · rw [e2]; exact ⟨hp, fun _ => le_refl _⟩
    · obtain ⟨g0, -, g2⟩ := calculateParameters_ok hc
      obtain ⟨hV, hC⟩ := hS _ _ _ _ hfit d
      rw [e2, g2]
      exact ⟨newCov_psd hV hC hp g0, newCov_diag hp (innovation_pd hV hC hp g0)⟩

theorem count_step {cfg : Config n T} (d : Fin n) (s : Dyn n) (t : Track n T) (r : Record n) (s' : Dyn n) (u : Bool)
    (h : StepOf cfg s t r s' u) : s.count d ≤ s'.count d ∧ s'.count d ≤ s.count d + 1 := by
  rcases h.dut d with ⟨-, -, e3⟩ | ⟨f, -, -, a1, E1, -, hh⟩
  · rw [e3]; omega
  · rcases hh with ⟨-, -, -, e3⟩ | ⟨-, -, -, e3⟩ <;> rw [e3] <;> omega

theorem count_trace {cfg : Config n T} (d : Fin n) {s sf : Dyn n} {l : List (Track n T × Record n)} (h : Trace cfg s l sf) :
    sf.count d ≤ s.count d + l.length := by
  induction h with
  | nil => simp
  | cons h1 _ ih =>
    have := (count_step d _ _ _ _ _ h1).2
    rw [List.length_cons]
    omega

/-- The parameters change by at most a fraction of their error. -/
theorem state_step {cfg : Config n T} (d : Fin n) (s : Dyn n) (t : Track n T) (r : Record n) (s' : Dyn n) (u : Bool)
    (h : StepOf cfg s t r s' u) (a b : Vec6) (ha : s.state d = some a) (hb : s'.state d = some b) (k : Fin 6) :
    |b k - a k| ≤ 0.05 * Real.sqrt (s.cov d k k) := by
  have hz : |a k - a k| ≤ 0.05 * Real.sqrt (s.cov d k k) := by
    rw [sub_self, abs_zero]
    exact mul_nonneg (by norm_num) (Real.sqrt_nonneg _)
  rcases h.dut d with ⟨e1, -, -⟩ | ⟨f, -, -, a1, E1, hc, hh⟩
  · rw [e1, ha] at hb
    injection hb with hb
    subst hb
    exact hz
  · rcases hh with ⟨-, e1, -, -⟩ | ⟨hl, e1, -, -⟩
    · rw [e1, ha] at hb
      injection hb with hb
      subst hb
      exact hz
    · rw [e1] at hb
      rw [ha, hb] at hl
      unfold changeTooLarge at hl
      rw [List.any_eq_false] at hl
      have := hl k (List.mem_finRange k)
      by_contra hcon
      apply this
      rw [decide_eq_true_iff]
      unfold deviationCuts
      exact ⟨by norm_num, not_le.mp hcon⟩

/-! ### Initial covariance -/

theorem initialCovs_ok {select : List Nat} {parameters : List (Option (List String))} {errors : Vec6} (l : List (Fin n)) (hl : l.Nodup)
    {cov cov' : Fin n → Mat6} (h : initialCovs select parameters errors l cov = .ok cov') :
    (∀ d ∈ l, initialCov select parameters errors d = .ok (cov' d)) ∧ ∀ d, d ∉ l → cov' d = cov d := by
  induction l generalizing cov with
  | nil =>
    rw [initialCovs] at h
    injection h with h
    subst h
    simp
  | cons d ds ih =>
    rw [initialCovs] at h
    split at h
    · simp at h
    · rename_i a ha
      rw [List.nodup_cons] at hl
      obtain ⟨g1, g2⟩ := ih hl.2 h
      refine ⟨?_, ?_⟩
      · intro d' hd'
        rcases List.mem_cons.mp hd' with rfl | hm
        · rw [ha, g2 d' hl.1]
          simp
        · exact g1 d' hm
      · intro d' hd'
        rw [List.mem_cons, not_or] at hd'
        rw [g2 d' hd'.2]
        simp [hd'.1]

theorem initialCovs_error {select : List Nat} {parameters : List (Option (List String))} {errors : Vec6} (l : List (Fin n)) (d : Fin n)
    (hd : d ∈ l) (h : ∀ C, initialCov select parameters errors d ≠ .ok C) (cov cov' : Fin n → Mat6) :
    initialCovs select parameters errors l cov ≠ .ok cov' := by
  induction l generalizing cov with
  | nil => simp at hd
  | cons e ds ih =>
    rw [initialCovs]
    split
    · simp
    · rename_i a ha
      rcases List.mem_cons.mp hd with rfl | hm
      · exact absurd ha (h a)
      · exact ih hm _

theorem initialCov_cases {select : List Nat} {parameters : List (Option (List String))} {errors : Vec6} {d : Nat} {C : Mat6}
    (h : initialCov select parameters errors d = .ok C) :
    (d ∉ select ∧ C = 0) ∨ ∃ names, d ∈ select ∧ parameters[d]? = some (some names) ∧ C = diagonal (variances names errors) := by
  unfold initialCov at h
  split at h
  · rename_i hd
    split at h
    · simp at h
    · simp at h
    · rename_i names hn
      injection h with h
      exact Or.inr ⟨names, hd, hn, h.symm⟩
  · rename_i hd
    injection h with h
    exact Or.inl ⟨hd, h.symm⟩

theorem fixPlane_ok {cov cov' : Fin n → Mat6} {d : Nat} (h : fixPlane cov d = .ok cov') (e : Fin n) :
    cov' e = if e.val = d then fixFive (cov e) else cov e := by
  unfold fixPlane at h
  split at h
  · rename_i hd
    injection h with h
    subst h
    by_cases he : e.val = d
    · subst he
      simp
    · have : e ≠ ⟨d, hd⟩ := fun h => he (by rw [h])
      simp [this, he]
  · simp at h

theorem initialAlignment_ok {select tel : List Nat} {parameters : List (Option (List String))} {errors : Vec6} {cov : Fin n → Mat6}
    (h : initialAlignment select tel parameters errors = .ok cov) (d : Fin n) :
    ∃ C, initialCov select parameters errors d = .ok C ∧
      cov d = if tel.head? = some d.val ∨ tel.getLast? = some d.val then fixFive C else C := by
  unfold initialAlignment at h
  split at h
  · simp at h
  · rename_i c hc
    split at h
    · rename_i a b ha hb
      split at h
      · simp at h
      · rename_i c' hc'
        refine ⟨c d, (initialCovs_ok _ (List.nodup_finRange n) hc).1 d (List.mem_finRange d), ?_⟩
        rw [fixPlane_ok h d, fixPlane_ok hc' d, ha, hb]
        have idem : fixFive (fixFive (c d)) = fixFive (c d) := by
          funext i j
          unfold fixFive
          split <;> simp_all
        have ea : some a = some d.val ↔ d.val = a := by rw [Option.some.injEq]; exact eq_comm
        have eb : some b = some d.val ↔ d.val = b := by rw [Option.some.injEq]; exact eq_comm
        by_cases h1 : d.val = a
        · by_cases h2 : d.val = b
          · rw [if_pos h2, if_pos h1, if_pos (Or.inl (ea.mpr h1)), idem]
          · rw [if_neg h2, if_pos h1, if_pos (Or.inl (ea.mpr h1))]
        · by_cases h2 : d.val = b
          · rw [if_pos h2, if_neg h1, if_pos (Or.inr (eb.mpr h2))]
          · rw [if_neg h2, if_neg h1, if_neg (not_or.mpr ⟨fun h => h1 (ea.mp h), fun h => h2 (eb.mp h)⟩)]
    · simp at h

theorem fixFive_diagonal (v : Vec6) : fixFive (diagonal v) = diagonal (fun k => if k.val < 5 then 0 else v k) := by
  funext i j
  unfold fixFive
  by_cases h : i = j
  · subst h
    simp [Matrix.diagonal_apply_eq]
  · simp [h]

/-- The initial covariance is diagonal. -/
theorem initial_diagonal {select tel : List Nat} {parameters : List (Option (List String))} {errors : Vec6} {cov : Fin n → Mat6}
    (h : initialAlignment select tel parameters errors = .ok cov) (d : Fin n) :
    ∃ v : Vec6, cov d = diagonal v ∧ (∀ k, 0 ≤ v k ∧ v k ≤ errors k ^ 2) ∧ ∀ k, Excluded select tel parameters d k → v k = 0 := by
  obtain ⟨C, hC, hc⟩ := initialAlignment_ok h d
  have hC' : ∃ v : Vec6, C = diagonal v ∧ (∀ k, 0 ≤ v k ∧ v k ≤ errors k ^ 2) ∧
      ∀ k, (d.val ∉ select ∨ ∃ names, parameters[d.val]? = some (some names) ∧ parName k ∉ names) → v k = 0 := by
    rcases initialCov_cases hC with ⟨-, rfl⟩ | ⟨names, hs, hn, rfl⟩
    · exact ⟨0, by ext i j; simp [Matrix.diagonal_apply], fun k => ⟨le_refl _, sq_nonneg _⟩, fun _ _ => rfl⟩
    · refine ⟨variances names errors, rfl, fun k => ?_, fun k hk => ?_⟩
      · unfold variances
        split
        · exact ⟨sq_nonneg _, le_refl _⟩
        · exact ⟨le_refl _, sq_nonneg _⟩
      · rcases hk with hk | ⟨names', hn', hk⟩
        · exact absurd hs hk
        · rw [hn] at hn'
          injection hn' with hn'
          injection hn' with hn'
          subst hn'
          unfold variances
          rw [if_neg hk]
  obtain ⟨v, rfl, hv, hx⟩ := hC'
  by_cases ht : tel.head? = some d.val ∨ tel.getLast? = some d.val
  · rw [if_pos ht, fixFive_diagonal] at hc
    refine ⟨_, hc, fun k => ?_, fun k hk => ?_⟩
    · split
      · exact ⟨le_refl _, sq_nonneg _⟩
      · exact hv k
    · by_cases h5 : k.val < 5
      · simp [h5]
      · rw [if_neg h5]
        rcases hk with hk | hk | ⟨-, hk⟩
        · exact hx k (Or.inl hk)
        · exact hx k (Or.inr hk)
        · exact absurd (Fin.ext (by have := k.isLt; show k.val = 5; omega)) hk
  · rw [if_neg ht] at hc
    refine ⟨v, hc, hv, fun k hk => ?_⟩
    rcases hk with hk | hk | ⟨hk, -⟩
    · exact hx k (Or.inl hk)
    · exact hx k (Or.inr hk)
    · exact absurd hk ht

theorem initial_psd {select tel : List Nat} {parameters : List (Option (List String))} {errors : Vec6} {cov : Fin n → Mat6}
    (h : initialAlignment select tel parameters errors = .ok cov) (d : Fin n) : (cov d).PosSemidef := by
  obtain ⟨v, hv, h0, -⟩ := initial_diagonal h d
  rw [hv]
  exact Matrix.PosSemidef.diagonal (fun k => (h0 k).1)

theorem initial_fixed {select tel : List Nat} {parameters : List (Option (List String))} {errors : Vec6} {cov : Fin n → Mat6}
    (h : initialAlignment select tel parameters errors = .ok cov) (d : Fin n) (k : Fin 6) (hk : Excluded select tel parameters d k) :
    Fixed d k (initialDyn cov) := by
  obtain ⟨v, hv, -, hx⟩ := initial_diagonal h d
  refine ⟨fun a ha => ?_, fun j => ?_⟩
  · unfold initialDyn at ha
    injection ha with ha
    rw [← ha]
    rfl
  · show cov d k j = 0
    rw [hv, Matrix.diagonal_apply, hx k hk]
    simp

/-! ### The alignment of a DUT -/

theorem newAlignment_ok {R0 : Mat3} {x0 : Vec3} {s : Option Vec6} {a : Dut.Alignment} (h : newAlignment R0 x0 s = .ok a) :
    ∃ v, s = some v ∧ a.x = v 0 + x0 0 ∧ a.y = v 1 + x0 1 ∧ a.z = v 2 + x0 2 ∧
      eulerAngles ((rotationMatrix (v 3) (v 4) (v 5))ᵀ * R0) = .angles a.alpha a.beta a.gamma := by
  unfold newAlignment at h
  split at h
  · simp at h
  · rename_i v
    split at h
    · simp at h
    · simp at h
    · simp at h
    · rename_i al be ga he
      injection h with h
      subst h
      exact ⟨v, rfl, rfl, rfl, rfl, he⟩

theorem orth_mul {A B : Mat3} (hA : Aᵀ * A = 1) (hB : Bᵀ * B = 1) : (A * B)ᵀ * (A * B) = 1 := by
  rw [Matrix.transpose_mul, Matrix.mul_assoc, ← Matrix.mul_assoc Aᵀ, hA, Matrix.one_mul, hB]

theorem delta_orth (a b c : ℝ) (R0 : Mat3) (h : R0ᵀ * R0 = 1) :
    ((rotationMatrix a b c)ᵀ * R0)ᵀ * ((rotationMatrix a b c)ᵀ * R0) = 1 :=
  orth_mul (by rw [Matrix.transpose_transpose]; exact rotationMatrix_orth' a b c) h

/-- Without rotations, the angles stay. -/
theorem newAlignment_same {al : Dut.Alignment} (hu : UsualAngles al) {v : Vec6} (h3 : v 3 = 0) (h4 : v 4 = 0) (h5 : v 5 = 0)
    {x0 : Vec3} {a : Dut.Alignment} (h : newAlignment (initialRotation al) x0 (some v) = .ok a) :
    a.alpha = al.alpha ∧ a.beta = al.beta ∧ a.gamma = al.gamma := by
  obtain ⟨v', hv, -, -, -, he⟩ := newAlignment_ok h
  injection hv with hv
  subst hv
  have h1 : rotationMatrix 0 0 0 = 1 := by
    rw [rotationMatrix_eq]
    ext i j
    fin_cases i <;> fin_cases j <;> simp
  rw [h3, h4, h5, h1, Matrix.transpose_one, Matrix.one_mul] at he
  unfold initialRotation at he
  rw [BTA.Props.C32_angles al.alpha al.beta al.gamma hu.1 hu.2.1 hu.2.2.1 hu.2.2.2] at he
  injection he with e1 e2 e3
  exact ⟨e1.symm, e2.symm, e3.symm⟩

/-- The angles around x and y are given by the last row of the matrix. -/
theorem euler_last_row {al : Dut.Alignment} (hu : UsualAngles al) {R : Mat3} (hR : Rᵀ * R = 1)
    (h : ∀ j, R 2 j = initialRotation al 2 j) {a b c : ℝ} (he : eulerAngles R = .angles a b c) : a = al.alpha ∧ b = al.beta := by
  have h0 := BTA.Props.C32_angles al.alpha al.beta al.gamma hu.1 hu.2.1 hu.2.2.1 hu.2.2.2
  have hlt : (initialRotation al) 2 0 ^ 2 < 1 := by
    have hc : 0 < Real.cos al.beta := Real.cos_pos_of_mem_Ioo hu.2.2.1
    have e20 : initialRotation al 2 0 = -Real.sin al.beta := by unfold initialRotation; rw [rotationMatrix_eq]; rfl
    rw [e20]
    have := cs al.beta
    nlinarith [pow_pos hc 2]
  have h0' : eulerAngles (initialRotation al) = .angles al.alpha al.beta al.gamma := h0
  have ho : (initialRotation al)ᵀ * initialRotation al = 1 := rotationMatrix_orth _ _ _
  rw [eulerAngles_eq _ ho hlt] at h0'
  clear h0
  rename' h0' => h0
  rw [eulerAngles_eq R hR (by rw [h]; exact hlt), h, h, h] at he
  injection h0 with g1 g2 g3
  injection he with k1 k2 k3
  exact ⟨k1.symm.trans g1, k2.symm.trans g2⟩

theorem newAlignment_gamma {al : Dut.Alignment} (hu : UsualAngles al) {v : Vec6} (h3 : v 3 = 0) (h4 : v 4 = 0)
    {x0 : Vec3} {a : Dut.Alignment} (h : newAlignment (initialRotation al) x0 (some v) = .ok a) :
    a.alpha = al.alpha ∧ a.beta = al.beta := by
  obtain ⟨v', hv, -, -, -, he⟩ := newAlignment_ok h
  injection hv with hv
  subst hv
  refine euler_last_row hu (delta_orth _ _ _ _ (rotationMatrix_orth _ _ _)) (fun j => ?_) he
  rw [h3, h4, Matrix.mul_apply, Fin.sum_univ_three, Matrix.transpose_apply, Matrix.transpose_apply, Matrix.transpose_apply,
    rotationMatrix_eq 0 0]
  simp [initialRotation]

/-! ### The whole alignment -/

/-- The configuration with the initial alignment. -/
noncomputable def startConfig (cfg : Config n T) (al : Fin n → Dut.Alignment) : Config n T :=
  { cfg with rot0 := fun d => initialRotation (al d), pos0 := fun d => initialPosition (al d) }

theorem alignmentLoop_trace (cfg : Config n T) (cs : Nat) (al : Fin n → Dut.Alignment) (cov : Fin n → Mat6) (tracks : List (Track n T)) :
    ∃ l sf, Trace (startConfig cfg al) (initialDyn cov) l sf ∧ (alignmentLoop cfg cs al cov tracks).table = l.map Prod.snd ∧
      (alignmentLoop cfg cs al cov tracks).saved = lastAl al (alignmentLoop cfg cs al cov tracks).table ∧
      l.map Prod.fst <+: ((dataAligned Track.event tracks { chunkSize := cs }).items.map Prod.fst).flatten.filter (valid cfg.hitMask) ∧
      ((alignmentLoop cfg cs al cov tracks).err = none →
        l.map Prod.fst = ((dataAligned Track.event tracks { chunkSize := cs }).items.map Prod.fst).flatten.filter (valid cfg.hitMask) ∨
        reached sf.count cfg.maxTracks = true) := by
  have := chunkLoop_trace (startConfig cfg al) (dataAligned Track.event tracks { chunkSize := cs }).err al
    ((dataAligned Track.event tracks { chunkSize := cs }).items.map Prod.fst) (initialDyn cov) al [] rfl
  simp only [List.nil_append] at this
  exact this

theorem saved_mem (cfg : Config n T) (cs : Nat) (al : Fin n → Dut.Alignment) (cov : Fin n → Mat6) (tracks : List (Track n T)) :
    (alignmentLoop cfg cs al cov tracks).saved = al ∨
      ∃ r ∈ (alignmentLoop cfg cs al cov tracks).table, (alignmentLoop cfg cs al cov tracks).saved = r.align := by
  obtain ⟨l, sf, -, -, h, -⟩ := alignmentLoop_trace cfg cs al cov tracks
  rw [h]
  unfold lastAl
  cases hl : (alignmentLoop cfg cs al cov tracks).table.getLast? with
  | none => exact Or.inl rfl
  | some r => exact Or.inr ⟨r, List.mem_of_getLast? hl, rfl⟩

theorem valid_iff (duts : List Nat) (t : Track n T) : valid (hitMask duts) t = true ↔ HasHits duts t := by
  have key : ∀ (l : List Nat) (m : Nat) (i : Nat), (l.foldl (fun m d => m ||| (1 <<< d)) m).testBit i = (m.testBit i || decide (i ∈ l)) := by
    intro l
    induction l with
    | nil => intro m i; simp
    | cons d ds ih =>
      intro m i
      rw [List.foldl_cons, ih, Nat.testBit_or, Nat.one_shiftLeft, Nat.testBit_two_pow]
      by_cases h : d = i
      · subst h; simp
      · have h' : ¬ i = d := fun e => h e.symm
        simp [h, h']
  unfold valid HasHits
  rw [beq_iff_eq]
  constructor
  · intro h d hd
    have := congrArg (fun x : Nat => x.testBit d) h
    beta_reduce at this
    rw [Nat.testBit_and] at this
    have hm : (hitMask duts).testBit d = true := by
      unfold hitMask
      rw [key]
      simp [hd]
    rw [hm, Bool.and_true] at this
    exact this
  · intro h
    apply Nat.eq_of_testBit_eq
    intro i
    rw [Nat.testBit_and]
    unfold hitMask
    rw [key]
    by_cases hi : i ∈ duts
    · simp [hi, h i hi]
    · simp [hi]

/-- The tracks of a file that can be read. -/
theorem tracks_read {cs : Nat} {tracks : List (Track n T)} (h : ReadableTracks cs tracks) (duts : List Nat) :
    (dataAligned Track.event tracks { chunkSize := cs }).err = none ∧
    ((dataAligned Track.event tracks { chunkSize := cs }).items.map Prod.fst).flatten.filter (valid (hitMask duts)) =
      usable duts tracks := by
  have hcs : 0 < cs := Nat.lt_of_le_of_lt (Nat.zero_le _) (h.2 0)
  have he := chunks_ok h.1 cs hcs h.2
  refine ⟨he, ?_⟩
  rcases (chunks_default h.1 cs hcs).2.2 with ⟨h1, -⟩ | ⟨-, h1⟩
  · rw [he] at h1
    cases h1
  · have h2 : ((dataAligned Track.event tracks { chunkSize := cs }).items.map Prod.fst).flatten = tracks := by
      rw [← List.flatMap_def]
      exact h1
    rw [h2]
    unfold usable
    apply List.filter_congr
    intro t _
    rw [Bool.eq_iff_iff, valid_iff, decide_eq_true_iff]

/-! ### Runs without errors -/

theorem updateDut_exists {al : Fin n → Dut.Alignment} {f : Fit n} {t : Track n T} {s : Dyn n} (d : Fin n)
    (h : ∃ p, calculateParameters (f.H d) (f.V d) (f.C0 d) (f.p0 d) (s.state d) (s.cov d)
      (rotationMatrix (al d).alpha (al d).beta (al d).gamma)ᵀ (t.hit d) = .ok p) : ∃ s', updateDut al f t d s = .ok s' := by
  obtain ⟨⟨a1, E1⟩, h⟩ := h
  unfold updateDut
  rw [h]
  dsimp only
  split
  · exact ⟨_, rfl⟩
  · exact ⟨_, rfl⟩

theorem updateLoop_exists {al : Fin n → Dut.Alignment} {f : Fit n} {t : Track n T} (l : List (Fin n)) (hl : l.Nodup) (s : Dyn n)
    (h : ∀ d ∈ l, ∃ p, calculateParameters (f.H d) (f.V d) (f.C0 d) (f.p0 d) (s.state d) (s.cov d)
      (rotationMatrix (al d).alpha (al d).beta (al d).gamma)ᵀ (t.hit d) = .ok p) : ∃ s', updateLoop al f t l s = .ok s' := by
  induction l generalizing s with
  | nil => exact ⟨s, by rw [updateLoop]⟩
  | cons d ds ih =>
    obtain ⟨s1, h1⟩ := updateDut_exists d (h d (by simp))
    rw [List.nodup_cons] at hl
    obtain ⟨s', h'⟩ := ih hl.2 s1 (fun d' hd' => by
      obtain ⟨e1, e2, -⟩ := (updateDut_ok h1).2 d' (fun e => hl.1 (e ▸ hd'))
      rw [e1, e2]
      exact h d' (List.mem_cons_of_mem _ hd'))
    exact ⟨s', by rw [updateLoop, h1]; exact h'⟩

theorem calculateParameters_exists {H : ObsMat} {V : ObsCov} {C0 : Cov} {p0 : State} {a0 : Option Vec6} {E0 : Mat6} {R : Mat3}
    {m : Option Obs} (h : (innovation H V C0 (jacobian p0 R) E0).det ≠ 0) : ∃ p, calculateParameters H V C0 p0 a0 E0 R m = .ok p := by
  unfold calculateParameters
  dsimp only
  rw [if_neg h]
  exact ⟨_, rfl⟩

theorem setAlignments_rec {cfg : Config n T} {s : Dyn n} {r : Record n} (h : RecOf cfg s r) (al : Fin n → Dut.Alignment) :
    setAlignments cfg s (List.finRange n) al = .ok r.align := by
  obtain ⟨al', h'⟩ := setAlignments_exists (cfg := cfg) (s := s) (List.finRange n) al (fun d _ => ⟨_, h.1 d⟩)
  rw [h']
  congr 1
  funext d
  have := (setAlignments_ok _ (List.nodup_finRange n) h').1 d (List.mem_finRange d)
  rw [h.1 d] at this
  injection this with this
  exact this.symm

/-- A trace is run by the loop. -/
theorem trackLoop_of_trace {cfg : Config n T} (d0 : Fin n) {s sf : Dyn n} {l : List (Track n T × Record n)} (h : Trace cfg s l sf)
    (hc : s.count d0 + l.length ≤ cfg.maxTracks) (al : Fin n → Dut.Alignment) :
    trackLoop cfg (l.map Prod.fst) s al = .ok { dyn := sf, al := lastAl al (l.map Prod.snd), recs := l.map Prod.snd, stop := false } := by
  induction h generalizing al with
  | nil s => simp [trackLoop, lastAl]
  | cons h1 h2 ih =>
    rename_i s0 s1 s2 t r used l
    rw [List.length_cons] at hc
    have hcnt := (count_step d0 _ _ _ _ _ h1).2
    rw [List.map_cons, trackLoop, setAlignments_rec h1.1]
    dsimp only
    have hr : record cfg s0 r.align = r := h1.1.2.symm
    rw [hr, h1.2]
    dsimp only
    have hnr : reached s1.count cfg.maxTracks = false := by
      unfold reached
      rw [decide_eq_false_iff_not]
      intro hh
      have := hh d0
      omega
    rw [hnr, Bool.and_false, if_neg (by simp), ih (by omega) r.align]
    simp [lastAl_cons]

theorem newAlignment_error {R0 : Mat3} (h0 : R0ᵀ * R0 = 1) (x0 : Vec3) (v : Vec6) :
    (∃ a, newAlignment R0 x0 (some v) = .ok a) ∨ newAlignment R0 x0 (some v) = .error .unbound := by
  unfold newAlignment
  have ho := delta_orth (v 3) (v 4) (v 5) R0 h0
  have hp : ((rotationMatrix (v 3) (v 4) (v 5))ᵀ * R0) 2 0 ^ 2 ≤ 1 := by
    have := congrFun (congrFun ho 0) 0
    rw [Matrix.mul_apply, Fin.sum_univ_three] at this
    simp only [Matrix.transpose_apply, Matrix.one_apply_eq] at this
    nlinarith [sq_nonneg (((rotationMatrix (v 3) (v 4) (v 5))ᵀ * R0) 0 0), sq_nonneg (((rotationMatrix (v 3) (v 4) (v 5))ᵀ * R0) 1 0)]
  dsimp only
  generalize (rotationMatrix (v 3) (v 4) (v 5))ᵀ * R0 = R at ho hp
  rcases lt_or_eq_of_le hp with hlt | heq
  · rw [eulerAngles_eq R ho hlt]
    exact Or.inl ⟨_, rfl⟩
  · right
    have : eulerAngles R = .unbound := by
      unfold eulerAngles
      rw [if_neg (not_not.mpr (isRotationMatrix_of R ho))]
      have h1 : (R 2 0 - 1) * (R 2 0 + 1) = 0 := by linear_combination heq
      rcases mul_eq_zero.mp h1 with h1 | h1
      · have h1 : R 2 0 = 1 := by linarith
        rw [if_neg (by rw [h1]; norm_num), if_pos h1]
      · have h1 : R 2 0 = -1 := by linarith
        rw [if_pos h1]
    rw [this]

theorem setAlignments_error {cfg : Config n T} (h0 : ∀ d, (cfg.rot0 d)ᵀ * cfg.rot0 d = 1) {s : Dyn n} (hs : ∀ d, ∃ v, s.state d = some v)
    (l : List (Fin n)) (al : Fin n → Dut.Alignment) :
    (∃ al', setAlignments cfg s l al = .ok al') ∨ setAlignments cfg s l al = .error .unbound := by
  induction l generalizing al with
  | nil => exact Or.inl ⟨al, by rw [setAlignments]⟩
  | cons d ds ih =>
    rw [setAlignments]
    obtain ⟨v, hv⟩ := hs d
    rw [hv]
    rcases newAlignment_error (h0 d) (cfg.pos0 d) v with ⟨a, ha⟩ | ha
    · rw [ha]
      exact ih _
    · rw [ha]
      exact Or.inr rfl

theorem useTrack_exists {cfg : Config n T} (hS : SoundFit cfg)
    (hV : ∀ al ann t f, cfg.fit al ann t = some f → ∀ d, (f.V d).PosDef) (s : Dyn n) (hp : ∀ d, (s.cov d).PosSemidef)
    (al : Fin n → Dut.Alignment) (t : Track n T) (fo : Option (Fit n)) (hfo : ∀ f, fo = some f → ∃ ann, cfg.fit al ann t = some f) :
    ∃ s' u, useTrack cfg s al t fo = .ok (s', u) := by
  unfold useTrack
  cases fo with
  | none => exact ⟨_, _, rfl⟩
  | some f =>
    obtain ⟨ann, hf⟩ := hfo f rfl
    dsimp only
    split
    · exact ⟨_, _, rfl⟩
    · obtain ⟨s', hs'⟩ := updateLoop_exists (al := al) (f := f) (t := t) (List.finRange n) (List.nodup_finRange n) s (fun d _ => by
        apply calculateParameters_exists
        have := (hV _ _ _ _ hf d)
        have h2 : (innovation (f.H d) (f.V d) (f.C0 d) (jacobian (f.p0 d)
            (rotationMatrix (al d).alpha (al d).beta (al d).gamma)ᵀ) (s.cov d)).PosDef := by
          unfold innovation
          rw [add_assoc]
          exact this.add_posSemidef ((psd_conj (hS _ _ _ _ hf d).2 _).add (psd_conj (hp d) _))
        exact h2.det_pos.ne')
      rw [hs']
      exact ⟨_, _, rfl⟩

/-- With hits in all DUTs, the loop over the tracks can only fail at the gimbal lock. -/
theorem trackLoop_error {cfg : Config n T} (h0 : ∀ d, (cfg.rot0 d)ᵀ * cfg.rot0 d = 1) (hS : SoundFit cfg)
    (hV : ∀ al ann t f, cfg.fit al ann t = some f → ∀ d, (f.V d).PosDef) (ts : List (Track n T))
    (hh : ∀ t ∈ ts, ∀ d, ∃ m, t.hit d = some m) (s : Dyn n) (hs : ∀ d, ∃ v, s.state d = some v) (hp : ∀ d, (s.cov d).PosSemidef)
    (al : Fin n → Dut.Alignment) :
    (∃ c, trackLoop cfg ts s al = .ok c ∧ (∀ d, ∃ v, c.dyn.state d = some v) ∧ ∀ d, (c.dyn.cov d).PosSemidef) ∨
      trackLoop cfg ts s al = .error .unbound := by
  induction ts generalizing s al with
  | nil => exact Or.inl ⟨_, by rw [trackLoop], hs, hp⟩
  | cons t ts ih =>
    rcases setAlignments_error h0 hs (List.finRange n) al with ⟨al', hal⟩ | hal
    · have hu := useTrack_exists hS hV s hp al' t (cfg.fit al' (record cfg s al').annealing t) (fun f hf => ⟨_, hf⟩)
      obtain ⟨s', u, hu⟩ := hu
      have hst : StepOf cfg s t (record cfg s al') s' u :=
        ⟨⟨fun d => (setAlignments_ok _ (List.nodup_finRange n) hal).1 d (List.mem_finRange d), rfl⟩, hu⟩
      have hp' : ∀ d, (s'.cov d).PosSemidef := fun d => (psd_step hS d _ _ _ _ _ (hp d) hst).1
      have hs' : ∀ d, ∃ v, s'.state d = some v := by
        intro d
        rcases hst.dut d with ⟨e1, -, -⟩ | ⟨f, -, -, a1, E1, hc, hh'⟩
        · rw [e1]; exact hs d
        · rcases hh' with ⟨-, e1, -, -⟩ | ⟨-, e1, -, -⟩
          · rw [e1]; exact hs d
          · rw [e1, (calculateParameters_ok hc).2.1]
            obtain ⟨v, hv⟩ := hs d
            obtain ⟨m, hm⟩ := hh t (by simp) d
            rw [hv, hm]
            exact ⟨_, rfl⟩
      rw [trackLoop, hal]
      dsimp only
      rw [hu]
      dsimp only
      split
      · exact Or.inl ⟨_, rfl, hs', hp'⟩
      · rcases ih (fun t ht => hh t (List.mem_cons_of_mem _ ht)) s' hs' hp' al' with ⟨c, hc, k1, k2⟩ | hc
        · rw [hc]
          exact Or.inl ⟨_, rfl, k1, k2⟩
        · rw [hc]
          exact Or.inr rfl
    · rw [trackLoop, hal]
      exact Or.inr rfl

theorem chunkLoop_error {cfg : Config n T} (h0 : ∀ d, (cfg.rot0 d)ᵀ * cfg.rot0 d = 1) (hS : SoundFit cfg)
    (hV : ∀ al ann t f, cfg.fit al ann t = some f → ∀ d, (f.V d).PosDef) (cs : List (List (Track n T)))
    (hh : ∀ t ∈ cs.flatten.filter (valid cfg.hitMask), ∀ d, ∃ m, t.hit d = some m) (s : Dyn n) (hs : ∀ d, ∃ v, s.state d = some v)
    (hp : ∀ d, (s.cov d).PosSemidef) (al saved : Fin n → Dut.Alignment) (table : List (Record n)) :
    (chunkLoop cfg none cs s al saved table).err = none ∨ (chunkLoop cfg none cs s al saved table).err = some .unbound := by
  induction cs generalizing s al saved table with
  | nil => exact Or.inl (by simp [chunkLoop])
  | cons c cs ih =>
    rw [List.flatten_cons, List.filter_append] at hh
    rw [chunkLoop]
    rcases trackLoop_error h0 hS hV (c.filter (valid cfg.hitMask)) (fun t ht => hh t (List.mem_append_left _ ht)) s hs hp al with
      ⟨r, hr, k1, k2⟩ | hr
    · rw [hr]
      dsimp only
      split
      · exact Or.inl rfl
      · exact ih (fun t ht => hh t (List.mem_append_right _ ht)) _ k1 k2 _ _ _
    · rw [hr]
      exact Or.inr rfl

/-- After a used track without hit in a DUT, there is no further line. -/
theorem Trace.missing {cfg : Config n T} {s sf : Dyn n} {l : List (Track n T × Record n)} (h : Trace cfg s l sf) (i : Nat)
    (p : Track n T × Record n) (hp : l[i]? = some p) (d : Fin n) (hd : p.1.hit d = none)
    (hf : ∀ al ann, ∃ f, cfg.fit al ann p.1 = some f ∧ badChi2 f.chi2 cfg.chi2Cut = false) : l.length = i + 1 := by
  have hlt := (List.getElem?_eq_some_iff.mp hp).1
  by_contra hne
  obtain ⟨q, hq⟩ : ∃ q, l[i + 1]? = some q := ⟨_, List.getElem?_eq_getElem (by omega)⟩
  obtain ⟨si, s', used, -, hst, hrec⟩ := h.next (fun _ => True) (fun _ _ _ _ _ _ _ => trivial) trivial i p q hp hq
  obtain ⟨f, hf1, hf2⟩ := hf p.2.align p.2.annealing
  have hn : s'.state d = none := by
    have h2 := hst.2
    unfold useTrack at h2
    rw [hf1] at h2
    dsimp only at h2
    rw [hf2, if_neg (by simp)] at h2
    split at h2
    · simp at h2
    · rename_i s1 hs1
      injection h2 with h2
      injection h2 with h2 _
      subst h2
      obtain ⟨a1, E1, hc, hh⟩ := (updateLoop_ok _ (List.nodup_finRange n) hs1).1 d (List.mem_finRange d)
      have ha : a1 = none := by
        rw [(calculateParameters_ok hc).2.1, hd]
        unfold newState
        cases si.state d <;> rfl
      rcases hh with ⟨hl, -, -, -⟩ | ⟨-, e1, -, -⟩
      · rw [ha] at hl
        unfold changeTooLarge at hl
        cases h3 : si.state d <;> rw [h3] at hl <;> simp at hl
      · rw [e1, ha]
  have := hrec.1 d
  rw [hn] at this
  simp [newAlignment] at this

end BTA.KAlign
