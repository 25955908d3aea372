import Verif.Lemmas.KalmanLoop
/-
Reference track, straight tracks, and planes which are not used for the fit.
-/
namespace BTA.Kalman
open BTA.Geo BTA.Spec Matrix

theorem extrapolate_self (A : Plane) (p : State) : extrapolate A A p = p := by
  obtain ⟨s, c, hc, h1, h2⟩ := extrapolate_spec A A p (crosses_self A p)
  exact same_line_unique A A p _ _ c 1 s 0 hc one_ne_zero h1 h2 (by simp) (by simp)

theorem seedAt_eq (planes : Nat → Plane) (h : Nat) (seed : State) (i d : Nat) (hi : i = 0 → d = h) :
    seedAt planes h seed i d = extrapolate (planes h) (planes d) seed := by
  unfold seedAt
  split
  · rename_i h0; rw [hi h0, extrapolate_self]
  · rfl

theorem refLoop1_spec (planes : Nat → Plane) (momentum beta : ℝ) (h : Nat) (seed : State) :
    ∀ (l : List (Nat × Nat)) (s : (Nat → State) × (Nat → ObsCov)), (l.map Prod.fst).Nodup → ∀ d,
      (∀ i, (d, i) ∈ l → (refLoop1 planes momentum beta h seed l s).1 d = seedAt planes h seed i d) ∧
      (d ∉ l.map Prod.fst → (refLoop1 planes momentum beta h seed l s).1 d = s.1 d) := by
  intro l
  induction l with
  | nil => intro s _ d; exact ⟨by simp, fun _ => rfl⟩
  | cons a rest ih =>
    obtain ⟨e, j⟩ := a
    intro s hn d
    simp only [List.map_cons, List.nodup_cons] at hn
    unfold refLoop1
    obtain ⟨h1, h2⟩ := ih (Function.update s.1 e (seedAt planes h seed j e),
      Function.update s.2 e (scatterCov momentum beta (planes e).budget (Function.update s.1 e (seedAt planes h seed j e) e))) hn.2 d
    refine ⟨?_, ?_⟩
    · intro i hi
      rcases List.mem_cons.mp hi with hi | hi
      · obtain ⟨rfl, rfl⟩ := Prod.mk.inj hi
        rw [h2 hn.1]; simp
      · exact h1 i hi
    · intro hd
      simp only [List.map_cons, List.mem_cons, not_or] at hd
      rw [h2 hd.2]; simp [hd.1]

theorem refLoop2_spec (planes : Nat → Plane) (momentum beta : ℝ) (h : Nat) (seed : State) :
    ∀ (l : List (Nat × Nat)) (s : (Nat → State) × (Nat → ObsCov)), (l.map Prod.snd).Nodup → ∀ i,
      (∀ d, (d, i) ∈ l → (refLoop2 planes momentum beta h seed l s).1 i = seedAt planes h seed i d) ∧
      (i ∉ l.map Prod.snd → (refLoop2 planes momentum beta h seed l s).1 i = s.1 i) := by
  intro l
  induction l with
  | nil => intro s _ d; exact ⟨by simp, fun _ => rfl⟩
  | cons a rest ih =>
    obtain ⟨e, j⟩ := a
    intro s hn i
    simp only [List.map_cons, List.nodup_cons] at hn
    unfold refLoop2
    obtain ⟨h1, h2⟩ := ih (Function.update s.1 j (seedAt planes h seed j e),
      Function.update s.2 e (scatterCov momentum beta (planes e).budget (Function.update s.1 j (seedAt planes h seed j e) e))) hn.2 i
    refine ⟨?_, ?_⟩
    · intro d hd
      rcases List.mem_cons.mp hd with hd | hd
      · obtain ⟨rfl, rfl⟩ := Prod.mk.inj hd
        rw [h2 hn.1]; simp
      · exact h1 d hd
    · intro hd
      simp only [List.map_cons, List.mem_cons, not_or] at hd
      rw [h2 hd.2]; simp [hd.1]

theorem zipIdx_fst (l : List Nat) : l.zipIdx.map Prod.fst = l := List.zipIdx_map_fst 0 l

theorem zipIdx_snd_nodup (l : List Nat) : (l.zipIdx.map Prod.snd).Nodup := by
  rw [List.zipIdx_map_snd]; exact List.nodup_range'

theorem mem_zipIdx_iff (l : List Nat) (d i : Nat) : (d, i) ∈ l.zipIdx ↔ l[i]? = some d := by
  rw [List.mem_zipIdx_iff_getElem?]

/-! ### Straight tracks -/

theorem filterLoop_zero (S : Setup) (fx : Fixer) (ref : Nat → State) (step : Nat → Nat → Out → Option (State × Cov)) (h0 : S.x0 = 0)
    (hstep : ∀ p d o r, step p d o = some r → o.x = 0 → r.1 = 0) :
    ∀ (order : List Nat) (prev : Option (Nat × Out)) (l : List (Nat × Out)),
      (∀ d ∈ order, ∀ m, S.obs d = some m → (S.H d).mulVec (ref d) = m) → (∀ p o, prev = some (p, o) → o.x = 0) →
      filterLoop S fx ref step prev order = some l → l.map Prod.fst = order ∧ ∀ r ∈ l, r.2.x = 0 := by
  intro order
  induction order with
  | nil => intro prev l _ _ h; simp [filterLoop] at h; subst h; simp
  | cons d rest ih =>
    intro prev l hobs hprev h
    unfold filterLoop at h
    cases hp : predictAt S step d prev with
    | none => rw [hp] at h; simp at h
    | some r =>
      have hr : r.1 = 0 := by
        rcases prev with _ | ⟨p, o⟩
        · simp only [predictAt, Option.some.injEq] at hp; rw [← hp]; exact h0
        · exact hstep p d o r hp (hprev p o rfl)
      rw [hp, Option.bind_some] at h
      cases hc : correctPlane S fx (ref d) d r.1 r.2 with
      | none => rw [hc] at h; simp at h
      | some o =>
        rw [hc] at h
        simp only [Option.map_eq_some_iff] at h
        obtain ⟨l', hl', rfl⟩ := h
        have ho : o.x = 0 := by
          unfold correctPlane at hc
          rw [hr] at hc
          split at hc
          · simp only [Option.map_eq_some_iff] at hc
            obtain ⟨Cf, _, rfl⟩ := hc
            cases hm : S.obs d with
            | none => simp [filterCorrect]
            | some m =>
              simp [filterCorrect, hobs d (by simp) m hm]
          · simp only [Option.bind_eq_some_iff] at hc
            obtain ⟨Cf, _, hc⟩ := hc
            cases hm : S.obs d with
            | none => rw [hm] at hc; simp only [Option.some.injEq] at hc; rw [← hc]
            | some m =>
              rw [hm] at hc
              simp only [Option.map_eq_some_iff] at hc
              obtain ⟨W, _, rfl⟩ := hc
              rfl
        obtain ⟨i1, i2⟩ := ih (some (d, o)) l' (fun e he => hobs e (by simp [he])) (by
          intro p o' e; obtain ⟨rfl, rfl⟩ := Prod.mk.inj (Option.some.inj e); exact ho) hl'
        refine ⟨by simp [i1], ?_⟩
        intro x hx
        rcases List.mem_cons.mp hx with rfl | hx
        · exact ho
        · exact i2 x hx

theorem finalCheck_eq (l l' : List (Nat × Out)) (h : finalCheck l = some l') : l' = l := by
  unfold finalCheck at h
  split at h
  · simp at h
  · exact (Option.some.inj h).symm

theorem filterF_zero (S : Setup) (fx : Fixer) (ref : Nat → State) (Q : Nat → ObsCov) (order : List Nat) (h0 : S.x0 = 0)
    (hobs : ∀ d ∈ order, ∀ m, S.obs d = some m → (S.H d).mulVec (ref d) = m) (l : List (Nat × Out)) (h : filterF S fx ref Q order = some l) :
    l.map Prod.fst = order ∧ ∀ r ∈ l, r.2.x = 0 := by
  unfold filterF at h
  obtain ⟨l', h1, h2⟩ := Option.bind_eq_some_iff.mp h
  obtain rfl := finalCheck_eq _ _ h2
  refine filterLoop_zero S fx ref _ h0 ?_ order none _ hobs (by simp) h1
  intro p d o r hr ho
  simp only [stepF, Option.map_eq_some_iff] at hr
  obtain ⟨C, _, rfl⟩ := hr
  simp [predictF, ho]

theorem filterB_zero (S : Setup) (fx : Fixer) (ref : Nat → State) (Q : Nat → ObsCov) (order : List Nat) (h0 : S.x0 = 0)
    (hobs : ∀ d ∈ order, ∀ m, S.obs d = some m → (S.H d).mulVec (ref d) = m) (l : List (Nat × Out)) (h : filterB S fx ref Q order = some l) :
    l.map Prod.fst = order.reverse ∧ ∀ r ∈ l, r.2.x = 0 := by
  unfold filterB at h
  obtain ⟨l', h1, h2⟩ := Option.bind_eq_some_iff.mp h
  obtain rfl := finalCheck_eq _ _ h2
  refine filterLoop_zero S fx ref _ h0 ?_ order.reverse none _ (fun d hd => hobs d (by simpa using hd)) (by simp) h1
  intro p d o r hr ho
  simp only [stepB, Option.some.injEq] at hr
  rw [← hr]
  simp [predictB, ho]

theorem outAt_zero (l : List (Nat × Out)) (d : Nat) (h : ∀ r ∈ l, r.2.x = 0) : (outAt l d).x = 0 := by
  by_cases hd : d ∈ l.map Prod.fst
  · exact h _ (outAt_mem l d hd)
  · have : l.lookup d = none := by
      rw [List.lookup_eq_none_iff]
      intro p hp
      simp only [List.mem_map, not_exists, not_and] at hd
      have := hd p hp
      simpa using fun e => this e.symm
    unfold outAt; rw [this]; rfl

theorem smooth_split (S : Setup) (fx : Fixer) (momentum beta : ℝ) (seed : State) (order : List Nat) (l : List (Nat × Smoothed)) :
    smooth S fx momentum beta seed order = some l ↔ ∃ s F B, references S fx momentum beta seed order = some s ∧
      filterF S fx s.1 s.2 order = some F ∧ filterB S fx s.1 s.2 order = some B ∧
      smoothLoop S fx s.1 F B order.length order.zipIdx = some l ∧ ∀ o ∈ l, ∀ c, o.2.chi2 = some c → 0 ≤ c := by
  unfold smooth
  simp only [Option.bind_eq_some_iff]
  constructor
  · rintro ⟨s, hs, F, hF, B, hB, l', hl, h⟩
    split at h
    · simp at h
    · rename_i hn
      obtain rfl := Option.some.inj h
      refine ⟨s, F, B, hs, hF, hB, hl, ?_⟩
      intro o ho c hc
      by_contra hneg
      exact hn ⟨o, ho, c, hc, not_le.mp hneg⟩
  · rintro ⟨s, F, B, hs, hF, hB, hl, h⟩
    refine ⟨s, hs, F, hF, B, hB, l, hl, ?_⟩
    rw [if_neg]
    rintro ⟨o, ho, c, hc, hneg⟩
    exact absurd hneg (not_lt.mpr (h o ho c hc))

theorem smoothPlane_zero (F B : Out) (i n : Nat) (hF : F.x = 0) (hB : B.x = 0) : (smoothPlane F B i n).1 = 0 := by
  unfold smoothPlane
  split
  · exact hB
  · split
    · exact hF
    · simp [hF, hB]

/-- A track without residuals is not changed. -/
theorem smooth_straight (S : Setup) (fx : Fixer) (momentum beta : ℝ) (seed : State) (n : Nat) (h0 : S.x0 = 0)
    (hobs : ∀ d < n, ∀ m, S.obs d = some m → (S.H d).mulVec (extrapolate (S.planes 0) (S.planes d) seed) = m)
    (l : List (Nat × Smoothed)) (h : smooth S fx momentum beta seed (List.range n) = some l) :
    l.map Prod.fst = List.range n ∧ ∀ r ∈ l, r.2.x = extrapolate (S.planes 0) (S.planes r.1) seed ∧
      r.2.chi2 = (S.obs r.1).map fun _ => 0 := by
  obtain ⟨s, F, B, hs, hF, hB, hl, -⟩ := (smooth_split S fx momentum beta seed (List.range n) l).mp h
  have hhead : (List.range n).headD 0 = 0 := by cases n <;> simp [List.range_succ_eq_map]
  have hmem : ∀ d i, (d, i) ∈ (List.range n).zipIdx ↔ d = i ∧ i < n := by
    intro d i
    rw [mem_zipIdx_iff]
    by_cases hi : i < n
    · simp [hi, eq_comm]
    · simp [hi]
  have ref1 : ∀ d < n, (refLoop1 S.planes momentum beta 0 seed (List.range n).zipIdx (fun _ => 0, fun _ => 0)).1 d =
      extrapolate (S.planes 0) (S.planes d) seed := by
    intro d hd
    rw [(refLoop1_spec S.planes momentum beta 0 seed (List.range n).zipIdx _ (by rw [zipIdx_fst]; exact List.nodup_range) d).1 d
      ((hmem d d).mpr ⟨rfl, hd⟩)]
    exact seedAt_eq _ _ _ _ _ id
  have ref2 : ∀ d < n, s.1 d = extrapolate (S.planes 0) (S.planes d) seed := by
    intro d hd
    unfold references at hs
    rw [hhead] at hs
    simp only [Option.map_eq_some_iff] at hs
    obtain ⟨b, hb, rfl⟩ := hs
    have hz := filterB_zero S fx _ _ _ h0 (fun e he m hm => by
      rw [ref1 e (by simpa using he)]; exact hobs e (by simpa using he) m hm) b hb
    rw [outAt_zero _ _ hz.2, add_zero, ref1 0 (by omega), extrapolate_self,
      (refLoop2_spec S.planes momentum beta 0 seed (List.range n).zipIdx _ (zipIdx_snd_nodup _) d).1 d ((hmem d d).mpr ⟨rfl, hd⟩)]
    exact seedAt_eq _ _ _ _ _ id
  have hz : ∀ e ∈ List.range n, ∀ m, S.obs e = some m → (S.H e).mulVec (s.1 e) = m := by
    intro e he m hm
    rw [ref2 e (by simpa using he)]; exact hobs e (by simpa using he) m hm
  have zF := filterF_zero S fx _ _ _ h0 hz F hF
  have zB := filterB_zero S fx _ _ _ h0 hz B hB
  have hall := smoothLoop_eq S fx s.1 F B _ _ l hl
  have hfst : l.map Prod.fst = List.range n := by
    have : l.map Prod.fst = (List.range n).zipIdx.map Prod.fst := by
      clear hl hmem h
      generalize (List.range n).zipIdx = z at hall
      induction hall with
      | nil => rfl
      | cons h1 _ ih => simp only [List.map_cons, h1.1, ih]
    rw [this, zipIdx_fst]
  refine ⟨hfst, ?_⟩
  intro r hr
  have hrn : r.1 < n := by
    have : r.1 ∈ l.map Prod.fst := List.mem_map_of_mem hr
    rw [hfst] at this; simpa using this
  obtain ⟨a, -, h1, h2, h3, h4⟩ : ∃ a ∈ (List.range n).zipIdx, r.1 = a.1 ∧
        r.2.x = (smoothPlane (outAt F a.1) (outAt B a.1) a.2 (List.range n).length).1 + s.1 a.1 ∧
        r.2.C = (smoothPlane (outAt F a.1) (outAt B a.1) a.2 (List.range n).length).2 ∧
        smoothChi2 S fx (s.1 a.1) a.1 (smoothPlane (outAt F a.1) (outAt B a.1) a.2 (List.range n).length) = some r.2.chi2 := by
    clear hfst h hl hmem
    generalize (List.range n).zipIdx = z at hall
    induction hall with
    | nil => simp at hr
    | cons h1 _ ih =>
      rcases List.mem_cons.mp hr with rfl | hr
      · exact ⟨_, by simp, h1⟩
      · obtain ⟨a, ha, h⟩ := ih hr; exact ⟨a, by simp [ha], h⟩
  rw [smoothPlane_zero _ _ _ _ (outAt_zero _ _ zF.2) (outAt_zero _ _ zB.2), zero_add, ← h1] at h2
  refine ⟨by rw [h2, ref2 _ hrn], ?_⟩
  unfold smoothChi2 at h4
  rw [← h1] at h4
  cases hm : S.obs r.1 with
  | none => rw [hm] at h4; simp only [Option.some.injEq] at h4; rw [← h4]; rfl
  | some m =>
    rw [hm] at h4
    simp only [Option.map_eq_some_iff] at h4
    obtain ⟨W, _, h4⟩ := h4
    rw [← h4, smoothPlane_zero _ _ _ _ (outAt_zero _ _ zF.2) (outAt_zero _ _ zB.2), zero_add, ref2 _ hrn, hobs _ hrn m hm]
    simp [chiSquare]

/-! ### Planes which are not used for the fit -/

/-- Same state and covariance, and same chi-square at planes used for the fit. -/
def SameOut (S : Setup) (a b : Nat × Out) : Prop :=
  a.1 = b.1 ∧ a.2.x = b.2.x ∧ a.2.C = b.2.C ∧ (S.fit a.1 = true → a.2.chi2 = b.2.chi2)

theorem correctPlane_same (S S' : Setup) (h : SameForFit S S') (fx : Fixer) (ref : State) (d : Nat) (x : State) (C : Cov) (o o' : Out)
    (h1 : correctPlane S fx ref d x C = some o) (h2 : correctPlane S' fx ref d x C = some o') : SameOut S (d, o) (d, o') := by
  unfold correctPlane at h1 h2
  rw [h.fit, h.H] at h2
  by_cases hf : S.fit d = true
  · rw [if_pos hf] at h1 h2
    rw [(h.hits d hf).1, (h.hits d hf).2] at h2
    rw [h1] at h2
    obtain rfl := Option.some.inj h2
    exact ⟨rfl, rfl, rfl, fun _ => rfl⟩
  · rw [if_neg hf] at h1 h2
    obtain ⟨Cf, c1, h1⟩ := Option.bind_eq_some_iff.mp h1
    obtain ⟨Cf', c2, h2⟩ := Option.bind_eq_some_iff.mp h2
    rw [c1] at c2
    obtain rfl := Option.some.inj c2
    have key : ∀ (T : Setup) (q : Out), (match T.obs d with
        | none => some (⟨x, C, 0, x, Cf, none⟩ : Out)
        | some m => (checkObsCov fx (T.V d + S.H d * (Cf * (S.H d).transpose))).map fun W =>
          ⟨x, C, 0, x, Cf, some (chiSquare (m - (S.H d).mulVec (x + ref)) W)⟩) = some q → q.x = x ∧ q.C = Cf := by
      intro T q hq
      cases hm : T.obs d with
      | none => rw [hm] at hq; simp only [Option.some.injEq] at hq; rw [← hq]; exact ⟨rfl, rfl⟩
      | some m =>
        rw [hm] at hq
        simp only [Option.map_eq_some_iff] at hq
        obtain ⟨W, _, rfl⟩ := hq
        exact ⟨rfl, rfl⟩
    obtain ⟨a1, a2⟩ := key S o h1
    obtain ⟨b1, b2⟩ := key S' o' h2
    exact ⟨rfl, by rw [a1, b1], by rw [a2, b2], fun e => absurd e hf⟩

theorem filterLoop_same (S S' : Setup) (h : SameForFit S S') (fx : Fixer) (ref : Nat → State)
    (step step' : Nat → Nat → Out → Option (State × Cov)) (hstep : ∀ p d o o', o.x = o'.x → o.C = o'.C → step p d o = step' p d o') :
    ∀ (order : List Nat) (prev prev' : Option (Nat × Out)) (l l' : List (Nat × Out)), Option.Rel (SameOut S) prev prev' →
      filterLoop S fx ref step prev order = some l → filterLoop S' fx ref step' prev' order = some l' → List.Forall₂ (SameOut S) l l' := by
  intro order
  induction order with
  | nil =>
    intro prev prev' l l' _ h1 h2
    simp [filterLoop] at h1 h2; subst h1; subst h2; exact List.Forall₂.nil
  | cons d rest ih =>
    intro prev prev' l l' hp h1 h2
    have e : predictAt S step d prev = predictAt S' step' d prev' := by
      cases hp with
      | none => simp only [predictAt, h.x0, h.C0]
      | some hs =>
        rename_i a b
        obtain ⟨pa, oa⟩ := a
        obtain ⟨pb, ob⟩ := b
        obtain ⟨e1, e2, e3, -⟩ := hs
        simp only at e1 e2 e3
        subst e1
        exact hstep _ _ _ _ e2 e3
    unfold filterLoop at h1 h2
    rw [e] at h1
    cases hr : predictAt S' step' d prev' with
    | none => rw [hr] at h1; simp at h1
    | some r =>
      rw [hr, Option.bind_some] at h1 h2
      cases hc : correctPlane S fx (ref d) d r.1 r.2 with
      | none => rw [hc] at h1; simp at h1
      | some o =>
        cases hc' : correctPlane S' fx (ref d) d r.1 r.2 with
        | none => rw [hc'] at h2; simp at h2
        | some o' =>
          rw [hc] at h1; rw [hc'] at h2
          simp only [Option.map_eq_some_iff] at h1 h2
          obtain ⟨l1, hl1, rfl⟩ := h1
          obtain ⟨l2, hl2, rfl⟩ := h2
          have hs := correctPlane_same S S' h fx (ref d) d r.1 r.2 o o' hc hc'
          exact List.Forall₂.cons hs (ih _ _ _ _ (Option.Rel.some hs) hl1 hl2)

theorem jacobian_same (S S' : Setup) (h : SameForFit S S') (ref : Nat → State) (p d : Nat) : jacobian S' ref p d = jacobian S ref p d := by
  unfold jacobian; rw [h.planes]

theorem filterF_same (S S' : Setup) (h : SameForFit S S') (fx : Fixer) (ref : Nat → State) (Q : Nat → ObsCov) (order : List Nat)
    (l l' : List (Nat × Out)) (h1 : filterF S fx ref Q order = some l) (h2 : filterF S' fx ref Q order = some l') :
    List.Forall₂ (SameOut S) l l' := by
  unfold filterF at h1 h2
  obtain ⟨a, a1, a2⟩ := Option.bind_eq_some_iff.mp h1
  obtain ⟨b, b1, b2⟩ := Option.bind_eq_some_iff.mp h2
  obtain rfl := finalCheck_eq _ _ a2
  obtain rfl := finalCheck_eq _ _ b2
  refine filterLoop_same S S' h fx ref _ _ ?_ order none none _ _ Option.Rel.none a1 b1
  intro p d o o' e1 e2
  unfold stepF; rw [jacobian_same S S' h, e1, e2]

theorem filterB_same (S S' : Setup) (h : SameForFit S S') (fx : Fixer) (ref : Nat → State) (Q : Nat → ObsCov) (order : List Nat)
    (l l' : List (Nat × Out)) (h1 : filterB S fx ref Q order = some l) (h2 : filterB S' fx ref Q order = some l') :
    List.Forall₂ (SameOut S) l l' := by
  unfold filterB at h1 h2
  obtain ⟨a, a1, a2⟩ := Option.bind_eq_some_iff.mp h1
  obtain ⟨b, b1, b2⟩ := Option.bind_eq_some_iff.mp h2
  obtain rfl := finalCheck_eq _ _ a2
  obtain rfl := finalCheck_eq _ _ b2
  refine filterLoop_same S S' h fx ref _ _ ?_ order.reverse none none _ _ Option.Rel.none a1 b1
  intro p d o o' e1 e2
  unfold stepB; rw [jacobian_same S S' h, e1, e2]

theorem outAt_same (S : Setup) (l l' : List (Nat × Out)) (h : List.Forall₂ (SameOut S) l l') (d : Nat) :
    (outAt l d).x = (outAt l' d).x ∧ (outAt l d).C = (outAt l' d).C := by
  induction h with
  | nil => exact ⟨rfl, rfl⟩
  | cons hs _ ih =>
    rename_i a b _ _ _
    obtain ⟨pa, oa⟩ := a
    obtain ⟨pb, ob⟩ := b
    obtain ⟨e1, e2, e3, -⟩ := hs
    simp only at e1 e2 e3
    subst e1
    unfold outAt
    rw [List.lookup_cons, List.lookup_cons]
    cases hd : d == pa
    · exact ih
    · exact ⟨e2, e3⟩

theorem references_same (S S' : Setup) (h : SameForFit S S') (fx : Fixer) (momentum beta : ℝ) (seed : State) (order : List Nat)
    (s s' : (Nat → State) × (Nat → ObsCov)) (h1 : references S fx momentum beta seed order = some s)
    (h2 : references S' fx momentum beta seed order = some s') : s = s' := by
  unfold references at h1 h2
  rw [h.planes] at h2
  simp only [Option.map_eq_some_iff] at h1 h2
  obtain ⟨a, a1, rfl⟩ := h1
  obtain ⟨b, b1, rfl⟩ := h2
  rw [(outAt_same S a b (filterB_same S S' h fx _ _ _ a b a1 b1) 0).1]

theorem smoothPlane_same (F B F' B' : Out) (i n : Nat) (h1 : F.x = F'.x) (h2 : F.C = F'.C) (h3 : B.x = B'.x) (h4 : B.C = B'.C) :
    smoothPlane F B i n = smoothPlane F' B' i n := by
  unfold smoothPlane; rw [h1, h2, h3, h4]

theorem smooth_same (S S' : Setup) (h : SameForFit S S') (fx : Fixer) (momentum beta : ℝ) (seed : State) (order : List Nat)
    (l l' : List (Nat × Smoothed)) (h1 : smooth S fx momentum beta seed order = some l)
    (h2 : smooth S' fx momentum beta seed order = some l') :
    List.Forall₂ (fun (a b : Nat × Smoothed) => a.1 = b.1 ∧ a.2.x = b.2.x ∧ a.2.C = b.2.C ∧ (S.fit a.1 = true → a.2.chi2 = b.2.chi2)) l l' := by
  obtain ⟨s, F, B, hs, hF, hB, hl, -⟩ := (smooth_split _ _ _ _ _ _ _).mp h1
  obtain ⟨s', F', B', hs', hF', hB', hl', -⟩ := (smooth_split _ _ _ _ _ _ _).mp h2
  obtain rfl := references_same S S' h fx momentum beta seed order s s' hs hs'
  have eF := outAt_same S F F' (filterF_same S S' h fx _ _ _ F F' hF hF')
  have eB := outAt_same S B B' (filterB_same S S' h fx _ _ _ B B' hB hB')
  have r1 := smoothLoop_eq S fx s.1 F B _ _ l hl
  have r2 := smoothLoop_eq S' fx s.1 F' B' _ _ l' hl'
  clear hl hl' h1 h2
  generalize order.zipIdx = z at r1 r2
  induction r1 generalizing l' with
  | nil => cases r2; exact List.Forall₂.nil
  | cons a1 _ ih =>
    cases r2 with
    | cons b1 rest =>
      refine List.Forall₂.cons ?_ (ih _ rest)
      obtain ⟨a1, a2, a3, a4⟩ := a1
      obtain ⟨b1, b2, b3, b4⟩ := b1
      rename_i z0 _ _ _ _ _ _
      rw [← smoothPlane_same _ _ _ _ _ _ (eF z0.1).1 (eF z0.1).2 (eB z0.1).1 (eB z0.1).2] at b2 b3 b4
      refine ⟨by rw [a1, b1], by rw [a2, b2], by rw [a3, b3], ?_⟩
      intro hf
      rw [a1] at hf
      unfold smoothChi2 at a4 b4
      rw [(h.hits _ hf).1, (h.hits _ hf).2, h.H, h.fit] at b4
      rw [a4] at b4
      exact Option.some.inj b4
end BTA.Kalman
