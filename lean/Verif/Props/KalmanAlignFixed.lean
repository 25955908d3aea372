import Verif.Spec.KalmanAlignFixed
import Verif.Props.KalmanAlign
import Verif.Props.AlignKalman
import Verif.Props.KalmanExact
/-
The alignment with a Kalman filter of a telescope that is aligned already: C218.
-/
namespace BTA.KAlign.Props
open BTA.Geo BTA.Kalman BTA.Spec BTA.KAlign Matrix
variable {n : Nat} {T : Type}

/-- The fit of a track agrees with the hits. -/
structure Agrees (cfg : Config n T) (al : Fin n → Dut.Alignment) (t : Track n T) : Prop where
  fit : ∀ ann : Fin n → ℝ, (∀ d, 0 < ann d) → ∃ f, cfg.fit al ann t = some f ∧ badChi2 f.chi2 cfg.chi2Cut = false ∧
    ∀ d, (f.V d).PosDef ∧ (f.C0 d).PosSemidef ∧ t.hit d = some ((f.H d).mulVec (f.p0 d))

/-- State of the alignment after `i` tracks without any change. -/
structure Unmoved (i : Nat) (s : Dyn n) : Prop where
  state : ∀ d, s.state d = some 0
  cov : ∀ d, (s.cov d).PosSemidef
  count : ∀ d, s.count d = i

theorem newAlignment_zero {a : Dut.Alignment} (hu : UsualAngles a) : newAlignment (initialRotation a) (initialPosition a) (some 0) = .ok a := by
  unfold newAlignment
  have h1 : rotationMatrix 0 0 0 = 1 := by
    rw [rotationMatrix_eq]
    ext i j
    fin_cases i <;> fin_cases j <;> simp
  simp only [Pi.zero_apply]
  rw [h1, Matrix.transpose_one, Matrix.one_mul]
  unfold initialRotation
  rw [BTA.Props.C32_angles a.alpha a.beta a.gamma hu.1 hu.2.1 hu.2.2.1 hu.2.2.2]
  simp [initialPosition]

theorem setAlignments_same (cfg : Config n T) (al : Fin n → Dut.Alignment) (hu : ∀ d, UsualAngles (al d)) (s : Dyn n) (hs : ∀ d, s.state d = some 0)
    (al0 : Fin n → Dut.Alignment) : setAlignments (startConfig cfg al) s (List.finRange n) al0 = .ok al := by
  have hz : ∀ d, newAlignment ((startConfig cfg al).rot0 d) ((startConfig cfg al).pos0 d) (s.state d) = .ok (al d) := by
    intro d
    rw [hs]
    exact newAlignment_zero (hu d)
  obtain ⟨al', h⟩ := setAlignments_exists (cfg := startConfig cfg al) (s := s) (List.finRange n) al0 (fun d _ => ⟨_, hz d⟩)
  rw [h]
  have := (setAlignments_ok (List.finRange n) (List.nodup_finRange n) h).1
  congr 1
  funext d
  have h' := this d (List.mem_finRange d)
  rw [hz d] at h'
  exact (Except.ok.inj h').symm

theorem calculateParameters_same {H : ObsMat} {V : ObsCov} {C0 : Cov} {p0 : State} {E0 : Mat6} {R : Mat3} (hV : V.PosDef) (hC : C0.PosSemidef)
    (hE : E0.PosSemidef) : ∃ E1, calculateParameters H V C0 p0 (some 0) E0 R (some (H.mulVec p0)) = .ok (some 0, E1) ∧ E1.PosSemidef := by
  have hd : (innovation H V C0 (KAlign.jacobian p0 R) E0).det ≠ 0 := by
    have : (innovation H V C0 (KAlign.jacobian p0 R) E0).PosDef := by
      unfold innovation
      rw [add_assoc]
      exact hV.add_posSemidef ((psd_conj hC H).add (psd_conj hE _))
    exact this.det_pos.ne'
  refine ⟨_, ?_, newCov_psd (D := KAlign.jacobian p0 R) hV.posSemidef hC hE hd⟩
  unfold calculateParameters
  dsimp only
  rw [if_neg hd]
  simp [newState]

theorem changeTooLarge_same (E0 : Mat6) : changeTooLarge (some 0) (some 0) E0 = false := by
  unfold changeTooLarge
  simp only [List.any_eq_false, decide_eq_true_eq, not_and, not_lt]
  intro k _ _
  simp only [Pi.zero_apply, sub_self, abs_zero]
  unfold deviationCuts
  positivity

theorem updateLoop_same {al : Fin n → Dut.Alignment} {f : Fit n} {t : Track n T} (hf : ∀ d, (f.V d).PosDef ∧ (f.C0 d).PosSemidef ∧ t.hit d = some ((f.H d).mulVec (f.p0 d)))
    (l : List (Fin n)) (hl : l.Nodup) (s : Dyn n) (hs : ∀ d, s.state d = some 0) (hp : ∀ d, (s.cov d).PosSemidef) :
    ∃ s', updateLoop al f t l s = .ok s' ∧ (∀ d, s'.state d = some 0) ∧ (∀ d, (s'.cov d).PosSemidef) ∧ ∀ d, s'.count d = if d ∈ l then s.count d + 1 else s.count d := by
  induction l generalizing s with
  | nil => exact ⟨s, by rw [updateLoop], hs, hp, by simp⟩
  | cons d ds ih =>
    obtain ⟨E1, h1, h2⟩ := calculateParameters_same (H := f.H d) (p0 := f.p0 d) (R := (rotationMatrix (al d).alpha (al d).beta (al d).gamma)ᵀ) (hf d).1 (hf d).2.1 (hp d)
    have hstep : updateDut al f t d s = .ok { state := Function.update s.state d (some 0), cov := Function.update s.cov d E1, count := Function.update s.count d (s.count d + 1) } := by
      unfold updateDut
      rw [hs d, (hf d).2.2, h1]
      dsimp only
      rw [changeTooLarge_same]
      simp
    rw [List.nodup_cons] at hl
    obtain ⟨s', h3, h4, h5, h6⟩ := ih hl.2 { state := Function.update s.state d (some 0), cov := Function.update s.cov d E1, count := Function.update s.count d (s.count d + 1) }
      (fun e => by
        by_cases he : e = d
        · subst he; simp
        · simp [he, hs e]) (fun e => by
        by_cases he : e = d
        · subst he; simpa using h2
        · simpa [he] using hp e)
    refine ⟨s', by rw [updateLoop, hstep]; exact h3, h4, h5, ?_⟩
    intro e
    rw [h6]
    by_cases he : e = d
    · subst he; simp [hl.1]
    · simp [he]

theorem useTrack_same {cfg : Config n T} {al : Fin n → Dut.Alignment} {t : Track n T} (ht : Agrees cfg al t) (ann : Fin n → ℝ) (hann : ∀ d, 0 < ann d) (i : Nat) (s : Dyn n)
    (hs : Unmoved i s) : ∃ s', useTrack cfg s al t (cfg.fit al ann t) = .ok (s', true) ∧ Unmoved (i + 1) s' := by
  obtain ⟨f, h1, h2, h3⟩ := ht.fit ann hann
  obtain ⟨s', h4, h5, h6, h7⟩ := updateLoop_same (al := al) h3 (List.finRange n) (List.nodup_finRange n) s hs.state hs.cov
  refine ⟨s', ?_, h5, h6, fun d => ?_⟩
  · rw [h1]
    unfold useTrack
    dsimp only
    rw [h2, h4]
    simp
  · rw [h7, if_pos (List.mem_finRange d), hs.count]

theorem annealing_pos (k : Nat) {factor : ℝ} (hf : 0 < factor) (tracks : Nat) : 0 < annealing k factor tracks := by
  unfold annealing
  split
  · exact Real.rpow_pos_of_pos hf _
  · exact one_pos

/-- The lines of the tables for tracks number `i`, `i + 1`, ... -/
def SameLines (cfg : Config n T) (al : Fin n → Dut.Alignment) (i : Nat) (recs : List (Record n)) : Prop :=
  ∀ j r, recs[j]? = some r → r.align = al ∧ ∀ d, r.annealing d = annealing (i + j) cfg.annealingFactor cfg.annealingTracks

theorem trackLoop_same (cfg : Config n T) (d0 : Fin n) (hf : 0 < cfg.annealingFactor) (al : Fin n → Dut.Alignment) (hu : ∀ d, UsualAngles (al d)) (ts : List (Track n T))
    (ht : ∀ t ∈ ts, Agrees cfg al t) (i : Nat) (hi : i ≤ cfg.maxTracks) (s : Dyn n) (hs : Unmoved i s) :
    ∃ c, trackLoop (startConfig cfg al) ts s al = .ok c ∧ c.al = al ∧ SameLines cfg al i c.recs ∧
      ((c.stop = true ∧ c.recs.length = cfg.maxTracks + 1 - i ∧ cfg.maxTracks + 1 ≤ i + ts.length) ∨
        (c.stop = false ∧ c.recs.length = ts.length ∧ i + ts.length ≤ cfg.maxTracks ∧ Unmoved (i + ts.length) c.dyn)) := by
  induction ts generalizing i s with
  | nil => exact ⟨_, by rw [trackLoop], rfl, by intro j r h; simp at h, Or.inr ⟨rfl, rfl, hi, hs⟩⟩
  | cons t ts ih =>
    have hpos : ∀ d, 0 < (record (startConfig cfg al) s al).annealing d := fun d => annealing_pos _ hf _
    obtain ⟨s', h1, h2⟩ := useTrack_same (cfg := startConfig cfg al) (t := t) ⟨(ht t List.mem_cons_self).fit⟩ _ hpos i s hs
    have hrec : ∀ d, (record (startConfig cfg al) s al).annealing d = annealing i cfg.annealingFactor cfg.annealingTracks := by
      intro d
      show annealing (s.count d) _ _ = _
      rw [hs.count]
      rfl
    have hset := setAlignments_same cfg al hu s hs.state al
    by_cases hstop : cfg.maxTracks < i + 1
    · have hr : reached s'.count (startConfig cfg al).maxTracks = true := by
        unfold reached
        rw [decide_eq_true_eq]
        intro d
        rw [h2.count]
        exact hstop
      refine ⟨{ dyn := s', al := al, recs := [record (startConfig cfg al) s al], stop := true }, ?_, rfl, ?_, Or.inl ⟨rfl, ?_, ?_⟩⟩
      · rw [trackLoop, hset]
        dsimp only
        rw [h1]
        dsimp only
        rw [hr]
        simp
      · intro j r h
        cases j with
        | zero =>
          obtain rfl := Option.some.inj h
          exact ⟨rfl, hrec⟩
        | succ j => simp at h
      · simp only [List.length_singleton]; omega
      · rw [List.length_cons]; omega
    · have hr : reached s'.count (startConfig cfg al).maxTracks = false := by
        unfold reached
        rw [decide_eq_false_iff_not]
        intro h
        have := h d0
        rw [h2.count] at this
        exact hstop this
      obtain ⟨c, k1, k2, k3, k4⟩ := ih (fun t' ht' => ht t' (List.mem_cons_of_mem _ ht')) (i + 1) (by omega) s' h2
      refine ⟨{ c with recs := record (startConfig cfg al) s al :: c.recs }, ?_, k2, ?_, ?_⟩
      · rw [trackLoop, hset]
        dsimp only
        rw [h1]
        dsimp only
        rw [hr, k1]
        simp
      · intro j r h
        cases j with
        | zero =>
          obtain rfl := Option.some.inj h
          exact ⟨rfl, hrec⟩
        | succ j =>
          have := k3 j r (by simpa using h)
          rw [show i + (j + 1) = i + 1 + j by omega]
          exact this
      · rcases k4 with ⟨a, b, e⟩ | ⟨a, b, e, g⟩
        · exact Or.inl ⟨a, by simp only [List.length_cons]; omega, by rw [List.length_cons]; omega⟩
        · refine Or.inr ⟨a, by simp only [List.length_cons]; omega, by rw [List.length_cons]; omega, ?_⟩
          rw [List.length_cons, show i + (ts.length + 1) = i + 1 + ts.length by omega]
          exact g

theorem SameLines.append {cfg : Config n T} {al : Fin n → Dut.Alignment} {a b : List (Record n)} (ha : SameLines cfg al 0 a) (hb : SameLines cfg al a.length b) :
    SameLines cfg al 0 (a ++ b) := by
  intro j r h
  rcases Nat.lt_or_ge j a.length with hj | hj
  · rw [List.getElem?_append_left hj] at h
    exact ha j r h
  · rw [List.getElem?_append_right hj] at h
    have := hb _ r h
    rwa [show a.length + (j - a.length) = 0 + j by omega] at this

theorem chunkLoop_same (cfg : Config n T) (d0 : Fin n) (hf : 0 < cfg.annealingFactor) (al : Fin n → Dut.Alignment) (hu : ∀ d, UsualAngles (al d)) (cs : List (List (Track n T)))
    (ht : ∀ t ∈ cs.flatten.filter (valid cfg.hitMask), Agrees cfg al t) (table : List (Record n)) (hi : table.length ≤ cfg.maxTracks) (hl : SameLines cfg al 0 table)
    (s : Dyn n) (hs : Unmoved table.length s) :
    (chunkLoop (startConfig cfg al) none cs s al al table).err = none ∧ (chunkLoop (startConfig cfg al) none cs s al al table).saved = al ∧
      SameLines cfg al 0 (chunkLoop (startConfig cfg al) none cs s al al table).table ∧
      (chunkLoop (startConfig cfg al) none cs s al al table).table.length = min (table.length + (cs.flatten.filter (valid cfg.hitMask)).length) (cfg.maxTracks + 1) := by
  induction cs generalizing s table with
  | nil => exact ⟨rfl, rfl, hl, by simp [chunkLoop]; omega⟩
  | cons c cs ih =>
    rw [List.flatten_cons, List.filter_append] at ht
    obtain ⟨r, h1, h2, h3, h4⟩ := trackLoop_same cfg d0 hf al hu (c.filter (valid cfg.hitMask)) (fun t h => ht t (List.mem_append_left _ h)) table.length hi s hs
    rw [chunkLoop]
    have h1' : trackLoop (startConfig cfg al) (c.filter (valid (startConfig cfg al).hitMask)) s al = .ok r := h1
    rw [h1']
    dsimp only
    rw [List.flatten_cons, List.filter_append, List.length_append]
    rcases h4 with ⟨a, b, e⟩ | ⟨a, b, e, g⟩
    · rw [a]
      simp only [if_true]
      refine ⟨trivial, h2, hl.append h3, ?_⟩
      rw [List.length_append]
      omega
    · rw [a]
      simp only [Bool.false_eq_true, if_false]
      rw [h2]
      have hlen : (table ++ r.recs).length = table.length + (c.filter (valid cfg.hitMask)).length := by rw [List.length_append, b]
      obtain ⟨k1, k2, k3, k4⟩ := ih (fun t h => ht t (List.mem_append_right _ h)) (table ++ r.recs) (by omega) (hl.append h3) r.dyn (by rw [hlen]; exact g)
      refine ⟨k1, k2, k3, ?_⟩
      rw [k4, hlen]
      omega

/-- If the fits of all tracks agree with the hits, the telescope is not moved. -/
theorem alignmentLoop_same (cfg : Config n T) (d0 : Fin n) (hf : 0 < cfg.annealingFactor) (al : Fin n → Dut.Alignment) (hu : ∀ d, UsualAngles (al d)) (cs : Nat)
    (cov : Fin n → Mat6) (hcov : ∀ d, (cov d).PosSemidef) (tracks : List (Track n T)) (hread : ReadableTracks cs tracks) (hitDuts : List Nat) (hm : cfg.hitMask = hitMask hitDuts)
    (ht : ∀ t ∈ usable hitDuts tracks, Agrees cfg al t) :
    (alignmentLoop cfg cs al cov tracks).err = none ∧ (alignmentLoop cfg cs al cov tracks).saved = al ∧ SameLines cfg al 0 (alignmentLoop cfg cs al cov tracks).table ∧
      (alignmentLoop cfg cs al cov tracks).table.length = min (usable hitDuts tracks).length (cfg.maxTracks + 1) := by
  obtain ⟨he, hv⟩ := tracks_read hread hitDuts
  rw [← hv, ← hm] at ht
  have := chunkLoop_same cfg d0 hf al hu ((dataAligned Track.event tracks { chunkSize := cs }).items.map Prod.fst) ht [] (Nat.zero_le _) (by intro j r h; simp at h) (initialDyn cov)
    ⟨fun _ => rfl, hcov, fun _ => rfl⟩
  rw [hm, hv] at this
  have e : alignmentLoop cfg cs al cov tracks = chunkLoop (startConfig cfg al) none ((dataAligned Track.event tracks { chunkSize := cs }).items.map Prod.fst) (initialDyn cov) al al [] := by
    unfold alignmentLoop
    dsimp only
    rw [he]
    rfl
  rw [e]
  simpa using this

/-! ### The fit -/

theorem trackFit_exact (k : Tracker n) (al : Fin n → Dut.Alignment) (hk : Ready k al) (fitDuts : List Nat) (hfit : FitDuts n fitDuts) (t : Candidate n) (ht : ExactHits k al t)
    (ann : Fin n → ℝ) (hann : ∀ d, 0 < ann d) :
    ∃ f, trackFit k fitDuts al ann t = some f ∧ (f.chi2 = none ∨ f.chi2 = some 0) ∧
      ∀ d, (f.V d).PosDef ∧ (f.C0 d).PosSemidef ∧ t.hit d = some ((f.H d).mulVec (f.p0 d)) := by
  obtain ⟨origin, direction, hcr, hhit, hdiff⟩ := ht
  have hget : ∀ {α : Type} (g : Fin n → α) (d : Nat) (x : α), (List.ofFn g)[d]? = some x ↔ ∃ h : d < n, x = g ⟨d, h⟩ := by
    intro α g d x
    rw [List.getElem?_ofFn]
    by_cases h : d < n
    · simp [h, eq_comm]
    · simp [h]
  have hmem : ∀ {p : Plane → Prop}, (∀ d, p (k.plane al d)) → ∀ P ∈ List.ofFn (k.plane al) ++ [], p P := by
    intro p hp P hP
    rw [List.append_nil, List.mem_ofFn] at hP
    obtain ⟨d, rfl⟩ := hP
    exact hp d
  have hhit' : ∀ (d : Nat) (P : Plane) (hit : Hit), (List.ofFn (k.plane al))[d]? = some P → (List.ofFn (hitAt t))[d]? = some (some hit) →
      HitOnLine P hit origin direction ∧ BTA.Props.HasError P hit := by
    intro d P hit hP hh
    obtain ⟨hd, rfl⟩ := (hget _ _ _).mp hP
    obtain ⟨_, e⟩ := (hget _ _ _).mp hh
    obtain ⟨m, hm, hon, he1, he2⟩ := hhit ⟨d, hd⟩
    unfold hitAt at e
    rw [hm] at e
    obtain rfl := Option.some.inj e
    refine ⟨hon, ?_⟩
    unfold BTA.Props.HasError
    split
    · rename_i r hr
      exact hk.resolution ⟨d, hd⟩ r hr
    · exact ⟨he1, he2⟩
  obtain ⟨f, h1, h2, h3, h4, -⟩ := BTA.Props.C216_exact k.fx k.argsort k.svd (List.ofFn (k.plane al)) [] (List.ofFn ann) (List.ofFn (hitAt t)) fitDuts k.energy k.mass origin direction
    hk.sorts hk.singular (by rw [List.append_nil]; exact hk.order) (hmem hk.beam) (hmem hcr) (hmem hk.material) (by simp)
    (by
      intro a ha
      rw [List.mem_ofFn] at ha
      obtain ⟨d, rfl⟩ := ha
      exact hann d)
    (by
      intro d P hit _ hP hh
      rw [List.append_nil] at hP
      exact (hhit' d P hit hP hh).2)
    (by simpa using hfit.1)
    (fun d P hit _ hP hh => (hhit' d P hit hP hh).1)
    (by
      obtain ⟨d, hd, e, he, hne⟩ := hfit.2
      obtain ⟨m, hm, -⟩ := hhit ⟨d, hfit.1 d hd⟩
      obtain ⟨m', hm', -⟩ := hhit ⟨e, hfit.1 e he⟩
      refine ⟨d, hd, e, he, _, _, ⟨m 0, m 1, (t.data ⟨d, hfit.1 d hd⟩).1, (t.data ⟨d, hfit.1 d hd⟩).2⟩, ⟨m' 0, m' 1, (t.data ⟨e, hfit.1 e he⟩).1, (t.data ⟨e, hfit.1 e he⟩).2⟩, (hget _ _ _).mpr ⟨hfit.1 d hd, rfl⟩, (hget _ _ _).mpr ⟨hfit.1 e he, rfl⟩, (hget _ _ _).mpr ⟨hfit.1 d hd, ?_⟩, (hget _ _ _).mpr ⟨hfit.1 e he, ?_⟩,
        hdiff ⟨d, hfit.1 d hd⟩ ⟨e, hfit.1 e he⟩ m m' (fun h => hne (congrArg Fin.val h)) hm hm'⟩
      · unfold hitAt; rw [hm]; rfl
      · unfold hitAt; rw [hm']; rfl)
  have hlen : (List.ofFn (k.plane al)).length = n := List.length_ofFn
  refine ⟨_, by unfold trackFit; rw [h1]; dsimp only; rw [if_neg (by rw [h4]; simp)], ?_, ?_⟩
  · unfold reducedChi2
    dsimp only
    split
    · exact Or.inl rfl
    · exact Or.inr (by rw [h4, zero_div])
  · intro d
    obtain ⟨s, hs⟩ := BTA.Props.lookup_isSome f.planes d.val (by rw [h2, hlen]; exact List.mem_range.mpr d.isLt)
    obtain ⟨⟨P, hP, hdesc⟩, hpd⟩ := h3 _ (BTA.Props.lookup_some_mem f.planes d.val s hs)
    obtain ⟨_, rfl⟩ := (hget _ _ _).mp hP
    obtain ⟨m, hm, hon, he1, he2⟩ := hhit d
    have hat : hitAt t d = some ⟨m 0, m 1, (t.data d).1, (t.data d).2⟩ := by unfold hitAt; rw [hm]; rfl
    have hsm : smoothedAt f d = s := by unfold smoothedAt; rw [hs]; rfl
    dsimp only
    rw [hsm, hat]
    refine ⟨BTA.Props.obsCov_pd _ _ _ (hann d) ((hhit' d.val _ _ ((hget _ _ _).mpr ⟨d.isLt, rfl⟩) ((hget _ _ _).mpr ⟨d.isLt, hat.symm⟩)).2), hpd.posSemidef, ?_⟩
    have := BTA.Props.hit_of_state _ s.x ⟨m 0, m 1, (t.data d).1, (t.data d).2⟩ origin direction hdesc hon
    rw [this, hm]
    congr 1
    ext i
    fin_cases i <;> rfl

/-- C218: a telescope that is aligned already. All tracks with the required hits have hits exactly on straight lines, if the DUTs are where the
configuration says. Then the alignment runs through, every track is used in every DUT (until the maximum number of tracks is exceeded), and the alignment
stays exactly the same, in all lines of the output tables and in the saved configuration. -/
theorem C218_aligned (k : Tracker n) (al : Fin n → Dut.Alignment) (hk : Ready k al) (hu : ∀ d, UsualAngles (al d)) (d0 : Fin n) (fitDuts : List Nat) (hfit : FitDuts n fitDuts)
    (cfg : Config n (Fin n → ℝ × ℝ)) (hcfg : cfg.fit = trackFit k fitDuts) (hcut : 0 ≤ cfg.chi2Cut) (hf : 0 < cfg.annealingFactor) (hitDuts : List Nat) (hm : cfg.hitMask = hitMask hitDuts)
    (select tel : List Nat) (parameters : List (Option (List String))) (errors : Vec6) (cov : Fin n → Mat6) (hcov : initialAlignment select tel parameters errors = .ok cov)
    (cs : Nat) (tracks : List (Candidate n)) (hread : ReadableTracks cs tracks) (hex : ∀ t ∈ usable hitDuts tracks, ExactHits k al t) :
    (alignmentLoop cfg cs al cov tracks).err = none ∧ (alignmentLoop cfg cs al cov tracks).saved = al ∧
    (alignmentLoop cfg cs al cov tracks).table.length = min (usable hitDuts tracks).length (cfg.maxTracks + 1) ∧
    ∀ i r, (alignmentLoop cfg cs al cov tracks).table[i]? = some r → r.align = al ∧
      ∀ d, r.annealing d = if i < cfg.annealingTracks then cfg.annealingFactor ^ (1 - (i : ℝ) / cfg.annealingTracks) else 1 := by
  obtain ⟨h1, h2, h3, h4⟩ := alignmentLoop_same cfg d0 hf al hu cs cov (initial_psd hcov) tracks hread hitDuts hm (fun t ht => ⟨fun ann hann => by
    obtain ⟨f, g1, g2, g3⟩ := trackFit_exact k al hk fitDuts hfit t (hex t ht) ann hann
    refine ⟨f, by rw [hcfg]; exact g1, ?_, g3⟩
    rcases g2 with g2 | g2 <;> rw [g2] <;> simp [badChi2, hcut]⟩)
  refine ⟨h1, h2, h4, fun i r hr => ?_⟩
  obtain ⟨k1, k2⟩ := h3 i r hr
  refine ⟨k1, fun d => ?_⟩
  rw [k2, Nat.zero_add]
  unfold annealing
  split
  · rename_i hlt
    have h0 : (cfg.annealingTracks : ℝ) ≠ 0 := by
      have : 0 < cfg.annealingTracks := by omega
      exact_mod_cast this.ne'
    rw [sub_div, div_self h0]
  · rfl

/-! ### Example: three DUTs, any number of inclined tracks -/

/-- The tracks start at different positions and are inclined. -/
noncomputable def slanted (i : Nat) : Candidate 3 := ⟨i, 7, fun d => some ![i + 5 * d.val, 2], fun _ => (4, 4)⟩

noncomputable def rowOfThree : Fin 3 → Dut.Alignment := fun d => ⟨0, 0, 10 * d.val, 0, 0, 0⟩

theorem slanted_read (N : Nat) : ReadableTracks 10 ((List.range N).map slanted) := by
  refine ⟨?_, fun e => ?_⟩
  · unfold SortedBy
    rw [List.pairwise_map]
    refine List.pairwise_lt_range.imp ?_
    intro i j h
    show ((i : Nat) : Int) ≤ (j : Int)
    omega
  · unfold BTA.Spec.multiplicity
    rw [List.filter_map, List.length_map, ← List.countP_eq_length_filter]
    refine lt_of_le_of_lt (b := 1) ?_ (by decide)
    have hle : (List.range N).countP ((fun r : Candidate 3 => decide (r.event = e)) ∘ slanted) ≤ (List.range N).count e.toNat := by
      apply List.countP_mono_left
      intro i _ h
      have h' : ((i : Nat) : Int) = e := of_decide_eq_true h
      simp [← h']
    exact hle.trans (List.nodup_iff_count_le_one.mp List.nodup_range _)

theorem ready_row (k : Tracker 3) (hs : ∀ z, SortsIndices z (k.argsort z)) (hsvd : ∀ rows, AlignTel.IsFirstSingular rows (k.svd rows)) (hb : k.budget = fun _ => 0.01)
    (hr : k.resolution = fun _ => some (5, 5)) : (∀ d, k.plane rowOfThree d = BTA.Props.flat (10 * d.val)) ∧ Ready k rowOfThree := by
  have hp : ∀ d, k.plane rowOfThree d = BTA.Props.flat (10 * d.val) := by
    intro d
    unfold Tracker.plane BTA.Props.flat rowOfThree
    rw [hb, hr]
  refine ⟨hp, hs, hsvd, ?_, ?_, ?_, ?_⟩
  · have hz : ∀ (i : Nat) (P : Plane) (z : ℝ), (List.ofFn (k.plane rowOfThree))[i]? = some P → OnPlane P.pos (planeNormalOf P) ![0, 0, z] → z = 10 * i := by
      intro i P z hP h
      rw [List.getElem?_ofFn] at hP
      split at hP
      · obtain rfl := Option.some.inj hP
        rw [hp] at h
        unfold OnPlane at h
        rw [BTA.Props.flat_normal] at h
        simp [Geo.dot, BTA.Props.flat] at h
        linarith
      · cases hP
    intro i j P Q z z' hij hP hQ h1 h2
    rw [hz i P z hP h1, hz j Q z' hQ h2]
    have : (i : ℝ) < j := by exact_mod_cast hij
    linarith
  · intro d
    rw [hp]
    unfold Crosses
    rw [BTA.Props.flat_normal]
    simp [Geo.dot]
  · intro d
    rw [hb]
    norm_num
  · intro d r h
    rw [hr] at h
    obtain rfl := Option.some.inj h
    norm_num

theorem slanted_exact (k : Tracker 3) (hp : ∀ d, k.plane rowOfThree d = BTA.Props.flat (10 * d.val)) (i : Nat) : ExactHits k rowOfThree (slanted i) := by
  have hspace : ∀ d m, space k rowOfThree d m = ![m 0, m 1, 10 * (d.val : ℝ)] := by
    intro d m
    unfold space globalPoint
    rw [hp, BTA.Props.flat_rot, one_mulVec]
    ext j
    fin_cases j <;> simp [BTA.Props.flat]
  refine ⟨![i, 2, 0], ![0.5, 0, 1], ?_, ?_, ?_⟩
  · intro d
    rw [hp]
    unfold Crosses
    rw [BTA.Props.flat_normal]
    simp [Geo.dot]
  · intro d
    refine ⟨_, rfl, ⟨10 * d.val, ?_⟩, by simp [slanted], by simp [slanted]⟩
    rw [hspace]
    ext j
    fin_cases j <;> simp
    ring
  · intro d e m m' hne _ _ h
    rw [hspace, hspace] at h
    have := congrFun h 2
    simp at this
    exact hne (Fin.ext this)

theorem slanted_usable (N : Nat) : usable [0, 1, 2] ((List.range N).map slanted) = (List.range N).map slanted := by
  unfold usable
  rw [List.filter_eq_self]
  intro t ht
  obtain ⟨i, -, rfl⟩ := List.mem_map.mp ht
  rw [decide_eq_true_eq]
  show ∀ d ∈ [0, 1, 2], (7 : Nat).testBit d = true
  decide

theorem row_usual (d : Fin 3) : UsualAngles (rowOfThree d) := by
  have hpi := Real.two_le_pi
  exact ⟨⟨by simp [rowOfThree]; linarith, by simp [rowOfThree]; linarith⟩, ⟨by simp [rowOfThree]; linarith, by simp [rowOfThree]; linarith⟩,
      ⟨by simp [rowOfThree]; linarith, by simp [rowOfThree]; linarith⟩, by simp [rowOfThree]⟩

/-- C218: three DUTs, inclined tracks; the position x of the DUT in the middle may be changed but stays. -/
example (fx : Fixer) (N : Nat) : ∃ (k : Tracker 3) (cov : Fin 3 → Mat6) (cfg : Config 3 (Fin 3 → ℝ × ℝ)), cfg.fit = trackFit k [0, 1, 2] ∧ cfg.maxTracks = 100 ∧
    initialAlignment [1] [0, 2] (BTA.Props.exParameters "translation_x") (fun _ => 1) = .ok cov ∧
    (alignmentLoop cfg 10 rowOfThree cov ((List.range N).map slanted)).err = none ∧
    (alignmentLoop cfg 10 rowOfThree cov ((List.range N).map slanted)).saved = rowOfThree ∧
    (alignmentLoop cfg 10 rowOfThree cov ((List.range N).map slanted)).table.length = min N 101 := by
  obtain ⟨svd, hsvd⟩ := AlignTel.exists_svd
  obtain ⟨argsort, hsort⟩ := BTA.Props.exists_argsort
  obtain ⟨cov, hc, -⟩ := BTA.Props.exInitial "translation_x"
  let k : Tracker 3 := ⟨fun _ => 0.01, fun _ => some (5, 5), 5000, 0.511, fx, argsort, svd⟩
  let cfg : Config 3 (Fin 3 → ℝ × ℝ) := ⟨fun _ => 1, fun _ => 0, trackFit k [0, 1, 2], 10, 100, 20, 100, hitMask [0, 1, 2]⟩
  obtain ⟨hp, hk⟩ := ready_row k hsort hsvd rfl rfl
  obtain ⟨h1, h2, h3, -⟩ := C218_aligned k rowOfThree hk row_usual 0 [0, 1, 2] ⟨by decide, 0, by decide, 1, by decide, by decide⟩ cfg rfl
    (show (0 : ℝ) ≤ 10 by norm_num) (show (0 : ℝ) < 100 by norm_num) [0, 1, 2] rfl [1] [0, 2] _ _ cov hc 10 _ (slanted_read N) (fun t ht => by
      rw [slanted_usable] at ht
      obtain ⟨i, -, rfl⟩ := List.mem_map.mp ht
      exact slanted_exact k hp i)
  exact ⟨k, cov, cfg, rfl, rfl, hc, h1, h2, by rw [h3, slanted_usable, List.length_map, List.length_range]⟩

/-! ### align_kalman -/
open BTA.KDriver (Setup Args Group World Conf Disk pass passes alignDuts alignGroup alignGroups alignKalman settings outputName loopConfig finish startConf)

/-- The output configuration is the given one, the new lines of the table, too. -/
structure Kept (conf : Conf n) (old : List (Record n)) (w : World n) : Prop where
  same : w.conf = conf
  table : ∀ r ∈ w.table, r ∈ old ∨ r.align = conf

theorem pass_kept {k : Tracker n} {conf : Conf n} {S : Setup n (Fin n → ℝ × ℝ)} {a : Args} (h : AlignedInput k conf S a) (d0 : Fin n) (index : Nat) (g : Group) (chi2 : ℝ) (hchi : 0 ≤ chi2)
    (c : BTA.Fit.DutCfg) (hc : (BTA.Fit.effectiveFit c).Nodup ∧ ∀ d ∈ BTA.Fit.effectiveFit c, d < n) (table : List (Record n)) (w : World n) (hw : Kept conf table w) :
    Kept conf table (pass S a index g chi2 c w).1 := by
  unfold pass
  split
  · exact hw
  · rename_i h1
    split
    · exact hw
    · rename_i h2
      split
      · exact hw
      · rename_i cov hcov
        have hfd : FitDuts n (BTA.Fit.effectiveFit c) := by
          refine ⟨hc.2, ?_⟩
          match hl : BTA.Fit.effectiveFit c, hc.1 with
          | [], _ => rw [hl] at h2; simp at h2; omega
          | [x], _ => rw [hl] at h2; simp at h2; omega
          | x :: y :: l, hnd =>
            refine ⟨x, by simp, y, by simp, ?_⟩
            rw [List.nodup_cons] at hnd
            intro hxy
            exact hnd.1 (hxy ▸ List.mem_cons_self)
        have hpsd : ∀ d, (cov d).PosSemidef := by
          intro d
          unfold KDriver.initial at hcov
          split at hcov
          · cases hcov
          · split at hcov
            · cases hcov
            · split at hcov
              · cases hcov
              · split at hcov
                · cases hcov
                · rename_i cov' hcov'
                  obtain rfl := Except.ok.inj hcov
                  exact initial_psd hcov' d
        dsimp only
        rw [hw.same]
        obtain ⟨-, k2, k3, -⟩ := alignmentLoop_same (loopConfig S a g chi2 c conf) d0 h.factor conf h.usual S.chunkSize cov hpsd (S.candidates index g.maxEvents) (h.read _ _) c.hitDuts rfl
          (fun t ht => ⟨fun ann hann => by
            obtain ⟨f, g1, g2, g3⟩ := trackFit_exact k conf h.ready (BTA.Fit.effectiveFit c) hfd t (h.exact _ _ t (List.mem_of_mem_filter ht)) ann hann
            refine ⟨f, by show S.fit _ _ _ _ = _; rw [h.fit]; exact g1, ?_, g3⟩
            have hcut : 0 ≤ (loopConfig S a g chi2 c conf).chi2Cut := hchi
            rcases g2 with g2 | g2 <;> rw [g2] <;> simp [badChi2, hcut]⟩)
        refine ⟨k2, fun r hr => ?_⟩
        rcases List.mem_append.mp hr with hr | hr
        · exact hw.table r hr
        · obtain ⟨i, hi⟩ := List.getElem?_of_mem hr
          exact Or.inr (k3 i r hi).1

theorem passes_kept {k : Tracker n} {conf : Conf n} {S : Setup n (Fin n → ℝ × ℝ)} {a : Args} (h : AlignedInput k conf S a) (d0 : Fin n) (index : Nat) (g : Group) (chi2 : ℝ) (hchi : 0 ≤ chi2)
    (all cs : List BTA.Fit.DutCfg) (hc : ∀ c ∈ cs, (BTA.Fit.effectiveFit c).Nodup ∧ ∀ d ∈ BTA.Fit.effectiveFit c, d < n) (fitted : List Nat) (table : List (Record n)) (w : World n)
    (hw : Kept conf table w) : Kept conf table (passes S a index g chi2 all cs fitted w).1 := by
  induction cs generalizing fitted w with
  | nil => exact hw
  | cons c rest ih =>
    have hp := pass_kept h d0 index g chi2 hchi c (hc c List.mem_cons_self) table w hw
    rw [passes]
    split
    · exact ih (fun c' hc' => hc c' (List.mem_cons_of_mem _ hc')) _ w hw
    · split
      · rename_i w' e he
        rw [he] at hp
        exact hp
      · rename_i w' he
        rw [he] at hp
        exact ih (fun c' hc' => hc c' (List.mem_cons_of_mem _ hc')) _ w' hp

theorem alignGroup_kept {k : Tracker n} {conf : Conf n} {S : Setup n (Fin n → ℝ × ℝ)} {a : Args} (h : AlignedInput k conf S a) (d0 : Fin n) (index : Nat) (g : Group)
    (hg : g.fit.Nodup ∧ ∀ d ∈ g.fit, d < n) (table : List (Record n)) (w : World n) (hw : Kept conf table w) : Kept conf table (alignGroup S a index g w).1 := by
  unfold alignGroup
  dsimp only
  split
  · exact ⟨hw.same, hw.table⟩
  · split
    · exact ⟨hw.same, hw.table⟩
    · rename_i chi2 hchi
      have hpos : 0 ≤ chi2 := by
        unfold KDriver.chi2Of at hchi
        split at hchi
        · cases hchi
        · rename_i l hl
          split at hchi
          · cases hchi
          · rename_i c hc
            obtain rfl := Except.ok.inj hchi
            exact h.cut l hl c (List.mem_of_getElem? hc)
      unfold alignDuts
      split
      · exact ⟨hw.same, hw.table⟩
      · split
        · exact ⟨hw.same, hw.table⟩
        · rename_i _ exclude _ _ minHits _
          dsimp only
          have hcfg : ∀ c ∈ KDriver.dutCfgs g exclude minHits, (BTA.Fit.effectiveFit c).Nodup ∧ ∀ d ∈ BTA.Fit.effectiveFit c, d < n := by
            intro c hc
            unfold KDriver.dutCfgs at hc
            obtain ⟨q, -, rfl⟩ := List.mem_map.mp hc
            unfold BTA.Fit.effectiveFit
            dsimp only
            split
            · exact ⟨(List.nodup_dedup _).filter _, fun d hd => hg.2 d (List.mem_dedup.mp (List.mem_of_mem_filter hd))⟩
            · exact hg
          have hw' : Kept conf table (if index = 0 then { { w with files := index :: w.files, calls := w.calls ++ [(index, g.maxEvents)] } with table := [] }
              else { w with files := index :: w.files, calls := w.calls ++ [(index, g.maxEvents)] }) := by
            split
            · exact ⟨hw.same, fun r hr => by cases hr⟩
            · exact ⟨hw.same, hw.table⟩
          have hp := passes_kept h d0 index g chi2 hpos (KDriver.dutCfgs g exclude minHits) _ hcfg [] table _ hw'
          split
          · rename_i w' e he
            rw [he] at hp
            exact hp
          · rename_i w' he
            rw [he] at hp
            exact ⟨hp.same, hp.table⟩

theorem alignGroups_kept {k : Tracker n} {conf : Conf n} {S : Setup n (Fin n → ℝ × ℝ)} {a : Args} (h : AlignedInput k conf S a) (d0 : Fin n) (gs : List Group)
    (hg : ∀ g ∈ gs, g.fit.Nodup ∧ ∀ d ∈ g.fit, d < n) (index : Nat) (table : List (Record n)) (w : World n) (hw : Kept conf table w) : Kept conf table (alignGroups S a index gs w).1 := by
  induction gs generalizing index w with
  | nil => exact hw
  | cons g gs ih =>
    have hp := alignGroup_kept h d0 index g (hg g List.mem_cons_self) table w hw
    rw [alignGroups]
    split
    · rename_i w' e he
      rw [he] at hp
      exact hp
    · rename_i w' he
      rw [he] at hp
      exact ih (fun g' hg' => hg g' (List.mem_cons_of_mem _ hg')) _ w' hp

/-- C218: `align_kalman` for a telescope that is aligned already, whatever the arguments, also if it raises: the new output configuration, if it is
written, is the input configuration; every new line of the output tables contains this alignment. -/
theorem C218_align_kalman (legacy : Bool) (root : List Char → List Char) (k : Tracker n) (conf : Conf n) (S : Setup n (Fin n → ℝ × ℝ)) (a : Args) (h : AlignedInput k conf S a)
    (d0 : Fin n) (hfit : ∀ gs, KDriver.Spec.Settings legacy a gs → ∀ g ∈ gs, g.fit.Nodup ∧ ∀ d ∈ g.fit, d < n) (D : Disk n) (input : List Char) (output : Option (List Char))
    (hin : D.store input = some conf) (out : List Char) (hout : outputName root input output = .ok out) (hnew : D.store out = none) :
    (∀ c, (alignKalman legacy root S a D input output).disk.store out = some c → c = conf) ∧
    ((alignKalman legacy root S a D input output).output = .ok out → (alignKalman legacy root S a D input output).disk.store out = some conf) ∧
    ∀ r ∈ (alignKalman legacy root S a D input output).disk.table, r ∈ D.table ∨ r.align = conf := by
  unfold alignKalman
  rw [hin]
  dsimp only
  cases hs : settings legacy a with
  | error e =>
    dsimp only
    exact ⟨fun c hc => (by rw [hnew] at hc; cases hc), fun ho => (by cases ho), fun r hr => Or.inl hr⟩
  | ok gs =>
    dsimp only
    rw [hout]
    dsimp only
    rw [hnew]
    simp only [Option.isSome_none, Bool.false_and, Bool.false_eq_true, if_false]
    have hk := alignGroups_kept h d0 gs (hfit gs ((KDriver.Props.C150_settings _ _ _).mp hs)) 0 D.table ⟨startConf conf none gs, D.table, D.files, []⟩ ⟨rfl, fun r hr => Or.inl hr⟩
    unfold finish
    dsimp only
    simp only [if_true]
    exact ⟨fun c hc => (by rw [hk.same] at hc; exact (Option.some.inj hc).symm), fun _ => (by rw [hk.same]), hk.table⟩

/-- C218: the call of `align_kalman` returns, and the new configuration is the old one. -/
example (fx : Fixer) (N : Nat) : ∃ (k : Tracker 3) (S : Setup 3 (Fin 3 → ℝ × ℝ)) (D : Disk 3) (out : List Char), S.fit = trackFit k ∧
    S.candidates 0 none = (List.range N).map slanted ∧ D.store "t.yaml".toList = some rowOfThree ∧ D.store out = none ∧
    (alignKalman false id S KDriver.Props.exArgs D "t.yaml".toList none).output = .ok out ∧
    (alignKalman false id S KDriver.Props.exArgs D "t.yaml".toList none).disk.store out = some rowOfThree ∧
    (alignKalman false id S KDriver.Props.exArgs D "t.yaml".toList none).disk.table.length = min N 10001 := by
  obtain ⟨svd, hsvd⟩ := AlignTel.exists_svd
  obtain ⟨argsort, hsort⟩ := BTA.Props.exists_argsort
  let k : Tracker 3 := ⟨fun _ => 0.01, fun _ => some (5, 5), 5000, 0.511, fx, argsort, svd⟩
  obtain ⟨hp, hk⟩ := ready_row k hsort hsvd rfl rfl
  let S : Setup 3 (Fin 3 → ℝ × ℝ) := ⟨fun _ _ => (List.range N).map slanted, trackFit k, 10⟩
  let D : Disk 3 := ⟨fun f => if f = "t.yaml".toList then some rowOfThree else none, [], []⟩
  have hD : D.store "t.yaml".toList = some rowOfThree := by simp [D]
  have hnew : D.store "t.yaml_aligned_kalman.yaml".toList = none := by
    simp only [D]
    rw [if_neg (by decide)]
  have hin : AlignedInput k rowOfThree S KDriver.Props.exArgs := by
    refine ⟨rfl, show (0 : ℝ) < 10000 by norm_num, ?_, row_usual, hk, fun _ _ => slanted_read N, ?_⟩
    · intro l hl c hc
      obtain rfl : [10] = l := by injection hl
      rw [List.mem_singleton] at hc
      subst hc
      norm_num
    · intro _ _ t ht
      obtain ⟨i, -, rfl⟩ := List.mem_map.mp ht
      exact slanted_exact k hp i
  have key := C218_align_kalman false id k rowOfThree S KDriver.Props.exArgs hin 0 (fun gs hgs g hg => by
    have := KDriver.Props.C150_unique _ _ _ _ hgs KDriver.Props.exSettings
    subst this
    rw [List.mem_singleton] at hg
    subst hg
    exact ⟨by decide, by decide⟩) D "t.yaml".toList none hD _ KDriver.Props.exName hnew
  obtain ⟨start, cov, h1, h2, h3⟩ := KDriver.Props.C151_explicit_partial false id S D "t.yaml".toList none rowOfThree hD _ KDriver.Props.exName [1] [[], ["translation_x"], []] (fun _ => 1) [0, 2]
    [0, 1, 2] [0, 1, 2] 10 10000 5000 10000 none (by simp) (by simp) (by decide) (by simp) (by simp) (by simp) (by simp)
  have hstart : start = rowOfThree := by
    funext d
    refine (h1 d).1 (.inr ?_)
    exact hnew
  subst hstart
  obtain ⟨g1, g2, g3, -⟩ := h3 _ rfl _ rfl
  obtain ⟨e1, -, e3, -⟩ := C218_aligned k rowOfThree hk row_usual 0 [0, 1, 2] ⟨by decide, 0, by decide, 1, by decide, by decide⟩
    ⟨fun _ => 1, fun _ => 0, trackFit k [0, 1, 2], 10, 10000, 5000, 10000, hitMask [0, 1, 2]⟩ rfl
    (show (0 : ℝ) ≤ 10 by norm_num) (show (0 : ℝ) < 10000 by norm_num) [0, 1, 2] rfl [1] [0, 2] _ _ cov h2 10 _ (slanted_read N) (fun t ht => by
      rw [slanted_usable] at ht
      obtain ⟨i, -, rfl⟩ := List.mem_map.mp ht
      exact slanted_exact k hp i)
  rw [slanted_usable, List.length_map, List.length_range] at e3
  exact ⟨k, S, D, _, rfl, rfl, hD, hnew, g3 e1, key.2.1 (g3 e1), (congrArg List.length g2).trans e3⟩

end BTA.KAlign.Props
