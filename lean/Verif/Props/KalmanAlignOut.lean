import Verif.Lemmas.KalmanAlignOut
import Verif.Props.KalmanAlignShift
/-
Properties of the output file of the alignment with a Kalman filter and of its plots, beam_telescope_analysis/dut_alignment.py (`align_kalman`) and
tools/plot_utils.py (`plot_kf_alignment`): C222 and C223.
-/
namespace BTA.Props
open BTA.Geo BTA.Kalman BTA.KAlign BTA.Spec Matrix

variable {n : Nat} {T : Type}

/-! ### One track -/

/-- The diagonal of a covariance matrix is zero only for parameters that do not change. -/
theorem zero_error_same {H : ObsMat} {V : ObsCov} {C0 : Cov} {p0 : State} {a b : Vec6} {E0 E1 : Mat6} {R : Mat3} {m : Option Obs} (hE : E0.PosSemidef)
    (h : calculateParameters H V C0 p0 (some a) E0 R m = .ok (some b, E1)) (k : Fin 6) (h0 : Real.sqrt (E0 k k) = 0) : b k = a k := by
  have hkk : E0 k k = 0 := le_antisymm (Real.sqrt_eq_zero'.mp h0) (hE.diag_nonneg)
  have hrow : ∀ j, E0 k j = 0 := by
    intro j
    have := BTA.KAlign.Props.psd_row E0 hE (Pi.single j 1) k
    rw [hkk, zero_mul] at this
    have h1 : E0.mulVec (Pi.single j 1) k = E0 k j := by simp
    rw [h1] at this
    exact pow_eq_zero_iff (two_ne_zero) |>.mp (le_antisymm this (sq_nonneg _))
  obtain ⟨-, h1, -⟩ := calculateParameters_ok h
  unfold newState at h1
  split at h1
  · rename_i a' x ha'
    injection ha' with ha'
    subst ha'
    injection h1 with h1
    rw [h1]
    exact newState_row k hrow _ _ _ _
  · simp at h1

/-- The parameters of all DUTs are known and the covariance matrices are covariance matrices. -/
def Good (s : Dyn n) : Prop := ∀ d, (∃ a, s.state d = some a) ∧ (s.cov d).PosSemidef

theorem newState_known {a : Vec6} {E0 : Mat6} {D : Matrix (Fin 2) (Fin 6) ℝ} {W : ObsCov} {m : Option Obs} (hm : ∃ x, m = some x) {Hp : Obs} :
    ∃ b, newState (some a) E0 D W m Hp = some b := by
  obtain ⟨x, rfl⟩ := hm
  exact ⟨_, rfl⟩

theorem good_step {cfg : Config n T} (hS : SoundFit cfg) (s : Dyn n) (t : Track n T) (r : Record n) (s' : Dyn n) (u : Bool) (hs : Good s)
    (ht : ∀ d, ∃ m, t.hit d = some m) (h : StepOf cfg s t r s' u) : Good s' := by
  intro d
  refine ⟨?_, (psd_step hS d s t r s' u (hs d).2 h).1⟩
  obtain ⟨a, ha⟩ := (hs d).1
  rcases h.dut d with ⟨e1, -, -⟩ | ⟨f, -, -, a1, E1, hc, hh⟩
  · exact ⟨a, by rw [e1, ha]⟩
  · rcases hh with ⟨-, e1, -, -⟩ | ⟨-, e1, -, -⟩
    · exact ⟨a, by rw [e1, ha]⟩
    · obtain ⟨-, g1, -⟩ := calculateParameters_ok hc
      rw [e1, g1, ha]
      exact newState_known (ht d)

/-- What a track does to a DUT and what is stored. -/
theorem row_cases {cfg : Config n T} (prob : Fit n → Option ℝ) {s : Dyn n} {t : Track n T} {r : Record n} {s' : Dyn n} {u : Bool} (hs : Good s)
    (ht : ∀ d, ∃ m, t.hit d = some m) (h : StepOf cfg s t r s' u) (d : Fin n) :
    (DutSame s s' d ∧ ∀ k, (rowOf cfg prob s t r).delta d k = none) ∨
    ∃ a b E1, s.state d = some a ∧ (∀ k, Real.sqrt (s.cov d k k) = 0 → b k = a k) ∧
      (rowOf cfg prob s t r).delta d = deviations (some a) (some b) (s.cov d) (List.finRange 6) ∧
      ((changeTooLarge (some a) (some b) (s.cov d) = true ∧ DutSame s s' d) ∨
       (changeTooLarge (some a) (some b) (s.cov d) = false ∧ s'.state d = some b ∧ s'.cov d = E1 ∧ s'.count d = s.count d + 1)) := by
  obtain ⟨a, ha⟩ := (hs d).1
  have h2 := h.2
  unfold useTrack at h2
  unfold rowOf
  split at h2
  · rename_i hf
    injection h2 with h2
    injection h2 with h2 _
    subst h2
    rw [hf]
    exact Or.inl ⟨⟨rfl, rfl, rfl⟩, fun _ => rfl⟩
  · rename_i f hf
    rw [hf]
    dsimp only
    split at h2
    · rename_i hb
      injection h2 with h2
      injection h2 with h2 _
      subst h2
      rw [if_pos hb]
      exact Or.inl ⟨⟨rfl, rfl, rfl⟩, fun _ => rfl⟩
    · rename_i hb
      rw [if_neg hb]
      split at h2
      · simp at h2
      · rename_i s1 hs1
        injection h2 with h2
        injection h2 with h2 _
        subst h2
        obtain ⟨a1, E1, hc, hh⟩ := (updateLoop_ok _ (List.nodup_finRange n) hs1).1 d (List.mem_finRange d)
        obtain ⟨b, hb1⟩ : ∃ b, a1 = some b := by
          obtain ⟨-, g1, -⟩ := calculateParameters_ok hc
          rw [g1, ha]
          exact newState_known (ht d)
        subst hb1
        right
        refine ⟨a, b, E1, ha, ?_, ?_, ?_⟩
        · rw [ha] at hc
          exact fun k => zero_error_same (hs d).2 hc k
        · unfold deltas
          rw [hc, ha]
        · rw [ha] at hh
          rcases hh with ⟨e0, e1, e2, e3⟩ | hh
          · exact Or.inl ⟨e0, e1.trans ha.symm, e2, e3⟩
          · exact Or.inr hh

/-- The track counts for a DUT exactly if the stored changes say so. -/
theorem accepted_step {cfg : Config n T} (prob : Fit n → Option ℝ) {s : Dyn n} {t : Track n T} {r : Record n} {s' : Dyn n} {u : Bool} (hs : Good s)
    (ht : ∀ d, ∃ m, t.hit d = some m) (h : StepOf cfg s t r s' u) (d : Fin n) :
    (Accepted d (rowOf cfg prob s t r) ∧ s'.count d = s.count d + 1 ∧
      ∃ a b, s.state d = some a ∧ s'.state d = some b ∧
        ∀ k v, (rowOf cfg prob s t r).delta d k = some v → |b k - a k| = v * Real.sqrt (s.cov d k k)) ∨
    (¬ Accepted d (rowOf cfg prob s t r) ∧ DutSame s s' d) := by
  rcases row_cases prob hs ht h d with ⟨h1, h2⟩ | ⟨a, b, E1, ha, h0, hd, hh⟩
  · refine Or.inr ⟨?_, h1⟩
    intro hacc
    obtain ⟨v, hv, -⟩ := hacc 0
    rw [h2] at hv
    simp at hv
  · rcases hh with ⟨hl, h1⟩ | ⟨hl, h1, h2, h3⟩
    · refine Or.inr ⟨?_, h1⟩
      intro hacc
      obtain ⟨k, hk⟩ := (changeTooLarge_iff _ _ _).mp hl
      obtain ⟨pre, j, post, e, g1, g2⟩ := first_exceeds _ _ _ (List.finRange 6) k (List.mem_finRange k) hk
      obtain ⟨-, g4, -⟩ := deviations_split (some a) (some b) (s.cov d) pre post j (by rw [← e]; exact List.nodup_finRange 6) g1 g2
      obtain ⟨v, hv, hle⟩ := hacc j
      obtain ⟨w, hw, hw2, -⟩ := exceeds_iff a b (s.cov d) j (h0 j)
      rw [hd, e, g4, hw] at hv
      injection hv with hv
      subst hv
      have := hw2.mp g2
      linarith
    · have hall : ∀ j ∈ List.finRange 6, exceeds (some a) (some b) (s.cov d) j = false := by
        intro j _
        by_contra hj
        have : changeTooLarge (some a) (some b) (s.cov d) = true := (changeTooLarge_iff _ _ _).mpr ⟨j, by simpa using hj⟩
        rw [hl] at this
        simp at this
      refine Or.inl ⟨?_, h3, a, b, ha, h1, ?_⟩
      · intro k
        obtain ⟨w, hw, hw2, -⟩ := exceeds_iff a b (s.cov d) k (h0 k)
        refine ⟨w, ?_, ?_⟩
        · rw [hd, deviations_all _ _ _ _ hall k (List.mem_finRange k), hw]
        · by_contra hlt
          have := hw2.mpr (not_le.mp hlt)
          rw [hall k (List.mem_finRange k)] at this
          simp at this
      · intro k v hv
        obtain ⟨w, hw, -, hw3⟩ := exceeds_iff a b (s.cov d) k (h0 k)
        rw [hd, deviations_all _ _ _ _ hall k (List.mem_finRange k), hw] at hv
        injection hv with hv
        rw [← hv, hw3]

/-- The number of tracks that changed a DUT. -/
theorem accepted_trace {cfg : Config n T} (hS : SoundFit cfg) {prob : Fit n → Option ℝ} {s sf : Dyn n} {l : List (Track n T × Row n)} (h : RowTrace cfg prob s l sf)
    (hs : Good s) (ht : ∀ p ∈ l, ∀ d, ∃ m, p.1.hit d = some m) (d : Fin n) : open Classical in
    sf.count d = s.count d + ((l.map Prod.snd).filter fun r => Accepted d r).length := by
  classical
  induction h with
  | nil s => simp
  | @cons s s1 s2 t r u l h1 h2 ih =>
    have ht0 := ht _ List.mem_cons_self
    have := ih (good_step hS _ _ _ _ _ hs ht0 h1) (fun p hp => ht p (List.mem_cons_of_mem _ hp))
    rw [this, List.map_cons, List.filter_cons]
    rcases accepted_step prob hs ht0 h1 d with ⟨g1, g2, -⟩ | ⟨g1, -, -, g2⟩
    · rw [if_pos (by simpa using g1), g2, List.length_cons]
      omega
    · rw [if_neg (by simpa using g1), g2]

theorem good_trace {cfg : Config n T} (hS : SoundFit cfg) {s sf : Dyn n} {l : List (Track n T × Record n)} (h : Trace cfg s l sf)
    (hs : Good s) (ht : ∀ p ∈ l, ∀ d, ∃ m, p.1.hit d = some m) : Good sf :=
  (h.invariant Good (fun t => ∀ d, ∃ m, t.hit d = some m) (fun s t r s' u h1 h2 h3 => good_step hS s t r s' u h1 h2 h3) hs ht).1

theorem initial_good {select tel : List Nat} {parameters : List (Option (List String))} {errors : Vec6} {cov : Fin n → Mat6}
    (h : initialAlignment select tel parameters errors = .ok cov) : Good (initialDyn cov) :=
  fun d => ⟨⟨0, rfl⟩, initial_psd h d⟩

/-- The lines that are appended. -/
theorem file_rows (cfg : Config n T) (prob : Fit n → Option ℝ) (cs : Nat) (al : Fin n → Dut.Alignment) (cov : Fin n → Mat6)
    (tracks : List (Track n T)) (hread : ReadableTracks cs tracks) (hitDuts : List Nat) (hm : cfg.hitMask = hitMask hitDuts) (file : File n) :
    ∃ rows : List (Row n), Appended file (alignmentFile cfg prob cs al cov tracks file).file rows ∧
      rows.map Row.line = (alignmentLoop cfg cs al cov tracks).table ∧
      ∀ (i : Nat) (r : Row n) (t : Track n T), rows[i]? = some r → (usable hitDuts tracks)[i]? = some t → ∃ s, r = rowOf cfg prob s t r.line := by
  obtain ⟨l, sf, h1, h2, h3, h4, h5, h6⟩ := alignmentFile_trace cfg prob cs al cov tracks hread hitDuts hm file
  refine ⟨l.map Prod.snd, ?_, h3.symm, ?_⟩
  · rcases h6 with ⟨e1, e2, -⟩ | e
    · rw [e2, e1]
      exact ⟨fun d => by simp, by simp, by simp⟩
    · rw [e]
      exact storeData_appended _ _ _
  · intro i r t hr ht
    rw [List.getElem?_map, Option.map_eq_some_iff] at hr
    obtain ⟨p, hp, rfl⟩ := hr
    obtain ⟨si, s', used, -, hst, hrow, -⟩ := h1.get i p hp
    have hpt : p.1 = t := by
      have hlt := (List.getElem?_eq_some_iff.mp hp).1
      have g1 : (l.map Prod.fst)[i]? = some p.1 := by rw [List.getElem?_map, hp]; rfl
      have g2 := prefix_getElem h2 i (by rw [List.length_map]; omega)
      rw [g1, ht] at g2
      injection g2
    rw [hpt] at hrow
    exact ⟨si, hrow⟩

/-! ### C222 -/

/-- C222: the alignment leaves the same telescope configuration and the same exception as described in C93 to C101, and appends to all tables of the
output file one line for each track: line `i` of each table belongs to the `i`-th track, with the chi2 and p-value of the fit of this track.

What is missing for the full statement: `C222_failed_fit`. -/
theorem C222_lines_partial (cfg : Config n T) (prob : Fit n → Option ℝ) (cs : Nat) (al : Fin n → Dut.Alignment) (cov : Fin n → Mat6)
    (tracks : List (Track n T)) (hread : ReadableTracks cs tracks) (hitDuts : List Nat) (hm : cfg.hitMask = hitMask hitDuts) (file : File n) :
    (alignmentFile cfg prob cs al cov tracks file).saved = (alignmentLoop cfg cs al cov tracks).saved ∧
    (alignmentFile cfg prob cs al cov tracks file).err = (alignmentLoop cfg cs al cov tracks).err ∧
    ∃ rows : List (Row n), Appended file (alignmentFile cfg prob cs al cov tracks file).file rows ∧
      rows.map Row.line = (alignmentLoop cfg cs al cov tracks).table ∧
      ∀ (i : Nat) (r : Row n) (t : Track n T) (f : Fit n), rows[i]? = some r → (usable hitDuts tracks)[i]? = some t →
        cfg.fit r.line.align r.line.annealing t = some f → r.chi2 = f.chi2 ∧ r.prob = prob f := by
  obtain ⟨-, -, -, -, -, h4, h5, -⟩ := alignmentFile_trace cfg prob cs al cov tracks hread hitDuts hm file
  obtain ⟨rows, h1, h2, h3⟩ := file_rows cfg prob cs al cov tracks hread hitDuts hm file
  refine ⟨h4, h5, rows, h1, h2, ?_⟩
  intro i r t f hr ht hf
  obtain ⟨s, hs⟩ := h3 i r t hr ht
  rw [hs]
  unfold rowOf
  rw [hf]
  exact ⟨rfl, rfl⟩

/-- C222: a track whose fit fails is stored with chi2 0, as if it was a perfect track, and p-value 0. -/
theorem C222_failed_fit (cfg : Config n T) (prob : Fit n → Option ℝ) (cs : Nat) (al : Fin n → Dut.Alignment) (cov : Fin n → Mat6)
    (tracks : List (Track n T)) (hread : ReadableTracks cs tracks) (hitDuts : List Nat) (hm : cfg.hitMask = hitMask hitDuts) (file : File n) :
    ∃ rows : List (Row n), Appended file (alignmentFile cfg prob cs al cov tracks file).file rows ∧
      rows.map Row.line = (alignmentLoop cfg cs al cov tracks).table ∧
      ∀ (i : Nat) (r : Row n) (t : Track n T), rows[i]? = some r → (usable hitDuts tracks)[i]? = some t →
        cfg.fit r.line.align r.line.annealing t = none → r.chi2 = some 0 ∧ r.prob = some 0 := by
  obtain ⟨rows, h1, h2, h3⟩ := file_rows cfg prob cs al cov tracks hread hitDuts hm file
  refine ⟨rows, h1, h2, ?_⟩
  intro i r t hr ht hf
  obtain ⟨s, hs⟩ := h3 i r t hr ht
  rw [hs]
  unfold rowOf
  rw [hf]
  exact ⟨rfl, rfl⟩

/-- C222: the stored relative changes. If they are all at most 5 %, the next line differs in each translation by the relative change times the error;
otherwise the next line has the same alignment and errors. (All tracks have hits in all DUTs.) -/
theorem C222_changes (cfg : Config n T) (hS : SoundFit cfg) (prob : Fit n → Option ℝ) (cs : Nat) (al : Fin n → Dut.Alignment) (cov : Fin n → Mat6)
    (select tel : List Nat) (parameters : List (Option (List String))) (errors : Vec6) (hcov : initialAlignment select tel parameters errors = .ok cov)
    (tracks : List (Track n T)) (hread : ReadableTracks cs tracks) (hitDuts : List Nat) (hm : cfg.hitMask = hitMask hitDuts)
    (hh : CompleteHits hitDuts tracks) (file : File n) :
    ∃ rows : List (Row n), Appended file (alignmentFile cfg prob cs al cov tracks file).file rows ∧
      rows.map Row.line = (alignmentLoop cfg cs al cov tracks).table ∧
      ∀ (i : Nat) (r r' : Row n) (d : Fin n), rows[i]? = some r → rows[i + 1]? = some r' →
        (Accepted d r → ∀ k : Fin 6, k.val < 3 → ∃ v, r.delta d k = some v ∧ |par (r'.line.align d) k - par (r.line.align d) k| = v * r.line.err d k) ∧
        (¬ Accepted d r → r'.line.align d = r.line.align d ∧ r'.line.err d = r.line.err d) := by
  obtain ⟨l, sf, h1, h2, h3, h4, h5, h6⟩ := alignmentFile_trace cfg prob cs al cov tracks hread hitDuts hm file
  refine ⟨l.map Prod.snd, ?_, h3.symm, ?_⟩
  · rcases h6 with ⟨e1, e2, -⟩ | e
    · rw [e2, e1]
      exact ⟨fun d => by simp, by simp, by simp⟩
    · rw [e]
      exact storeData_appended _ _ _
  · intro i r r' d hr hr'
    rw [List.getElem?_map, Option.map_eq_some_iff] at hr hr'
    obtain ⟨p, hp, rfl⟩ := hr
    obtain ⟨q, hq, rfl⟩ := hr'
    obtain ⟨s, s', used, k1, hst, hrow, k2⟩ := h1.get i p hp
    have hhits : ∀ x ∈ l, ∀ d, ∃ m, x.1.hit d = some m := fun x hx => hh x.1 (h2.subset (List.mem_map_of_mem hx))
    have hg : Good s := good_trace (cfg := startConfig cfg al) hS k1.trace (initial_good hcov) (by
      intro x hx
      rw [List.mem_map] at hx
      obtain ⟨y, hy, rfl⟩ := hx
      exact hhits y (List.mem_of_mem_take hy))
    have hrec : RecOf (startConfig cfg al) s' q.2.line := by
      have hq' : (l.drop (i + 1))[0]? = some q := by simpa using hq
      obtain ⟨sj, _, _, m1, m2, -, -⟩ := k2.get 0 q hq'
      rw [List.take_zero] at m1
      cases m1
      exact m2.1
    have he : p.2.line.err d = fun k => Real.sqrt (s.cov d k k) := by rw [hst.1.2]; rfl
    have he' : q.2.line.err d = fun k => Real.sqrt (s'.cov d k k) := by rw [hrec.2]; rfl
    have hstep := accepted_step prob hg (hhits p (List.mem_of_getElem? hp)) hst d
    rw [← hrow] at hstep
    rcases hstep with ⟨g1, -, a, b, ha, hb, g2⟩ | ⟨g1, e1, e2, -⟩
    · refine ⟨?_, fun hn => absurd g1 hn⟩
      intro _ k hk
      obtain ⟨v, hv, -⟩ := g1 k
      refine ⟨v, hv, ?_⟩
      have key := g2 k v hv
      obtain ⟨a', ha', x0, x1, x2, -⟩ := newAlignment_ok (hst.1.1 d)
      obtain ⟨b', hb', y0, y1, y2, -⟩ := newAlignment_ok (hrec.1 d)
      rw [ha] at ha'
      rw [hb] at hb'
      injection ha' with ha'
      injection hb' with hb'
      subst ha' hb'
      rw [he]
      dsimp only
      match k, hk with
      | 0, _ =>
        show |(q.2.line.align d).x - (p.2.line.align d).x| = _
        rw [x0, y0, add_sub_add_right_eq_sub]
        exact key
      | 1, _ =>
        show |(q.2.line.align d).y - (p.2.line.align d).y| = _
        rw [x1, y1, add_sub_add_right_eq_sub]
        exact key
      | 2, _ =>
        show |(q.2.line.align d).z - (p.2.line.align d).z| = _
        rw [x2, y2, add_sub_add_right_eq_sub]
        exact key
    · refine ⟨fun hn => absurd hn g1, fun _ => ⟨?_, ?_⟩⟩
      · have z1 := hst.1.1 d
        have z2 := hrec.1 d
        rw [e1, z1] at z2
        injection z2 with z2
        exact z2.symm
      · rw [he, he', e2]

/-- C222: as soon as one of the changes of a DUT is above 5 %, the changes of the following parameters are not stored. -/
theorem C222_rest_missing (cfg : Config n T) (hS : SoundFit cfg) (prob : Fit n → Option ℝ) (cs : Nat) (al : Fin n → Dut.Alignment) (cov : Fin n → Mat6)
    (select tel : List Nat) (parameters : List (Option (List String))) (errors : Vec6) (hcov : initialAlignment select tel parameters errors = .ok cov)
    (tracks : List (Track n T)) (hread : ReadableTracks cs tracks) (hitDuts : List Nat) (hm : cfg.hitMask = hitMask hitDuts)
    (hh : CompleteHits hitDuts tracks) (file : File n) :
    ∃ rows : List (Row n), Appended file (alignmentFile cfg prob cs al cov tracks file).file rows ∧
      rows.map Row.line = (alignmentLoop cfg cs al cov tracks).table ∧
      ∀ (r : Row n) (d : Fin n) (k j : Fin 6) (v : ℝ), r ∈ rows → r.delta d k = some v → 0.05 < v → k < j → r.delta d j = none := by
  obtain ⟨l, sf, h1, h2, h3, h4, h5, h6⟩ := alignmentFile_trace cfg prob cs al cov tracks hread hitDuts hm file
  refine ⟨l.map Prod.snd, ?_, h3.symm, ?_⟩
  · rcases h6 with ⟨e1, e2, -⟩ | e
    · rw [e2, e1]
      exact ⟨fun d => by simp, by simp, by simp⟩
    · rw [e]
      exact storeData_appended _ _ _
  · intro r d k j v hr hv hlt hkj
    rw [List.mem_map] at hr
    obtain ⟨p, hp, rfl⟩ := hr
    obtain ⟨i, hi⟩ := List.getElem?_of_mem hp
    obtain ⟨s, s', used, k1, hst, hrow, k2⟩ := h1.get i p hi
    have hhits : ∀ x ∈ l, ∀ d, ∃ m, x.1.hit d = some m := fun x hx => hh x.1 (h2.subset (List.mem_map_of_mem hx))
    have hg : Good s := good_trace (cfg := startConfig cfg al) hS k1.trace (initial_good hcov) (by
      intro x hx
      rw [List.mem_map] at hx
      obtain ⟨y, hy, rfl⟩ := hx
      exact hhits y (List.mem_of_mem_take hy))
    have hstep := row_cases prob hg (hhits p hp) hst d
    rw [← hrow] at hstep
    rcases hstep with ⟨-, g⟩ | ⟨a, b, E1, ha, h0, hd, -⟩
    · exact g j
    · rw [hd] at hv ⊢
      by_cases hex : exceeds (some a) (some b) (s.cov d) k = true
      · obtain ⟨pre, i', post, e, g1, g2⟩ := first_exceeds _ _ _ (List.finRange 6) k (List.mem_finRange k) hex
        obtain ⟨-, -, g3⟩ := deviations_split (some a) (some b) (s.cov d) pre post i' (by rw [← e]; exact List.nodup_finRange 6) g1 g2
        rw [e]
        apply g3
        have hmem : j ∈ pre ++ i' :: post := by rw [← e]; exact List.mem_finRange j
        have hkm : k ∈ pre ++ i' :: post := by rw [← e]; exact List.mem_finRange k
        have hsort : (pre ++ i' :: post).Pairwise (· < ·) := by rw [← e]; exact List.pairwise_lt_finRange 6
        rw [List.pairwise_append] at hsort
        have hk' : ¬ k ∈ pre := fun hk => by rw [g1 k hk] at hex; simp at hex
        have hik : i' ≤ k := by
          rcases List.mem_cons.mp ((List.mem_append.mp hkm).resolve_left hk') with e | hk2
          · exact e.ge
          · exact (List.rel_of_pairwise_cons hsort.2.1 hk2).le
        rcases List.mem_append.mp hmem with hj | hj
        · have := hsort.2.2 j hj i' List.mem_cons_self
          exact absurd (this.trans_le hik) (not_lt.mpr hkj.le)
        · rcases List.mem_cons.mp hj with e | hj
          · exact absurd (e ▸ hik) (not_le.mpr hkj)
          · exact hj
      · exfalso
        obtain ⟨w, hw, hw2, -⟩ := exceeds_iff a b (s.cov d) k (h0 k)
        have hex' : ∀ l : List (Fin 6), deviations (some a) (some b) (s.cov d) l k = none ∨ deviations (some a) (some b) (s.cov d) l k = deviation (some a) (some b) (s.cov d) k := by
          intro l
          induction l with
          | nil => exact Or.inl rfl
          | cons x xs ih =>
            rw [deviations, if_pos (cuts_pos x)]
            by_cases e : k = x
            · subst e
              right
              split <;> rw [Function.update_self]
            · split
              · rw [Function.update_of_ne e]; exact Or.inl rfl
              · rw [Function.update_of_ne e]; exact ih
        rcases hex' (List.finRange 6) with e | e
        · rw [e] at hv; simp at hv
        · rw [e, hw] at hv
          injection hv with hv
          subst hv
          exact hex (hw2.mpr hlt)

/-- C222: in a new file, `n_tracks_processed` of a DUT is the number of lines with changes of at most 5 %.

What is missing for the full statement: `C222_processed_last`. -/
theorem C222_processed_partial (cfg : Config n T) (hS : SoundFit cfg) (prob : Fit n → Option ℝ) (cs : Nat) (al : Fin n → Dut.Alignment) (cov : Fin n → Mat6)
    (select tel : List Nat) (parameters : List (Option (List String))) (errors : Vec6) (hcov : initialAlignment select tel parameters errors = .ok cov)
    (tracks : List (Track n T)) (hread : ReadableTracks cs tracks) (hitDuts : List Nat) (hm : cfg.hitMask = hitMask hitDuts)
    (hh : CompleteHits hitDuts tracks) :
    ∃ rows : List (Row n), Appended File.new (alignmentFile cfg prob cs al cov tracks File.new).file rows ∧
      rows.map Row.line = (alignmentLoop cfg cs al cov tracks).table ∧
      ∀ d, open Classical in (alignmentFile cfg prob cs al cov tracks File.new).file.processed d = (rows.filter fun r => Accepted d r).length := by
  obtain ⟨l, sf, h1, h2, h3, h4, h5, h6⟩ := alignmentFile_trace cfg prob cs al cov tracks hread hitDuts hm File.new
  have hhits : ∀ x ∈ l, ∀ d, ∃ m, x.1.hit d = some m := fun x hx => hh x.1 (h2.subset (List.mem_map_of_mem hx))
  have hacc := accepted_trace (cfg := startConfig cfg al) hS h1 (initial_good hcov) hhits
  refine ⟨l.map Prod.snd, ?_, h3.symm, ?_⟩
  · rcases h6 with ⟨e1, e2, -⟩ | e
    · rw [e2, e1]
      exact ⟨fun d => by simp, by simp, by simp⟩
    · rw [e]
      exact storeData_appended _ _ _
  · intro d
    rcases h6 with ⟨e1, e2, -⟩ | e
    · rw [e2, e1]
      rfl
    · rw [e]
      have := hacc d
      have h0 : (initialDyn cov).count d = 0 := rfl
      rw [h0, Nat.zero_add] at this
      exact this

theorem fileLoop_processed (cfg : Config n T) (prob : Fit n → Option ℝ) (re : Option ReadErr) (cs : List (List (Track n T))) (s : Dyn n)
    (al saved : Fin n → Dut.Alignment) (file file' : File n) (h : file.processed = file'.processed) :
    (fileLoop cfg prob re cs s al saved file).file.processed = (fileLoop cfg prob re cs s al saved file').file.processed := by
  induction cs generalizing s al saved file file' with
  | nil => exact h
  | cons c cs ih =>
    rw [fileLoop, fileLoop]
    cases rowLoop cfg prob (c.filter (valid cfg.hitMask)) s al with
    | error e => exact h
    | ok r =>
      dsimp only
      split
      · rfl
      · exact ih _ _ _ _ _ rfl

/-- C222: if the tracks of several alignments are in the file (groups of DUTs, or DUTs with different tracks), all lines are there, but
`n_tracks_processed` is the number of the last alignment only. -/
theorem C222_processed_last (cfg : Config n T) (prob : Fit n → Option ℝ) (cs : Nat) (al : Fin n → Dut.Alignment) (cov : Fin n → Mat6)
    (tracks : List (Track n T)) (hread : ReadableTracks cs tracks) (hitDuts : List Nat) (hm : cfg.hitMask = hitMask hitDuts) (file : File n)
    (hu : usable hitDuts tracks ≠ []) (he : (alignmentFile cfg prob cs al cov tracks file).err = none) :
    (alignmentFile cfg prob cs al cov tracks file).file.processed = (alignmentFile cfg prob cs al cov tracks File.new).file.processed := by
  have hu' := (tracks_read hread hitDuts).2
  unfold alignmentFile at he ⊢
  dsimp only at he ⊢
  cases hc : (dataAligned Track.event tracks { chunkSize := cs }).items.map Prod.fst with
  | nil =>
    rw [hc] at hu'
    exact absurd hu'.symm hu
  | cons c rest =>
    rw [hc, fileLoop] at he
    rw [fileLoop, fileLoop]
    cases hr : rowLoop (startConfig cfg al) prob (c.filter (valid cfg.hitMask)) (initialDyn cov) al with
    | error e =>
      exfalso
      unfold startConfig at hr
      dsimp only at he
      rw [hr] at he
      simp at he
    | ok r =>
      unfold startConfig at hr
      dsimp only
      rw [hr]
      dsimp only
      split
      · rfl
      · exact fileLoop_processed _ _ _ _ _ _ _ _ _ rfl

/-! ### Plots -/

/-- The plots of a parameter can be made exactly if there are lines and one of the changes is known. -/
theorem plotsOf_ok (rows : List DutRow) (k : Fin 6) : (∃ p, plotsOf rows k = .ok p) ↔ ∃ r ∈ rows, ∃ v, r.delta k = some v := by
  unfold plotsOf
  cases rows with
  | nil => simp
  | cons first rest =>
    dsimp only
    split
    · rename_i h
      rw [List.filterMap_eq_nil_iff] at h
      constructor
      · rintro ⟨p, hp⟩
        simp at hp
      · rintro ⟨r, hr, v, hv⟩
        rw [h r hr] at hv
        simp at hv
    · rename_i h
      refine ⟨fun _ => ?_, fun _ => ⟨_, rfl⟩⟩
      by_contra hcon
      apply h
      rw [List.filterMap_eq_nil_iff]
      intro r hr
      cases hd : r.delta k with
      | none => rfl
      | some v => exact absurd ⟨r, hr, v, hd⟩ hcon

theorem plotLoop_ok (file : File n) (l : List (Fin 6 × Fin n)) :
    (∃ ps, plotLoop file l = .ok ps) ↔ ∀ q ∈ l, ∀ rows, file.dut q.2 = some rows → ∃ p, plotsOf rows q.1 = .ok p := by
  induction l with
  | nil => simp [plotLoop]
  | cons q qs ih =>
    obtain ⟨k, d⟩ := q
    rw [plotLoop]
    cases hd : file.dut d with
    | none =>
      dsimp only
      rw [ih]
      constructor
      · intro h q hq rows hr
        rcases List.mem_cons.mp hq with rfl | hq
        · rw [hd] at hr; simp at hr
        · exact h q hq rows hr
      · exact fun h q hq => h q (List.mem_cons_of_mem _ hq)
    | some rows =>
      dsimp only
      cases hp : plotsOf rows k with
      | error e =>
        dsimp only
        constructor
        · rintro ⟨ps, h⟩; simp at h
        · intro h
          obtain ⟨p, h⟩ := h (k, d) List.mem_cons_self rows hd
          dsimp only at h
          rw [hp] at h
          simp at h
      | ok p =>
        dsimp only
        cases hl : plotLoop file qs with
        | error e =>
          dsimp only
          constructor
          · rintro ⟨ps, h⟩; simp at h
          · intro h
            obtain ⟨ps, h'⟩ := ih.mpr (fun q hq => h q (List.mem_cons_of_mem _ hq))
            rw [hl] at h'
            simp at h'
        | ok ps =>
          dsimp only
          refine ⟨fun _ => ?_, fun _ => ⟨_, rfl⟩⟩
          intro q hq rows' hr
          rcases List.mem_cons.mp hq with rfl | hq
          · rw [hd] at hr
            injection hr with hr
            subst hr
            exact ⟨p, hp⟩
          · exact ih.mp ⟨ps, hl⟩ q hq rows' hr

theorem mem_pairs (k : Fin 6) (d : Fin n) : (k, d) ∈ (List.finRange 6).flatMap fun k => (List.finRange n).map fun d => (k, d) := by
  rw [List.mem_flatMap]
  exact ⟨k, List.mem_finRange k, List.mem_map.mpr ⟨d, List.mem_finRange d, rfl⟩⟩

theorem plotKf_ok (file : File n) : (∃ p, plotKf file = .ok p) ↔
    file.chi2.isSome ∧ file.prob.isSome ∧ ∀ d rows, file.dut d = some rows → ∀ k, ∃ r ∈ rows, ∃ v, r.delta k = some v := by
  unfold plotKf
  cases hc : file.chi2 with
  | none => simp
  | some c =>
    cases hp : file.prob with
    | none => simp
    | some pr =>
      dsimp only
      have key := plotLoop_ok file ((List.finRange 6).flatMap fun k => (List.finRange n).map fun d => (k, d))
      have hiff : (∀ q ∈ ((List.finRange 6).flatMap fun k => (List.finRange n).map fun d => (k, d)), ∀ rows, file.dut q.2 = some rows → ∃ p, plotsOf rows q.1 = .ok p) ↔
          ∀ d rows, file.dut d = some rows → ∀ k, ∃ r ∈ rows, ∃ v, r.delta k = some v := by
        constructor
        · intro h d rows hd k
          exact (plotsOf_ok rows k).mp (h (k, d) (mem_pairs k d) rows hd)
        · intro h q _ rows hd
          exact (plotsOf_ok rows q.1).mpr (h q.2 rows hd q.1)
      rw [hiff] at key
      cases hl : plotLoop file ((List.finRange 6).flatMap fun k => (List.finRange n).map fun d => (k, d)) with
      | error e =>
        rw [hl] at key
        dsimp only
        constructor
        · rintro ⟨p, h⟩; simp at h
        · rintro ⟨-, -, h⟩
          obtain ⟨ps, h'⟩ := key.mpr h
          simp at h'
      | ok ps =>
        dsimp only
        exact ⟨fun _ => ⟨rfl, rfl, key.mp ⟨ps, hl⟩⟩, fun _ => ⟨_, rfl⟩⟩

theorem column_par (k : Fin 6) (a : Dut.Alignment) : column k a = par a k := by
  fin_cases k <;> rfl

/-- The plots that are made. -/
theorem plotLoop_shows (file : File n) (l : List (Fin 6 × Fin n)) (ps : List (Fin 6 × Fin n × Plots)) (h : plotLoop file l = .ok ps) :
    ps.map (fun q => (q.1, q.2.1)) = l.filter (fun q => (file.dut q.2).isSome) ∧
    ∀ q ∈ ps, ∃ rows, file.dut q.2.1 = some rows ∧ plotsOf rows q.1 = .ok q.2.2 := by
  induction l generalizing ps with
  | nil =>
    rw [plotLoop] at h
    injection h with h
    subst h
    simp
  | cons q qs ih =>
    obtain ⟨k, d⟩ := q
    rw [plotLoop] at h
    cases hd : file.dut d with
    | none =>
      rw [hd] at h
      dsimp only at h
      rw [List.filter_cons_of_neg (by simp [hd])]
      exact ih ps h
    | some rows =>
      rw [hd] at h
      dsimp only at h
      cases hp : plotsOf rows k with
      | error e => rw [hp] at h; simp at h
      | ok p =>
        rw [hp] at h
        dsimp only at h
        cases hl : plotLoop file qs with
        | error e => rw [hl] at h; simp at h
        | ok ps' =>
          rw [hl] at h
          dsimp only at h
          injection h with h
          subst h
          obtain ⟨h1, h2⟩ := ih ps' hl
          rw [List.filter_cons_of_pos (by simp [hd])]
          refine ⟨by rw [List.map_cons, h1], ?_⟩
          intro q hq
          rcases List.mem_cons.mp hq with rfl | hq
          · exact ⟨rows, hd, hp⟩
          · exact h2 q hq

/-- Without known changes there are no plots. -/
theorem plotLoop_empty (file : File n) (l : List (Fin 6 × Fin n)) (hl : l ≠ [])
    (h : ∀ q ∈ l, ∃ rows, file.dut q.2 = some rows ∧ rows ≠ [] ∧ ∀ r ∈ rows, r.delta q.1 = none) : plotLoop file l = .error .empty := by
  cases l with
  | nil => exact absurd rfl hl
  | cons q qs =>
    obtain ⟨k, d⟩ := q
    obtain ⟨rows, h1, h2, h3⟩ := h (k, d) List.mem_cons_self
    dsimp only at h1 h3
    rw [plotLoop, h1]
    have : plotsOf rows k = .error .empty := by
      unfold plotsOf
      cases rows with
      | nil => exact absurd rfl h2
      | cons first rest =>
        dsimp only
        have e : (first :: rest).filterMap (fun r => r.delta k) = [] := List.filterMap_eq_nil_iff.mpr h3
        rw [e]
    dsimp only
    rw [this]

/-! ### C223 -/

/-- C223: what the plots show. For each parameter, and each DUT with a table, there is one set of plots: the value, the difference to the first line, the
error, the relative changes that are known, and the annealing factor, line by line; the chi2 and p-values of all lines, and the number of
tracks. -/
theorem C223_shows (file : File n) (p : KfPlots n) (h : plotKf file = .ok p) :
    p.plots.map (fun q => (q.1, q.2.1)) =
      ((List.finRange 6).flatMap fun k => (List.finRange n).map fun d => (k, d)).filter (fun q => (file.dut q.2).isSome) ∧
    (∀ k d plots, (k, d, plots) ∈ p.plots → ∃ rows first, file.dut d = some rows ∧ rows.head? = some first ∧
      plots.values = rows.map (fun r => par r.align k) ∧ plots.change = rows.map (fun r => par r.align k - par first.align k) ∧
      plots.errors = rows.map (fun r => r.err k) ∧ plots.deltas.map some = (rows.map fun r => r.delta k).filter Option.isSome ∧
      plots.annealing = rows.map DutRow.annealing) ∧
    file.chi2 = some p.chi2 ∧ file.prob = some p.prob ∧
    ∀ d, p.processed d = if (file.dut d).isSome then file.processed d else 0 := by
  unfold plotKf at h
  cases hc : file.chi2 with
  | none => rw [hc] at h; simp at h
  | some c =>
    cases hp : file.prob with
    | none => rw [hc, hp] at h; simp at h
    | some pr =>
      rw [hc, hp] at h
      dsimp only at h
      cases hl : plotLoop file ((List.finRange 6).flatMap fun k => (List.finRange n).map fun d => (k, d)) with
      | error e => rw [hl] at h; simp at h
      | ok ps =>
        rw [hl] at h
        dsimp only at h
        injection h with h
        subst h
        obtain ⟨h1, h2⟩ := plotLoop_shows file _ ps hl
        refine ⟨h1, ?_, rfl, rfl, fun d => rfl⟩
        intro k d plots hm
        obtain ⟨rows, g1, g2⟩ := h2 _ hm
        dsimp only at g1 g2
        unfold plotsOf at g2
        cases rows with
        | nil => simp at g2
        | cons first rest =>
          dsimp only at g2
          split at g2
          · simp at g2
          · injection g2 with g2
            subst g2
            refine ⟨first :: rest, first, g1, rfl, ?_, ?_, rfl, ?_, rfl⟩
            · simp only [column_par]
            · simp only [column_par]
            · dsimp only
              generalize first :: rest = l
              induction l with
              | nil => rfl
              | cons x xs ih =>
                rw [List.map_cons, List.filterMap_cons, List.filter_cons]
                cases hx : x.delta k with
                | none => simpa using ih
                | some v => simpa using ih

/-- C223: after an alignment into a new file, the plots can be made if every DUT was changed by at least one track.

What is missing for the full statement: `C223_no_track`, `C223_no_good_track`, `C223_rejected`. -/
theorem C223_plots_partial (cfg : Config n T) (hS : SoundFit cfg) (prob : Fit n → Option ℝ) (cs : Nat) (al : Fin n → Dut.Alignment) (cov : Fin n → Mat6)
    (select tel : List Nat) (parameters : List (Option (List String))) (errors : Vec6) (hcov : initialAlignment select tel parameters errors = .ok cov)
    (tracks : List (Track n T)) (hread : ReadableTracks cs tracks) (hitDuts : List Nat) (hm : cfg.hitMask = hitMask hitDuts)
    (hh : CompleteHits hitDuts tracks) (d0 : Fin n)
    (hused : ∀ d, 0 < (alignmentFile cfg prob cs al cov tracks File.new).file.processed d) :
    ∃ p, plotKf (alignmentFile cfg prob cs al cov tracks File.new).file = .ok p := by
  classical
  obtain ⟨l, sf, h1, h2, h3, h4, h5, h6⟩ := alignmentFile_trace cfg prob cs al cov tracks hread hitDuts hm File.new
  have hhits : ∀ x ∈ l, ∀ d, ∃ m, x.1.hit d = some m := fun x hx => hh x.1 (h2.subset (List.mem_map_of_mem hx))
  have hacc := accepted_trace (cfg := startConfig cfg al) hS h1 (initial_good hcov) hhits
  rcases h6 with ⟨e1, e2, -⟩ | e
  · exfalso
    have := hused d0
    rw [e2] at this
    exact Nat.lt_irrefl 0 this
  · rw [e] at hused ⊢
    rw [plotKf_ok]
    refine ⟨rfl, rfl, ?_⟩
    intro d rows hd k
    injection hd with hd
    have hpos : 0 < sf.count d := hused d
    rw [hacc d] at hpos
    have h0 : (initialDyn cov).count d = 0 := rfl
    rw [h0, Nat.zero_add, List.length_pos_iff_exists_mem] at hpos
    obtain ⟨r, hr⟩ := hpos
    rw [List.mem_filter, decide_eq_true_iff] at hr
    obtain ⟨v, hv, -⟩ := hr.2 k
    exact ⟨r.dut d, by rw [← hd]; exact List.mem_map_of_mem hr.1, v, hv⟩

/-- C223: if no track fulfills the hit requirement, the plots fail. -/
theorem C223_no_track (cfg : Config n T) (prob : Fit n → Option ℝ) (cs : Nat) (al : Fin n → Dut.Alignment) (cov : Fin n → Mat6)
    (tracks : List (Track n T)) (hread : ReadableTracks cs tracks) (hitDuts : List Nat) (hm : cfg.hitMask = hitMask hitDuts) (d0 : Fin n)
    (hu : usable hitDuts tracks = []) : ¬ ∃ p, plotKf (alignmentFile cfg prob cs al cov tracks File.new).file = .ok p := by
  obtain ⟨l, sf, h1, h2, h3, h4, h5, h6⟩ := alignmentFile_trace cfg prob cs al cov tracks hread hitDuts hm File.new
  rw [plotKf_ok]
  rintro ⟨g1, -, g2⟩
  rcases h6 with ⟨e1, e2, -⟩ | e
  · rw [e2] at g1
    simp [File.new] at g1
  · have hl : l = [] := by
      rw [hu] at h2
      simpa using h2
    rw [e] at g2
    obtain ⟨r, hr, -⟩ := g2 d0 [] (by rw [hl]; rfl) 0
    simp at hr

/-- C223: if all tracks have a chi2 above `track_chi2`, or cannot be fitted, the alignment ends without an exception and does not change anything, but the
plots fail with a ValueError. -/
theorem C223_no_good_track (cfg : Config n T) (prob : Fit n → Option ℝ) (cs : Nat) (al : Fin n → Dut.Alignment) (hal : ∀ d, UsualAngles (al d))
    (cov : Fin n → Mat6) (tracks : List (Track n T)) (hread : ReadableTracks cs tracks) (hitDuts : List Nat) (hm : cfg.hitMask = hitMask hitDuts) (d0 : Fin n)
    (hu : usable hitDuts tracks ≠ [])
    (hbad : ∀ al ann, ∀ t ∈ tracks, cfg.fit al ann t = none ∨ ∃ f c, cfg.fit al ann t = some f ∧ f.chi2 = some c ∧ cfg.chi2Cut < c) :
    (alignmentFile cfg prob cs al cov tracks File.new).err = none ∧ (alignmentFile cfg prob cs al cov tracks File.new).saved = al ∧
    plotKf (alignmentFile cfg prob cs al cov tracks File.new).file = .error .empty := by
  obtain ⟨l, sf, h1, h2, h3, h4, h5, h6⟩ := alignmentFile_trace cfg prob cs al cov tracks hread hitDuts hm File.new
  have hruns : ∀ t ∈ usable hitDuts tracks, BTA.KAlign.Props.Runs (startConfig cfg al) (fun s => ∀ d, s.state d = some 0) t := by
    intro t ht s hs
    refine ⟨al, fun al0 => BTA.KAlign.Props.setAlignments_same cfg al hal s hs al0, s, false, ?_, hs⟩
    unfold useTrack
    rcases hbad al (record (startConfig cfg al) s al).annealing t (List.mem_of_mem_filter ht) with hf | ⟨f, c, hf, hc, hlt⟩
    · have hf' : (startConfig cfg al).fit al (record (startConfig cfg al) s al).annealing t = none := hf
      rw [hf']
    · have hf' : (startConfig cfg al).fit al (record (startConfig cfg al) s al).annealing t = some f := hf
      rw [hf']
      dsimp only
      rw [if_pos]
      rw [hc]
      unfold badChi2
      rw [decide_eq_true_iff]
      exact hlt
  obtain ⟨he, hrecs, hsaved⟩ := BTA.KAlign.Props.alignmentLoop_runs cfg _ al cs cov tracks hread hitDuts hm hruns (fun _ => rfl)
  refine ⟨by rw [h5, he], ?_, ?_⟩
  · rw [h4, hsaved]
    unfold lastAl
    cases hl : (alignmentLoop cfg cs al cov tracks).table.getLast? with
    | none => rfl
    | some r =>
      obtain ⟨s, hs, hr⟩ := hrecs r (List.mem_of_getLast? hl)
      funext d
      have z := hr.1 d
      rw [hs d] at z
      have z' := BTA.KAlign.Props.newAlignment_zero (hal d)
      have : newAlignment ((startConfig cfg al).rot0 d) ((startConfig cfg al).pos0 d) (some 0) = .ok (al d) := z'
      rw [this] at z
      injection z with z
      exact z.symm
  rcases h6 with ⟨-, -, e3⟩ | e
  · exact absurd (e3.resolve_left hu) (by simp [he])
  · have hne : l ≠ [] := by
      rintro rfl
      obtain ⟨l', sf', g1, g2, -, -, g5⟩ := alignmentLoop_trace cfg cs al cov tracks
      rw [h3] at g2
      have hl' : l' = [] := by simpa using g2.symm
      subst hl'
      cases g1
      rcases g5 he with g | g
      · rw [hm, (tracks_read hread hitDuts).2] at g
        exact hu g.symm
      · unfold reached at g
        rw [decide_eq_true_iff] at g
        exact absurd (g d0) (Nat.not_lt_zero _)
    have hnone : ∀ p ∈ l, ∀ d k, p.2.delta d k = none := by
      intro p hp d k
      obtain ⟨i, hi⟩ := List.getElem?_of_mem hp
      obtain ⟨s, s', used, -, -, hrow, -⟩ := h1.get i p hi
      have hmem : p.1 ∈ tracks := List.mem_of_mem_filter (h2.subset (List.mem_map_of_mem hp))
      rw [hrow]
      unfold rowOf
      rcases hbad p.2.line.align p.2.line.annealing p.1 hmem with hf | ⟨f, c, hf, hc, hlt⟩
      · have hf' : (startConfig cfg al).fit p.2.line.align p.2.line.annealing p.1 = none := hf
        rw [hf']
      · have hf' : (startConfig cfg al).fit p.2.line.align p.2.line.annealing p.1 = some f := hf
        rw [hf']
        dsimp only
        rw [if_pos]
        rw [hc]
        unfold badChi2
        rw [decide_eq_true_iff]
        exact hlt
    rw [e]
    unfold plotKf
    dsimp only [storeData, File.new, appendTo]
    rw [plotLoop_empty]
    · intro h0
      have := mem_pairs (0 : Fin 6) d0
      rw [h0] at this
      simp at this
    · intro q _
      refine ⟨_, rfl, by simpa using hne, ?_⟩
      intro r hr
      rw [List.mem_map] at hr
      obtain ⟨r', hr', rfl⟩ := hr
      rw [List.mem_map] at hr'
      obtain ⟨p, hp, rfl⟩ := hr'
      exact hnone p hp q.2 q.1

/-- C223: if every track changes the first parameter of a DUT by more than 5 %, so that no track is used for this DUT, the plots fail, although the
file contains all lines. -/
theorem C223_rejected (cfg : Config n T) (hS : SoundFit cfg) (prob : Fit n → Option ℝ) (cs : Nat) (al : Fin n → Dut.Alignment) (cov : Fin n → Mat6)
    (select tel : List Nat) (parameters : List (Option (List String))) (errors : Vec6) (hcov : initialAlignment select tel parameters errors = .ok cov)
    (tracks : List (Track n T)) (hread : ReadableTracks cs tracks) (hitDuts : List Nat) (hm : cfg.hitMask = hitMask hitDuts)
    (hh : CompleteHits hitDuts tracks) (d : Fin n)
    (hrej : ∀ rows, (alignmentFile cfg prob cs al cov tracks File.new).file.dut d = some rows → ∀ r ∈ rows, ∀ v, r.delta 0 = some v → 0.05 < v) :
    ¬ ∃ p, plotKf (alignmentFile cfg prob cs al cov tracks File.new).file = .ok p := by
  obtain ⟨l, sf, h1, h2, h3, h4, h5, h6⟩ := alignmentFile_trace cfg prob cs al cov tracks hread hitDuts hm File.new
  rw [plotKf_ok]
  rintro ⟨g1, -, g2⟩
  rcases h6 with ⟨e1, e2, -⟩ | e
  · rw [e2] at g1
    simp [File.new] at g1
  · rw [e] at g2 hrej
    obtain ⟨r, hr, v, hv⟩ := g2 d _ rfl 1
    have hrej' := hrej _ rfl r hr
    rw [List.mem_map] at hr
    obtain ⟨r', hr', rfl⟩ := hr
    rw [List.mem_map] at hr'
    obtain ⟨p, hp, rfl⟩ := hr'
    obtain ⟨i, hi⟩ := List.getElem?_of_mem hp
    obtain ⟨s, s', used, k1, hst, hrow, k2⟩ := h1.get i p hi
    have hhits : ∀ x ∈ l, ∀ d, ∃ m, x.1.hit d = some m := fun x hx => hh x.1 (h2.subset (List.mem_map_of_mem hx))
    have hg : Good s := good_trace (cfg := startConfig cfg al) hS k1.trace (initial_good hcov) (by
      intro x hx
      rw [List.mem_map] at hx
      obtain ⟨y, hy, rfl⟩ := hx
      exact hhits y (List.mem_of_mem_take hy))
    have hv' : p.2.delta d 1 = some v := hv
    have hrej'' : ∀ v, p.2.delta d 0 = some v → 0.05 < v := hrej'
    have hstep := row_cases prob hg (hhits p hp) hst d
    rw [← hrow] at hstep
    rcases hstep with ⟨-, g⟩ | ⟨a, b, E1, ha, h0, hd, -⟩
    · rw [g] at hv'
      simp at hv'
    · have hl6 : List.finRange 6 = [] ++ (0 : Fin 6) :: [1, 2, 3, 4, 5] := by decide
      obtain ⟨w, hw, hw2, -⟩ := exceeds_iff a b (s.cov d) 0 (h0 0)
      by_cases hex : exceeds (some a) (some b) (s.cov d) 0 = true
      · obtain ⟨-, -, q3⟩ := deviations_split (some a) (some b) (s.cov d) [] [1, 2, 3, 4, 5] 0 (by decide) (by simp) hex
        rw [hd, hl6, q3 1 (by simp)] at hv'
        simp at hv'
      · have : p.2.delta d 0 = some w := by
          rw [hd, hl6, List.nil_append, deviations, if_pos (cuts_pos 0), if_neg hex, Function.update_self, hw]
        exact hex (hw2.mpr (hrej'' w this))

/-! ### Examples -/

theorem exReadable (x y : ℝ) : ReadableTracks 100 [exTrack x, exTrack y] :=
  ⟨by simp [SortedBy, exTrack], fun e => by
    unfold BTA.Spec.multiplicity
    refine Nat.lt_of_le_of_lt (List.length_filter_le _ _) ?_
    simp⟩

theorem exHasHits (x : ℝ) : HasHits [0, 1, 2] (exTrack x) := by
  intro d hd
  simp at hd
  show Nat.testBit 7 d = true
  rcases hd with rfl | rfl | rfl <;> decide

theorem exUsable (x y : ℝ) : usable [0, 1, 2] [exTrack x, exTrack y] = [exTrack x, exTrack y] := by
  unfold usable
  rw [List.filter_cons_of_pos (by rw [decide_eq_true_iff]; exact exHasHits _), List.filter_cons_of_pos (by rw [decide_eq_true_iff]; exact exHasHits _)]
  rfl

theorem exComplete (x y : ℝ) : CompleteHits [0, 1, 2] [exTrack x, exTrack y] := by
  intro t ht d
  rw [exUsable] at ht
  rcases List.mem_cons.mp ht with rfl | ht
  · exact ⟨_, rfl⟩
  · rw [List.mem_singleton.mp ht]
    exact ⟨_, rfl⟩

theorem exZero : (0 : ℝ) ∈ Set.Ioc (-Real.pi) Real.pi := ⟨by linarith [Real.pi_pos], Real.pi_pos.le⟩

/-- Two tracks whose hits agree with the fit: both change (by zero) all DUTs, and the plots are made. -/
theorem exProcessed : ∃ cov : Fin 3 → Mat6, initialAlignment [1] [0, 2] (exParameters (parName 0)) (fun _ => 1) = .ok cov ∧
    ∀ prob d, 0 < (alignmentFile exConfig prob 100 (exAl 0) cov [exTrack 0, exTrack 0] File.new).file.processed d := by
  obtain ⟨cov, hi, hc1, hc0, hc2⟩ := exInitial (parName 0)
  rw [exVariances] at hc1
  refine ⟨cov, hi, ?_⟩
  intro prob d
  have hlen := (exRun 0 0 0 0 (by norm_num) (Or.inr ⟨rfl, rfl⟩) exZero (Or.inl rfl) cov hi ⟨hc1, hc0, hc2⟩ (exAl 0 1) (by
    have : (Pi.single 0 (-0 / 2) : Vec6) = 0 := by
      rw [neg_zero, zero_div]
      exact Pi.single_zero _
    rw [this]
    exact BTA.KAlign.Props.newAlignment_zero (exUsual 0 exZero (Or.inl rfl) 1))).2.1
  obtain ⟨l, sf, h1, h2, h3, h4, h5, h6⟩ := alignmentFile_trace exConfig prob 100 (exAl 0) cov _ (exReadable 0 0) [0, 1, 2] rfl File.new
  rw [h3, List.length_map, List.length_map] at hlen
  rw [exUsable] at h2
  cases h1 with
  | nil => simp at hlen
  | @cons _ s1 _ t r u l' hst htr =>
    rcases h6 with ⟨e1, -⟩ | e
    · simp at e1
    · rw [e]
      show 0 < sf.count d
      have ht : t = exTrack 0 := by
        rw [List.map_cons, List.cons_prefix_cons] at h2
        exact h2.1
      subst ht
      have hal : r.align = exAl 0 := by
        funext d
        have z := hst.1.1 d
        have z' : newAlignment ((startConfig exConfig (exAl 0)).rot0 d) ((startConfig exConfig (exAl 0)).pos0 d) ((initialDyn cov).state d) = .ok (exAl 0 d) :=
          BTA.KAlign.Props.newAlignment_zero (exUsual 0 exZero (Or.inl rfl) d)
        rw [z'] at z
        injection z with z
        exact z.symm
      have hag : BTA.KAlign.Props.Agrees (startConfig exConfig (exAl 0)) r.align (exTrack 0) := by
        refine ⟨fun ann _ => ⟨exFit, rfl, ?_, fun d => ⟨Matrix.PosDef.one, Matrix.PosSemidef.zero, ?_⟩⟩⟩
        · show badChi2 (some 0.5) 10 = false
          unfold badChi2
          rw [decide_eq_false_iff_not]
          norm_num
        · show some ![(0 : ℝ), 1] = some ((!![1, 0, 0, 0; 0, 1, 0, 0] : ObsMat).mulVec ![0, 1, 1, 0])
          congr 1
          ext i
          fin_cases i <;> simp [Matrix.mulVec, dotProduct, Fin.sum_univ_succ]
      have hfac : (0 : ℝ) < (startConfig exConfig (exAl 0)).annealingFactor := by
        show (0 : ℝ) < 10000
        norm_num
      obtain ⟨s', g1, g2⟩ := BTA.KAlign.Props.useTrack_same hag r.annealing (fun d => by
        rw [hst.1.2]
        show 0 < annealing ((initialDyn cov).count d) (startConfig exConfig (exAl 0)).annealingFactor (startConfig exConfig (exAl 0)).annealingTracks
        exact BTA.KAlign.Props.annealing_pos _ hfac _) 0 (initialDyn cov) ⟨fun _ => rfl, initial_psd hi, fun _ => rfl⟩
      have h0 := hst.2
      rw [g1] at h0
      injection h0 with h0
      injection h0 with h0 _
      subst h0
      have hmono := (htr.trace.rel (fun _ => True) (fun a b : Dyn 3 => a.count d ≤ b.count d) (fun _ => le_refl _) (fun _ _ _ => le_trans)
        (fun s t r s' u _ h => ⟨trivial, (count_step d s t r s' u h).1⟩) trivial).2
      have := g2.count d
      omega

example : ∃ (cov : Fin 3 → Mat6) (tracks : List (Track 3 Unit)), SoundFit exConfig ∧
    initialAlignment [1] [0, 2] (exParameters (parName 0)) (fun _ => 1) = .ok cov ∧ ReadableTracks 100 tracks ∧ exConfig.hitMask = hitMask [0, 1, 2] ∧
    CompleteHits [0, 1, 2] tracks ∧ usable [0, 1, 2] tracks ≠ [] ∧
    ∀ prob d, 0 < (alignmentFile exConfig prob 100 (exAl 0) cov tracks File.new).file.processed d := by
  obtain ⟨cov, h1, h2⟩ := exProcessed
  exact ⟨cov, [exTrack 0, exTrack 0], exSound, h1, exReadable 0 0, rfl, exComplete 0 0, by rw [exUsable]; simp, h2⟩

example : ∃ (cfg : Config 3 Unit) (tracks : List (Track 3 Unit)), ReadableTracks 100 tracks ∧ cfg.hitMask = hitMask [0, 1, 2] ∧
    (∀ d, UsualAngles (exAl 0 d)) ∧ usable [0, 1, 2] tracks ≠ [] ∧
    ∀ al ann, ∀ t ∈ tracks, cfg.fit al ann t = none ∨ ∃ f c, cfg.fit al ann t = some f ∧ f.chi2 = some c ∧ cfg.chi2Cut < c := by
  refine ⟨{ exConfig with chi2Cut := 0.1 }, [exTrack 0, exTrack 0], exReadable 0 0, rfl, exUsual 0 exZero (Or.inl rfl), by rw [exUsable]; simp, ?_⟩
  intro al ann t _
  refine Or.inr ⟨exFit, 0.5, rfl, rfl, ?_⟩
  show (0.1 : ℝ) < 0.5
  norm_num

theorem exDelta (cov : Fin 3 → Mat6) (hc : cov 1 = diagonal (Pi.single 0 1)) : deltas (exAl 0) exFit (exTrack 1) (initialDyn cov) 1 0 = some (1 / 2) := by
  have hR : (rotationMatrix (exAl 0 1).alpha (exAl 0 1).beta (exAl 0 1).gamma)ᵀ = 1 := by
    rw [rotationMatrix_eq]
    ext i j
    fin_cases i <;> fin_cases j <;> simp [exAl]
  have d0 : KAlign.jacobian ![0, 1, 1, 0] (1 : Mat3) 0 0 = -1 := by simp [KAlign.jacobian, extendSix, Matrix.mul_apply, Fin.sum_univ_succ]
  have d1 : KAlign.jacobian ![0, 1, 1, 0] (1 : Mat3) 1 0 = 0 := by simp [KAlign.jacobian, extendSix, Matrix.mul_apply, Fin.sum_univ_succ]
  obtain ⟨u1, u2⟩ := exUpdate _ 0 d0 d1 1
  have hcv : (initialDyn cov).cov 1 = diagonal (Pi.single 0 1) := hc
  have hst : (initialDyn cov).state 1 = some 0 := rfl
  obtain ⟨⟨a1, E1⟩, hcp⟩ : ∃ p, calculateParameters (exFit.H 1) (exFit.V 1) (exFit.C0 1) (exFit.p0 1) ((initialDyn cov).state 1) ((initialDyn cov).cov 1)
      (rotationMatrix (exAl 0 1).alpha (exAl 0 1).beta (exAl 0 1).gamma)ᵀ ((exTrack 1).hit 1) = .ok p := by
    apply calculateParameters_exists
    rw [hR, hcv]
    show (innovation !![1, 0, 0, 0; 0, 1, 0, 0] 1 0 (KAlign.jacobian ![0, 1, 1, 0] 1) (diagonal (Pi.single 0 1))).det ≠ 0
    rw [u1]
    simp [Matrix.det_fin_two]
  have ha : a1 = some (Pi.single 0 (-1 / 2)) := by
    rw [(calculateParameters_ok hcp).2.1, hcv, ← u2, ← u1, hR]
    rfl
  unfold deltas
  rw [hcp]
  dsimp only
  rw [ha, hst, hcv]
  have hex : exceeds (some 0) (some (Pi.single 0 (-1 / 2))) (diagonal (Pi.single 0 1)) 0 = true := by
    unfold exceeds
    rw [decide_eq_true_iff]
    simp [deviationCuts]
    norm_num
  have hl : List.finRange 6 = [] ++ (0 : Fin 6) :: [1, 2, 3, 4, 5] := by decide
  rw [hl, (deviations_split (some 0) (some (Pi.single 0 (-1 / 2))) (diagonal (Pi.single 0 1)) [] [1, 2, 3, 4, 5] 0 (by decide) (by simp) hex).2.1]
  unfold deviation
  rw [if_neg (by simp)]
  simp
  norm_num

/-- A track far away from the fit would move the DUT in the middle by half an error, and is not used for it. -/
example : ∃ cov : Fin 3 → Mat6, initialAlignment [1] [0, 2] (exParameters (parName 0)) (fun _ => 1) = .ok cov ∧ SoundFit exConfig ∧
    ReadableTracks 100 [exTrack 1] ∧ CompleteHits [0, 1, 2] [exTrack 1] ∧ (∀ prob rows,
      (alignmentFile exConfig prob 100 (exAl 0) cov [exTrack 1] File.new).file.dut 1 = some rows → ∀ r ∈ rows, r.delta 0 = some (1 / 2)) := by
  obtain ⟨cov, hi, hc1, -, -⟩ := exInitial (parName 0)
  rw [exVariances] at hc1
  have hu : usable [0, 1, 2] [exTrack 1] = [exTrack 1] := by
    unfold usable
    rw [List.filter_cons_of_pos (by rw [decide_eq_true_iff]; exact exHasHits _)]
    rfl
  have hread : ReadableTracks 100 [exTrack 1] := ⟨by simp [SortedBy], fun e => by
    unfold BTA.Spec.multiplicity
    refine Nat.lt_of_le_of_lt (List.length_filter_le _ _) ?_
    simp⟩
  refine ⟨cov, hi, exSound, hread, ?_, ?_⟩
  · intro t ht d
    rw [hu] at ht
    rw [List.mem_singleton.mp ht]
    exact ⟨_, rfl⟩
  intro prob rows hrows r hr
  obtain ⟨l, sf, h1, h2, h3, h4, h5, h6⟩ := alignmentFile_trace exConfig prob 100 (exAl 0) cov _ hread [0, 1, 2] rfl File.new
  rw [hu] at h2
  rcases h6 with ⟨e1, e2, -⟩ | e
  · rw [e2] at hrows
    simp [File.new] at hrows
  rw [e] at hrows
  have hrows' := Option.some.inj hrows
  subst hrows'
  cases h1 with
  | nil => simp at hr
  | @cons _ s1 _ t r0 u l' hst htr =>
    have ht : t = exTrack 1 ∧ l' = [] := by
      rw [List.map_cons, List.cons_prefix_cons, List.prefix_nil, List.map_eq_nil_iff] at h2
      exact h2
    obtain ⟨rfl, rfl⟩ := ht
    have hal : r0.align = exAl 0 := by
      funext d
      have z := hst.1.1 d
      have z' : newAlignment ((startConfig exConfig (exAl 0)).rot0 d) ((startConfig exConfig (exAl 0)).pos0 d) ((initialDyn cov).state d) = .ok (exAl 0 d) :=
        BTA.KAlign.Props.newAlignment_zero (exUsual 0 exZero (Or.inl rfl) d)
      rw [z'] at z
      injection z with z
      exact z.symm
    have hb : badChi2 exFit.chi2 (startConfig exConfig (exAl 0)).chi2Cut = false := by
      show badChi2 (some 0.5) 10 = false
      unfold badChi2
      rw [decide_eq_false_iff_not]
      norm_num
    simp only [List.map_cons, List.map_nil, List.mem_singleton] at hr
    subst hr
    show (rowOf (startConfig exConfig (exAl 0)) prob (initialDyn cov) (exTrack 1) r0).delta 1 0 = some (1 / 2)
    unfold rowOf
    have hfit : (startConfig exConfig (exAl 0)).fit r0.align r0.annealing (exTrack 1) = some exFit := rfl
    rw [hfit]
    dsimp only
    rw [hb, if_neg (by simp), hal]
    exact exDelta cov hc1

/-- A fit that fails for all tracks. -/
example : ∃ (cfg : Config 3 Unit) (r : Record 3), cfg.fit r.align r.annealing (exTrack 0) = none ∧ 0 < cfg.chi2Cut :=
  ⟨{ exConfig with fit := fun _ _ _ => none }, ⟨exAl 0, fun _ => 0, fun _ => 1⟩, rfl, by show (0 : ℝ) < 10; norm_num⟩

end BTA.Props
