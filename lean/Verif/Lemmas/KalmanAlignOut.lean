import Verif.Spec.KalmanAlignOut
import Verif.Lemmas.KalmanAlign
/-
Lemmas about the output file of the alignment with a Kalman filter.
-/
namespace BTA.Props
open BTA.Geo BTA.Kalman BTA.KAlign BTA.Spec Matrix

variable {n : Nat} {T : Type}

/-- A sequence of tracks with the lines that are stored. -/
inductive RowTrace (cfg : Config n T) (prob : Fit n → Option ℝ) : Dyn n → List (Track n T × Row n) → Dyn n → Prop
  | nil (s : Dyn n) : RowTrace cfg prob s [] s
  | cons {s s' s'' : Dyn n} {t : Track n T} {r : Record n} {used : Bool} {l : List (Track n T × Row n)}
      (h : StepOf cfg s t r s' used) (h' : RowTrace cfg prob s' l s'') : RowTrace cfg prob s ((t, rowOf cfg prob s t r) :: l) s''

theorem rowOf_line (cfg : Config n T) (prob : Fit n → Option ℝ) (s : Dyn n) (t : Track n T) (r : Record n) : (rowOf cfg prob s t r).line = r := by
  unfold rowOf
  split <;> rfl

theorem RowTrace.append {cfg : Config n T} {prob : Fit n → Option ℝ} {s s' s'' : Dyn n} {l l' : List (Track n T × Row n)}
    (h : RowTrace cfg prob s l s') (h' : RowTrace cfg prob s' l' s'') : RowTrace cfg prob s (l ++ l') s'' := by
  induction h with
  | nil s => exact h'
  | cons hs _ ih => exact RowTrace.cons hs (ih h')

theorem RowTrace.trace {cfg : Config n T} {prob : Fit n → Option ℝ} {s s' : Dyn n} {l : List (Track n T × Row n)}
    (h : RowTrace cfg prob s l s') : Trace cfg s (l.map fun p => (p.1, p.2.line)) s' := by
  induction h with
  | nil s => exact Trace.nil s
  | cons hs _ ih =>
    rw [List.map_cons]
    dsimp only
    rw [rowOf_line]
    exact Trace.cons hs ih

theorem RowTrace.get {cfg : Config n T} {prob : Fit n → Option ℝ} {s sf : Dyn n} {l : List (Track n T × Row n)} (h : RowTrace cfg prob s l sf) (i : Nat)
    (p : Track n T × Row n) (hp : l[i]? = some p) :
    ∃ si s' used, RowTrace cfg prob s (l.take i) si ∧ StepOf cfg si p.1 p.2.line s' used ∧ p.2 = rowOf cfg prob si p.1 p.2.line ∧
      RowTrace cfg prob s' (l.drop (i + 1)) sf := by
  induction h generalizing i with
  | nil s => simp at hp
  | @cons s s1 s2 t r u l h1 h2 ih =>
    cases i with
    | zero =>
      simp at hp
      subst hp
      have h1' := h1
      rw [← rowOf_line cfg prob s t r] at h1'
      exact ⟨_, _, _, RowTrace.nil _, h1', by dsimp only; rw [rowOf_line], by simpa using h2⟩
    | succ i =>
      rw [List.getElem?_cons_succ] at hp
      obtain ⟨si, s', used, k1, k2, k3, k4⟩ := ih i hp
      exact ⟨si, s', used, RowTrace.cons h1 k1, k2, k3, by simpa using k4⟩

/-! ### The loops -/

theorem rowLoop_erase (cfg : Config n T) (prob : Fit n → Option ℝ) (ts : List (Track n T)) (s : Dyn n) (al : Fin n → Dut.Alignment) :
    trackLoop cfg ts s al =
      match rowLoop cfg prob ts s al with
      | .error e => .error e
      | .ok p => .ok { dyn := p.dyn, al := p.al, recs := p.rows.map Row.line, stop := p.stop } := by
  induction ts generalizing s al with
  | nil => rfl
  | cons t ts ih =>
    rw [trackLoop, rowLoop]
    cases setAlignments cfg s (List.finRange n) al with
    | error e => rfl
    | ok al' =>
      dsimp only
      cases useTrack cfg s al' t (cfg.fit al' (record cfg s al').annealing t) with
      | error e => rfl
      | ok q =>
        obtain ⟨s', used⟩ := q
        dsimp only
        split
        · rename_i h
          dsimp only
          rw [List.map_cons, rowOf_line]
          rfl
        · rw [ih]
          cases rowLoop cfg prob ts s' al' with
          | error e => rfl
          | ok c =>
            dsimp only
            rw [List.map_cons, rowOf_line]

theorem rowLoop_trace (cfg : Config n T) (prob : Fit n → Option ℝ) (ts : List (Track n T)) (s : Dyn n) (al : Fin n → Dut.Alignment) (c : Part n)
    (h : rowLoop cfg prob ts s al = .ok c) :
    ∃ l, RowTrace cfg prob s l c.dyn ∧ l.map Prod.snd = c.rows ∧ l.map Prod.fst <+: ts ∧ (c.stop = false → l.map Prod.fst = ts) := by
  induction ts generalizing s al c with
  | nil =>
    rw [rowLoop] at h
    injection h with h
    subst h
    exact ⟨[], RowTrace.nil _, rfl, by simp, fun _ => rfl⟩
  | cons t ts ih =>
    rw [rowLoop] at h
    split at h
    · simp at h
    · rename_i al' hal
      split at h
      · simp at h
      · rename_i s' used hu
        have hst : StepOf cfg s t (record cfg s al') s' used :=
          ⟨⟨fun d => (setAlignments_ok _ (List.nodup_finRange n) hal).1 d (List.mem_finRange d), rfl⟩, hu⟩
        split at h
        · injection h with h
          subst h
          exact ⟨[(t, rowOf cfg prob s t (record cfg s al'))], RowTrace.cons hst (RowTrace.nil _), rfl, by simp, by simp⟩
        · split at h
          · simp at h
          · rename_i c' hc'
            injection h with h
            subst h
            obtain ⟨l, g1, g2, g4, g5⟩ := ih s' al' c' hc'
            refine ⟨(t, rowOf cfg prob s t (record cfg s al')) :: l, RowTrace.cons hst g1, by simp [g2], ?_, ?_⟩
            · rw [List.map_cons]
              exact List.cons_prefix_cons.mpr ⟨rfl, g4⟩
            · intro hs
              rw [List.map_cons, g5 hs]

theorem appendTo_appendTo {α : Type} (node : Option (List α)) (a b : List α) : appendTo (appendTo node a) b = appendTo node (a ++ b) := by
  cases node <;> simp [appendTo]

theorem appendTo_getD {α : Type} (node : Option (List α)) (a : List α) : (appendTo node a).getD [] = node.getD [] ++ a := by
  cases node <;> simp [appendTo]

theorem storeData_storeData (file : File n) (c c' : Fin n → Nat) (a b : List (Row n)) : storeData (storeData file c a) c' b = storeData file c' (a ++ b) := by
  unfold storeData
  simp only [appendTo_appendTo, List.map_append]

theorem storeData_appended (file : File n) (c : Fin n → Nat) (a : List (Row n)) : Appended file (storeData file c a) a :=
  ⟨fun d => appendTo_getD _ _, appendTo_getD _ _, appendTo_getD _ _⟩

theorem fileLoop_trace (cfg : Config n T) (prob : Fit n → Option ℝ) (re : Option ReadErr) (cs : List (List (Track n T)))
    (s : Dyn n) (al saved : Fin n → Dut.Alignment) (file : File n) (table : List (Record n)) :
    ∃ l sf, RowTrace cfg prob s l sf ∧ l.map Prod.fst <+: cs.flatten.filter (valid cfg.hitMask) ∧
      (chunkLoop cfg re cs s al saved table).table = table ++ (l.map Prod.snd).map Row.line ∧
      (fileLoop cfg prob re cs s al saved file).saved = (chunkLoop cfg re cs s al saved table).saved ∧
      (fileLoop cfg prob re cs s al saved file).err = (chunkLoop cfg re cs s al saved table).err ∧
      ((l = [] ∧ (fileLoop cfg prob re cs s al saved file).file = file ∧ (cs = [] ∨ (chunkLoop cfg re cs s al saved table).err ≠ none)) ∨
        (fileLoop cfg prob re cs s al saved file).file = storeData file sf.count (l.map Prod.snd)) := by
  induction cs generalizing s al saved file table with
  | nil =>
    refine ⟨[], s, RowTrace.nil _, by simp, by simp [chunkLoop], ?_, ?_, Or.inl ⟨rfl, rfl, Or.inl rfl⟩⟩
    all_goals simp [chunkLoop, fileLoop]
  | cons c cs ih =>
    rw [chunkLoop, fileLoop, rowLoop_erase cfg prob]
    cases h : rowLoop cfg prob (c.filter (valid cfg.hitMask)) s al with
    | error e => exact ⟨[], s, RowTrace.nil _, by simp, by simp, rfl, rfl, Or.inl ⟨rfl, rfl, Or.inr (by simp)⟩⟩
    | ok r =>
      dsimp only
      obtain ⟨l, g1, g2, g4, g5⟩ := rowLoop_trace cfg prob _ s al r h
      cases hstop : r.stop with
      | true =>
        simp only [if_true]
        refine ⟨l, r.dyn, g1, ?_, by rw [g2], trivial, trivial, Or.inr (by rw [g2])⟩
        rw [List.flatten_cons, List.filter_append]
        exact g4.trans (List.prefix_append _ _)
      | false =>
        simp only [Bool.false_eq_true, if_false]
        obtain ⟨l', sf, k1, k2, k3, k4, k5, k6⟩ := ih r.dyn r.al r.al (storeData file r.dyn.count r.rows) (table ++ r.rows.map Row.line)
        refine ⟨l ++ l', sf, g1.append k1, ?_, ?_, k4, k5, Or.inr ?_⟩
        · rw [List.flatten_cons, List.filter_append, List.map_append, g5 hstop]
          exact (List.prefix_append_right_inj _).mpr k2
        · rw [k3, List.map_append, List.map_append, g2, List.append_assoc]
        · rcases k6 with ⟨e1, e2, -⟩ | e2
          · subst e1
            cases k1
            rw [e2, List.append_nil, g2]
          · rw [e2, storeData_storeData, List.map_append, g2]

theorem alignmentFile_trace (cfg : Config n T) (prob : Fit n → Option ℝ) (cs : Nat) (al : Fin n → Dut.Alignment) (cov : Fin n → Mat6)
    (tracks : List (Track n T)) (hread : ReadableTracks cs tracks) (hitDuts : List Nat) (hm : cfg.hitMask = hitMask hitDuts) (file : File n) :
    ∃ l sf, RowTrace (startConfig cfg al) prob (initialDyn cov) l sf ∧ l.map Prod.fst <+: usable hitDuts tracks ∧
      (alignmentLoop cfg cs al cov tracks).table = (l.map Prod.snd).map Row.line ∧
      (alignmentFile cfg prob cs al cov tracks file).saved = (alignmentLoop cfg cs al cov tracks).saved ∧
      (alignmentFile cfg prob cs al cov tracks file).err = (alignmentLoop cfg cs al cov tracks).err ∧
      ((l = [] ∧ (alignmentFile cfg prob cs al cov tracks file).file = file ∧
          (usable hitDuts tracks = [] ∨ (alignmentLoop cfg cs al cov tracks).err ≠ none)) ∨
        (alignmentFile cfg prob cs al cov tracks file).file = storeData file sf.count (l.map Prod.snd)) := by
  obtain ⟨l, sf, h1, h2, h3, h4, h5, h6⟩ := fileLoop_trace (startConfig cfg al) prob (dataAligned Track.event tracks { chunkSize := cs }).err
    ((dataAligned Track.event tracks { chunkSize := cs }).items.map Prod.fst) (initialDyn cov) al al file []
  have hu := (tracks_read hread hitDuts).2
  refine ⟨l, sf, h1, ?_, h3, h4, h5, ?_⟩
  · rw [← hu, ← hm]; exact h2
  · rcases h6 with ⟨e1, e2, e3⟩ | e
    · refine Or.inl ⟨e1, e2, ?_⟩
      rcases e3 with e3 | e3
      · left
        rw [← hu, e3]
        rfl
      · exact Or.inr e3
    · exact Or.inr e

/-! ### Relative changes -/

theorem cuts_pos (k : Fin 6) : 0 < deviationCuts k := by unfold deviationCuts; norm_num

theorem changeTooLarge_iff (a0 a1 : Option Vec6) (E0 : Mat6) : changeTooLarge a0 a1 E0 = true ↔ ∃ k, exceeds a0 a1 E0 k = true := by
  unfold changeTooLarge exceeds
  cases a0 <;> cases a1 <;> simp [cuts_pos]

theorem deviations_not_mem (a0 a1 : Option Vec6) (E0 : Mat6) (l : List (Fin 6)) (k : Fin 6) (hk : k ∉ l) : deviations a0 a1 E0 l k = none := by
  induction l with
  | nil => rfl
  | cons j js ih =>
    rw [List.mem_cons, not_or] at hk
    rw [deviations]
    rw [if_pos (cuts_pos j)]
    split
    · rw [Function.update_of_ne hk.1]
    · rw [Function.update_of_ne hk.1, ih hk.2]

/-- Without a large change, all relative changes are stored. -/
theorem deviations_all (a0 a1 : Option Vec6) (E0 : Mat6) (l : List (Fin 6)) (hl : ∀ j ∈ l, exceeds a0 a1 E0 j = false) (k : Fin 6) (hk : k ∈ l) :
    deviations a0 a1 E0 l k = deviation a0 a1 E0 k := by
  induction l with
  | nil => simp at hk
  | cons j js ih =>
    rw [deviations]
    rw [if_pos (cuts_pos j), if_neg (by rw [hl j List.mem_cons_self]; simp)]
    by_cases e : k = j
    · subst e; rw [Function.update_self]
    · rw [Function.update_of_ne e]
      exact ih (fun j hj => hl j (List.mem_cons_of_mem _ hj)) ((List.mem_cons.mp hk).resolve_left e)

/-- The relative changes up to the first one that is too large. -/
theorem deviations_split (a0 a1 : Option Vec6) (E0 : Mat6) (pre post : List (Fin 6)) (j : Fin 6) (hn : (pre ++ j :: post).Nodup)
    (hp : ∀ i ∈ pre, exceeds a0 a1 E0 i = false) (hj : exceeds a0 a1 E0 j = true) :
    (∀ k ∈ pre, deviations a0 a1 E0 (pre ++ j :: post) k = deviation a0 a1 E0 k) ∧
    deviations a0 a1 E0 (pre ++ j :: post) j = deviation a0 a1 E0 j ∧ ∀ k ∈ post, deviations a0 a1 E0 (pre ++ j :: post) k = none := by
  induction pre with
  | nil =>
    rw [List.nil_append] at hn ⊢
    rw [List.nodup_cons] at hn
    rw [deviations]
    rw [if_pos (cuts_pos j), if_pos hj]
    refine ⟨by simp, by rw [Function.update_self], ?_⟩
    intro k hk
    rw [Function.update_of_ne (fun e => hn.1 (by rw [← e]; exact hk))]
  | cons i is ih =>
    rw [List.cons_append, List.nodup_cons] at hn
    obtain ⟨h1, h2, h3⟩ := ih hn.2 (fun i hi => hp i (List.mem_cons_of_mem _ hi))
    rw [List.cons_append, deviations]
    rw [if_pos (cuts_pos i), if_neg (by rw [hp i List.mem_cons_self]; simp)]
    refine ⟨?_, ?_, ?_⟩
    · intro k hk
      rcases List.mem_cons.mp hk with rfl | hk
      · rw [Function.update_self]
      · rw [Function.update_of_ne (fun e => hn.1 (by rw [← e]; exact List.mem_append_left _ hk))]
        exact h1 k hk
    · rw [Function.update_of_ne (fun e => hn.1 (by rw [← e]; simp))]
      exact h2
    · intro k hk
      rw [Function.update_of_ne (fun e => hn.1 (by rw [← e]; simp [hk]))]
      exact h3 k hk

/-- There is a first parameter with a large change. -/
theorem first_exceeds (a0 a1 : Option Vec6) (E0 : Mat6) (l : List (Fin 6)) (k : Fin 6) (hk : k ∈ l) (h : exceeds a0 a1 E0 k = true) :
    ∃ pre j post, l = pre ++ j :: post ∧ (∀ i ∈ pre, exceeds a0 a1 E0 i = false) ∧ exceeds a0 a1 E0 j = true := by
  induction l with
  | nil => simp at hk
  | cons i is ih =>
    by_cases hi : exceeds a0 a1 E0 i = true
    · exact ⟨[], i, is, rfl, by simp, hi⟩
    · rcases List.mem_cons.mp hk with e | hk
      · exact absurd (e ▸ h) hi
      · obtain ⟨pre, j, post, e, h1, h2⟩ := ih hk
        refine ⟨i :: pre, j, post, by rw [e]; rfl, ?_, h2⟩
        intro x hx
        rcases List.mem_cons.mp hx with rfl | hx
        · simpa using hi
        · exact h1 x hx

/-- If the parameters are known, a change is too large exactly if its relative value is above the limit, unless the error is zero. -/
theorem exceeds_iff (a b : Vec6) (E0 : Mat6) (k : Fin 6) (h0 : Real.sqrt (E0 k k) = 0 → b k = a k) :
    ∃ v, deviation (some a) (some b) E0 k = some v ∧ (exceeds (some a) (some b) E0 k = true ↔ 0.05 < v) ∧ |b k - a k| = v * Real.sqrt (E0 k k) := by
  unfold deviation exceeds
  by_cases h : Real.sqrt (E0 k k) = 0
  · rw [if_pos h]
    refine ⟨0, rfl, ?_, ?_⟩
    · dsimp only
      rw [h0 h, h]
      norm_num
    · rw [h0 h, h]
      simp
  · rw [if_neg h]
    have hp : 0 < Real.sqrt (E0 k k) := lt_of_le_of_ne (Real.sqrt_nonneg _) (Ne.symm h)
    refine ⟨_, rfl, ?_, by field_simp⟩
    rw [decide_eq_true_iff, lt_div_iff₀ hp]
    unfold deviationCuts
    rfl

end BTA.Props
