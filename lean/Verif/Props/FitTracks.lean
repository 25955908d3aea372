import Verif.Lemmas.FitGroups
import Mathlib.Data.List.Forall2
import Mathlib.Algebra.Order.Field.Rat
import Mathlib.Tactic.NormNum
/-
C24, C25, C26, C57, C58, C59: `fit_tracks`.
-/
namespace BTA.Fit.Props
open BTA.Fit BTA.Spec BTA.Iso

variable {K R : Type} [Field K] [LinearOrder K]

/-! ### From the model to the specification -/

theorem near_some (E : Prop) (dx dy a b c d : K) :
    Near E dx dy (some a, some b) (some c, some d) ↔
      (E → ((a - c) / dx) ^ 2 + ((b - d) / dy) ^ 2 ≤ 1) ∧ (¬ E → |a - c| ≤ dx ∧ |b - d| ≤ dy) := by
  unfold Near
  constructor
  · rintro ⟨a', b', c', d', h1, h2, h3⟩
    cases h1; cases h2
    exact h3
  · intro h
    exact ⟨a, b, c, d, rfl, rfl, h⟩

theorem cut_iff (E : Prop) [Decidable E] (dx dy a b c d : K) :
    (if E then decide ((a - c) ^ 2 / dx ^ 2 + (b - d) ^ 2 / dy ^ 2 ≤ 1) else decide (|a - c| ≤ dx) && decide (|b - d| ≤ dy)) = true
      ↔ Near E dx dy (some a, some b) (some c, some d) := by
  rw [near_some]
  by_cases h : E
  · simp [h, div_pow]
  · simp [h]

theorem near_iff (e : Bool) (mx my : K) (p q : Pt K) :
    close e mx my p q = true ↔ Near (e = true ∧ 0 < mx ∧ 0 < my) mx my (p.x, p.y) (q.x, q.y) := by
  unfold close
  cases hpx : p.x <;> cases hqx : q.x <;> cases hpy : p.y <;> cases hqy : q.y <;> try (simp [Near]; done)
  exact cut_iff ..

theorem useEllipse_iff (P : Plane K) : useEllipse P = true ↔ WideCut P := by
  unfold useEllipse WideCut
  cases P.quality with
  | none => simp
  | some q => simp

theorem quality_iff (P : Plane K) (hx hy : Option K) (e : Est K R) :
    dutQuality P hx hy e = true ↔ GoodHit P (hx, hy) (e.x, e.y) := by
  unfold dutQuality
  cases hx <;> cases he : e.x <;> cases hy <;> cases hf : e.y <;> try (simp [GoodHit]; done)
  rename_i hx ex hy ey
  have e1 : ∀ (o : Option K) (p : K → Prop) [DecidablePred p], o.all (fun l => decide (p l)) = true ↔ ∀ l ∈ o, p l := by
    intro o p _; cases o <;> simp
  have e2 : GoodHit P (some hx, some hy) (some ex, some ey) ↔
      (∀ l ∈ P.xlo, l ≤ hx) ∧ (∀ l ∈ P.xhi, hx ≤ l) ∧ (∀ l ∈ P.ylo, l ≤ hy) ∧ (∀ l ∈ P.yhi, hy ≤ l) ∧
      ∀ q ∈ P.quality, Near (WideCut P) q.1 q.2 (some hx, some hy) (some ex, some ey) := by
    constructor
    · rintro ⟨a, b, c, d, h1, h2, h⟩
      cases h1; cases h2
      exact h
    · intro h
      exact ⟨hx, hy, ex, ey, rfl, rfl, h⟩
  rw [e2]
  simp only [Bool.and_eq_true, ge_iff_le]
  rw [e1, e1, e1, e1, and_assoc, and_assoc, and_assoc]
  refine and_congr Iff.rfl (and_congr Iff.rfl (and_congr Iff.rfl (and_congr Iff.rfl ?_)))
  cases hq : P.quality with
  | none => simp
  | some q =>
    obtain ⟨qx, qy⟩ := q
    simp only [Option.mem_def, Option.some.injEq, forall_eq']
    rw [← useEllipse_iff P]
    exact cut_iff ..

theorem selectFit_iff {kalman : Bool} {c : DutCfg} (hc : c.fitDuts.Nodup) {flag : Nat} (hf : flag < 2 ^ 32) :
    selectFit kalman c flag = true ↔ Fitted kalman c flag := by
  unfold selectFit Fitted
  rw [setBits_mask _ hf, effectiveFit_toFinset, actualMinHits_eq hc]
  cases kalman <;> simp [hitsIn]

theorem selectStore_iff {kalman : Bool} {c : DutCfg} (hc : c.fitDuts.Nodup) (h2 : 2 ≤ required c) {flag : Nat}
    (hf : flag < 2 ^ 32) : selectStore kalman c flag = true ↔ Stored kalman c flag := by
  unfold selectStore Stored
  rw [Bool.and_eq_true, Bool.and_eq_true, selectFit_iff hc hf, decide_eq_true_eq, hitMask_iff, decide_eq_true_eq,
    setBits_mask _ hf, effectiveFit_toFinset, actualMinHits_eq hc]
  unfold Fitted hitsIn
  cases kalman
  · simp only [Bool.false_eq_true, if_false, false_imp_iff, and_true]
    constructor
    · rintro ⟨⟨h, h1⟩, h3⟩; exact ⟨h1, h3⟩
    · rintro ⟨h1, h3⟩; exact ⟨⟨by omega, h1⟩, h3⟩
  · simp only [if_true, true_imp_iff]
    constructor
    · rintro ⟨⟨h, h1⟩, h3⟩; exact ⟨h1, h3, by omega⟩
    · rintro ⟨h1, h3, h4⟩; exact ⟨⟨by omega, h1⟩, h3⟩

variable [IsStrictOrderedRing K]

omit [IsStrictOrderedRing K] in
theorem rowOf_ok (est : Cand K → Nat → Est K R) (planes : List (Plane K)) (T : List (Cand K)) (pf : Cand K → Bool)
    (fitted : Cand K → Prop) (hpf : ∀ c ∈ T, pf c = true ↔ fitted c) (k : Nat) (p : Cand K × Nat)
    (hp : p ∈ T.zipIdx) : RowOk est planes T fitted k p (rowOf est planes T.zipIdx pf k p) := by
  have hmem : ∀ q : Cand K × Nat, q ∈ T.zipIdx ↔ T[q.2]? = some q.1 := by
    rintro ⟨c, i⟩
    rw [List.mem_zipIdx_iff_getElem?]
  have hne : ∀ q ∈ T.zipIdx, (q ≠ p ↔ q.2 ≠ p.2) := by
    intro q hq
    rw [not_iff_not]
    constructor
    · rintro rfl; rfl
    · intro h
      have h1 := (hmem q).mp hq
      have h2 := (hmem p).mp hp
      rw [h, h2] at h1
      exact Prod.ext (Option.some_inj.mp h1).symm h
  refine ⟨rfl, rfl, fun d => ?_⟩
  obtain ⟨h1, h2, h3⟩ := flagsFrom_bits est T.zipIdx pf 0 planes ⟨0, 0, 0⟩ p d
  have key : ∀ A : Plane K → Prop, (((0 : Nat).testBit d = true) ∨ ∃ j P, planes[j]? = some P ∧ d = 0 + j ∧ A P) ↔
      ∃ P, planes[d]? = some P ∧ A P := by
    intro A
    constructor
    · rintro (h | ⟨j, P, hj, hd, h⟩)
      · simp at h
      · have : d = j := by omega
        subst this
        exact ⟨P, hj, h⟩
    · rintro ⟨P, hP, h⟩
      exact .inr ⟨d, P, hP, by omega, h⟩
  unfold rowOf
  refine ⟨h1.trans ((key _).trans ?_), h2.trans ((key _).trans ?_), h3.trans ((key _).trans ?_)⟩
  · exact exists_congr fun P => and_congr Iff.rfl (quality_iff P _ _ _)
  · refine exists_congr fun P => and_congr Iff.rfl (not_congr ?_)
    unfold TrackClose HasNeighbour
    constructor
    · rintro ⟨q, hq, g1, g2, g3, g4⟩
      refine ⟨q.2, q.1, (hmem q).mp hq, (hne q hq).mp g2, g3, (hpf _ (List.fst_mem_of_mem_zipIdx hq)).mp g1, ?_⟩
      have := (near_iff ..).mp g4
      simpa [trackPt, isoDist] using this
    · rintro ⟨j, c', g1, g2, g3, g4, g5⟩
      have hq : (c', j) ∈ T.zipIdx := (hmem (c', j)).mpr g1
      refine ⟨(c', j), hq, (hpf _ (List.fst_mem_of_mem_zipIdx hq)).mpr g4, (hne _ hq).mpr g2, g3, (near_iff ..).mpr ?_⟩
      simpa [trackPt, isoDist] using g5
  · refine exists_congr fun P => and_congr Iff.rfl (not_congr ?_)
    unfold HitClose HasNeighbour
    constructor
    · rintro ⟨q, hq, g2, g3, g4⟩
      refine ⟨q.2, q.1, (hmem q).mp hq, (hne q hq).mp g2, g3, trivial, ?_⟩
      have := (near_iff ..).mp g4
      simpa [hitPt, isoDist, useEllipse_iff] using this
    · rintro ⟨j, c', g1, g2, g3, -, g5⟩
      have hq : (c', j) ∈ T.zipIdx := (hmem (c', j)).mpr g1
      refine ⟨(c', j), hq, (hne _ hq).mpr g2, g3, (near_iff ..).mpr ?_⟩
      simpa [hitPt, isoDist, useEllipse_iff] using g5

/-- Result of processing one group. -/
theorem fitGroup_ok_iff (est : Finset Nat → Cand K → Nat → Est K R) (planes : List (Plane K))
    (hneg : ∀ P ∈ planes, negative P = false) (kalman : Bool) (S : Sampling) (cs : Nat) (hcs : 0 < cs) (T : List (Cand K))
    (hs : SortedBy Cand.event T) (c : DutCfg) (hc : c.fitDuts.Nodup) (f : Nat → List (Row K R)) :
    fitGroup est planes false kalman S 0 cs T c = .ok f ↔
      (2 ≤ required c ∧ required c ≤ (ownFit c).card ∧ (dataAligned Cand.event T { chunkSize := cs }).err = none ∧
       f = fun k => (T.zipIdx.filter fun p => selectStore kalman c p.1.flag).map
          (rowOf (est (ownFit c)) planes T.zipIdx (fun t => selectFit kalman c t.flag) k)) := by
  obtain ⟨h1, h2, h3⟩ := chunks_default hs cs hcs
  unfold fitGroup
  rw [actualMinHits_eq hc, effectiveFit_length hc, effectiveFit_toFinset]
  by_cases hr : required c < 2
  · rw [if_pos hr]
    constructor
    · intro h; cases h
    · rintro ⟨h, -⟩; omega
  rw [if_neg hr]
  by_cases hr2 : required c > (ownFit c).card
  · rw [if_pos hr2]
    constructor
    · intro h; cases h
    · rintro ⟨-, h, -⟩; omega
  rw [if_neg hr2]
  simp only []
  rcases h3 with ⟨h3, -⟩ | ⟨h3, h4⟩
  · rw [h3]
    constructor
    · intro h
      split at h
      · cases h
      · cases h
    · rintro ⟨-, -, h, -⟩; cases h
  · have hsort : ∀ it ∈ (dataAligned Cand.event T { chunkSize := cs }).items, SortedBy Cand.event it.1 := by
      intro it hit
      apply List.Pairwise.sublist _ hs
      conv_rhs => rw [← h4]
      rw [List.flatMap_def]
      exact List.sublist_flatten_of_mem (List.mem_map_of_mem hit)
    have := chunkLoop_all (est (ownFit c)) planes hneg kalman c S T.length _ hsort h1 0 h2 [] T.zipIdx
      (by rw [h4, List.nil_append]) (by simp) 0
    rw [this, h3, h4]
    simp only [Except.ok.injEq, true_and]
    constructor
    · rintro rfl; exact ⟨by omega, by omega, rfl⟩
    · rintro ⟨-, -, rfl⟩; rfl

theorem groupLoop_error (proc : DutCfg → Except Err (Nat → List (Row K R))) (all rest : List DutCfg) (fitted : List Nat)
    (e : Err) (h : groupLoop proc all rest fitted = .error e) : ∃ a ∈ rest, proc a = .error e := by
  induction rest generalizing fitted with
  | nil => cases h
  | cons a rest ih =>
    unfold groupLoop at h
    split at h
    · obtain ⟨b, hb, h⟩ := ih _ h
      exact ⟨b, List.mem_cons_of_mem _ hb, h⟩
    · simp only [] at h
      split at h
      · rename_i e' he
        cases h
        exact ⟨a, List.mem_cons_self .., he⟩
      · split at h
        · rename_i e' he
          cases h
          obtain ⟨b, hb, h⟩ := ih _ he
          exact ⟨b, List.mem_cons_of_mem _ hb, h⟩
        · cases h

omit [IsStrictOrderedRing K] in
/-- Every selected DUT has exactly one table, the result of processing it with its own settings. -/
theorem fitTracks_tables (est : Finset Nat → Cand K → Nat → Est K R) (planes : List (Plane K)) (keepData kalman : Bool)
    (S : Sampling) (maxEvents cs : Nat) (T : List (Cand K)) (cfgs : List DutCfg) (hfit : ∀ c ∈ cfgs, c.fitDuts.Nodup)
    (tables : List (Nat × List (Row K R)))
    (h : fitTracks est planes keepData kalman S maxEvents cs T cfgs = .ok tables) :
    (tables.map Prod.fst).Nodup ∧ (∀ k, k ∈ tables.map Prod.fst ↔ k ∈ cfgs.map DutCfg.dut) ∧
    ∀ c ∈ cfgs, ∃ f, fitGroup est planes keepData kalman S maxEvents cs T c = .ok f ∧
      ∀ rows, (c.dut, rows) ∈ tables ↔ rows = f c.dut := by
  unfold fitTracks at h
  split at h
  · cases h
  · rename_i hnd
    have hnd : (cfgs.map DutCfg.dut).Nodup := by simpa using hnd
    obtain ⟨h1, h2, h3⟩ := groupLoop_spec _ cfgs hnd cfgs (fun a ha => ha) [] (by simp) tables h
    have h2' : ∀ k, k ∈ tables.map Prod.fst ↔ k ∈ cfgs.map DutCfg.dut := by
      intro k
      rw [h2, List.mem_map]
      constructor
      · rintro ⟨-, c, hc, rfl, -⟩; exact ⟨c, hc, rfl⟩
      · rintro ⟨c, hc, rfl⟩; exact ⟨by simp, c, hc, rfl, c, hc, rfl⟩
    refine ⟨h1, h2', fun c hc => ?_⟩
    obtain ⟨t, ht, htc⟩ := List.mem_map.mp ((h2' c.dut).mpr (List.mem_map_of_mem hc))
    obtain ⟨c', hc', a, ha, hk, hd, f, hf, hrows⟩ := h3 t ht
    have hcc : c' = c := List.inj_on_of_nodup_map hnd hc' hc (hd.trans htc)
    subst hcc
    refine ⟨f, ?_, fun rows => ⟨fun hr => ?_, ?_⟩⟩
    · rw [fitGroup_congr est planes keepData kalman S maxEvents cs T (hfit c' hc') (hfit a ha) hk]
      exact hf
    · have : (c'.dut, rows) = t := List.inj_on_of_nodup_map h1 hr ht htc.symm
      rw [← htc, ← hrows, ← this]
    · rintro rfl
      rw [← htc, ← hrows]
      exact ht

theorem negative_iff {planes : List (Plane K)} (h : ∀ P ∈ planes, ValidCuts P) : ∀ P ∈ planes, negative P = false := by
  intro P hP
  obtain ⟨h1, h2⟩ := h P hP
  unfold negative isoDist
  have e1 : P.quality.any (fun q => decide (q.1 < 0) || decide (q.2 < 0)) = false := by
    cases hq : P.quality with
    | none => rfl
    | some q =>
      have := h1 q hq
      simp [this.1, this.2]
  rw [e1]
  cases hq : P.isolation with
  | none => simp
  | some q =>
    have := h2 q hq
    simp [this.1, this.2]

/-! ### C25 -/

omit [IsStrictOrderedRing K] in
/-- C25: every selected DUT gets exactly one table. -/
theorem C25_each_dut_once (est : Finset Nat → Cand K → Nat → Est K R) (planes : List (Plane K)) (keepData kalman : Bool)
    (S : Sampling) (maxEvents cs : Nat) (T : List (Cand K)) (cfgs : List DutCfg) (hfit : ∀ c ∈ cfgs, c.fitDuts.Nodup)
    (tables : List (Nat × List (Row K R)))
    (h : fitTracks est planes keepData kalman S maxEvents cs T cfgs = .ok tables) :
    (tables.map Prod.fst).Perm (cfgs.map DutCfg.dut) := by
  obtain ⟨h1, h2, -⟩ := fitTracks_tables est planes keepData kalman S maxEvents cs T cfgs hfit tables h
  refine (List.perm_ext_iff_of_nodup h1 ?_).mpr h2
  unfold fitTracks at h
  split at h
  · cases h
  · rename_i hnd; simpa using hnd

omit [IsStrictOrderedRing K] in
/-- C25: the table of a DUT is the one obtained if only this DUT is selected: sharing the fit with other DUTs changes
nothing. -/
theorem C25_own_settings (est : Finset Nat → Cand K → Nat → Est K R) (planes : List (Plane K)) (keepData kalman : Bool)
    (S : Sampling) (maxEvents cs : Nat) (T : List (Cand K)) (cfgs : List DutCfg) (hfit : ∀ c ∈ cfgs, c.fitDuts.Nodup)
    (tables : List (Nat × List (Row K R)))
    (h : fitTracks est planes keepData kalman S maxEvents cs T cfgs = .ok tables) (c : DutCfg) (hc : c ∈ cfgs) :
    ∃ rows, (c.dut, rows) ∈ tables ∧ fitTracks est planes keepData kalman S maxEvents cs T [c] = .ok [(c.dut, rows)] := by
  obtain ⟨-, -, h3⟩ := fitTracks_tables est planes keepData kalman S maxEvents cs T cfgs hfit tables h
  obtain ⟨f, hf, hr⟩ := h3 c hc
  refine ⟨f c.dut, (hr _).mpr rfl, ?_⟩
  unfold fitTracks
  rw [if_neg (by simp)]
  have : sameTracks c c = true := by simp [sameTracks]
  simp [groupLoop, hf, this]

/-! ### C24 -/

/-- C24: if every event of the sorted candidate table has fewer rows than `chunk_size` and the required number of hits of
each selected DUT is between 2 and the number of its fit DUTs, `fit_tracks` succeeds and the table of each selected DUT
has exactly the candidates with hits in all hit DUTs and the required number of hits in the fit DUTs, in their order. -/
theorem C24_tracks_table (est : Finset Nat → Cand K → Nat → Est K R) (planes : List (Plane K))
    (hcut : ∀ P ∈ planes, ValidCuts P) (kalman : Bool) (S : Sampling) (cs : Nat) (T : List (Cand K))
    (hs : SortedBy Cand.event T) (hflag : ∀ t ∈ T, t.flag < 2 ^ 32) (hm : ∀ e, multiplicity Cand.event T e < cs)
    (cfgs : List DutCfg) (hnd : (cfgs.map DutCfg.dut).Nodup) (hfit : ∀ c ∈ cfgs, c.fitDuts.Nodup)
    (hreq : ∀ c ∈ cfgs, 2 ≤ required c ∧ required c ≤ (ownFit c).card) :
    ∃ tables, fitTracks est planes false kalman S 0 cs T cfgs = .ok tables ∧
      ∀ c ∈ cfgs, ∃ rows, (c.dut, rows) ∈ tables ∧
        rows.map Row.cand = T.filter fun t => decide (Stored kalman c t.flag) := by
  have hcs : 0 < cs := Nat.lt_of_le_of_lt (Nat.zero_le _) (hm 0)
  cases h : fitTracks est planes false kalman S 0 cs T cfgs with
  | error e =>
    exfalso
    unfold fitTracks at h
    rw [if_neg (by simpa using hnd)] at h
    obtain ⟨a, ha, he⟩ := groupLoop_error _ _ _ _ _ h
    have := (fitGroup_ok_iff est planes (negative_iff hcut) kalman S cs hcs T hs a (hfit a ha) _).mpr
      ⟨(hreq a ha).1, (hreq a ha).2, chunks_ok hs cs hcs hm, rfl⟩
    rw [he] at this
    cases this
  | ok tables =>
    refine ⟨tables, rfl, fun c hc => ?_⟩
    obtain ⟨-, -, h3⟩ := fitTracks_tables est planes false kalman S 0 cs T cfgs hfit tables h
    obtain ⟨f, hf, hr⟩ := h3 c hc
    refine ⟨f c.dut, (hr _).mpr rfl, ?_⟩
    obtain ⟨h4, h5, h6, rfl⟩ := (fitGroup_ok_iff est planes (negative_iff hcut) kalman S cs hcs T hs c (hfit c hc) f).mp hf
    rw [List.map_map]
    have e1 : (Row.cand ∘ rowOf (est (ownFit c)) planes T.zipIdx (fun t => selectFit kalman c t.flag) c.dut) = Prod.fst := rfl
    rw [e1]
    have e2 : (T.zipIdx.filter fun p => selectStore kalman c p.1.flag)
        = T.zipIdx.filter ((fun t : Cand K => decide (Stored kalman c t.flag)) ∘ Prod.fst) := by
      apply List.filter_congr
      intro p hp
      rw [Bool.eq_iff_iff, selectStore_iff (hfit c hc) h4 (hflag _ (List.fst_mem_of_mem_zipIdx hp))]
      simp
    rw [e2, ← List.filter_map, List.zipIdx_map_fst]

/-- C24: a number of required hits below 2, or above the number of fit DUTs, is never accepted. -/
theorem C24_invalid_hits (est : Finset Nat → Cand K → Nat → Est K R) (planes : List (Plane K)) (keepData kalman : Bool)
    (S : Sampling) (maxEvents cs : Nat) (T : List (Cand K)) (cfgs : List DutCfg) (hfit : ∀ c ∈ cfgs, c.fitDuts.Nodup)
    (c : DutCfg) (hc : c ∈ cfgs) (hreq : required c < 2 ∨ (ownFit c).card < required c) :
    ∃ e, fitTracks est planes keepData kalman S maxEvents cs T cfgs = .error e := by
  cases h : fitTracks est planes keepData kalman S maxEvents cs T cfgs with
  | error e => exact ⟨e, rfl⟩
  | ok tables =>
    exfalso
    obtain ⟨-, -, h3⟩ := fitTracks_tables est planes keepData kalman S maxEvents cs T cfgs hfit tables h
    obtain ⟨f, hf, -⟩ := h3 c hc
    unfold fitGroup at hf
    rw [actualMinHits_eq (hfit c hc), effectiveFit_length (hfit c hc)] at hf
    rcases hreq with hr | hr
    · rw [if_pos hr] at hf; cases hf
    · split at hf
      · cases hf
      · cases hf

/-- A DUT given twice in the fit DUTs (and not excluded) without minimum number of hits: no candidate is selected. -/
theorem duplicate_selectStore (kalman : Bool) (c : DutCfg) (he : c.exclude = false) (hm : c.minHits = none)
    (hd : ¬ c.fitDuts.Nodup) (flag : Nat) (hf : flag < 2 ^ 32) : selectStore kalman c flag = false := by
  rw [Bool.eq_false_iff]
  intro h
  unfold selectStore at h
  rw [Bool.and_eq_true, decide_eq_true_eq, setBits_mask _ hf] at h
  have h1 := h.2
  have h2 : (List.toFinset (effectiveFit c)).card < (effectiveFit c).length := by
    have : effectiveFit c = c.fitDuts := by simp [effectiveFit, he]
    rw [this]
    refine lt_of_le_of_ne (List.toFinset_card_le _) fun h => hd ?_
    exact Multiset.toFinset_card_eq_card_iff_nodup.mp h
  have h3 : actualMinHits c = (effectiveFit c).length := by simp [actualMinHits, hm]
  have h4 := Finset.card_filter_le (List.toFinset (effectiveFit c)) (fun d => flag.testBit d = true)
  omega

omit [IsStrictOrderedRing K] in
theorem chunkLoop_nothing (est : Cand K → Nat → Est K R) (planes : List (Plane K)) (keepData kalman : Bool) (c : DutCfg)
    (S : Sampling) (maxEvents total : Nat) (items : List (List (Cand K) × Nat))
    (hno : ∀ it ∈ items, ∀ t ∈ it.1, selectStore kalman c t.flag = false) (stored : Nat) :
    chunkLoop est planes keepData kalman c S maxEvents total items stored = .ok fun _ => [] := by
  induction items with
  | nil => rfl
  | cons it rest ih =>
    obtain ⟨chunk, idx⟩ := it
    have h1 : compress chunk (chunk.map fun t => selectStore kalman c t.flag) = [] := by
      have e := compress_map chunk id (fun t : Cand K => selectStore kalman c t.flag)
      simp only [List.map_id] at e
      rw [e, List.filter_eq_nil_iff]
      intro t ht
      rw [hno (chunk, idx) (List.mem_cons_self ..) t ht]
      simp
    unfold chunkLoop
    simp only [h1, List.map_nil, List.dedup_nil, if_true]
    exact ih fun it hit => hno it (List.mem_cons_of_mem _ hit)

/-- C24, limit of the hypothesis: if a DUT is given twice in the fit DUTs (and not excluded) and no minimum number of hits is
given, the table of the DUT stays empty, whatever the candidates. -/
theorem C24_duplicate_fit_dut (est : Finset Nat → Cand K → Nat → Est K R) (planes : List (Plane K)) (keepData kalman : Bool)
    (S : Sampling) (maxEvents cs : Nat) (hcs : 0 < cs) (T : List (Cand K)) (hs : SortedBy Cand.event T)
    (hflag : ∀ t ∈ T, t.flag < 2 ^ 32) (c : DutCfg) (he : c.exclude = false) (hm : c.minHits = none)
    (hd : ¬ c.fitDuts.Nodup) (tables : List (Nat × List (Row K R)))
    (h : fitTracks est planes keepData kalman S maxEvents cs T [c] = .ok tables) : tables = [(c.dut, [])] := by
  obtain ⟨-, -, h3⟩ := chunks_default hs cs hcs
  unfold fitTracks at h
  rw [if_neg (by simp)] at h
  have hst : sameTracks c c = true := by simp [sameTracks]
  simp only [groupLoop, List.not_mem_nil, if_false] at h
  have : ∀ f, fitGroup est planes keepData kalman S maxEvents cs T c = .ok f → f = fun _ => [] := by
    intro f hf
    unfold fitGroup at hf
    split at hf
    · cases hf
    split at hf
    · cases hf
    simp only [] at hf
    rcases h3 with ⟨h3, -⟩ | ⟨h3, h4⟩
    · rw [h3] at hf
      split at hf
      · cases hf
      · cases hf
    · rw [h3, chunkLoop_nothing] at hf
      · cases hf; rfl
      · intro it hit t ht
        refine duplicate_selectStore kalman c he hm hd _ (hflag t ?_)
        rw [← h4]
        exact List.mem_flatMap.mpr ⟨it, hit, ht⟩
  cases hf : fitGroup est planes keepData kalman S maxEvents cs T c with
  | error e => rw [hf] at h; cases h
  | ok f =>
    rw [hf] at h
    cases this f hf
    simpa [hst, eq_comm] using h

/-! ### C57 -/

/-- C57: the stored rows of a DUT are those of the selected candidates, each with its own fit result at this DUT and the
flags as specified by `RowOk`: whether the hit is good, and whether other tracks and hits of the same event *in the whole
table* are near. -/
theorem C57_flags (est : Finset Nat → Cand K → Nat → Est K R) (planes : List (Plane K))
    (hcut : ∀ P ∈ planes, ValidCuts P) (kalman : Bool) (S : Sampling) (cs : Nat) (hcs : 0 < cs) (T : List (Cand K))
    (hs : SortedBy Cand.event T) (hflag : ∀ t ∈ T, t.flag < 2 ^ 32)
    (cfgs : List DutCfg) (hfit : ∀ c ∈ cfgs, c.fitDuts.Nodup) (tables : List (Nat × List (Row K R)))
    (h : fitTracks est planes false kalman S 0 cs T cfgs = .ok tables) (c : DutCfg) (hc : c ∈ cfgs)
    (rows : List (Row K R)) (hrows : (c.dut, rows) ∈ tables) :
    List.Forall₂ (RowOk (est (ownFit c)) planes T (fun t => Fitted kalman c t.flag) c.dut)
      (T.zipIdx.filter fun p => decide (Stored kalman c p.1.flag)) rows := by
  obtain ⟨-, -, h3⟩ := fitTracks_tables est planes false kalman S 0 cs T cfgs hfit tables h
  obtain ⟨f, hf, hr⟩ := h3 c hc
  obtain rfl := (hr _).mp hrows
  obtain ⟨h4, h5, h6, rfl⟩ := (fitGroup_ok_iff est planes (negative_iff hcut) kalman S cs hcs T hs c (hfit c hc) f).mp hf
  have e2 : (T.zipIdx.filter fun p => selectStore kalman c p.1.flag)
      = T.zipIdx.filter fun p => decide (Stored kalman c p.1.flag) := by
    apply List.filter_congr
    intro p hp
    rw [Bool.eq_iff_iff, selectStore_iff (hfit c hc) h4 (hflag _ (List.fst_mem_of_mem_zipIdx hp))]
    simp
  rw [e2, List.forall₂_map_right_iff, List.forall₂_same]
  intro p hp
  exact rowOf_ok _ _ _ _ _ (fun t ht => selectFit_iff (hfit c hc) (hflag t ht)) _ _ (List.mem_of_mem_filter hp)

/-! ### C58 -/

theorem groupLoop_agree (proc proc' : DutCfg → Except Err (Nat → List (Row K R))) (all rest : List DutCfg)
    (hp : ∀ a ∈ rest, ∀ f f', proc a = .ok f → proc' a = .ok f' → f = f') (fitted : List Nat)
    (t t' : List (Nat × List (Row K R))) (h : groupLoop proc all rest fitted = .ok t)
    (h' : groupLoop proc' all rest fitted = .ok t') : t = t' := by
  induction rest generalizing fitted t t' with
  | nil => cases h; cases h'; rfl
  | cons a rest ih =>
    have ih := ih fun b hb => hp b (List.mem_cons_of_mem _ hb)
    unfold groupLoop at h h'
    split at h
    · rename_i hm
      rw [if_pos hm] at h'
      exact ih _ _ _ h h'
    · rename_i hm
      rw [if_neg hm] at h'
      simp only [] at h h'
      split at h
      · cases h
      · rename_i f hf
        split at h'
        · cases h'
        · rename_i f' hf'
          split at h
          · cases h
          · rename_i u hu
            split at h'
            · cases h'
            · rename_i u' hu'
              cases h; cases h'
              rw [hp a (List.mem_cons_self ..) f f' hf hf', ih _ _ _ hu hu']

/-- C58: the tables do not depend on the chunk size, as long as no event is too large for it. -/
theorem C58_chunk_size (est : Finset Nat → Cand K → Nat → Est K R) (planes : List (Plane K))
    (hcut : ∀ P ∈ planes, ValidCuts P) (kalman : Bool) (S S' : Sampling) (cs cs' : Nat) (hcs : 0 < cs) (hcs' : 0 < cs')
    (T : List (Cand K)) (hs : SortedBy Cand.event T) (cfgs : List DutCfg) (hfit : ∀ c ∈ cfgs, c.fitDuts.Nodup)
    (tables tables' : List (Nat × List (Row K R)))
    (h : fitTracks est planes false kalman S 0 cs T cfgs = .ok tables)
    (h' : fitTracks est planes false kalman S' 0 cs' T cfgs = .ok tables') : tables = tables' := by
  unfold fitTracks at h h'
  split at h
  · cases h
  · rename_i hnd
    rw [if_neg hnd] at h'
    refine groupLoop_agree _ _ _ _ ?_ _ _ _ h h'
    intro a ha f f' hf hf'
    obtain ⟨-, -, -, rfl⟩ := (fitGroup_ok_iff est planes (negative_iff hcut) kalman S cs hcs T hs a (hfit a ha) f).mp hf
    obtain ⟨-, -, -, rfl⟩ := (fitGroup_ok_iff est planes (negative_iff hcut) kalman S' cs' hcs' T hs a (hfit a ha) f').mp hf'
    rfl

/-! ### C59 -/

/-- C59: with `max_events` every table has tracks of at most `max_events` events, and of each of these events all tracks
that are stored without `max_events`, with the same fit results and flags. -/
theorem C59_max_events (est : Finset Nat → Cand K → Nat → Est K R) (planes : List (Plane K))
    (hcut : ∀ P ∈ planes, ValidCuts P) (kalman : Bool) (S : Sampling) (hS : ValidSampling S) (maxEvents : Nat)
    (hmax : maxEvents ≠ 0) (cs : Nat) (hcs : 0 < cs) (T : List (Cand K))
    (hs : SortedBy Cand.event T) (hflag : ∀ t ∈ T, t.flag < 2 ^ 32)
    (cfgs : List DutCfg) (hfit : ∀ c ∈ cfgs, c.fitDuts.Nodup) (tables : List (Nat × List (Row K R)))
    (h : fitTracks est planes false kalman S maxEvents cs T cfgs = .ok tables) (c : DutCfg) (hc : c ∈ cfgs)
    (rows : List (Row K R)) (hrows : (c.dut, rows) ∈ tables) :
    ∃ sel : List Int, sel.Nodup ∧ sel.length ≤ maxEvents ∧
      (∀ e ∈ sel, ∃ t ∈ T, Stored kalman c t.flag ∧ t.event = e) ∧
      List.Forall₂ (RowOk (est (ownFit c)) planes T (fun t => Fitted kalman c t.flag) c.dut)
        (T.zipIdx.filter fun p => decide (Stored kalman c p.1.flag ∧ p.1.event ∈ sel)) rows := by
  obtain ⟨-, -, h3⟩ := fitTracks_tables est planes false kalman S maxEvents cs T cfgs hfit tables h
  obtain ⟨f, hf, hr⟩ := h3 c hc
  obtain rfl := (hr _).mp hrows
  obtain ⟨g1, g2, g3⟩ := chunks_default hs cs hcs
  unfold fitGroup at hf
  rw [actualMinHits_eq (hfit c hc), effectiveFit_length (hfit c hc), effectiveFit_toFinset] at hf
  split at hf
  · cases hf
  rename_i h4
  split at hf
  · cases hf
  have h4 : 2 ≤ required c := by omega
  simp only [] at hf
  rcases g3 with ⟨g3, -⟩ | ⟨g3, g4⟩
  · rw [g3] at hf
    split at hf
    · cases hf
    · cases hf
  · have hsort : ∀ it ∈ (dataAligned Cand.event T { chunkSize := cs }).items, SortedBy Cand.event it.1 := by
      intro it hit
      apply List.Pairwise.sublist _ hs
      conv_rhs => rw [← g4]
      rw [List.flatMap_def]
      exact List.sublist_flatten_of_mem (List.mem_map_of_mem hit)
    rcases chunkLoop_sample (est (ownFit c)) planes (negative_iff hcut) kalman c S hS maxEvents hmax T.length _ hsort g1 0 g2
      [] T.zipIdx (by rw [g4, List.nil_append]) (by simp) 0 (Nat.zero_le _) with h5 | ⟨sel, s1, s2, s3, s4⟩
    · rw [h5] at hf; cases hf
    · rw [s4, g3] at hf
      cases hf
      rw [g4] at s3 ⊢
      refine ⟨sel, s1, by omega, ?_, ?_⟩
      · intro e he
        obtain ⟨t, ht, h6, h7⟩ := s3 e he
        exact ⟨t, ht, (selectStore_iff (hfit c hc) h4 (hflag t ht)).mp h6, h7⟩
      · have e2 : (T.zipIdx.filter fun p => selectStore kalman c p.1.flag && decide (p.1.event ∈ sel))
            = T.zipIdx.filter fun p => decide (Stored kalman c p.1.flag ∧ p.1.event ∈ sel) := by
          apply List.filter_congr
          intro p hp
          rw [Bool.eq_iff_iff, Bool.and_eq_true, selectStore_iff (hfit c hc) h4 (hflag _ (List.fst_mem_of_mem_zipIdx hp))]
          simp
        rw [e2, List.forall₂_map_right_iff, List.forall₂_same]
        intro p hp
        exact rowOf_ok _ _ _ _ _ (fun t ht => selectFit_iff (hfit c hc) (hflag t ht)) _ _ (List.mem_of_mem_filter hp)

/-! ### C60 -/

omit [IsStrictOrderedRing K] in
theorem chunkLoop_keep (est : Cand K → Nat → Est K R) (planes : List (Plane K)) (kalman : Bool) (c : DutCfg)
    (S : Sampling) (maxEvents total : Nat) (items : List (List (Cand K) × Nat)) (stored : Nat) (f : Nat → List (Row K R))
    (h : chunkLoop est planes true kalman c S maxEvents total items stored = .ok f) :
    ∀ t ∈ items.flatMap Prod.fst, selectStore kalman c t.flag = false := by
  have hst : ∀ chunk m1 m2 (g : Nat → List (Row K R)), storeTrackData est planes true chunk m1 m2 ≠ .ok g := by
    intro chunk m1 m2 g
    unfold storeTrackData
    split
    · simp
    · simp
  induction items generalizing stored f with
  | nil => simp
  | cons it rest ih =>
    obtain ⟨chunk, idx⟩ := it
    unfold chunkLoop at h
    simp only [] at h
    split at h
    · rename_i hu
      intro t ht
      rw [List.flatMap_cons, List.mem_append] at ht
      rcases ht with ht | ht
      · have e := compress_map chunk id (fun t : Cand K => selectStore kalman c t.flag)
        simp only [List.map_id] at e
        rw [e, List.dedup_eq_nil, List.map_eq_nil_iff, List.filter_eq_nil_iff] at hu
        simpa using hu t ht
      · exact ih _ _ h t ht
    · split at h
      · split at h
        · cases h
        · rename_i hx
          exact absurd hx (hst _ _ _ _)
      · split at h
        · cases h
        · split at h
          · cases h
          · rename_i hx
            exact absurd hx (hst _ _ _ _)

/-- C60 is false: with `keep_data=True` the function never succeeds if any candidate is selected for storage. -/
theorem C60_keep_data_fails (est : Finset Nat → Cand K → Nat → Est K R) (planes : List (Plane K)) (kalman : Bool)
    (S : Sampling) (maxEvents cs : Nat) (hcs : 0 < cs) (T : List (Cand K)) (hs : SortedBy Cand.event T)
    (hflag : ∀ t ∈ T, t.flag < 2 ^ 32) (cfgs : List DutCfg) (hfit : ∀ c ∈ cfgs, c.fitDuts.Nodup) (c : DutCfg) (hc : c ∈ cfgs)
    (t : Cand K) (ht : t ∈ T) (hst : Stored kalman c t.flag) :
    ∃ e, fitTracks est planes true kalman S maxEvents cs T cfgs = .error e := by
  cases h : fitTracks est planes true kalman S maxEvents cs T cfgs with
  | error e => exact ⟨e, rfl⟩
  | ok tables =>
    exfalso
    obtain ⟨-, -, h3⟩ := fitTracks_tables est planes true kalman S maxEvents cs T cfgs hfit tables h
    obtain ⟨f, hf, -⟩ := h3 c hc
    obtain ⟨g1, g2, g3⟩ := chunks_default hs cs hcs
    unfold fitGroup at hf
    rw [actualMinHits_eq (hfit c hc), effectiveFit_length (hfit c hc), effectiveFit_toFinset] at hf
    split at hf
    · cases hf
    rename_i h4
    split at hf
    · cases hf
    have h4 : 2 ≤ required c := by omega
    simp only [] at hf
    split at hf
    · cases hf
    · rename_i u hu
      have h5 := chunkLoop_keep _ _ _ _ _ _ _ _ _ _ hu
      rcases g3 with ⟨g3, -⟩ | ⟨g3, g4⟩
      · rw [g3] at hf; cases hf
      · rw [g4] at h5
        have := h5 t ht
        rw [(selectStore_iff (hfit c hc) h4 (hflag t ht)).mpr hst] at this
        cases this

/-! ### C26 -/

/-- C26: the search marks exactly the points that have another point of the same event close to them: in the ellipse with
the given half axes, or in the rectangle if the ellipse is not used or an axis is not positive. -/
theorem C26_isolation_exact (ellipse : Bool) (mx my : K) (rows : List (Pt K)) (hs : SortedBy Pt.event rows) :
    (smallDistance ellipse mx my rows).length = rows.length ∧
    ∀ (i : Nat) (p : Pt K), rows[i]? = some p →
      ((smallDistance ellipse mx my rows)[i]? = some true ↔
        ∃ j : Nat, ∃ q : Pt K, rows[j]? = some q ∧ j ≠ i ∧ q.event = p.event ∧
          Near (ellipse = true ∧ 0 < mx ∧ 0 < my) mx my (p.x, p.y) (q.x, q.y)) := by
  obtain ⟨h1, h2⟩ := smallDistance_spec ellipse mx my rows hs
  refine ⟨h1, fun i p hp => ?_⟩
  obtain ⟨hi, rfl⟩ := List.getElem?_eq_some_iff.mp hp
  have := h2 i hi
  unfold F at this
  rw [this]
  constructor
  · rintro ⟨j, hj, a, b, d⟩
    exact ⟨j, _, List.getElem?_eq_getElem hj, a, b, (near_iff ..).mp d⟩
  · rintro ⟨j, q, hq, a, b, d⟩
    obtain ⟨hj, rfl⟩ := List.getElem?_eq_some_iff.mp hq
    exact ⟨j, hj, a, b, (near_iff ..).mpr d⟩

open Classical in
/-- The points with their flags, written with the list of the other points. -/
theorem smallDistance_zip (ellipse : Bool) (mx my : K) (rows : List (Pt K)) (hs : SortedBy Pt.event rows) :
    rows.zip (smallDistance ellipse mx my rows) = rows.map fun p => (p, decide (∃ q ∈ rows.erase p,
      q.event = p.event ∧ Near (ellipse = true ∧ 0 < mx ∧ 0 < my) mx my (p.x, p.y) (q.x, q.y))) := by
  obtain ⟨h1, h2⟩ := C26_isolation_exact ellipse mx my rows hs
  apply List.ext_getElem
  · simp [h1]
  · intro i hi hi'
    have hi : i < rows.length := by simpa using hi'
    simp only [List.getElem_zip, List.getElem_map, Prod.mk.injEq, true_and]
    rw [Bool.eq_iff_iff, decide_eq_true_eq]
    have h3 := h2 i rows[i] (List.getElem?_eq_getElem hi)
    rw [List.getElem?_eq_getElem (by omega), Option.some.injEq] at h3
    rw [h3]
    have hp : (rows.erase rows[i]).Perm (rows.eraseIdx i) := by
      apply (List.perm_cons rows[i]).mp
      exact (List.perm_cons_erase (List.getElem_mem hi)).symm.trans (List.getElem_cons_eraseIdx_perm hi).symm
    simp only [hp.mem_iff, List.mem_eraseIdx_iff_getElem?]
    constructor
    · rintro ⟨j, q, a, b, c, d⟩; exact ⟨q, ⟨j, b, a⟩, c, d⟩
    · rintro ⟨q, ⟨j, b, a⟩, c, d⟩; exact ⟨j, q, a, b, c, d⟩

/-- C26: the order of the rows within the events does not matter: every point gets the same flag. -/
theorem C26_order (ellipse : Bool) (mx my : K) (rows rows' : List (Pt K)) (hs : SortedBy Pt.event rows)
    (hs' : SortedBy Pt.event rows') (hp : rows.Perm rows') :
    (rows.zip (smallDistance ellipse mx my rows)).Perm (rows'.zip (smallDistance ellipse mx my rows')) := by
  classical
  rw [smallDistance_zip ellipse mx my rows hs, smallDistance_zip ellipse mx my rows' hs']
  refine (hp.map _).trans (List.Perm.of_eq (List.map_congr_left fun p _ => ?_))
  simp only [(hp.erase p).mem_iff]

/-- C26: symmetry. The two points of a close pair of the same event are both marked. -/
theorem C26_pair (ellipse : Bool) (mx my : K) (rows : List (Pt K)) (hs : SortedBy Pt.event rows) (i j : Nat) (p q : Pt K)
    (hi : rows[i]? = some p) (hj : rows[j]? = some q) (hij : i ≠ j) (he : p.event = q.event)
    (hn : Near (ellipse = true ∧ 0 < mx ∧ 0 < my) mx my (p.x, p.y) (q.x, q.y)) :
    (smallDistance ellipse mx my rows)[i]? = some true ∧ (smallDistance ellipse mx my rows)[j]? = some true := by
  obtain ⟨-, h2⟩ := C26_isolation_exact ellipse mx my rows hs
  refine ⟨(h2 i p hi).mpr ⟨j, q, hj, hij.symm, he.symm, hn⟩, (h2 j q hj).mpr ⟨i, p, hi, hij, he, ?_⟩⟩
  rw [← near_iff, close_comm, near_iff]
  exact hn

/-! ### Concrete cases

Three DUTs. DUT 0 is fitted with all DUTs but itself, DUT 2 with all DUTs, both require a hit in DUT 1. The fit "result" is
the hit position. -/

def exPlane : Plane ℚ := ⟨50, 50, some (-1000), some 1000, none, none, some (250, 250), some (500, 500)⟩
def exCands : List (Cand ℚ) :=
  [⟨4, 7, fun d => some (10 * d), fun _ => some 0⟩, ⟨4, 5, fun _ => some 0, fun _ => some 3⟩,
   ⟨9, 3, fun d => if d = 2 then none else some 1, fun d => if d = 2 then none else some 1⟩,
   ⟨9, 7, fun d => some (2 * d), fun d => some d⟩]
def exCfgs : List DutCfg := [⟨0, [0, 1, 2], [1], true, none⟩, ⟨2, [0, 1, 2], [1], false, some 2⟩]
def exEst : Finset Nat → Cand ℚ → Nat → Est ℚ Unit := fun _ c d => ⟨c.x d, c.y d, ()⟩
def exSampling : Sampling := ⟨fun _ => some 1, fun _ l n => l.take n⟩

theorem ex_sorted : SortedBy Cand.event exCands := by simp [SortedBy, exCands]
theorem ex_flag : ∀ t ∈ exCands, t.flag < 2 ^ 32 := by simp [exCands]
theorem ex_cuts : ∀ P ∈ [exPlane, exPlane, exPlane], ValidCuts P := by simp [exPlane, ValidCuts]
theorem ex_mult : ∀ e, multiplicity Cand.event exCands e < 3 := by
  intro e
  by_cases h4 : e = 4
  · subst h4; simp [multiplicity, exCands]
  by_cases h9 : e = 9
  · subst h9; simp [multiplicity, exCands]
  simp [multiplicity, exCands, Ne.symm h4, Ne.symm h9]
theorem ex_nodup : ∀ c ∈ exCfgs, c.fitDuts.Nodup := by simp [exCfgs]
theorem ex_required : ∀ c ∈ exCfgs, 2 ≤ required c ∧ required c ≤ (ownFit c).card := by decide

/-- The hypotheses of C24 hold; DUT 0 stores candidates 0 and 3, DUT 2 also candidate 2. -/
example : (exCfgs.map DutCfg.dut).Nodup ∧
    exCfgs.map (fun c => (exCands.map Cand.flag).filter fun f => decide (Stored false c f)) = [[7, 7], [7, 3, 7]] := by
  decide

example : ∃ tables, fitTracks exEst [exPlane, exPlane, exPlane] false false exSampling 0 3 exCands exCfgs = .ok tables ∧
      ∀ c ∈ exCfgs, ∃ rows, (c.dut, rows) ∈ tables ∧
        rows.map Row.cand = exCands.filter fun t => decide (Stored false c t.flag) :=
  C24_tracks_table exEst _ ex_cuts false exSampling 3 exCands ex_sorted ex_flag ex_mult exCfgs (by decide) ex_nodup ex_required

/-- Successful runs with two chunk sizes (C25, C57, C58). -/
example : (∃ t, fitTracks exEst [exPlane, exPlane, exPlane] false false exSampling 0 3 exCands exCfgs = .ok t) ∧
    ∃ t, fitTracks exEst [exPlane, exPlane, exPlane] false false exSampling 0 100 exCands exCfgs = .ok t := by
  obtain ⟨t, h, -⟩ := C24_tracks_table exEst _ ex_cuts false exSampling 3 exCands ex_sorted ex_flag ex_mult exCfgs (by decide)
    ex_nodup ex_required
  obtain ⟨t', h', -⟩ := C24_tracks_table exEst _ ex_cuts false exSampling 100 exCands ex_sorted ex_flag
    (fun e => (ex_mult e).trans (by decide)) exCfgs (by decide) ex_nodup ex_required
  exact ⟨⟨t, h⟩, ⟨t', h'⟩⟩

/-- C59: with at most one event per table. -/
example : ValidSampling exSampling ∧
    (fitTracks exEst [exPlane, exPlane, exPlane] false false exSampling 1 3 exCands exCfgs).isOk = true := by
  refine ⟨fun idx l n hl hn => ?_, by decide +kernel⟩
  exact ⟨hl.sublist (List.take_sublist ..), fun e he => List.mem_of_mem_take he, by simp [exSampling, hn]⟩

/-- C24_invalid_hits: one fit DUT only. C24_duplicate_fit_dut. -/
example : required ⟨0, [0, 1], [1], true, none⟩ < 2 ∧ ¬ [0, 1, 1].Nodup := by decide

/-- C60: candidate 0 is stored for DUT 0. -/
example : Stored false ⟨0, [0, 1, 2], [1], true, none⟩ 7 := by decide

/-- C26: of three points of an event two are close; the third and the point of the next event are not marked. -/
example : smallDistance true (500 : ℚ) 500
    [⟨4, some 0, some 0⟩, ⟨4, some 900, some 900⟩, ⟨4, some 300, some 300⟩, ⟨5, some 0, some 0⟩] = [true, false, true, false] := by
  simp [smallDistance, outer, middle, inner, close, List.replicate]
  norm_num

end BTA.Fit.Props
