import Verif.Spec.Selection
import Verif.Lemmas.FitTracks
/-
Lemmas about the models of `reduce_events` and `select_tracks`.
-/
namespace BTA.Sel
open BTA.Spec BTA.Fit
variable {R : Type}

/-- The sizes calculated for the chunks are not negative. -/
def SizesOk (S : Sampling) : Prop := ∀ i, ∃ n, S.size i = some n ∧ 0 ≤ n

theorem sampleEvents_ok {S : Sampling} (hS : SizesOk S) {maxEvents stored total idx : Nat} {unique : List Int}
    (hst : stored ≤ maxEvents) : ∃ sel, sampleEvents S maxEvents stored total idx unique = some sel := by
  unfold sampleEvents selectNEvents
  obtain ⟨n, hn, hpos⟩ := hS idx
  split
  · rename_i h
    split at h <;> simp_all
  · rename_i m h
    have : ¬ m < 0 := by
      split at h
      · simp at h; omega
      · rw [hn] at h; simp at h; omega
    rw [if_neg this]
    exact ⟨_, rfl⟩

theorem reduceLoop_spec (ev : R → Int) (S : Sampling) (hS : ValidSampling S) (maxEvents total : Nat)
    (items : List (List R × Nat)) (hsep : BTA.Merge.Separated ev items) (stored : Nat) (hst : stored ≤ maxEvents) :
    ((reduceLoop ev S maxEvents total items stored).2 = some .sample ∧ ¬ SizesOk S) ∨
    (reduceLoop ev S maxEvents total items stored).2 = none ∧
    ∃ sel : List Int, sel.Nodup ∧ stored + sel.length ≤ maxEvents ∧
      (∀ e ∈ sel, ∃ t ∈ items.flatMap Prod.fst, ev t = e) ∧
      (reduceLoop ev S maxEvents total items stored).1 = (items.flatMap Prod.fst).filter fun t => decide (ev t ∈ sel) := by
  induction items generalizing stored with
  | nil => exact .inr ⟨rfl, [], List.nodup_nil, by simpa using hst, by simp, rfl⟩
  | cons it rest ih =>
    obtain ⟨chunk, idx⟩ := it
    unfold BTA.Merge.Separated at hsep
    rw [List.pairwise_cons] at hsep
    have hsep1 : ∀ x ∈ chunk, ∀ y ∈ rest.flatMap Prod.fst, ev x < ev y := by
      intro x hx y hy
      obtain ⟨q, hq, hy⟩ := List.mem_flatMap.mp hy
      exact hsep.1 q hq x hx y hy
    rw [reduceLoop]
    cases hsamp : sampleEvents S maxEvents stored total idx (chunk.map ev).dedup with
    | none =>
      refine .inl ⟨rfl, fun hok => ?_⟩
      obtain ⟨sel, h⟩ := sampleEvents_ok hok (maxEvents := maxEvents) (total := total) (idx := idx)
        (unique := (chunk.map ev).dedup) hst
      rw [hsamp] at h
      cases h
    | some selc =>
      obtain ⟨g1, g2, g3⟩ := sampleEvents_spec hS (List.nodup_dedup _) hst hsamp
      have g2' : ∀ e ∈ selc, ∃ t ∈ chunk, ev t = e := by
        intro e he
        exact List.mem_map.mp (List.mem_dedup.mp (g2 e he))
      simp only []
      rcases ih hsep.2 (stored + selc.length) g3 with h | ⟨h0, sel, h1, h2, h3, h4⟩
      · exact .inl h
      · refine .inr ⟨h0, selc ++ sel, ?_, by rw [List.length_append]; omega, ?_, ?_⟩
        · have hdis : ∀ e ∈ selc, ∀ e' ∈ sel, e < e' := by
            intro e he e' he'
            obtain ⟨t, ht, rfl⟩ := g2' e he
            obtain ⟨t', ht', rfl⟩ := h3 e' he'
            exact hsep1 t ht t' ht'
          rw [List.nodup_append]
          exact ⟨g1, h1, fun e he e' he' => Int.ne_of_lt (hdis e he e' he')⟩
        · intro e he
          rw [List.flatMap_cons]
          rcases List.mem_append.mp he with he | he
          · obtain ⟨t, ht, h⟩ := g2' e he
            exact ⟨t, List.mem_append_left _ ht, h⟩
          · obtain ⟨t, ht, h⟩ := h3 e he
            exact ⟨t, List.mem_append_right _ ht, h⟩
        · rw [h4, List.flatMap_cons, List.filter_append]
          congr 1
          · apply List.filter_congr
            intro t ht
            simp only [List.mem_append, decide_eq_decide]
            constructor
            · exact .inl
            · rintro (h | h)
              · exact h
              · obtain ⟨t', ht', h'⟩ := h3 _ h
                have := hsep1 t ht t' ht'
                omega
          · apply List.filter_congr
            intro t ht
            simp only [List.mem_append, decide_eq_decide]
            constructor
            · exact .inr
            · rintro (h | h)
              · obtain ⟨t', ht', h'⟩ := g2' _ h
                have := hsep1 t' ht' t ht
                omega
              · exact h

/-- A table which is not larger than the chunk size is read at once. -/
theorem dataAligned_single (ev : R → Int) (T : List R) (cs : Nat) (hT : T ≠ []) (hcs : T.length ≤ cs) :
    dataAligned ev T { chunkSize := cs } = ⟨[(T, T.length)], none⟩ := by
  have hpos : 0 < T.length := List.length_pos_iff.mpr hT
  rw [dataAligned_default, dataLoop]
  have hread : readRows T 0 (min (0 + cs) T.length) = T := by
    unfold readRows
    rw [Nat.zero_add, Nat.min_eq_right hcs, List.take_length, List.drop_zero]
  simp only [hpos, dif_pos, hread]
  cases T with
  | nil => exact absurd rfl hT
  | cons a l =>
    obtain ⟨x, hx⟩ : ∃ x, (a :: l).getLast? = some x := ⟨_, List.getLast?_eq_some_getLast hT⟩
    have hmin : min (0 + cs) (a :: l).length = (a :: l).length := by omega
    simp only [List.head?_cons, hx, chunkStopIndex, hmin, decide_true, if_true, List.length_map]
    rw [dif_neg (by omega)]
    have hend : dataLoop ev (a :: l) none cs (a :: l).length (0 + (a :: l).length) = ⟨[], none⟩ := by
      rw [dataLoop, dif_neg (by omega)]
    rw [hend, List.take_length, Nat.zero_add]

theorem separated_single (ev : R → Int) (T : List R) (n : Nat) : BTA.Merge.Separated ev [(T, n)] :=
  List.pairwise_singleton _ _

theorem reduceLoop_single (ev : R → Int) (S : Sampling) (hS : ValidSampling S) (maxEvents : Nat) (T : List R) :
    ∃ sel : List Int, sel.Nodup ∧ (∀ e ∈ sel, ∃ t ∈ T, ev t = e) ∧ sel.length = min maxEvents (T.map ev).dedup.length ∧
      reduceLoop ev S maxEvents T.length [(T, T.length)] 0 = (T.filter (fun t => decide (ev t ∈ sel)), none) := by
  rw [reduceLoop]
  have hn : selectNEvents S maxEvents 0 T.length T.length (T.map ev).dedup.length
      = some (min (min ((T.map ev).dedup.length : Int) (maxEvents : Int)) maxEvents) := by
    simp [selectNEvents]
  have hs : sampleEvents S maxEvents 0 T.length T.length (T.map ev).dedup
      = some (S.choice T.length (T.map ev).dedup (min maxEvents (T.map ev).dedup.length)) := by
    unfold sampleEvents
    rw [hn]
    simp only []
    rw [if_neg (by omega)]
    congr 2
    omega
  rw [hs]
  obtain ⟨h1, h2, h3⟩ := hS T.length (T.map ev).dedup (min maxEvents (T.map ev).dedup.length) (List.nodup_dedup _)
    (Nat.min_le_right _ _)
  refine ⟨_, h1, fun e he => List.mem_map.mp (List.mem_dedup.mp (h2 e he)), h3, ?_⟩
  simp [reduceLoop]

/-! ### Masks -/

theorem mask_zero (l : List Nat) : dutMask l = 0 ↔ l = [] := by
  constructor
  · intro h
    cases l with
    | nil => rfl
    | cons d l =>
      have := dutMask_testBit (d :: l) d
      rw [h] at this
      simp at this
  · rintro rfl; rfl

theorem complement_testBit {flag d : Nat} (hf : flag < 2 ^ 32) (hd : d < 32) :
    (2 ^ 32 - 1 - flag).testBit d = !flag.testBit d := by
  rw [show 2 ^ 32 - 1 - flag = 2 ^ 32 - (flag + 1) by omega, Nat.testBit_two_pow_sub_succ hf]
  simp [hd]

theorem modMask_iff (flag hit : Nat) (duts : List Nat) :
    flag &&& (dutMask duts &&& hit) = dutMask duts &&& hit ↔ ∀ d ∈ duts, hit.testBit d = true → flag.testBit d = true := by
  constructor
  · intro h d hd hh
    have := congrArg (fun n => Nat.testBit n d) h
    simp only [Nat.testBit_and, dutMask_testBit, hd, decide_true, Bool.true_and, hh, Bool.and_true] at this
    exact this
  · intro h
    apply Nat.eq_of_testBit_eq
    intro i
    rw [Nat.testBit_and, Nat.testBit_and, dutMask_testBit]
    by_cases hi : i ∈ duts
    · cases hh : hit.testBit i with
      | false => simp
      | true => simp [hi, h i hi hh]
    · simp [hi]

theorem passHit_iff (c : Criteria) (f : Flags) (hf : f.hit < 2 ^ 32) (hc : ∀ d ∈ c.noHit, d < 32) :
    passHit c f = true ↔ (∀ d ∈ c.hit, f.hit.testBit d = true) ∧ ∀ d ∈ c.noHit, f.hit.testBit d = false := by
  unfold passHit
  rw [Bool.and_eq_true]
  apply and_congr
  · by_cases h : c.hit = []
    · simp [h, dutMask]
    · rw [if_pos (fun h' => h ((mask_zero _).mp h')), beq_iff_eq, hitMask_iff]
  · by_cases h : c.noHit = []
    · simp [h, dutMask]
    · rw [if_pos (fun h' => h ((mask_zero _).mp h')), beq_iff_eq, hitMask_iff]
      apply forall_congr'
      intro d
      apply imp_congr_right
      intro hd
      rw [complement_testBit hf (hc d hd)]
      simp

theorem passQuality_iff (c : Criteria) (f : Flags) :
    passQuality c f = true ↔ ∀ d ∈ c.quality, f.hit.testBit d = true → f.quality.testBit d = true := by
  unfold passQuality
  by_cases h : c.quality = []
  · simp [h, dutMask]
  · rw [if_pos (fun h' => h ((mask_zero _).mp h')), beq_iff_eq, modMask_iff]

theorem passIsoTrack_iff (c : Criteria) (f : Flags) :
    passIsoTrack c f = true ↔ ∀ d ∈ c.isoTrack, f.isoTrack.testBit d = true := by
  unfold passIsoTrack
  by_cases h : c.isoTrack = []
  · simp [h, dutMask]
  · rw [if_pos (fun h' => h ((mask_zero _).mp h')), beq_iff_eq, hitMask_iff]

theorem passIsoHit_iff (c : Criteria) (f : Flags) :
    passIsoHit c f = true ↔ ∀ d ∈ c.isoHit, f.hit.testBit d = true → f.isoHit.testBit d = true := by
  unfold passIsoHit
  by_cases h : c.isoHit = []
  · simp [h, dutMask]
  · rw [if_pos (fun h' => h ((mask_zero _).mp h')), beq_iff_eq, modMask_iff]

theorem anyMask_iff (c : Criteria) :
    anyMask c = false ↔ c.hit = [] ∧ c.noHit = [] ∧ c.quality = [] ∧ c.isoTrack = [] ∧ c.isoHit = [] := by
  unfold anyMask
  simp [mask_zero, and_assoc]

/-- All mask criteria. -/
def passAll (c : Criteria) (f : Flags) : Bool := ((passHit c f && passQuality c f) && passIsoTrack c f) && passIsoHit c f

theorem passAll_none (c : Criteria) (f : Flags) (h : anyMask c = false) : passAll c f = true := by
  obtain ⟨h1, h2, h3, h4, h5⟩ := (anyMask_iff c).mp h
  simp [passAll, passHit, passQuality, passIsoTrack, passIsoHit, h1, h2, h3, h4, h5, dutMask]

/-- Increment of the counters by a list of tracks. -/
def countsOf (c : Criteria) (flags : R → Flags) (l : List R) (n : Counts) : Counts :=
  if anyMask c then
    ⟨n.hit + l.countP (fun t => passHit c (flags t)), n.quality + l.countP (fun t => passHit c (flags t) && passQuality c (flags t)),
     n.isoTrack + l.countP (fun t => (passHit c (flags t) && passQuality c (flags t)) && passIsoTrack c (flags t)),
     n.isoHit + l.countP (fun t => passAll c (flags t))⟩
  else n

theorem count_map_true (l : List R) (p : R → Bool) : (l.map p).count true = l.countP p := by
  rw [List.count_eq_countP, List.countP_map]
  congr 1
  funext t
  simp

theorem maskSelect_eq (c : Criteria) (flags : R → Flags) (chunk : List R) (n : Counts) :
    maskSelect c flags chunk n = (chunk.filter fun t => passAll c (flags t), countsOf c flags chunk n) := by
  unfold maskSelect countsOf
  by_cases h : anyMask c = true
  · rw [if_pos h, if_pos h]
    have hz : ∀ (p : R → Bool) (q : R → Bool), List.zipWith (fun b t => b && q t) (chunk.map p) chunk = chunk.map fun t => p t && q t := by
      intro p q
      have := zipWith_map_map chunk p id (fun b t => b && q t)
      rwa [List.map_id] at this
    have hcomp : ∀ p : R → Bool, compress chunk (chunk.map p) = chunk.filter p := by
      intro p
      have := compress_map chunk id p
      rwa [List.map_id, List.map_id] at this
    simp only [hz, hcomp, count_map_true]
    rfl
  · rw [if_neg h, if_neg h]
    have : chunk.filter (fun t => passAll c (flags t)) = chunk := by
      rw [List.filter_eq_self]
      intro t _
      exact passAll_none c _ (by simpa using h)
    rw [this]

theorem countsOf_append (c : Criteria) (flags : R → Flags) (l l' : List R) (n : Counts) :
    countsOf c flags l' (countsOf c flags l n) = countsOf c flags (l ++ l') n := by
  unfold countsOf
  split
  · simp [List.countP_append, Nat.add_assoc]
  · rfl

/-! ### Loop over the chunks -/

/-- Mask criteria and query. -/
def passes (c : Criteria) (flags : R → Flags) (query : Option (R → Bool)) (t : R) : Bool :=
  passAll c (flags t) && (match query with | none => true | some q => q t)

theorem passAll_eq (c : Criteria) (f : Flags) (hf : f.hit < 2 ^ 32) (hc : ∀ d ∈ c.noHit, d < 32) :
    passAll c f = decide (Required c f) := by
  rw [Bool.eq_iff_iff, decide_eq_true_iff]
  unfold passAll Required
  simp only [Bool.and_eq_true, passHit_iff c _ hf hc, passQuality_iff, passIsoTrack_iff, passIsoHit_iff, and_assoc]

theorem passes_eq (c : Criteria) (flags : R → Flags) (query : Option (R → Bool)) (t : R) (hf : (flags t).hit < 2 ^ 32)
    (hc : ∀ d ∈ c.noHit, d < 32) : passes c flags query t = (decide (Required c (flags t)) && queryTrue query t) := by
  unfold passes
  rw [passAll_eq c _ hf hc]
  cases query <;> rfl

theorem query_filter (c : Criteria) (flags : R → Flags) (query : Option (R → Bool)) (chunk : List R) :
    tableWhere query (chunk.filter fun t => passAll c (flags t)) = chunk.filter (passes c flags query) := by
  unfold tableWhere
  cases query with
  | none =>
    simp only []
    apply List.filter_congr
    intro t _
    simp [passes]
  | some q =>
    simp only [List.filter_filter]
    apply List.filter_congr
    intro t _
    simp [passes, Bool.and_comm]

theorem selectLoop_eq (ev : R → Int) (flags : R → Flags) (c : Criteria) (query : Option (R → Bool)) (S : Sampling)
    (maxEvents total : Nat) (items : List (List R × Nat)) (stored : Nat) (n : Counts) :
    (maxEvents = 0 ∧ selectLoop ev flags c query S maxEvents total items stored n
      = ((items.flatMap Prod.fst).filter (passes c flags query), countsOf c flags (items.flatMap Prod.fst) n, none)) ∨
    (maxEvents ≠ 0 ∧
      let r := reduceLoop ev S maxEvents total (items.map fun it => (it.1.filter (passes c flags query), it.2)) stored
      (selectLoop ev flags c query S maxEvents total items stored n).1 = r.1 ∧
      (selectLoop ev flags c query S maxEvents total items stored n).2.2 = r.2 ∧
      (r.2 = none → (selectLoop ev flags c query S maxEvents total items stored n).2.1
        = countsOf c flags (items.flatMap Prod.fst) n)) := by
  have h0 : countsOf c flags [] n = n := by unfold countsOf; split <;> simp
  induction items generalizing stored n with
  | nil =>
    by_cases hm : maxEvents = 0
    · left; exact ⟨hm, by simp [selectLoop, h0]⟩
    · right; exact ⟨hm, rfl, rfl, fun _ => by simp [selectLoop, h0]⟩
  | cons it rest ih =>
    obtain ⟨chunk, idx⟩ := it
    have h0' : countsOf c flags [] (countsOf c flags chunk n) = countsOf c flags chunk n := by
      rw [countsOf_append, List.append_nil]
    by_cases hm : maxEvents = 0
    · left
      refine ⟨hm, ?_⟩
      rw [selectLoop]
      simp only [maskSelect_eq, hm, if_true]
      rcases ih stored (countsOf c flags chunk n) h0' with ⟨-, h⟩ | ⟨h, -⟩
      · rw [hm] at h
        rw [h, List.flatMap_cons, List.filter_append, countsOf_append, query_filter]
      · exact absurd hm h
    · right
      refine ⟨hm, ?_⟩
      rw [selectLoop]
      simp only [maskSelect_eq, hm, if_false, query_filter, List.map_cons, reduceLoop]
      cases hs : sampleEvents S maxEvents stored total idx ((chunk.filter (passes c flags query)).map ev).dedup with
      | none => exact ⟨rfl, rfl, fun h => by cases h⟩
      | some sel =>
        rcases ih (stored + sel.length) (countsOf c flags chunk n) h0' with ⟨h, -⟩ | ⟨-, h1, h2, h3⟩
        · exact absurd h hm
        · refine ⟨by simp only [h1], h2, fun h => ?_⟩
          rw [List.flatMap_cons, ← countsOf_append]
          exact h3 h

theorem flatMap_filter_fst (p : R → Bool) (items : List (List R × Nat)) :
    (items.map fun it => (it.1.filter p, it.2)).flatMap Prod.fst = (items.flatMap Prod.fst).filter p := by
  induction items with
  | nil => rfl
  | cons it rest ih => simp only [List.map_cons, List.flatMap_cons, List.filter_append, ih]

theorem separated_filter {ev : R → Int} (p : R → Bool) {items : List (List R × Nat)} (h : BTA.Merge.Separated ev items) :
    BTA.Merge.Separated ev (items.map fun it => (it.1.filter p, it.2)) := by
  unfold BTA.Merge.Separated at h ⊢
  rw [List.pairwise_map]
  refine h.imp ?_
  intro a b hab x hx y hy
  exact hab x (List.mem_filter.mp hx).1 y (List.mem_filter.mp hy).1

end BTA.Sel
