import Verif.Spec.CheckFile
import Verif.Props.EventArrays
import Verif.Props.Dut
import Verif.Lemmas.Chunks
/-
Lemmas for `check_file`.
-/
namespace BTA.Check
open BTA.Dut BTA.Spec BTA.Check.Spec

theorem increasing_iff (last : Int) (l : List Int) : increasing last l = true ↔ (∀ e ∈ l, last ≤ e) ∧ l.Pairwise (· ≤ ·) := by
  induction l generalizing last with
  | nil => simp [increasing]
  | cons e l ih =>
    rw [increasing, Bool.and_eq_true, decide_eq_true_eq, ih, List.pairwise_cons]
    constructor
    · rintro ⟨h1, h2, h3⟩
      refine ⟨?_, h2, h3⟩
      intro x hx
      rcases List.mem_cons.mp hx with rfl | hx
      · exact h1
      · exact le_trans h1 (h2 x hx)
    · rintro ⟨h1, h2, h3⟩
      exact ⟨h1 e (by simp), h2, h3⟩

theorem increasing_append (last : Int) (l m : List Int) :
    increasing last (l ++ m) = (increasing last l && increasing (l.getLast?.getD last) m) := by
  induction l generalizing last with
  | nil => simp [increasing]
  | cons e l ih =>
    rw [List.cons_append, increasing, increasing, ih, Bool.and_assoc]
    congr 2
    cases l with
    | nil => rfl
    | cons b l =>
      rw [List.getLast?_cons_cons]
      rw [List.getLast?_eq_getLast_of_ne_nil (by simp)]
      rfl

theorem getLast?_dedup (l : List Int) : l.dedup.getLast? = l.getLast? := by
  induction l with
  | nil => rfl
  | cons a l ih =>
    by_cases h : a ∈ l
    · rw [List.dedup_cons_of_mem h, ih]
      cases l with
      | nil => simp at h
      | cons b l => rw [List.getLast?_cons_cons]
    · rw [List.dedup_cons_of_notMem h]
      cases l with
      | nil => rfl
      | cons b l =>
        rw [List.getLast?_cons_cons]
        cases hd : (b :: l).dedup with
        | nil => rw [List.dedup_eq_nil] at hd; simp at hd
        | cons x y => rw [List.getLast?_cons_cons, ← hd, ih]

theorem npUnique_sorted (l : List Int) (h : l.Pairwise (· ≤ ·)) : npUnique l = l.dedup := by
  unfold npUnique
  rw [List.mergeSort_of_pairwise]
  simpa using h

theorem dedup_strict (l : List Int) (h : l.Pairwise (· ≤ ·)) : l.dedup.Pairwise (· < ·) := by
  have h1 : l.dedup.Pairwise (· ≤ ·) := h.sublist (List.dedup_sublist l)
  have h2 : l.dedup.Pairwise (· ≠ ·) := List.nodup_dedup l
  exact (h1.and h2).imp fun ⟨a, b⟩ => lt_of_le_of_ne a b

/-! ### One chunk for small tables -/

theorem readRows_all {α : Type} (T : List α) (n : Nat) (h : T.length ≤ n) : readRows T 0 n = T := by
  unfold readRows
  rw [List.drop_zero, List.take_of_length_le h]

theorem single_chunk {α : Type} (ev : α → Int) (T : List α) (cs : Nat) (h : T.length ≤ cs) (hne : T ≠ []) :
    dataAligned ev T { chunkSize := cs } = ⟨[(T, T.length)], none⟩ := by
  have hl : 0 < T.length := List.length_pos_iff.mpr hne
  obtain ⟨first, hf⟩ : ∃ x, T.head? = some x := by cases T with | nil => simp at hne | cons a l => exact ⟨a, rfl⟩
  obtain ⟨last, hla⟩ : ∃ x, T.getLast? = some x := ⟨_, List.getLast?_eq_getLast_of_ne_nil hne⟩
  have hmin : min (0 + cs) T.length = T.length := by omega
  have h0 : dataLoop ev T none cs T.length (0 + T.length) = ⟨[], none⟩ := by
    rw [dataLoop]; simp
  rw [dataAligned_default, dataLoop]
  rw [dif_pos hl]
  dsimp only
  rw [hmin, readRows_all T T.length (le_refl _), hf, hla]
  have hns : chunkStopIndex (T.map ev) none true (ev last) = T.length := by simp [chunkStopIndex]
  dsimp only
  simp only [decide_true, hns]
  rw [dif_neg (Nat.pos_iff_ne_zero.mp hl), h0]
  simp

theorem no_chunk {α : Type} (ev : α → Int) (cs : Nat) : dataAligned ev [] { chunkSize := cs } = ⟨[], none⟩ := by
  rw [dataAligned_default, dataLoop]; simp

theorem chunks_ne_nil {α : Type} (ev : α → Int) (T : List α) (stop : Option Int) (cs n cur : Nat) :
    ∀ p ∈ (dataLoop ev T stop cs n cur).items, p.1 ≠ [] := by
  induction hn : n - cur using Nat.strong_induction_on generalizing cur with
  | _ m ih =>
    rw [dataLoop]
    split
    · next hcur =>
      dsimp only
      split
      · next first last hf hl =>
        split
        · split <;> simp
        · next hnz =>
          intro p hp
          rcases List.mem_cons.mp hp with rfl | hp
          · intro h0
            simp only [List.take_eq_nil_iff] at h0
            rcases h0 with h0 | h0
            · exact hnz h0
            · rw [h0] at hf; simp at hf
          · exact ih _ (by omega) _ rfl p hp
      · simp
    · simp

/-! ### The loop over the chunks -/

section
variable {K : Type} [Field K] [LinearOrder K] [FloorRing K]

/-- The checks and indices work row by row: `f` gives the indices of an accepted row. -/
structure Prepares (a : Args K) (t : Table K) (xs ys : K) (f : Row K → Option IHit) : Prop where
  ok : ∀ chunk hits, prepare a t xs ys chunk = .ok hits ↔ chunk.map f = hits.map some
  ev : ∀ r h, f r = some h → h.ev = r.ev

theorem map_some_iff {A B : Type} (f : A → Option B) (l : List A) (m : List B) :
    l.map f = m.map some ↔ (∀ r ∈ l, (f r).isSome = true) ∧ m = l.filterMap f := by
  induction l generalizing m with
  | nil => cases m <;> simp
  | cons x l ih =>
    cases hx : f x with
    | none => cases m <;> simp [hx]
    | some y =>
      cases m with
      | nil => simp [hx]
      | cons z m =>
        simp only [List.map_cons, List.cons.injEq, hx, Option.some.injEq, ih, List.mem_cons, forall_eq_or_imp, Option.isSome_some,
          true_and, List.filterMap_cons]
        constructor
        · rintro ⟨rfl, h1, h2⟩; exact ⟨h1, rfl, h2⟩
        · rintro ⟨h1, rfl, h2⟩; exact ⟨rfl, h1, h2⟩

/-- Pairs of a hit and an earlier hit. -/
def earlierPair (range : Nat) (P : IHit → IHit → Bool) (q p : IHit) : Bool :=
  decide (0 < q.ev - p.ev ∧ q.ev - p.ev ≤ range) && P q p

/-- The state after an accepted chunk. -/
def nextState (f : Row K → Option IHit) (range : Nat) (s : State) (chunk : List (Row K)) : State where
  xCorr := fun i j => s.xCorr i j +
    pairCount (chunk.filterMap f) (chunk.filterMap f) (earlierPair range fun q p => decide (p.x = i ∧ q.x = j))
  yCorr := fun i j => s.yCorr i j +
    pairCount (chunk.filterMap f) (chunk.filterMap f) (earlierPair range fun q p => decide (p.y = i ∧ q.y = j))
  eventDelta := s.eventDelta ++ deltas s.lastEvent (npUnique (chunk.map Row.ev))
  eventNumber := s.eventNumber ++ npUnique (chunk.map Row.ev)
  lastEvent := (npUnique (chunk.map Row.ev)).getLast?
  lastEventNumber := (npUnique (chunk.map Row.ev)).getLast?.getD 0

theorem filterMap_ev {a : Args K} {t : Table K} {xs ys : K} {f : Row K → Option IHit} (hf : Prepares a t xs ys f) (chunk : List (Row K))
    (h : ∀ r ∈ chunk, (f r).isSome = true) : (chunk.filterMap f).map IHit.ev = chunk.map Row.ev := by
  induction chunk with
  | nil => rfl
  | cons r l ih =>
    have := h r (by simp)
    obtain ⟨y, hy⟩ := Option.isSome_iff_exists.mp this
    rw [List.filterMap_cons, hy]
    simp only [List.map_cons]
    rw [ih fun r hr => h r (by simp [hr]), hf.ev r y hy]

theorem stepChunk_iff {a : Args K} {t : Table K} {xs ys : K} {f : Row K → Option IHit} (hf : Prepares a t xs ys f) (s s' : State)
    (chunk : List (Row K)) (h0 : 0 ≤ s.lastEventNumber) :
    stepChunk a t xs ys s chunk = .ok s' ↔
      increasing s.lastEventNumber (chunk.map Row.ev) = true ∧ (∀ r ∈ chunk, (f r).isSome = true) ∧ s' = nextState f a.eventRange s chunk := by
  unfold stepChunk
  by_cases hi : increasing s.lastEventNumber (chunk.map Row.ev) = true
  · rw [if_pos hi]
    cases hp : prepare a t xs ys chunk with
    | error e =>
      simp only [reduceCtorEq, false_iff]
      rintro ⟨-, h2, -⟩
      have := (hf.ok chunk (chunk.filterMap f)).mpr ((map_some_iff _ _ _).mpr ⟨h2, rfl⟩)
      rw [hp] at this
      simp at this
    | ok hits =>
      obtain ⟨h1, rfl⟩ := (map_some_iff _ _ _).mp ((hf.ok chunk hits).mp hp)
      have hev := filterMap_ev hf chunk h1
      obtain ⟨g1, g2⟩ := (increasing_iff _ _).mp hi
      have hs : SortedBy IHit.ev (chunk.filterMap f) := by
        unfold SortedBy
        rw [← List.pairwise_map (f := IHit.ev) (R := fun a b => a ≤ b), hev]
        exact g2
      have hne : ∀ q ∈ (chunk.filterMap f).head?, q.ev ≠ -1 := by
        intro q hq
        have hm : q.ev ∈ chunk.map Row.ev := by
          rw [← hev]; exact List.mem_map_of_mem (List.mem_of_mem_head? hq)
        have := g1 _ hm
        omega
      obtain ⟨res, hres, hc⟩ := Props.C09_event_range_correlation (chunk.filterMap f) s.xCorr s.yCorr a.eventRange hs hne
      dsimp only
      rw [hres]
      dsimp only
      have e1 : res.1 = (nextState f a.eventRange s chunk).xCorr := by
        funext i j; exact (hc i j).1
      have e2 : res.2 = (nextState f a.eventRange s chunk).yCorr := by
        funext i j; exact (hc i j).2
      rw [e1, e2]
      simp only [Except.ok.injEq, hi, h1, true_and]
      constructor
      · rintro rfl; exact ⟨fun _ hr => h1 _ hr, rfl⟩
      · rintro ⟨-, rfl⟩; rfl
  · rw [if_neg hi]
    simp [hi]

theorem lastEventNumber_next (f : Row K → Option IHit) (range : Nat) (s : State) (chunk : List (Row K)) (hne : chunk ≠ [])
    (hi : increasing s.lastEventNumber (chunk.map Row.ev) = true) :
    (nextState f range s chunk).lastEventNumber = (chunk.map Row.ev).getLast?.getD s.lastEventNumber ∧
    s.lastEventNumber ≤ (nextState f range s chunk).lastEventNumber := by
  obtain ⟨g1, g2⟩ := (increasing_iff _ _).mp hi
  have hm : chunk.map Row.ev ≠ [] := by simpa using hne
  have : (nextState f range s chunk).lastEventNumber = (chunk.map Row.ev).getLast hm := by
    unfold nextState
    dsimp only
    rw [npUnique_sorted _ g2, getLast?_dedup, List.getLast?_eq_getLast_of_ne_nil hm]
    rfl
  rw [this]
  refine ⟨by rw [List.getLast?_eq_getLast_of_ne_nil hm]; rfl, g1 _ (List.getLast_mem hm)⟩

theorem chunkLoop_iff {a : Args K} {t : Table K} {xs ys : K} {f : Row K → Option IHit} (hf : Prepares a t xs ys f)
    (cs : List (List (Row K))) (hne : ∀ c ∈ cs, c ≠ []) (s s' : State) (h0 : 0 ≤ s.lastEventNumber) :
    chunkLoop a t xs ys s cs = .ok s' ↔
      increasing s.lastEventNumber (cs.flatten.map Row.ev) = true ∧ (∀ r ∈ cs.flatten, (f r).isSome = true) ∧
      s' = cs.foldl (nextState f a.eventRange) s := by
  induction cs generalizing s with
  | nil =>
    simp only [chunkLoop, Except.ok.injEq, List.flatten_nil, List.map_nil, increasing, List.not_mem_nil, false_implies, implies_true,
      List.foldl_nil, true_and]
    exact eq_comm
  | cons c r ih =>
    rw [chunkLoop, List.flatten_cons, List.map_append, increasing_append, Bool.and_eq_true, List.foldl_cons]
    cases h : stepChunk a t xs ys s c with
    | error e =>
      simp only [reduceCtorEq, false_iff]
      rintro ⟨⟨h1, -⟩, h2, -⟩
      have := (stepChunk_iff hf s _ c h0).mpr ⟨h1, fun r hr => h2 r (List.mem_append.mpr (.inl hr)), rfl⟩
      rw [h] at this
      simp at this
    | ok s1 =>
      obtain ⟨h1, h2, rfl⟩ := (stepChunk_iff hf s s1 c h0).mp h
      have hl := lastEventNumber_next f a.eventRange s c (hne c (by simp)) h1
      dsimp only
      rw [ih (fun c hc => hne c (by simp [hc])) _ (le_trans h0 hl.2), hl.1]
      simp only [h1, true_and, List.mem_append]
      constructor
      · rintro ⟨a1, a2, a3⟩
        refine ⟨a1, ?_, a3⟩
        rintro r (hr | hr)
        · exact h2 r hr
        · exact a2 r hr
      · rintro ⟨a1, a2, a3⟩
        exact ⟨a1, fun r hr => a2 r (.inr hr), a3⟩

/-! ### Indices of rows -/

/-- The indices of a row with position `g r` that is accepted by `acc`. -/
def rowIndex (acc : Row K → Bool) (g : Row K → K × K) (xs ys : K) (res : K × K) (r : Row K) : Option IHit :=
  if acc r then
    match binIndex xs res.1 (g r).1, binIndex ys res.2 (g r).2 with
    | some i, some j => some ⟨r.ev, i, j⟩
    | _, _ => none
  else none

theorem toIndices_iff (g : Row K → K × K) (xs ys : K) (res : K × K) (chunk : List (Row K)) (hits : List IHit) :
    toIndices xs ys res chunk (chunk.map g) = some hits ↔ chunk.map (rowIndex (fun _ => true) g xs ys res) = hits.map some := by
  induction chunk generalizing hits with
  | nil => cases hits <;> simp [toIndices]
  | cons r l ih =>
    simp only [List.map_cons, toIndices, rowIndex, if_true]
    cases h1 : binIndex xs res.1 (g r).1 with
    | none => cases hits <;> simp
    | some i =>
      cases h2 : binIndex ys res.2 (g r).2 with
      | none => cases hits <;> simp
      | some j =>
        dsimp only
        cases h3 : toIndices xs ys res l (l.map g) with
        | none =>
          cases hits with
          | nil => simp
          | cons x m =>
            simp only [reduceCtorEq, List.map_cons, List.cons.injEq, false_iff, not_and]
            intro _ hm
            have := (ih m).mpr hm
            rw [h3] at this
            simp at this
        | some m' =>
          have hm' := (ih m').mp h3
          cases hits with
          | nil => simp
          | cons x m =>
            simp only [Option.some.injEq, List.cons.injEq, List.map_cons]
            constructor
            · rintro ⟨rfl, rfl⟩; exact ⟨rfl, hm'⟩
            · rintro ⟨rfl, hm⟩
              refine ⟨rfl, ?_⟩
              have e : m'.map some = m.map some := by rw [← hm', ← hm]
              exact List.map_injective_iff.mpr (Option.some_injective _) e

theorem prepares_of {a : Args K} {t : Table K} {xs ys : K} (acc : Row K → Bool) (g : Row K → K × K)
    (h1 : ∀ chunk, checkRows a.dut t chunk = .ok () ↔ ∀ r ∈ chunk, acc r = true)
    (h2 : ∀ chunk, (∀ r ∈ chunk, acc r = true) → localPositions a.dut t chunk = .ok (chunk.map g)) :
    Prepares a t xs ys (rowIndex acc g xs ys a.res) where
  ok chunk hits := by
    unfold prepare
    by_cases hall : ∀ r ∈ chunk, acc r = true
    · rw [(h1 chunk).mpr hall]
      dsimp only
      rw [h2 chunk hall]
      dsimp only
      have e : chunk.map (rowIndex acc g xs ys a.res) = chunk.map (rowIndex (fun _ => true) g xs ys a.res) := by
        apply List.map_congr_left
        intro r hr
        unfold rowIndex
        rw [if_pos (hall r hr), if_pos rfl]
      rw [e, ← toIndices_iff]
      cases toIndices xs ys a.res chunk (chunk.map g) <;> simp
    · have h3 : checkRows a.dut t chunk ≠ .ok () := fun h => hall ((h1 chunk).mp h)
      have h4 : ¬ chunk.map (rowIndex acc g xs ys a.res) = hits.map some := by
        intro h
        apply hall
        intro r hr
        have := ((map_some_iff _ _ _).mp h).1 r hr
        unfold rowIndex at this
        by_contra hn
        rw [if_neg hn] at this
        simp at this
      cases hc : checkRows a.dut t chunk with
      | error e => simp [h4]
      | ok u => exact absurd hc h3
  ev r h hr := by
    unfold rowIndex at hr
    split at hr
    · split at hr
      · injection hr with hr; subst hr; rfl
      · simp at hr
    · simp at hr

variable [IsStrictOrderedRing K]

theorem binIndex_some (size res x : K) (hr : 0 < res) (h1 : -(size / 2) ≤ x) (h2 : x < size / 2) :
    binIndex size res x = some ⌊(x - histStart size res) / res⌋₊ := by
  have hn : size / res ≤ nBins size res := Nat.le_ceil _
  have hs : size ≤ nBins size res * res := (div_le_iff₀ hr).mp hn
  have e : (x - histStart size res) / res = (x + nBins size res * res / 2) / res := by
    unfold histStart; congr 1; ring
  have v0 : 0 ≤ (x - histStart size res) / res := by
    rw [e]; apply div_nonneg _ hr.le; linarith
  have v1 : (x - histStart size res) / res < nBins size res := by
    rw [e, div_lt_iff₀ hr]; linarith
  unfold binIndex
  dsimp only
  rw [if_neg (by linarith), if_pos ((Nat.floor_lt v0).mpr v1)]

/-- The pixel of the local position of an index. -/
def indexPosition (d : Pixels K) (r : Row K) : K × K :=
  (d.columnSize * (r.plain.1 - (d.nColumns + 1) / 2), d.rowSize * (r.plain.2 - (d.nRows + 1) / 2))

/-- Accepted indices. -/
def accIndex (d : Pixels K) (r : Row K) : Bool :=
  decide ((1 ≤ r.plain.1 ∧ r.plain.1 ≤ d.nColumns) ∧ (1 ≤ r.plain.2 ∧ r.plain.2 ≤ d.nRows))

theorem prepares_index (a : Args K) (t : Table K) (xs ys : K) (ht : IndexTable t) :
    Prepares a t xs ys (rowIndex (accIndex a.dut) (indexPosition a.dut) xs ys a.res) := by
  obtain ⟨t1, t2, t3⟩ := ht
  apply prepares_of
  · intro chunk
    unfold checkRows accIndex
    rw [t2, t3]
    simp only [Bool.false_eq_true, if_false, Bool.not_true]
    split
    · next h =>
      simp only [reduceCtorEq, false_iff, not_forall, decide_eq_true_eq]
      rw [Bool.or_eq_true, List.any_eq_true, List.any_eq_true] at h
      rcases h with ⟨r, hr, h⟩ | ⟨r, hr, h⟩
      · exact ⟨r, hr, fun hh => absurd (of_decide_eq_true h) (not_lt.mpr hh.1.1)⟩
      · exact ⟨r, hr, fun hh => absurd (of_decide_eq_true h) (not_lt.mpr hh.2.1)⟩
    · next h =>
      split
      · next h' =>
        simp only [reduceCtorEq, false_iff, not_forall, decide_eq_true_eq]
        rw [Bool.or_eq_true, List.any_eq_true, List.any_eq_true] at h'
        rcases h' with ⟨r, hr, h'⟩ | ⟨r, hr, h'⟩
        · exact ⟨r, hr, fun hh => absurd (of_decide_eq_true h') (not_lt.mpr hh.1.2)⟩
        · exact ⟨r, hr, fun hh => absurd (of_decide_eq_true h') (not_lt.mpr hh.2.2)⟩
      · next h' =>
        simp only [true_iff, decide_eq_true_eq]
        intro r hr
        rw [Bool.or_eq_true, not_or, List.any_eq_true, List.any_eq_true] at h h'
        push Not at h h'
        refine ⟨⟨?_, ?_⟩, ?_, ?_⟩
        · exact not_lt.mp fun hh => h.1 r hr (decide_eq_true hh)
        · exact not_lt.mp fun hh => h'.1 r hr (decide_eq_true hh)
        · exact not_lt.mp fun hh => h.2 r hr (decide_eq_true hh)
        · exact not_lt.mp fun hh => h'.2 r hr (decide_eq_true hh)
  · intro chunk hall
    unfold localPositions
    rw [t1, t2]
    simp only [Bool.false_eq_true, if_false]
    cases h : indexToLocal a.dut (chunk.map fun r => r.plain) with
    | error e =>
      obtain ⟨-, p, hp, hh⟩ := (Props.C34_index_error_iff _ _ e).mp h
      obtain ⟨r, hr, rfl⟩ := List.mem_map.mp hp
      have := of_decide_eq_true (hall r hr)
      exfalso
      rcases hh with hh | hh | hh | hh <;> linarith [this.1.1, this.1.2, this.2.1, this.2.2]
    | ok ps =>
      rw [Props.C34_position _ _ _ h]
      simp only [List.map_map]
      rfl

/-- Accepted positions. -/
def accPosition (d : Pixels K) (r : Row K) : Bool :=
  decide ((-(d.nColumns * d.columnSize / 2) ≤ r.plain.1 ∧ r.plain.1 ≤ d.nColumns * d.columnSize / 2) ∧
    (-(d.nRows * d.rowSize / 2) ≤ r.plain.2 ∧ r.plain.2 ≤ d.nRows * d.rowSize / 2))

theorem checkRows_position (d : Pixels K) (t : Table K) (hc : 0 < d.columnSize) (hr : 0 < d.rowSize) (ht : PositionTable t)
    (chunk : List (Row K)) : checkRows d t chunk = if ∀ r ∈ chunk, accPosition d r = true then .ok () else .error .typeError := by
  obtain ⟨-, t2, t3⟩ := ht
  unfold checkRows
  rw [t2, t3, Props.xExtent_eq d hc, Props.yExtent_eq d hr]
  simp only [if_true, Bool.not_true, Bool.false_eq_true, if_false]
  split
  · next h =>
    rw [if_neg]
    intro hall
    rw [Bool.or_eq_true, List.any_eq_true, List.any_eq_true] at h
    rcases h with ⟨r, hr, h⟩ | ⟨r, hr, h⟩
    · exact absurd (of_decide_eq_true h) (not_lt.mpr (of_decide_eq_true (hall r hr)).1.1)
    · exact absurd (of_decide_eq_true h) (not_lt.mpr (of_decide_eq_true (hall r hr)).1.2)
  · next h =>
    split
    · next h' =>
      rw [if_neg]
      intro hall
      rw [Bool.or_eq_true, List.any_eq_true, List.any_eq_true] at h'
      rcases h' with ⟨r, hr, h'⟩ | ⟨r, hr, h'⟩
      · exact absurd (of_decide_eq_true h') (not_lt.mpr (of_decide_eq_true (hall r hr)).2.1)
      · exact absurd (of_decide_eq_true h') (not_lt.mpr (of_decide_eq_true (hall r hr)).2.2)
    · next h' =>
      rw [if_pos]
      intro r hr
      rw [Bool.or_eq_true, not_or, List.any_eq_true, List.any_eq_true] at h h'
      push Not at h h'
      refine decide_eq_true ⟨⟨?_, ?_⟩, ?_, ?_⟩
      · exact not_lt.mp fun hh => h.1 r hr (decide_eq_true hh)
      · exact not_lt.mp fun hh => h.2 r hr (decide_eq_true hh)
      · exact not_lt.mp fun hh => h'.1 r hr (decide_eq_true hh)
      · exact not_lt.mp fun hh => h'.2 r hr (decide_eq_true hh)

theorem prepares_position (a : Args K) (t : Table K) (xs ys : K) (hc : 0 < a.dut.columnSize) (hr : 0 < a.dut.rowSize)
    (ht : PositionTable t) : Prepares a t xs ys (rowIndex (accPosition a.dut) Row.plain xs ys a.res) := by
  apply prepares_of
  · intro chunk
    rw [checkRows_position a.dut t hc hr ht]
    split
    · next h => simpa using h
    · next h => simpa using h
  · intro chunk _
    unfold localPositions
    rw [ht.1, ht.2.1]
    simp

/-! ### The whole table -/

theorem checkFile_iff (a : Args K) (t : Table K) (hc : 0 < a.dut.columnSize) (hr : 0 < a.dut.rowSize) {f : Row K → Option IHit}
    (hf : Prepares a t (a.dut.nColumns * a.dut.columnSize) (a.dut.nRows * a.dut.rowSize) f) (s : State) :
    checkFile a t = .ok s ↔
      (dataAligned Row.ev t.rows { chunkSize := a.chunkSize }).err = none ∧
      increasing 0 (((dataAligned Row.ev t.rows { chunkSize := a.chunkSize }).items.map Prod.fst).flatten.map Row.ev) = true ∧
      (∀ r ∈ ((dataAligned Row.ev t.rows { chunkSize := a.chunkSize }).items.map Prod.fst).flatten, (f r).isSome = true) ∧
      s = ((dataAligned Row.ev t.rows { chunkSize := a.chunkSize }).items.map Prod.fst).foldl (nextState f a.eventRange) State.init := by
  unfold checkFile
  rw [Props.xExtent_eq _ hc, Props.yExtent_eq _ hr]
  dsimp only
  have e1 : (a.dut.nColumns * a.dut.columnSize / 2 - -(a.dut.nColumns * a.dut.columnSize / 2) : K) = a.dut.nColumns * a.dut.columnSize := by
    ring
  have e2 : (a.dut.nRows * a.dut.rowSize / 2 - -(a.dut.nRows * a.dut.rowSize / 2) : K) = a.dut.nRows * a.dut.rowSize := by ring
  rw [e1, e2]
  have hne : ∀ c ∈ (dataAligned Row.ev t.rows { chunkSize := a.chunkSize }).items.map Prod.fst, c ≠ [] := by
    intro c hc
    obtain ⟨p, hp, rfl⟩ := List.mem_map.mp hc
    rw [dataAligned_default] at hp
    exact chunks_ne_nil _ _ _ _ _ _ p hp
  have key := fun s' => chunkLoop_iff hf _ hne State.init s' (le_refl _)
  cases hl : chunkLoop a t (a.dut.nColumns * a.dut.columnSize) (a.dut.nRows * a.dut.rowSize) State.init
      ((dataAligned Row.ev t.rows { chunkSize := a.chunkSize }).items.map Prod.fst) with
  | error e =>
    simp only [reduceCtorEq, false_iff]
    rintro ⟨-, h⟩
    rw [(key s).mpr h] at hl
    simp at hl
  | ok s1 =>
    have := (key s1).mp hl
    dsimp only
    cases (dataAligned Row.ev t.rows { chunkSize := a.chunkSize }).err with
    | some e => simp
    | none =>
      simp only [Except.ok.injEq, true_and]
      constructor
      · rintro rfl; exact this
      · rintro ⟨-, -, rfl⟩; exact this.2.2

theorem delivered_all (a : Args K) (rows : List (Row K)) (h : Delivered a.chunkSize rows) :
    (dataAligned Row.ev rows { chunkSize := a.chunkSize }).err = none ∧
    ((dataAligned Row.ev rows { chunkSize := a.chunkSize }).items.map Prod.fst).flatten = rows := by
  rcases h with h | ⟨h1, h2, h3⟩
  · by_cases hne : rows = []
    · rw [hne, no_chunk]; exact ⟨rfl, rfl⟩
    · rw [single_chunk _ _ _ h hne]; simp
  · have he := chunks_ok h2 a.chunkSize h1 h3
    refine ⟨he, ?_⟩
    rcases (chunks_default h2 a.chunkSize h1).2.2 with ⟨g, -⟩ | ⟨-, g⟩
    · rw [he] at g; simp at g
    · rw [← List.flatMap_def]; exact g

theorem goodEvents_iff (rows : List (Row K)) : increasing 0 (rows.map Row.ev) = true ↔ GoodEvents rows := by
  rw [increasing_iff, List.forall_mem_map, List.pairwise_map]
  rfl

theorem foldl_eventNumber (f : Row K → Option IHit) (range : Nat) (cs : List (List (Row K))) (s : State) :
    (cs.foldl (nextState f range) s).eventNumber = s.eventNumber ++ cs.flatMap fun c => npUnique (c.map Row.ev) := by
  induction cs generalizing s with
  | nil => simp
  | cons c r ih => rw [List.foldl_cons, ih]; simp [nextState]

theorem foldl_corr (f : Row K → Option IHit) (range : Nat) (cs : List (List (Row K))) (s : State) (i j : Nat) :
    (cs.foldl (nextState f range) s).xCorr i j = s.xCorr i j + (cs.map fun c =>
      pairCount (c.filterMap f) (c.filterMap f) (earlierPair range fun q p => decide (p.x = i ∧ q.x = j))).sum ∧
    (cs.foldl (nextState f range) s).yCorr i j = s.yCorr i j + (cs.map fun c =>
      pairCount (c.filterMap f) (c.filterMap f) (earlierPair range fun q p => decide (p.y = i ∧ q.y = j))).sum := by
  induction cs generalizing s with
  | nil => simp
  | cons c r ih =>
    rw [List.foldl_cons, (ih _).1, (ih _).2]
    simp [nextState, Nat.add_assoc]

theorem npDiff_cons (a b : Int) (l : List Int) : npDiff (a :: b :: l) = (b - a) :: npDiff (b :: l) := rfl

theorem npDiff_append (l : List Int) (x e : Int) (m : List Int) : npDiff (l ++ [x] ++ e :: m) = npDiff (l ++ [x]) ++ (e - x) :: npDiff (e :: m) := by
  induction l with
  | nil => rfl
  | cons a l ih =>
    cases l with
    | nil => rfl
    | cons b l =>
      simp only [List.cons_append] at ih ⊢
      rw [npDiff_cons, ih, npDiff_cons]
      rfl

theorem foldl_delta (f : Row K → Option IHit) (range : Nat) (cs : List (List (Row K))) (hne : ∀ c ∈ cs, c ≠ []) (s : State)
    (h1 : s.eventDelta = npDiff s.eventNumber) (h2 : s.lastEvent = s.eventNumber.getLast?)
    (h3 : ∀ e ∈ s.eventNumber, e ≠ 0) (h4 : ∀ r ∈ cs.flatten, r.ev ≠ 0) :
    (cs.foldl (nextState f range) s).eventDelta = npDiff (cs.foldl (nextState f range) s).eventNumber := by
  induction cs generalizing s with
  | nil => exact h1
  | cons c r ih =>
    have hmem : ∀ x, x ∈ npUnique (c.map Row.ev) ↔ x ∈ c.map Row.ev := by intro x; simp [npUnique]
    have hu : npUnique (c.map Row.ev) ≠ [] := by
      intro h0
      obtain ⟨x, hx⟩ := List.exists_mem_of_ne_nil c (hne c (by simp))
      have := (hmem x.ev).mpr (List.mem_map_of_mem hx)
      rw [h0] at this; simp at this
    rw [List.foldl_cons]
    apply ih (fun c hc => hne c (by simp [hc]))
    · show s.eventDelta ++ deltas s.lastEvent (npUnique (c.map Row.ev)) = npDiff (s.eventNumber ++ npUnique (c.map Row.ev))
      obtain ⟨e, m, hem⟩ := List.exists_cons_of_ne_nil hu
      rw [hem, h2]
      rcases List.eq_nil_or_concat s.eventNumber with h0 | ⟨l, x, h0⟩
      · rw [h0, h1, h0]; rfl
      · rw [List.concat_eq_append] at h0
        have hx : x ≠ 0 := h3 x (by rw [h0]; simp)
        rw [h1, h0, npDiff_append]
        simp [deltas, hx]
    · show (npUnique (c.map Row.ev)).getLast? = (s.eventNumber ++ npUnique (c.map Row.ev)).getLast?
      rw [List.getLast?_append_of_ne_nil _ hu]
    · intro e he
      rcases List.mem_append.mp he with he | he
      · exact h3 e he
      · obtain ⟨x, hx, rfl⟩ := List.mem_map.mp ((hmem e).mp he)
        exact h4 x (by simp [hx])
    · intro x hx; exact h4 x (by simp only [List.flatten_cons, List.mem_append]; exact .inr hx)

theorem eventNumber_different (f : Row K → Option IHit) (range cs : Nat) (rows : List (Row K)) (hd : Delivered cs rows)
    (hg : SortedBy Row.ev rows) :
    DifferentOf (rows.map Row.ev)
      (((dataAligned Row.ev rows { chunkSize := cs }).items.map Prod.fst).foldl (nextState f range) State.init).eventNumber := by
  rw [foldl_eventNumber]
  have hall : ((dataAligned Row.ev rows { chunkSize := cs }).items.map Prod.fst).flatten = rows := by
    have := (delivered_all (K := K) ⟨⟨0, 0, 0, 0⟩, none, range, cs⟩ rows hd).2
    exact this
  generalize hc : (dataAligned Row.ev rows { chunkSize := cs }).items.map Prod.fst = chunks at hall ⊢
  have hsep : chunks.Pairwise fun p q => ∀ x ∈ p, ∀ y ∈ q, x.ev < y.ev := by
    rw [← hc, List.pairwise_map]
    rcases hd with h | ⟨h1, h2, -⟩
    · by_cases hne : rows = []
      · rw [hne, no_chunk]; exact List.Pairwise.nil
      · rw [single_chunk _ _ _ h hne]; simp
    · exact (chunks_default h2 cs h1).1
  have hs : ∀ c ∈ chunks, (c.map Row.ev).Pairwise (· ≤ ·) := by
    intro c hc
    rw [List.pairwise_map]
    unfold SortedBy at hg
    rw [← hall, List.pairwise_flatten] at hg
    exact hg.1 c hc
  have hmem : ∀ (c : List (Row K)) x, x ∈ npUnique (c.map Row.ev) ↔ x ∈ c.map Row.ev := by intro c x; simp [npUnique]
  constructor
  · show ([] ++ _).Pairwise _
    rw [List.nil_append, List.flatMap_def, List.pairwise_flatten, List.pairwise_map]
    constructor
    · intro l hl
      obtain ⟨c, hc, rfl⟩ := List.mem_map.mp hl
      rw [npUnique_sorted _ (hs c hc)]
      exact dedup_strict _ (hs c hc)
    · apply hsep.imp
      intro p q h x hx y hy
      obtain ⟨x', hx', rfl⟩ := List.mem_map.mp ((hmem p x).mp hx)
      obtain ⟨y', hy', rfl⟩ := List.mem_map.mp ((hmem q y).mp hy)
      exact h x' hx' y' hy'
  · intro e
    show e ∈ [] ++ _ ↔ _
    rw [List.nil_append, List.mem_flatMap, ← hall, List.mem_map]
    constructor
    · rintro ⟨c, hc, he⟩
      obtain ⟨x, hx, rfl⟩ := List.mem_map.mp ((hmem c e).mp he)
      exact ⟨x, List.mem_flatten.mpr ⟨c, hc, hx⟩, rfl⟩
    · rintro ⟨x, hx, rfl⟩
      obtain ⟨c, hc, hx⟩ := List.mem_flatten.mp hx
      exact ⟨c, hc, (hmem c _).mpr (List.mem_map_of_mem hx)⟩

theorem distances_npDiff (l : List Int) : Distances l (npDiff l) := by
  unfold Distances npDiff
  refine ⟨by simp, ?_⟩
  intro i h h1
  simp

end

end BTA.Check
