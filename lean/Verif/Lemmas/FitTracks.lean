import Verif.Spec.Tracks
import Verif.Lemmas.Chunks
import Verif.Lemmas.Isolation
import Verif.Props.Bits
import Mathlib.Data.Finset.Card
/-
Lemmas about the model of `fit_tracks`.
-/
namespace BTA.Fit
open BTA.Iso BTA.Spec

/-! ### Masks -/

theorem foldl_mask_testBit (duts : List Nat) (m i : Nat) :
    (duts.foldl (fun m d => m ||| (1 <<< d)) m).testBit i = (m.testBit i || decide (i ∈ duts)) := by
  induction duts generalizing m with
  | nil => simp
  | cons d l ih =>
    rw [List.foldl_cons, ih, Nat.testBit_or, Nat.one_shiftLeft, Nat.testBit_two_pow]
    by_cases h : d = i
    · subst h; simp
    · simp [h, show ¬ i = d from fun h' => h h'.symm]

theorem dutMask_testBit (duts : List Nat) (i : Nat) : (dutMask duts).testBit i = decide (i ∈ duts) := by
  simp [dutMask, foldl_mask_testBit]

theorem setBits_mask (flag : Nat) (hf : flag < 2 ^ 32) (duts : List Nat) :
    numberOfSetBits (flag &&& dutMask duts) = (duts.toFinset.filter fun d => flag.testBit d = true).card := by
  rw [BTA.Props.C19_popcount _ (Nat.lt_of_le_of_lt Nat.and_le_left hf)]
  have : ((List.range 32).filter fun i => (flag &&& dutMask duts).testBit i).toFinset
      = duts.toFinset.filter fun d => flag.testBit d = true := by
    ext i
    simp only [List.mem_toFinset, List.mem_filter, List.mem_range, Nat.testBit_and, dutMask_testBit, Bool.and_eq_true,
      decide_eq_true_eq, Finset.mem_filter]
    constructor
    · rintro ⟨-, h1, h2⟩; exact ⟨h2, h1⟩
    · rintro ⟨h1, h2⟩
      refine ⟨?_, h2, h1⟩
      by_contra hc
      rw [Nat.testBit_lt_two_pow (Nat.lt_of_lt_of_le hf (Nat.pow_le_pow_right (by omega) (by omega)))] at h2
      cases h2
  rw [← this, List.toFinset_card_of_nodup (List.nodup_range.filter _)]

theorem hitMask_iff (flag : Nat) (duts : List Nat) :
    flag &&& dutMask duts = dutMask duts ↔ ∀ d ∈ duts, flag.testBit d = true := by
  constructor
  · intro h d hd
    have := congrArg (fun n => Nat.testBit n d) h
    simp only [Nat.testBit_and, dutMask_testBit, hd, decide_true, Bool.and_true] at this
    exact this
  · intro h
    apply Nat.eq_of_testBit_eq
    intro i
    rw [Nat.testBit_and, dutMask_testBit]
    by_cases hi : i ∈ duts
    · simp [hi, h i hi]
    · simp [hi]

/-! ### Boolean indexing -/

theorem compress_map (l : List α) (f : α → β) (p : α → Bool) : compress (l.map f) (l.map p) = (l.filter p).map f := by
  induction l with
  | nil => rfl
  | cons a l ih =>
    unfold compress at ih ⊢
    simp only [List.map_cons, List.zip_cons_cons, List.filter_cons]
    by_cases h : p a = true
    · simp only [h, if_true, List.map_cons, ih]
    · simp only [h, Bool.false_eq_true, if_false, ih]

theorem zipWith_map_map (l : List α) (f : α → β) (g : α → γ) (h : β → γ → δ) :
    List.zipWith h (l.map f) (l.map g) = l.map fun a => h (f a) (g a) := by
  induction l with
  | nil => rfl
  | cons a l ih => simp [ih]

theorem map_fst_zipIdx (l : List α) (off : Nat) (f : α → β) : l.map f = (l.zipIdx off).map fun p => f p.1 := by
  conv_lhs => rw [← List.zipIdx_map_fst off l]
  rw [List.map_map]; rfl

theorem zipIdx_nodup (l : List α) (off : Nat) : (l.zipIdx off).Nodup := by
  apply List.Nodup.of_map Prod.snd
  rw [List.zipIdx_map_snd]
  exact List.nodup_range'

theorem getElem_inj_of_nodup {l : List α} (h : l.Nodup) {i j : Nat} (hi : i < l.length) (hj : j < l.length) :
    l[i] = l[j] ↔ i = j := List.Nodup.getElem_inj_iff h

/-! ### Flags -/

variable {K R : Type} [Field K] [LinearOrder K] [IsStrictOrderedRing K]

open Classical in
theorem smallDistance_map {β : Type} (e : Bool) (mx my : K) (L : List β) (hn : L.Nodup) (g : β → Pt K)
    (hs : SortedBy (fun b => (g b).event) L) :
    smallDistance e mx my (L.map g) = L.map fun p => decide (∃ q ∈ L, q ≠ p ∧ (g q).event = (g p).event ∧
      close e mx my (g p) (g q) = true) := by
  have hs' : SortedBy Pt.event (L.map g) := by
    unfold SortedBy at *
    rw [List.pairwise_map]; exact hs
  obtain ⟨h1, h2⟩ := smallDistance_spec e mx my (L.map g) hs'
  apply List.ext_getElem (by simpa using h1)
  intro i hi hi'
  have hiL : i < L.length := by simpa using hi'
  have h3 := h2 i (by simpa using hi')
  unfold F at h3
  rw [List.getElem?_eq_getElem hi] at h3
  rw [Bool.eq_iff_iff, ← Option.some_inj (b := true), h3]
  simp only [List.getElem_map, decide_eq_true_eq, List.length_map]
  constructor
  · rintro ⟨j, hj, h4, h5, h6⟩
    exact ⟨L[j], List.getElem_mem _, fun h => h4 ((getElem_inj_of_nodup hn hj hiL).mp h), h5, h6⟩
  · rintro ⟨q, hq, h4, h5, h6⟩
    obtain ⟨j, hj, rfl⟩ := List.mem_iff_getElem.mp hq
    exact ⟨j, hj, fun h => h4 (by subst h; rfl), h5, h6⟩

/-- The point used for the search of close tracks. -/
def trackPt (est : Cand K → Nat → Est K R) (d : Nat) (c : Cand K) : Pt K := ⟨c.event, (est c d).x, (est c d).y⟩
/-- The point used for the search of close hits. -/
def hitPt (d : Nat) (c : Cand K) : Pt K := ⟨c.event, c.x d, c.y d⟩

/-- another fitted track of the event is close -/
def TrackClose (est : Cand K → Nat → Est K R) (Z : List (Cand K × Nat)) (pf : Cand K → Bool) (d : Nat) (P : Plane K)
    (p : Cand K × Nat) : Prop :=
  ∃ q ∈ Z, pf q.1 = true ∧ q ≠ p ∧ q.1.event = p.1.event ∧
    close true (isoDist P).1 (isoDist P).2 (trackPt est d p.1) (trackPt est d q.1) = true

/-- another hit of the event is close -/
def HitClose (Z : List (Cand K × Nat)) (d : Nat) (P : Plane K) (p : Cand K × Nat) : Prop :=
  ∃ q ∈ Z, q ≠ p ∧ q.1.event = p.1.event ∧
    close (useEllipse P) (isoDist P).1 (isoDist P).2 (hitPt d p.1) (hitPt d q.1) = true

open Classical in
/-- flags of a track after one step of the loop over the DUTs -/
noncomputable def stepFlags (est : Cand K → Nat → Est K R) (Z : List (Cand K × Nat)) (pf : Cand K → Bool) (d : Nat)
    (P : Plane K) (f : Flags) (p : Cand K × Nat) : Flags :=
  ⟨setBit f.quality (dutQuality P (p.1.x d) (p.1.y d) (est p.1 d)) d,
   setBit f.track (!decide (TrackClose est Z pf d P p)) d,
   setBit f.hit (!decide (HitClose Z d P p)) d⟩

noncomputable def flagsFrom (est : Cand K → Nat → Est K R) (Z : List (Cand K × Nat)) (pf : Cand K → Bool) :
    Nat → List (Plane K) → Flags → Cand K × Nat → Flags
  | _, [], f, _ => f
  | d, P :: rest, f, p => flagsFrom est Z pf (d + 1) rest (stepFlags est Z pf d P f p) p

theorem sorted_zipIdx {chunk : List (Cand K)} (hs : SortedBy Cand.event chunk) (off : Nat) :
    SortedBy (fun p : Cand K × Nat => p.1.event) (chunk.zipIdx off) := by
  unfold SortedBy at *
  rw [← List.pairwise_map (f := Prod.fst) (R := fun a b => Cand.event a ≤ Cand.event b), List.zipIdx_map_fst]
  exact hs

theorem dutFlags_map (est : Cand K → Nat → Est K R) (chunk : List (Cand K)) (hs : SortedBy Cand.event chunk) (off : Nat)
    (pf : Cand K → Bool) (d : Nat) (P : Plane K) (G : Cand K × Nat → Flags) :
    dutFlags est chunk (chunk.map pf) d P (((chunk.zipIdx off).filter fun p => pf p.1).map G)
      = ((chunk.zipIdx off).filter fun p => pf p.1).map fun p => stepFlags est (chunk.zipIdx off) pf d P (G p) p := by
  classical
  have hZ := zipIdx_nodup chunk off
  have hsZ := sorted_zipIdx hs off
  have hL : ((chunk.zipIdx off).filter fun p => pf p.1).Nodup := hZ.filter _
  have hsL : SortedBy (fun p : Cand K × Nat => p.1.event) ((chunk.zipIdx off).filter fun p => pf p.1) :=
    List.Pairwise.filter _ hsZ
  have hfit : compress chunk (chunk.map pf) = ((chunk.zipIdx off).filter fun p => pf p.1).map Prod.fst := by
    rw [show compress chunk (chunk.map pf) = compress ((chunk.zipIdx off).map Prod.fst) ((chunk.zipIdx off).map fun p => pf p.1) by
      rw [List.zipIdx_map_fst, ← map_fst_zipIdx], compress_map]
  unfold dutFlags
  simp only [hfit, List.map_map]
  have ht := smallDistance_map true (isoDist P).1 (isoDist P).2 _ hL
    (fun p : Cand K × Nat => (⟨p.1.event, (est p.1 d).x, (est p.1 d).y⟩ : Pt K)) hsL
  have hh := smallDistance_map (useEllipse P) (isoDist P).1 (isoDist P).2 _ hZ
    (fun p : Cand K × Nat => (⟨p.1.event, p.1.x d, p.1.y d⟩ : Pt K)) hsZ
  rw [show (chunk.map fun c => (⟨c.event, c.x d, c.y d⟩ : Pt K)) = (chunk.zipIdx off).map fun p => ⟨p.1.event, p.1.x d, p.1.y d⟩
    from map_fst_zipIdx chunk off _, hh, show chunk.map pf = (chunk.zipIdx off).map fun p => pf p.1 from map_fst_zipIdx chunk off _,
    compress_map]
  rw [show ((fun c : Cand K => (⟨c.event, (est c d).x, (est c d).y⟩ : Pt K)) ∘ Prod.fst)
    = fun p : Cand K × Nat => (⟨p.1.event, (est p.1 d).x, (est p.1 d).y⟩ : Pt K) from rfl, ht]
  rw [zipWith_map_map, zipWith_map_map, zipWith_map_map]
  apply List.map_congr_left
  intro p hp
  simp only [stepFlags, Function.comp]
  have key : ∀ (A B : Prop) (i1 : Decidable A) (i2 : Decidable B), (A ↔ B) → @decide A i1 = @decide B i2 := by
    intro A B i1 i2 h
    exact decide_eq_decide.mpr h
  congr 3
  · apply key
    unfold TrackClose
    constructor
    · rintro ⟨q, hq, h1, h2, h3⟩
      rw [List.mem_filter] at hq
      exact ⟨q, hq.1, hq.2, h1, h2, h3⟩
    · rintro ⟨q, hq, h0, h1, h2, h3⟩
      exact ⟨q, List.mem_filter.mpr ⟨hq, h0⟩, h1, h2, h3⟩
  · apply key
    exact Iff.rfl

theorem dutLoop_map (est : Cand K → Nat → Est K R) (chunk : List (Cand K)) (hs : SortedBy Cand.event chunk) (off : Nat)
    (pf : Cand K → Bool) (planes : List (Plane K)) (hneg : ∀ P ∈ planes, negative P = false) (d : Nat)
    (G : Cand K × Nat → Flags) :
    dutLoop est chunk (chunk.map pf) d planes (((chunk.zipIdx off).filter fun p => pf p.1).map G)
      = .ok (((chunk.zipIdx off).filter fun p => pf p.1).map fun p =>
          flagsFrom est (chunk.zipIdx off) pf d planes (G p) p) := by
  induction planes generalizing d G with
  | nil => rfl
  | cons P rest ih =>
    rw [dutLoop, if_neg (by simp [hneg P]), dutFlags_map est chunk hs off]
    exact ih (fun Q hQ => hneg Q (List.mem_cons_of_mem _ hQ)) (d + 1) _

theorem dutLoop_negative (est : Cand K → Nat → Est K R) (chunk : List (Cand K)) (m : List Bool) (planes : List (Plane K))
    (hneg : ∃ P ∈ planes, negative P = true) (d : Nat) (fl : List Flags) :
    dutLoop est chunk m d planes fl = .error .negativeDistance := by
  induction planes generalizing d fl with
  | nil => obtain ⟨P, h, -⟩ := hneg; cases h
  | cons P rest ih =>
    rw [dutLoop]
    by_cases h : negative P = true
    · rw [if_pos h]
    · rw [if_neg h]
      apply ih
      obtain ⟨Q, hQ, hn⟩ := hneg
      rcases List.mem_cons.mp hQ with rfl | hQ
      · exact absurd hn h
      · exact ⟨Q, hQ, hn⟩

/-- the row stored for a candidate in the table of DUT `k` -/
noncomputable def rowOf (est : Cand K → Nat → Est K R) (planes : List (Plane K)) (Z : List (Cand K × Nat))
    (pf : Cand K → Bool) (k : Nat) (p : Cand K × Nat) : Row K R :=
  ⟨p.1, est p.1 k, flagsFrom est Z pf 0 planes ⟨0, 0, 0⟩ p⟩

theorem storeTrackData_eq (est : Cand K → Nat → Est K R) (planes : List (Plane K))
    (hneg : ∀ P ∈ planes, negative P = false) (chunk : List (Cand K)) (hs : SortedBy Cand.event chunk) (off : Nat)
    (pf ps : Cand K → Bool) (hps : ∀ c, ps c = true → pf c = true) :
    storeTrackData est planes false chunk (chunk.map pf) (chunk.map ps)
      = .ok fun k => ((chunk.zipIdx off).filter fun p => ps p.1).map (rowOf est planes (chunk.zipIdx off) pf k) := by
  have hfit : compress chunk (chunk.map pf) = ((chunk.zipIdx off).filter fun p => pf p.1).map Prod.fst := by
    rw [show compress chunk (chunk.map pf) = compress ((chunk.zipIdx off).map Prod.fst) ((chunk.zipIdx off).map fun p => pf p.1) by
      rw [List.zipIdx_map_fst, ← map_fst_zipIdx], compress_map]
  have hst : compress chunk (chunk.map ps) = ((chunk.zipIdx off).filter fun p => ps p.1).map Prod.fst := by
    rw [show compress chunk (chunk.map ps) = compress ((chunk.zipIdx off).map Prod.fst) ((chunk.zipIdx off).map fun p => ps p.1) by
      rw [List.zipIdx_map_fst, ← map_fst_zipIdx], compress_map]
  have hrep : List.replicate (compress chunk (chunk.map pf)).length (⟨0, 0, 0⟩ : Flags)
      = ((chunk.zipIdx off).filter fun p => pf p.1).map fun _ => ⟨0, 0, 0⟩ := by
    rw [hfit, List.length_map, List.map_const']
  have hfs : compress (chunk.map ps) (chunk.map pf) = ((chunk.zipIdx off).filter fun p => pf p.1).map fun p => ps p.1 := by
    rw [map_fst_zipIdx chunk off ps, map_fst_zipIdx chunk off pf, compress_map]
  have hff : (((chunk.zipIdx off).filter fun p => pf p.1).filter fun p => ps p.1) = (chunk.zipIdx off).filter fun p => ps p.1 := by
    rw [List.filter_filter]
    congr 1
    funext p
    cases h : ps p.1 with
    | false => simp
    | true => simp [hps _ h]
  unfold storeTrackData
  rw [hrep, dutLoop_map est chunk hs off pf planes hneg]
  simp only [Bool.false_eq_true, if_false, hfs]
  congr 1
  funext k
  rw [hst, hfit, List.map_map, compress_map, compress_map, hff, List.zip_eq_zipWith, zipWith_map_map, zipWith_map_map]
  rfl

/-! ### Bits of the flags -/

theorem setBit_testBit (f : Nat) (b : Bool) (d i : Nat) :
    (setBit f b d).testBit i = true ↔ f.testBit i = true ∨ (i = d ∧ b = true) := by
  unfold setBit
  cases b with
  | false => simp
  | true =>
    rw [if_pos rfl, Nat.testBit_or, Nat.one_shiftLeft, Nat.testBit_two_pow]
    by_cases h : d = i
    · subst h; simp
    · simp [h, show ¬ i = d from fun h' => h h'.symm]

omit [IsStrictOrderedRing K] in
theorem flagsFrom_bits (est : Cand K → Nat → Est K R) (Z : List (Cand K × Nat)) (pf : Cand K → Bool) (d : Nat)
    (planes : List (Plane K)) (f : Flags) (p : Cand K × Nat) (i : Nat) :
    ((flagsFrom est Z pf d planes f p).quality.testBit i = true ↔ f.quality.testBit i = true ∨
      ∃ j P, planes[j]? = some P ∧ i = d + j ∧ dutQuality P (p.1.x i) (p.1.y i) (est p.1 i) = true) ∧
    ((flagsFrom est Z pf d planes f p).track.testBit i = true ↔ f.track.testBit i = true ∨
      ∃ j P, planes[j]? = some P ∧ i = d + j ∧ ¬ TrackClose est Z pf i P p) ∧
    ((flagsFrom est Z pf d planes f p).hit.testBit i = true ↔ f.hit.testBit i = true ∨
      ∃ j P, planes[j]? = some P ∧ i = d + j ∧ ¬ HitClose Z i P p) := by
  classical
  induction planes generalizing d f with
  | nil => simp [flagsFrom]
  | cons P rest ih =>
    obtain ⟨h1, h2, h3⟩ := ih (d + 1) (stepFlags est Z pf d P f p)
    have key : ∀ (A : Nat → Plane K → Prop), ((i = d ∧ A d P) ∨ ∃ j Q, rest[j]? = some Q ∧ i = d + 1 + j ∧ A i Q) ↔
        ∃ j Q, (P :: rest)[j]? = some Q ∧ i = d + j ∧ A i Q := by
      intro A
      constructor
      · rintro (⟨rfl, h⟩ | ⟨j, Q, hj, hi, h⟩)
        · exact ⟨0, P, rfl, rfl, h⟩
        · exact ⟨j + 1, Q, by simpa using hj, by omega, h⟩
      · rintro ⟨j, Q, hj, hi, h⟩
        cases j with
        | zero =>
          simp only [List.getElem?_cons_zero, Option.some.injEq] at hj
          subst hj
          have : i = d := by omega
          subst this
          exact .inl ⟨rfl, h⟩
        | succ j => exact .inr ⟨j, Q, by simpa using hj, by omega, h⟩
    refine ⟨?_, ?_, ?_⟩
    · rw [flagsFrom, h1, stepFlags, setBit_testBit, or_assoc]
      exact or_congr Iff.rfl (key fun d P => dutQuality P (p.1.x d) (p.1.y d) (est p.1 d) = true)
    · rw [flagsFrom, h2, stepFlags, setBit_testBit, or_assoc]
      refine or_congr Iff.rfl (Iff.trans ?_ (key fun d P => ¬ TrackClose est Z pf d P p))
      simp
    · rw [flagsFrom, h3, stepFlags, setBit_testBit, or_assoc]
      refine or_congr Iff.rfl (Iff.trans ?_ (key fun d P => ¬ HitClose Z d P p))
      simp

omit [IsStrictOrderedRing K] in
/-- Only the rows of the same event matter. -/
theorem flagsFrom_local (est : Cand K → Nat → Est K R) (Z Z' : List (Cand K × Nat)) (pf : Cand K → Bool) (d : Nat)
    (planes : List (Plane K)) (f : Flags) (p : Cand K × Nat)
    (h : ∀ q : Cand K × Nat, q.1.event = p.1.event → (q ∈ Z ↔ q ∈ Z')) :
    flagsFrom est Z pf d planes f p = flagsFrom est Z' pf d planes f p := by
  have h1 : ∀ d P, TrackClose est Z pf d P p ↔ TrackClose est Z' pf d P p := by
    intro d P
    unfold TrackClose
    constructor
    · rintro ⟨q, hq, h1, h2, h3, h4⟩; exact ⟨q, (h q h3).mp hq, h1, h2, h3, h4⟩
    · rintro ⟨q, hq, h1, h2, h3, h4⟩; exact ⟨q, (h q h3).mpr hq, h1, h2, h3, h4⟩
  have h2 : ∀ d P, HitClose Z d P p ↔ HitClose Z' d P p := by
    intro d P
    unfold HitClose
    constructor
    · rintro ⟨q, hq, h2, h3, h4⟩; exact ⟨q, (h q h3).mp hq, h2, h3, h4⟩
    · rintro ⟨q, hq, h2, h3, h4⟩; exact ⟨q, (h q h3).mpr hq, h2, h3, h4⟩
  induction planes generalizing d f with
  | nil => rfl
  | cons P rest ih =>
    rw [flagsFrom, flagsFrom, ih]
    congr 1
    unfold stepFlags
    rw [decide_eq_decide.mpr (h1 d P), decide_eq_decide.mpr (h2 d P)]

/-! ### Loop over the chunks -/

theorem selectStore_fit (kalman : Bool) (c : DutCfg) (flag : Nat) (h : selectStore kalman c flag = true) :
    selectFit kalman c flag = true := by
  unfold selectStore at h
  simp only [Bool.and_eq_true] at h
  exact h.1.1

omit [Field K] [LinearOrder K] [IsStrictOrderedRing K] in
theorem chunk_local {A : List (Cand K × Nat)} {chunk rest : List (Cand K)} {off : Nat} {Z : List (Cand K × Nat)}
    (hZ : Z = A ++ (chunk ++ rest).zipIdx off) (hA : ∀ a ∈ A, ∀ b ∈ chunk, a.1.event < b.event)
    (hsep : ∀ x ∈ chunk, ∀ y ∈ rest, x.event < y.event) {p : Cand K × Nat} (hp : p ∈ chunk.zipIdx off)
    (q : Cand K × Nat) (hq : q.1.event = p.1.event) : q ∈ chunk.zipIdx off ↔ q ∈ Z := by
  have hp1 : p.1 ∈ chunk := List.fst_mem_of_mem_zipIdx hp
  subst hZ
  rw [List.zipIdx_append, List.mem_append, List.mem_append]
  constructor
  · intro h; exact .inr (.inl h)
  · rintro (h | h | h)
    · have := hA q h p.1 hp1; omega
    · exact h
    · have := hsep p.1 hp1 q.1 (List.fst_mem_of_mem_zipIdx h); omega

omit [IsStrictOrderedRing K] in
theorem rows_local (est : Cand K → Nat → Est K R) (planes : List (Plane K)) (pf : Cand K → Bool)
    {A : List (Cand K × Nat)} {chunk rest : List (Cand K)} {off : Nat} {Z : List (Cand K × Nat)}
    (hZ : Z = A ++ (chunk ++ rest).zipIdx off) (hA : ∀ a ∈ A, ∀ b ∈ chunk, a.1.event < b.event)
    (hsep : ∀ x ∈ chunk, ∀ y ∈ rest, x.event < y.event) (k : Nat) (ps : Cand K × Nat → Bool) :
    ((chunk.zipIdx off).filter ps).map (rowOf est planes (chunk.zipIdx off) pf k)
      = ((chunk.zipIdx off).filter ps).map (rowOf est planes Z pf k) := by
  apply List.map_congr_left
  intro p hp
  unfold rowOf
  congr 1
  exact flagsFrom_local _ _ _ _ _ _ _ _ fun q hq => chunk_local hZ hA hsep (List.mem_filter.mp hp).1 q hq

theorem chunkLoop_all (est : Cand K → Nat → Est K R) (planes : List (Plane K)) (hneg : ∀ P ∈ planes, negative P = false)
    (kalman : Bool) (c : DutCfg) (S : Sampling) (total : Nat) (items : List (List (Cand K) × Nat))
    (hsort : ∀ it ∈ items, SortedBy Cand.event it.1) (hsep : BTA.Merge.Separated Cand.event items) (off : Nat)
    (hidx : Indexed off items) (A Z : List (Cand K × Nat)) (hZ : Z = A ++ (items.flatMap Prod.fst).zipIdx off)
    (hA : ∀ a ∈ A, ∀ b ∈ items.flatMap Prod.fst, a.1.event < b.event) (stored : Nat) :
    chunkLoop est planes false kalman c S 0 total items stored
      = .ok fun k => (((items.flatMap Prod.fst).zipIdx off).filter fun p => selectStore kalman c p.1.flag).map
          (rowOf est planes Z (fun t => selectFit kalman c t.flag) k) := by
  induction items generalizing off A stored with
  | nil => rfl
  | cons it rest ih =>
    obtain ⟨chunk, idx⟩ := it
    obtain ⟨hi, -, hidx⟩ := hidx
    unfold BTA.Merge.Separated at hsep
    rw [List.pairwise_cons] at hsep
    have hsep1 : ∀ x ∈ chunk, ∀ y ∈ rest.flatMap Prod.fst, x.event < y.event := by
      intro x hx y hy
      obtain ⟨q, hq, hy⟩ := List.mem_flatMap.mp hy
      exact hsep.1 q hq x hx y hy
    rw [List.flatMap_cons] at hZ hA ⊢
    have hih := ih (fun it hit => hsort it (List.mem_cons_of_mem _ hit)) hsep.2 idx hidx (A ++ chunk.zipIdx off)
      (by rw [hZ, List.zipIdx_append, hi, List.append_assoc])
      (by
        intro a ha b hb
        rcases List.mem_append.mp ha with ha | ha
        · exact hA a ha b (List.mem_append_right _ hb)
        · exact hsep1 a.1 (List.fst_mem_of_mem_zipIdx ha) b hb)
    rw [List.zipIdx_append, List.filter_append, ← hi]
    have hcomp : compress chunk (chunk.map fun t => selectStore kalman c t.flag)
        = chunk.filter fun t => selectStore kalman c t.flag := by
      have := compress_map chunk id fun t => selectStore kalman c t.flag
      rwa [List.map_id, List.map_id] at this
    rw [chunkLoop]
    simp only [if_true, hcomp]
    split
    · rename_i hun
      rw [hih]
      have : chunk.filter (fun t => selectStore kalman c t.flag) = [] := by
        by_contra hne
        obtain ⟨t, ht⟩ := List.exists_mem_of_ne_nil _ hne
        have : t.event ∈ (List.map Cand.event (chunk.filter fun t => selectStore kalman c t.flag)).dedup :=
          List.mem_dedup.mpr (List.mem_map_of_mem ht)
        rw [hun] at this
        cases this
      have hnil : (chunk.zipIdx off).filter (fun p => selectStore kalman c p.1.flag) = [] := by
        rw [List.filter_eq_nil_iff] at this ⊢
        intro p hp
        exact this p.1 (List.fst_mem_of_mem_zipIdx hp)
      rw [hnil, List.nil_append]
    · rw [storeTrackData_eq est planes hneg chunk (hsort _ (List.mem_cons_self ..)) off
        (fun t => selectFit kalman c t.flag) (fun t => selectStore kalman c t.flag)
        (fun t => selectStore_fit kalman c t.flag)]
      simp only []
      rw [hih]
      simp only []
      congr 1
      funext k
      rw [List.map_append]
      congr 1
      exact rows_local est planes _ hZ (fun a ha b hb => hA a ha b (List.mem_append_left _ hb)) hsep1 k _

theorem sampleEvents_spec {S : Sampling} (hS : BTA.Spec.ValidSampling S) {maxEvents stored total idx : Nat} {unique sel : List Int}
    (hu : unique.Nodup) (hst : stored ≤ maxEvents) (h : sampleEvents S maxEvents stored total idx unique = some sel) :
    sel.Nodup ∧ (∀ e ∈ sel, e ∈ unique) ∧ stored + sel.length ≤ maxEvents := by
  unfold sampleEvents at h
  split at h
  · cases h
  · rename_i n hn
    split at h
    · cases h
    · cases h
      unfold selectNEvents at hn
      obtain ⟨m, -, hm⟩ := Option.map_eq_some_iff.mp hn
      obtain ⟨h1, h2, h3⟩ := hS idx unique n.toNat hu (by omega)
      exact ⟨h1, h2, by omega⟩

theorem chunkLoop_sample (est : Cand K → Nat → Est K R) (planes : List (Plane K)) (hneg : ∀ P ∈ planes, negative P = false)
    (kalman : Bool) (c : DutCfg) (S : Sampling) (hS : BTA.Spec.ValidSampling S) (maxEvents : Nat) (hmax : maxEvents ≠ 0) (total : Nat)
    (items : List (List (Cand K) × Nat))
    (hsort : ∀ it ∈ items, SortedBy Cand.event it.1) (hsep : BTA.Merge.Separated Cand.event items) (off : Nat)
    (hidx : Indexed off items) (A Z : List (Cand K × Nat)) (hZ : Z = A ++ (items.flatMap Prod.fst).zipIdx off)
    (hA : ∀ a ∈ A, ∀ b ∈ items.flatMap Prod.fst, a.1.event < b.event) (stored : Nat) (hst : stored ≤ maxEvents) :
    chunkLoop est planes false kalman c S maxEvents total items stored = .error .sample ∨
    ∃ sel : List Int, sel.Nodup ∧ stored + sel.length ≤ maxEvents ∧
      (∀ e ∈ sel, ∃ t ∈ items.flatMap Prod.fst, selectStore kalman c t.flag = true ∧ t.event = e) ∧
      chunkLoop est planes false kalman c S maxEvents total items stored
      = .ok fun k => (((items.flatMap Prod.fst).zipIdx off).filter fun p =>
          selectStore kalman c p.1.flag && decide (p.1.event ∈ sel)).map
          (rowOf est planes Z (fun t => selectFit kalman c t.flag) k) := by
  induction items generalizing off A stored with
  | nil => exact .inr ⟨[], List.nodup_nil, by simpa using hst, by simp, rfl⟩
  | cons it rest ih =>
    obtain ⟨chunk, idx⟩ := it
    obtain ⟨hi, -, hidx⟩ := hidx
    unfold BTA.Merge.Separated at hsep
    rw [List.pairwise_cons] at hsep
    have hsep1 : ∀ x ∈ chunk, ∀ y ∈ rest.flatMap Prod.fst, x.event < y.event := by
      intro x hx y hy
      obtain ⟨q, hq, hy⟩ := List.mem_flatMap.mp hy
      exact hsep.1 q hq x hx y hy
    rw [List.flatMap_cons] at hZ hA ⊢
    have hih := ih (fun it hit => hsort it (List.mem_cons_of_mem _ hit)) hsep.2 idx hidx (A ++ chunk.zipIdx off)
      (by rw [hZ, List.zipIdx_append, hi, List.append_assoc])
      (by
        intro a ha b hb
        rcases List.mem_append.mp ha with ha | ha
        · exact hA a ha b (List.mem_append_right _ hb)
        · exact hsep1 a.1 (List.fst_mem_of_mem_zipIdx ha) b hb)
    rw [List.zipIdx_append]
    simp only [List.filter_append]
    rw [← hi]
    have hcomp : compress chunk (chunk.map fun t => selectStore kalman c t.flag)
        = chunk.filter fun t => selectStore kalman c t.flag := by
      have := compress_map chunk id fun t => selectStore kalman c t.flag
      rwa [List.map_id, List.map_id] at this
    rw [chunkLoop]
    simp only [hmax, if_false, hcomp]
    split
    · rename_i hun
      have : chunk.filter (fun t => selectStore kalman c t.flag) = [] := by
        by_contra hne
        obtain ⟨t, ht⟩ := List.exists_mem_of_ne_nil _ hne
        have : t.event ∈ (List.map Cand.event (chunk.filter fun t => selectStore kalman c t.flag)).dedup :=
          List.mem_dedup.mpr (List.mem_map_of_mem ht)
        rw [hun] at this
        cases this
      rcases hih stored hst with h | ⟨sel, h1, h2, h3, h4⟩
      · exact .inl h
      · right
        refine ⟨sel, h1, h2, fun e he => ?_, ?_⟩
        · obtain ⟨t, ht, h⟩ := h3 e he
          exact ⟨t, List.mem_append_right _ ht, h⟩
        · have hnil : (chunk.zipIdx off).filter (fun p => selectStore kalman c p.1.flag && decide (p.1.event ∈ sel)) = [] := by
            rw [List.filter_eq_nil_iff] at this ⊢
            intro p hp
            simp [this p.1 (List.fst_mem_of_mem_zipIdx hp)]
          rw [hnil, List.nil_append]
          exact h4
    · cases hsamp : sampleEvents S maxEvents stored total idx
          (List.map Cand.event (chunk.filter fun t => selectStore kalman c t.flag)).dedup with
      | none => exact .inl rfl
      | some selc =>
        obtain ⟨g1, g2, g3⟩ := sampleEvents_spec hS (List.nodup_dedup _) hst hsamp
        have g2' : ∀ e ∈ selc, ∃ t ∈ chunk, selectStore kalman c t.flag = true ∧ t.event = e := by
          intro e he
          obtain ⟨t, ht, rfl⟩ := List.mem_map.mp (List.mem_dedup.mp (g2 e he))
          rw [List.mem_filter] at ht
          exact ⟨t, ht.1, ht.2, rfl⟩
        have hmask : List.zipWith (fun b t => b && decide (t.event ∈ selc))
            (chunk.map fun t => selectStore kalman c t.flag) chunk
            = chunk.map fun t => selectStore kalman c t.flag && decide (t.event ∈ selc) := by
          have := zipWith_map_map chunk (fun t => selectStore kalman c t.flag) id (fun b t => b && decide (t.event ∈ selc))
          rwa [List.map_id] at this
        simp only [hmask]
        rw [storeTrackData_eq est planes hneg chunk (hsort _ (List.mem_cons_self ..)) off
          (fun t => selectFit kalman c t.flag) (fun t => selectStore kalman c t.flag && decide (t.event ∈ selc))
          (fun t ht => selectStore_fit kalman c t.flag (by simp at ht; exact ht.1))]
        simp only []
        rcases hih (stored + selc.length) g3 with h | ⟨sel, h1, h2, h3, h4⟩
        · left; rw [h]
        · right
          have hdis : ∀ e ∈ selc, ∀ e' ∈ sel, e < e' := by
            intro e he e' he'
            obtain ⟨t, ht, -, rfl⟩ := g2' e he
            obtain ⟨t', ht', -, rfl⟩ := h3 e' he'
            exact hsep1 t ht t' ht'
          refine ⟨selc ++ sel, ?_, by simp; omega, ?_, ?_⟩
          · rw [List.nodup_append]
            exact ⟨g1, h1, fun a ha b hb => by have := hdis a ha b hb; omega⟩
          · intro e he
            rcases List.mem_append.mp he with he | he
            · obtain ⟨t, ht, h⟩ := g2' e he
              exact ⟨t, List.mem_append_left _ ht, h⟩
            · obtain ⟨t, ht, h⟩ := h3 e he
              exact ⟨t, List.mem_append_right _ ht, h⟩
          · rw [h4]
            simp only []
            congr 1
            funext k
            rw [List.map_append]
            congr 1
            · rw [rows_local est planes _ hZ (fun a ha b hb => hA a ha b (List.mem_append_left _ hb)) hsep1 k]
              congr 1
              apply List.filter_congr
              intro p hp
              congr 1
              rw [decide_eq_decide, List.mem_append]
              constructor
              · exact .inl
              · rintro (h | h)
                · exact h
                · obtain ⟨t, ht, -, h⟩ := h3 _ h
                  have := hsep1 p.1 (List.fst_mem_of_mem_zipIdx hp) t ht
                  omega
            · congr 1
              apply List.filter_congr
              intro p hp
              congr 1
              rw [decide_eq_decide, List.mem_append]
              constructor
              · exact .inr
              · rintro (h | h)
                · obtain ⟨t, ht, -, h⟩ := g2' _ h
                  have := hsep1 t ht p.1 (List.fst_mem_of_mem_zipIdx hp)
                  omega
                · exact h

end BTA.Fit
