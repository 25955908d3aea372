import Verif.Spec.Purity
import Verif.Lemmas.Binning
import Verif.Props.ChunkReader
import Mathlib.Data.Rat.Floor
import Mathlib.Algebra.Order.Ring.Rat
import Mathlib.Tactic.NormNum

/-! Property C53: purity. -/

namespace BTA.Purity.Props
open BTA.Binning BTA.Spec BTA.Purity BTA.Purity.Spec

variable {K : Type} [Field K] [LinearOrder K] [IsStrictOrderedRing K] [FloorRing K]

omit [FloorRing K] in
/-- The edges made by the code are edges of a histogram. -/
theorem linspace_valid (lo hi : K) (n : Nat) (h : lo < hi) (hn : 0 < n) : ValidEdges (linspace lo hi n) := by
  have hn' : (0 : K) < n := by exact_mod_cast hn
  refine ⟨by simp [linspace]; omega, ?_⟩
  unfold linspace
  rw [List.pairwise_map]
  refine List.Pairwise.imp ?_ List.pairwise_lt_range
  intro a b hab
  have hab' : (a : K) < b := by exact_mod_cast hab
  have : 0 < (hi - lo) / n := div_pos (by linarith) hn'
  nlinarith

/-! ### What one chunk adds -/

/-- The pure hits of a list of rows. -/
def pureOf (s : Setup K) (c : K) (rows : List (Row K)) : List (K × K) :=
  ((selected s rows).filter fun p => decide (distance s p < c)).map Prod.fst

omit [IsStrictOrderedRing K] [FloorRing K] in
theorem selected_append (s : Setup K) (a b : List (Row K)) : selected s (a ++ b) = selected s a ++ selected s b := by
  simp [selected]

omit [IsStrictOrderedRing K] [FloorRing K] in
theorem pureOf_append (s : Setup K) (c : K) (a b : List (Row K)) : pureOf s c (a ++ b) = pureOf s c a ++ pureOf s c b := by
  simp [pureOf, selected_append]

omit [IsStrictOrderedRing K] in
theorem histogram_append (s : Setup K) (a b : List (K × K)) (x : Nat × Nat) :
    histogram s (a ++ b) x = histogram s a x + histogram s b x := counts_append _ _ _ _

omit [IsStrictOrderedRing K] [FloorRing K] in
theorem anyNonzero_eq_false {p : List (K × K)} (h : anyNonzero p = false) : ∀ x ∈ p, x = (0, 0) := by
  intro x hx
  simp only [anyNonzero, List.any_eq_false, Bool.or_eq_true, decide_eq_true_eq, not_or, not_not] at h
  obtain ⟨h1, h2⟩ := h x hx
  exact Prod.ext h1 h2

omit [IsStrictOrderedRing K] in
/-- The loop over the chunks adds up the histograms, if no pure hit is exactly at the origin. -/
theorem chunkLoop_ok {s : Setup K} {c : K} (hc : s.cut = some c) {cs : List (List (Row K))} {d : List (Row K)} {st st' : State}
    (h0 : (0, 0) ∉ pureOf s c cs.flatten)
    (ht : st.total = histogram s (d.filterMap Row.hit)) (hp : st.pure = histogram s (pureOf s c d))
    (h : chunkLoop s cs st = .ok st') :
    st'.total = histogram s ((d ++ cs.flatten).filterMap Row.hit) ∧ st'.pure = histogram s (pureOf s c (d ++ cs.flatten)) := by
  induction cs generalizing d st with
  | nil =>
    simp only [chunkLoop, Except.ok.injEq] at h
    subst h
    simp [ht, hp]
  | cons a r ih =>
    rw [List.flatten_cons, pureOf_append, List.mem_append, not_or] at h0
    rw [chunkLoop] at h
    unfold stepChunk at h
    split at h
    · simp at *
    · next _ st1 hst =>
      have key : st1.total = histogram s ((d ++ a).filterMap Row.hit) ∧ st1.pure = histogram s (pureOf s c (d ++ a)) := by
        split at hst
        · simp at hst
        · have hpe : pureHits s (selected s a) = .ok (pureOf s c a) := by simp only [pureHits, hc]; rfl
          simp only [hpe] at hst
          split at hst
          · simp only [Except.ok.injEq] at hst
            subst hst
            refine ⟨?_, ?_⟩
            · funext b; rw [List.filterMap_append, histogram_append, ht]
            · funext b; rw [pureOf_append, histogram_append, hp]
          · next hz =>
            simp only [Except.ok.injEq] at hst
            subst hst
            refine ⟨?_, ?_⟩
            · funext b; rw [List.filterMap_append, histogram_append, ht]
            · have hnil : pureOf s c a = [] := by
                rw [Bool.not_eq_true] at hz
                have := anyNonzero_eq_false hz
                rw [List.eq_nil_iff_forall_not_mem]
                intro x hx
                rw [this x hx] at hx
                exact h0.1 hx
              rw [pureOf_append, hnil, List.append_nil]
              exact hp
      have := ih h0.2 key.1 key.2 h
      rw [List.append_assoc] at this
      rw [List.flatten_cons]
      exact this

omit [IsStrictOrderedRing K] [FloorRing K] in
theorem inRange_iff (range : Option (K × K)) (v : K) : inRange range v = true ↔ Inside range v := by
  unfold inRange Inside
  cases range <;> simp

/-- The pure hits are the hits of the specification. -/
theorem pure_number (s : Setup K) (c : K) (hc : s.cut = some c) (T : List (Row K)) (hsq : ExactRoot s.sqrt T)
    (P : K × K → Prop) [DecidablePred P] :
    ((pureOf s c T).filter fun p => decide (P p)).length = number T fun r => PureHit s r ∧ ∃ h, r.hit = some h ∧ P h := by
  classical
  unfold number
  induction T with
  | nil => rfl
  | cons r T ih =>
    rw [show r :: T = [r] ++ T from rfl, pureOf_append, List.filter_append, List.length_append, ih, List.filter_append,
      List.length_append]
    rotate_left
    · exact fun r' hr' => hsq r' (List.mem_cons_of_mem _ hr')
    congr 1
    unfold pureOf selected
    cases hf : r.fitted with
    | false => simp [hf, PureHit]
    | true =>
      cases hh : r.hit with
      | none => simp [hf, hh]
      | some q =>
        have hd : distance s (q, (r.ix, r.iy)) < c ↔
            ∃ h d c, r.hit = some h ∧ 0 ≤ d ∧ d ^ 2 = (h.1 - r.ix) ^ 2 + (h.2 - r.iy) ^ 2 ∧ s.cut = some c ∧ d < c := by
          obtain ⟨h1, h2⟩ := hsq r (by simp) q hh
          have hdist : distance s (q, (r.ix, r.iy)) = s.sqrt ((q.1 - r.ix) ^ 2 + (q.2 - r.iy) ^ 2) := by
            unfold distance; congr 1; ring
          rw [hdist]
          constructor
          · intro h
            exact ⟨q, _, c, hh, h1, h2, hc, h⟩
          · rintro ⟨h, d, c', e1, e2, e3, e4, e5⟩
            rw [hh] at e1
            rw [hc] at e4
            simp only [Option.some.injEq] at e1 e4
            subst e1
            subst e4
            refine lt_of_eq_of_lt ?_ e5
            refine (sq_eq_sq₀ h1 e2).mp ?_
            rw [e3, h2]
        have hP : PureHit s r ↔ ((inRange s.rangeX r.ix = true ∧ inRange s.rangeY r.iy = true) ∧ distance s (q, (r.ix, r.iy)) < c) := by
          rw [inRange_iff, inRange_iff, hd]
          unfold PureHit
          rw [and_iff_right hf, and_assoc]
        simp only [List.filter_cons, hf, hh, List.filter_nil, List.filterMap_cons, List.filterMap_nil, Option.map_some, if_true]
        by_cases h1 : inRange s.rangeX r.ix = true ∧ inRange s.rangeY r.iy = true
        · by_cases h2 : distance s (q, (r.ix, r.iy)) < c
          · by_cases h3 : P q <;> simp [hP, h1, h2, h3]
          · simp [hP, h1, h2]
        · have : (inRange s.rangeX r.ix && inRange s.rangeY r.iy) = false := by
            rw [← Bool.not_eq_true, Bool.and_eq_true]; exact h1
          simp [hP, this, h1]

omit [IsStrictOrderedRing K] [FloorRing K] in
theorem hit_number (T : List (Row K)) (P : K × K → Prop) [DecidablePred P] :
    ((T.filterMap Row.hit).filter fun p => decide (P p)).length = number T fun r => ∃ h, r.hit = some h ∧ P h := by
  classical
  unfold number
  induction T with
  | nil => rfl
  | cons r T ih =>
    cases hh : r.hit with
    | none => simp [hh, List.filterMap_cons, ih]
    | some q =>
      have : (∃ h, r.hit = some h ∧ P h) ↔ P q := by simp [hh]
      by_cases h3 : P q
      · rw [List.filterMap_cons, hh]
        simp only [List.filter_cons, h3, this, decide_true, if_true, List.length_cons, ih]
      · rw [List.filterMap_cons, hh]
        simp only [List.filter_cons, h3, this, decide_false, Bool.false_eq_true, if_false, ih]

/-- C53: the maps of a DUT count hits and pure hits of the whole table, for every chunk size. The purity is the percentage,
rounded down; a bin is masked if it has too few hits.

What is missing for the full statement: the exception at the end (`C53_never_returns`), hits exactly at the origin
(`C53_origin`), the digits after the decimal point (`C53_truncated`). -/
theorem C53_map_partial (s : Setup K) (T : List (Row K)) (hs : SortedBy Row.event T) (cs : Nat) (hcs : 0 < cs)
    (hx : s.extentX.1 < s.extentX.2) (hy : s.extentY.1 < s.extentY.2) (hsq : ExactRoot s.sqrt T) (hcut : s.cut ≠ none)
    (h0 : ∀ r ∈ T, r.hit ≠ some (0, 0)) (m : Maps) (h : dutMaps s T cs = .ok m) (i j : Nat) :
    m.total (i, j) = number T (HitIn s i j) ∧
    m.pure (i, j) = number T (fun r => PureHit s r ∧ HitIn s i j r) ∧
    (m.mask (i, j) = true ↔ (number T (HitIn s i j) : K) < s.minimumHitDensity) ∧
    (number T (HitIn s i j) = 0 → m.purity (i, j) = 0) ∧
    (number T (HitIn s i j) ≠ 0 → m.purity (i, j) =
      ⌊100 * (number T (fun r => PureHit s r ∧ HitIn s i j r) : K) / (number T (HitIn s i j) : K)⌋.toNat) := by
  classical
  obtain ⟨c, hc⟩ := Option.ne_none_iff_exists'.mp hcut
  obtain ⟨-, hno, -⟩ := BTA.Props.C01_no_loss hs cs hcs
  unfold dutMaps at h
  dsimp only at h
  cases hl : chunkLoop s ((dataAligned Row.event T { chunkSize := cs }).items.map Prod.fst) ⟨fun _ => 0, fun _ => 0⟩ with
  | error e => simp [hl] at h
  | ok st =>
    rw [hl] at h
    dsimp only at h
    cases he : (dataAligned Row.event T { chunkSize := cs }).err with
    | some e => simp [he] at h
    | none =>
      rw [he] at h
      dsimp only at h
      have hT : ((dataAligned Row.event T { chunkSize := cs }).items.map Prod.fst).flatten = T := by
        have := hno he
        rw [Gen.rows, List.flatMap] at this
        exact this
      have hz : (0, 0) ∉ pureOf s c T := by
        intro hm
        simp only [pureOf, selected, List.mem_map, List.mem_filter, List.mem_filterMap, Option.map_eq_some_iff] at hm
        obtain ⟨p, ⟨⟨⟨r, ⟨hr, -⟩, q, hq, rfl⟩, -⟩, -⟩, hp⟩ := hm
        dsimp only at hp
        subst hp
        exact h0 r hr hq
      obtain ⟨h1, h2⟩ := chunkLoop_ok (d := []) hc (by rw [hT]; exact hz) (by simp [histogram]; funext b; simp [counts])
        (by simp [histogram, pureOf, selected]; funext b; simp [counts]) hl
      rw [List.nil_append, hT] at h1 h2
      unfold finish at h
      dsimp only at h
      split at h
      · next hany =>
        simp only [Except.ok.injEq] at h
        obtain ⟨i', hi', hany⟩ := List.any_eq_true.mp hany
        obtain ⟨j', hj', -⟩ := List.any_eq_true.mp hany
        rw [List.mem_range] at hi' hj'
        have vx := linspace_valid _ _ _ hx (by omega : 0 < nBins s.extentX s.binSize.1)
        have vy := linspace_valid _ _ _ hy (by omega : 0 < nBins s.extentY s.binSize.2)
        have htot : st.total (i, j) = number T (HitIn s i j) := by
          rw [h1]
          unfold histogram HitIn
          rw [counts_eq_length, ← hit_number]
          congr 2
          funext p
          exact decide_eq_decide.mpr (binIndex2_iff vx vy _ _ _ _)
        have hpure : st.pure (i, j) = number T (fun r => PureHit s r ∧ HitIn s i j r) := by
          rw [h2]
          unfold histogram HitIn
          rw [counts_eq_length, ← pure_number s c hc T hsq]
          congr 2
          funext p
          exact decide_eq_decide.mpr (binIndex2_iff vx vy _ _ _ _)
        subst h
        dsimp only
        rw [htot, hpure, decide_eq_true_eq]
        refine ⟨rfl, rfl, Iff.rfl, ?_, ?_⟩
        · intro h; rw [percentage, if_pos h]
        · intro h
          rw [percentage, if_neg h]
          congr 2
          ring
      · simp at h

omit [IsStrictOrderedRing K] in
theorem chunkLoop_total {s : Setup K} {c : K} (hc : s.cut = some c) (hbx : nBins s.extentX s.binSize.1 ≠ 0) (hby : nBins s.extentY s.binSize.2 ≠ 0) (cs : List (List (Row K))) (st : State) :
    ∃ st', chunkLoop s cs st = .ok st' := by
  induction cs generalizing st with
  | nil => exact ⟨st, rfl⟩
  | cons a r ih =>
    obtain ⟨st', h⟩ : ∃ st', stepChunk s a st = .ok st' := by
      unfold stepChunk pureHits
      rw [if_neg (by tauto), hc]
      dsimp only
      split
      · exact ⟨_, rfl⟩
      · exact ⟨_, rfl⟩
    unfold chunkLoop
    rw [h]
    exact ih st'

/-- C53: the maps are made (and plotted) if no event fills a chunk and there is a bin with enough hits, of which at least one percent are pure. -/
theorem C53_plotted (s : Setup K) (T : List (Row K)) (hs : SortedBy Row.event T) (cs : Nat) (hcs : 0 < cs) (hm : ∀ e, multiplicity Row.event T e < cs)
    (hx : s.extentX.1 < s.extentX.2) (hy : s.extentY.1 < s.extentY.2) (hsq : ExactRoot s.sqrt T) (hcut : s.cut ≠ none)
    (h0 : ∀ r ∈ T, r.hit ≠ some (0, 0)) (i j : Nat) (hd : s.minimumHitDensity ≤ (number T (HitIn s i j) : K)) (hn : number T (HitIn s i j) ≠ 0)
    (hp : number T (HitIn s i j) ≤ 100 * number T (fun r => PureHit s r ∧ HitIn s i j r)) : ∃ m, dutMaps s T cs = .ok m := by
  classical
  obtain ⟨c, hc⟩ := Option.ne_none_iff_exists'.mp hcut
  obtain ⟨he, hrows⟩ := BTA.Props.C01_complete hs cs hcs hm
  have hT : ((dataAligned Row.event T { chunkSize := cs }).items.map Prod.fst).flatten = T := by
    rw [Gen.rows, List.flatMap] at hrows
    exact hrows
  have hlen : ∀ lo hi : K, ∀ n, (linspace lo hi n).length = n + 1 := by
    intro lo hi n
    simp [linspace]
  obtain ⟨r, -, q, -, hqx, hqy⟩ : ∃ r ∈ T, HitIn s i j r := by
    unfold number at hn
    obtain ⟨t, htm⟩ := List.exists_mem_of_ne_nil _ (List.ne_nil_of_length_pos (Nat.pos_of_ne_zero hn))
    exact ⟨t, (List.mem_filter.mp htm).1, of_decide_eq_true (List.mem_filter.mp htm).2⟩
  have hi : i < nBins s.extentX s.binSize.1 := by
    obtain ⟨_, _, -, h2, -⟩ := hqx
    have := (List.getElem?_eq_some_iff.mp h2).1
    unfold edgesX at this
    rw [hlen] at this
    omega
  have hj : j < nBins s.extentY s.binSize.2 := by
    obtain ⟨_, _, -, h2, -⟩ := hqy
    have := (List.getElem?_eq_some_iff.mp h2).1
    unfold edgesY at this
    rw [hlen] at this
    omega
  obtain ⟨st, hl⟩ := chunkLoop_total hc (by omega) (by omega) ((dataAligned Row.event T { chunkSize := cs }).items.map Prod.fst) ⟨fun _ => 0, fun _ => 0⟩
  have hz : (0, 0) ∉ pureOf s c T := by
    intro hm
    simp only [pureOf, selected, List.mem_map, List.mem_filter, List.mem_filterMap, Option.map_eq_some_iff] at hm
    obtain ⟨p, ⟨⟨⟨r, ⟨hr, -⟩, q, hq, rfl⟩, -⟩, -⟩, hp⟩ := hm
    dsimp only at hp
    subst hp
    exact h0 r hr hq
  obtain ⟨h1, h2⟩ := chunkLoop_ok (d := []) hc (by rw [hT]; exact hz) (by simp [histogram]; funext b; simp [counts])
    (by simp [histogram, pureOf, selected]; funext b; simp [counts]) hl
  rw [List.nil_append, hT] at h1 h2
  have vx := linspace_valid _ _ _ hx (by omega : 0 < nBins s.extentX s.binSize.1)
  have vy := linspace_valid _ _ _ hy (by omega : 0 < nBins s.extentY s.binSize.2)
  have htot : st.total (i, j) = number T (HitIn s i j) := by
    rw [h1]
    unfold histogram HitIn
    rw [counts_eq_length, ← hit_number]
    congr 2
    funext p
    exact decide_eq_decide.mpr (binIndex2_iff vx vy _ _ _ _)
  have hpure : st.pure (i, j) = number T (fun r => PureHit s r ∧ HitIn s i j r) := by
    rw [h2]
    unfold histogram HitIn
    rw [counts_eq_length, ← pure_number s c hc T hsq]
    congr 2
    funext p
    exact decide_eq_decide.mpr (binIndex2_iff vx vy _ _ _ _)
  unfold dutMaps
  dsimp only
  rw [hl, he]
  dsimp only
  unfold finish
  dsimp only
  rw [if_pos]
  · exact ⟨_, rfl⟩
  · rw [List.any_eq_true]
    refine ⟨i, List.mem_range.mpr hi, ?_⟩
    rw [List.any_eq_true]
    refine ⟨j, List.mem_range.mpr hj, ?_⟩
    rw [Bool.and_eq_true, Bool.not_eq_true', decide_eq_false_iff_not, decide_eq_true_eq]
    rw [htot, hpure]
    refine ⟨not_lt.mpr hd, ?_⟩
    unfold percentage
    rw [if_neg hn]
    have hpos : (0 : K) < (number T (HitIn s i j) : K) := by exact_mod_cast Nat.pos_of_ne_zero hn
    have hp' : (number T (HitIn s i j) : K) ≤ 100 * (number T (fun r => PureHit s r ∧ HitIn s i j r) : K) := by exact_mod_cast hp
    have : (1 : ℤ) ≤ ⌊(number T (fun r => PureHit s r ∧ HitIn s i j r) : K) / (number T (HitIn s i j) : K) * 100⌋ := by
      rw [Int.le_floor, Int.cast_one, div_mul_eq_mul_div, one_le_div hpos]
      linarith
    omega

omit [IsStrictOrderedRing K] in
/-- C53, negation: whatever the tables and settings, a call with at least one DUT raises an exception; at most the maps of the first
DUT are plotted. -/
theorem C53_never_returns (cs : Nat) (duts : List (Setup K × List (Row K))) (hne : duts ≠ []) :
    (∃ e, (calculatePurity cs duts).2 = .error e) ∧ (calculatePurity cs duts).1.length ≤ 1 := by
  cases duts with
  | nil => exact absurd rfl hne
  | cons d r =>
    obtain ⟨s, T⟩ := d
    unfold calculatePurity
    cases dutMaps s T cs with
    | error e => exact ⟨⟨e, rfl⟩, by simp⟩
    | ok m => exact ⟨⟨.format, by simp [format]⟩, by simp [format]⟩

/-! ### Examples -/

/-- A square root, exact for the numbers of the examples. -/
def root (x : ℚ) : ℚ := if x = 0 then 0 else if x = 9 then 3 else if x = 25 then 5 else x

def setup : Setup ℚ where
  extentX := (-10, 10)
  extentY := (-10, 10)
  binSize := (10, 20)
  cut := some 4
  rangeX := none
  rangeY := none
  minimumHitDensity := 1
  sqrt := root

/-- Three hits in one bin, two of them with a track closer than the cut; a hit without fit in the other bin. -/
def table : List (Row ℚ) :=
  [⟨0, some (5, 5), true, 5, 5⟩, ⟨1, some (5, 0), true, 5, 3⟩, ⟨2, some (2, 0), true, 5, 4⟩, ⟨3, some (-5, 0), false, -5, 0⟩,
   ⟨4, none, true, 1, 1⟩]

/-- C53: the purity is truncated, 2 of 3 hits are 66 %. -/
theorem C53_truncated : ∃ m, dutMaps setup table 2 = .ok m ∧ m.total (1, 0) = 3 ∧ m.pure (1, 0) = 2 ∧ m.purity (1, 0) = 66 := by
  have h : (dutMaps setup table 2).toOption.map (fun m => [m.total (1, 0), m.pure (1, 0), m.purity (1, 0)]) = some [3, 2, 66] := by
    decide +kernel
  cases he : dutMaps setup table 2 with
  | error e => rw [he] at h; simp [Except.toOption] at h
  | ok m =>
    rw [he] at h
    simp only [Except.toOption, Option.map_some, Option.some.injEq, List.cons.injEq, and_true] at h
    exact ⟨m, rfl, h⟩

/-- The hypotheses of `C53_map_partial` hold for this table. -/
example : SortedBy Row.event table ∧ ExactRoot setup.sqrt table ∧ setup.extentX.1 < setup.extentX.2 ∧ setup.cut ≠ none ∧ (∀ r ∈ table, r.hit ≠ some (0, 0)) ∧
    (dutMaps setup table 3).toOption.map (fun m => [m.total (0, 0), m.pure (0, 0), m.purity (0, 0)]) = some [1, 0, 0] := by
  refine ⟨by unfold SortedBy; decide +kernel, ?_, by decide +kernel, by decide +kernel, by decide +kernel, by decide +kernel⟩
  intro r hr h hh
  simp only [table, List.mem_cons, List.not_mem_nil, or_false] at hr
  rcases hr with rfl | rfl | rfl | rfl | rfl <;> simp at hh <;> subst hh <;> norm_num [setup, root]

/-- Two hits on their tracks, one exactly at the origin. -/
def originTable : List (Row ℚ) := [⟨0, some (5, 5), true, 5, 5⟩, ⟨1, some (0, 0), true, 0, 0⟩, ⟨2, none, true, 0, 0⟩]

/-- C53, negation: a pure hit exactly at the origin of the sensor is lost if it is the only one of its chunk, so the result depends
on the chunk size: 50 % instead of 100 %. -/
theorem C53_origin : ∃ m m', dutMaps setup originTable 100 = .ok m ∧ dutMaps setup originTable 2 = .ok m' ∧
    m.purity (1, 0) = 100 ∧ m'.purity (1, 0) = 50 := by
  have h : (dutMaps setup originTable 100).toOption.map (fun m => m.purity (1, 0)) = some 100 := by decide +kernel
  have h' : (dutMaps setup originTable 2).toOption.map (fun m => m.purity (1, 0)) = some 50 := by decide +kernel
  cases he : dutMaps setup originTable 100 with
  | error e => rw [he] at h; simp [Except.toOption] at h
  | ok m =>
    cases he' : dutMaps setup originTable 2 with
    | error e => rw [he'] at h'; simp [Except.toOption] at h'
    | ok m' =>
      rw [he] at h
      rw [he'] at h'
      simp only [Except.toOption, Option.map_some, Option.some.injEq] at h h'
      exact ⟨m, m', rfl, rfl, h, h'⟩

/-- C53, negation: hits outside of the given range are not left out, they are counted as hits without a track: two hits exactly on their
tracks, one of them outside of the range in x from 0 to 4, give 50 %. -/
theorem C53_range : ∃ m, dutMaps { setup with rangeX := some (0, 4) } [⟨0, some (2, 1), true, 2, 1⟩, ⟨1, some (6, 1), true, 6, 1⟩] 100 = .ok m ∧
    m.purity (1, 0) = 50 := by
  have h : (dutMaps { setup with rangeX := some (0, 4) } [⟨0, some (2, 1), true, 2, 1⟩, ⟨1, some (6, 1), true, 6, 1⟩] 100).toOption.map
      (fun m => m.purity (1, 0)) = some 50 := by decide +kernel
  cases he : dutMaps { setup with rangeX := some (0, 4) } [⟨0, some (2, 1), true, 2, 1⟩, ⟨1, some (6, 1), true, 6, 1⟩] 100 with
  | error e => rw [he] at h; simp [Except.toOption] at h
  | ok m => rw [he] at h; exact ⟨m, rfl, by simpa [Except.toOption] using h⟩

/-- A call with this table: the maps are plotted, then the exception is raised. -/
example : (calculatePurity 2 [(setup, table), (setup, table)]).1.length = 1 ∧
    (calculatePurity 2 [(setup, table), (setup, table)]).2 = .error .format := by
  refine ⟨by decide +kernel, by decide +kernel⟩

end BTA.Purity.Props
