import Verif.Props.Efficiency
import Verif.Lemmas.Chunks
/-
C189: when `calculate_efficiency` returns.
-/
namespace BTA.Efficiency.Props
open BTA.Efficiency BTA.Binning BTA.Spec BTA.Efficiency.Spec

variable {K : Type} [Field K] [LinearOrder K] [IsStrictOrderedRing K]

/-- The track is inside of the histogram. -/
def InHist (s : Setup K) (r : Row K) : Prop := ∃ i j, TrackIn s i j r

/-- The condition for a chunk `p` after the rows `d`. -/
def StepOk (s : Setup K) (d p : List (Row K)) : Prop :=
  total s.shape (counts (trackBin s) (d ++ p)) = 0 ∨ p.filter (validHit s) = [] ∨ total s.shape (counts (trackBin s) p) ≠ 0

theorem total_valid_le (s : Setup K) (hx : ValidEdges s.edgesX) (hy : ValidEdges s.edgesY) (p : List (Row K)) :
    total s.shape (counts (trackBin s) (p.filter (validHit s))) ≤ total s.shape (counts (trackBin s) p) := by
  rw [total_counts _ _ (fun r b => trackBin_bound s hx hy r b), total_counts _ _ (fun r b => trackBin_bound s hx hy r b)]
  exact (List.Sublist.filter _ List.filter_sublist).length_le

theorem chunkEfficiency_iff (s : Setup K) (hx : ValidEdges s.edgesX) (hy : ValidEdges s.edgesY) (d p : List (Row K)) (sc : Scope K)
    (h : sc.tracks = some (s.shape, counts (trackBin s) (d ++ p))) (regs : List K) (effs : List (K × List K)) :
    (∃ x, chunkEfficiency s p sc regs effs = .ok x) ↔ StepOk s d p := by
  unfold chunkEfficiency StepOk
  rw [h]
  dsimp only
  by_cases h0 : total s.shape (counts (trackBin s) (d ++ p)) = 0
  · rw [if_pos h0]
    exact ⟨fun _ => .inl h0, fun _ => ⟨_, rfl⟩⟩
  · rw [if_neg h0]
    by_cases h1 : p.filter (validHit s) = []
    · rw [if_pos h1]
      exact ⟨fun _ => .inr (.inl h1), fun _ => ⟨_, rfl⟩⟩
    · rw [if_neg h1]
      have hle := total_valid_le s hx hy p
      unfold meanEfficiency
      by_cases h2 : total s.shape (counts (trackBin s) p) = 0
      · rw [if_pos (.inl h2)]
        constructor
        · rintro ⟨x, hx⟩
          cases hx
        · rintro (h | h | h)
          · exact absurd h h0
          · exact absurd h h1
          · exact absurd h2 h
      · rw [if_neg (by omega)]
        exact ⟨fun _ => .inr (.inr h2), fun _ => ⟨_, rfl⟩⟩

theorem step_exists {s : Setup K} (hr : s.regions = []) {c : List (Row K)} {st : State K} {sc : Scope K} (h1 : updateScope s st.first (prepare s c) st.scope = .ok sc) :
    (∃ st', stepChunk s c st = .ok st') ↔ ∃ x, chunkEfficiency s (prepare s c) sc [] st.chunks = .ok x := by
  unfold stepChunk
  dsimp only
  rw [hr]
  have : updateRegions s (prepare s c) [] st.regions = .ok [] := by
    unfold updateRegions
    rfl
  rw [this]
  dsimp only
  rw [h1]
  dsimp only
  rw [List.map_nil]
  cases h : chunkEfficiency s (prepare s c) sc [] st.chunks with
  | error e =>
    constructor
    · rintro ⟨x, hx⟩
      cases hx
    · rintro ⟨x, hx⟩
      cases hx
  | ok x => exact ⟨fun _ => ⟨x, rfl⟩, fun _ => ⟨_, rfl⟩⟩

theorem step_filled {s : Setup K} (hr : s.regions = []) (hx : ValidEdges s.edgesX) (hy : ValidEdges s.edgesY) {c d : List (Row K)} {st : State K} (hf : Filled s d st) :
    (∃ st', stepChunk s c st = .ok st') ↔ StepOk s d (prepare s c) := by
  have hadd : (fun b => counts (trackBin s) d b + counts (trackBin s) (prepare s c) b) = counts (trackBin s) (d ++ prepare s c) := by
    funext b
    rw [counts_append]
  obtain ⟨sc, h1, h2⟩ : ∃ sc, updateScope s st.first (prepare s c) st.scope = .ok sc ∧ sc.tracks = some (s.shape, counts (trackBin s) (d ++ prepare s c)) := by
    unfold updateScope
    simp only [hf.first, hf.tracks, hf.hits, Bool.false_eq_true, if_false]
    by_cases hv : (prepare s c).filter (validHit s) = []
    · rw [if_pos hv]
      exact ⟨_, rfl, by rw [← hadd]⟩
    · rw [if_neg hv]
      simp only [measure, ne_eq, not_true_eq_false, or_self, if_false]
      exact ⟨_, rfl, by rw [← hadd]⟩
  rw [step_exists hr h1, chunkEfficiency_iff s hx hy d (prepare s c) sc h2]

theorem step_start {s : Setup K} (hr : s.regions = []) (hx : ValidEdges s.edgesX) (hy : ValidEdges s.edgesY) {c : List (Row K)} {st : State K} (hf : st.first = true) :
    (∃ st', stepChunk s c st = .ok st') ↔ StepOk s [] (prepare s c) := by
  have h1 : updateScope s st.first (prepare s c) st.scope =
      .ok { tracks := some (s.shape, counts (trackBin s) (prepare s c)), hits := if (prepare s c).filter (validHit s) = [] then st.scope.hits else some (measure s ((prepare s c).filter (validHit s))) } := by
    unfold updateScope
    simp only [hf, if_true]
  rw [step_exists hr h1, chunkEfficiency_iff s hx hy [] (prepare s c) _ rfl]

theorem loop_filled {s : Setup K} (hr : s.regions = []) (hx : ValidEdges s.edgesX) (hy : ValidEdges s.edgesY) (cs : List (List (Row K))) {d : List (Row K)} {st : State K} (hf : Filled s d st) :
    (∃ st', chunkLoop s cs st = .ok st') ↔ ∀ (n : Nat) c, cs[n]? = some c → StepOk s (d ++ prepare s (cs.take n).flatten) (prepare s c) := by
  induction cs generalizing d st with
  | nil => simp [chunkLoop]
  | cons c r ih =>
    rw [chunkLoop]
    have hstep := step_filled hr hx hy (c := c) hf
    have hsplit : (∀ (n : Nat) c', (c :: r)[n]? = some c' → StepOk s (d ++ prepare s ((c :: r).take n).flatten) (prepare s c')) ↔
        StepOk s d (prepare s c) ∧ ∀ (n : Nat) c', r[n]? = some c' → StepOk s ((d ++ prepare s c) ++ prepare s (r.take n).flatten) (prepare s c') := by
      constructor
      · intro h
        refine ⟨?_, ?_⟩
        · have := h 0 c rfl
          simpa [prepare] using this
        · intro n c' hc'
          have := h (n + 1) c' hc'
          rwa [List.take_succ_cons, List.flatten_cons, prepare_append, ← List.append_assoc] at this
      · rintro ⟨h1, h2⟩ n c' hc'
        cases n with
        | zero =>
          obtain rfl := Option.some.inj hc'
          simpa [prepare] using h1
        | succ n =>
          rw [List.take_succ_cons, List.flatten_cons, prepare_append, ← List.append_assoc]
          exact h2 n c' hc'
    rw [hsplit, ← hstep]
    cases hc : stepChunk s c st with
    | error e =>
      constructor
      · rintro ⟨x, hx⟩
        cases hx
      · rintro ⟨⟨x, hx⟩, -⟩
        cases hx
    | ok st1 =>
      dsimp only
      rw [ih (filled_step hf hc)]
      exact ⟨fun h => ⟨⟨_, rfl⟩, h⟩, fun h => h.2⟩

theorem total_ne_zero_iff (s : Setup K) (hx : ValidEdges s.edgesX) (hy : ValidEdges s.edgesY) (T : List (Row K)) :
    total s.shape (counts (trackBin s) (prepare s T)) ≠ 0 ↔ ∃ r ∈ T, Used s r ∧ InHist s r := by
  rw [total_counts _ _ (fun r b => trackBin_bound s hx hy r b), ← Nat.pos_iff_ne_zero, ← number_pos_iff]
  rw [number_prepare s T _ (InHist s)]
  intro r _
  rw [Option.isSome_iff_exists]
  constructor
  · rintro ⟨⟨i, j⟩, h⟩
    exact ⟨i, j, (trackBin_iff s hx hy r i j).mp h⟩
  · rintro ⟨i, j, h⟩
    exact ⟨(i, j), (trackBin_iff s hx hy r i j).mpr h⟩

theorem stepOk_iff (s : Setup K) (hx : ValidEdges s.edgesX) (hy : ValidEdges s.edgesY) (d c : List (Row K)) :
    StepOk s (prepare s d) (prepare s c) ↔ ((∃ r ∈ c, Used s r ∧ Matched s r) → (∃ r ∈ d ++ c, Used s r ∧ InHist s r) → ∃ r ∈ c, Used s r ∧ InHist s r) := by
  unfold StepOk
  rw [← prepare_append, ← valid_ne_nil_iff, ← total_ne_zero_iff s hx hy, ← total_ne_zero_iff s hx hy]
  tauto

/-- What is needed after the first chunk: a chunk with a close hit has a track inside of the histogram (unless there was none so far); there is a track inside of the histogram; and a bin that is
not masked has no track, or a track with close hit. -/
structure Enough (s : Setup K) (T : List (Row K)) (cs : Nat) : Prop where
  chunks : ∀ (n : Nat) c, (chunksOf T cs)[n]? = some c → (∃ r ∈ c, Used s r ∧ Matched s r) → (∃ r ∈ ((chunksOf T cs).take n).flatten ++ c, Used s r ∧ InHist s r) → ∃ r ∈ c, Used s r ∧ InHist s r
  track : ∃ r ∈ T, Used s r ∧ InHist s r
  bin : ∃ i j, i + 1 < s.edgesX.length ∧ j + 1 < s.edgesY.length ∧ s.minimumTrackDensity ≤ ((number T fun r => Used s r ∧ TrackIn s i j r : Nat) : K) ∧
    ((∀ r ∈ T, ¬ (Used s r ∧ TrackIn s i j r)) ∨ ∃ r ∈ T, Used s r ∧ TrackIn s i j r ∧ Matched s r)

theorem mean_match {β : Type} (k N : Nat) (hle : k ≤ N) (b : Bool) (f : K → β) :
    (∃ o, (match meanEfficiency (K := K) k N with
      | .error e => .error e
      | .ok m => if b = true then .error Err.allZero else .ok (f m)) = (.ok o : Except Err β)) ↔ N ≠ 0 ∧ b = false := by
  unfold meanEfficiency
  by_cases h0 : N = 0
  · rw [if_pos (.inl h0)]
    constructor
    · rintro ⟨o, ho⟩
      cases ho
    · rintro ⟨h, -⟩
      exact absurd h0 h
  · rw [if_neg (by omega)]
    dsimp only
    cases b with
    | true =>
      rw [if_pos rfl]
      constructor
      · rintro ⟨o, ho⟩
        cases ho
      · rintro ⟨-, h⟩
        cases h
    | false =>
      rw [if_neg (by decide)]
      exact ⟨fun _ => ⟨h0, rfl⟩, fun _ => ⟨_, rfl⟩⟩

theorem finish_filled {s : Setup K} {T : List (Row K)} {st : State K} (hx : ValidEdges s.edgesX) (hy : ValidEdges s.edgesY) (hf : Filled s (prepare s T) st) :
    (∃ o, finish s st = .ok o) ↔ (∃ r ∈ T, Used s r ∧ InHist s r) ∧ ∃ i j, i + 1 < s.edgesX.length ∧ j + 1 < s.edgesY.length ∧
      s.minimumTrackDensity ≤ ((number T fun r => Used s r ∧ TrackIn s i j r : Nat) : K) ∧
      ((∀ r ∈ T, ¬ (Used s r ∧ TrackIn s i j r)) ∨ ∃ r ∈ T, Used s r ∧ TrackIn s i j r ∧ Matched s r) := by
  unfold finish
  rw [hf.tracks, hf.hits]
  dsimp only
  rw [if_neg (show ¬ (measure s ((prepare s T).filter (validHit s))).shape ≠ s.shape from fun h => h rfl)]
  have e1 : ∀ i j, counts (trackBin s) (prepare s T) (i, j) = number T fun r => Used s r ∧ TrackIn s i j r := by
    intro i j
    rw [counts_eq_length]
    apply number_prepare
    intro r _
    rw [decide_eq_true_iff, trackBin_iff s hx hy]
  have e2 : ∀ i j, (measure s ((prepare s T).filter (validHit s))).withHit (i, j) = number T fun r => Used s r ∧ TrackIn s i j r ∧ Matched s r := by
    intro i j
    show counts _ _ _ = _
    rw [counts_eq_length, List.filter_filter]
    apply number_prepare
    intro r _
    rw [Bool.and_eq_true, decide_eq_true_iff, trackBin_iff s hx hy, validHit_iff]
  have hle : total s.shape (measure s ((prepare s T).filter (validHit s))).withHit ≤ total s.shape (counts (trackBin s) (prepare s T)) := total_valid_le s hx hy _
  rw [← total_ne_zero_iff s hx hy]
  refine (mean_match _ _ hle _ _).trans ?_
  apply and_congr_right
  intro _
  unfold allZero
  rw [← Bool.not_eq_true, List.all_eq_true]
  simp only [List.all_eq_true, List.mem_range, Bool.or_eq_true, decide_eq_true_eq]
  push Not
  constructor
  · rintro ⟨i, hi, j, hj, hm, hp⟩
    unfold masked at hm
    rw [ne_eq, decide_eq_true_iff, not_lt, e1] at hm
    rw [percent_eq, e1, e2] at hp
    refine ⟨i, j, by simp only [Setup.shape] at hi; omega, by simp only [Setup.shape] at hj; omega, hm, ?_⟩
    by_cases hn : number T (fun r => Used s r ∧ TrackIn s i j r) = 0
    · left
      intro r hr h h'
      have := (number_pos_iff T fun r => Used s r ∧ TrackIn s i j r).mpr ⟨r, hr, h, h'⟩
      omega
    · right
      rw [← number_pos_iff, Nat.pos_iff_ne_zero]
      intro h0
      apply hp
      unfold ratio
      rw [if_neg hn, h0]
      simp
  · rintro ⟨i, j, hi, hj, hm, hp⟩
    refine ⟨i, by simp only [Setup.shape]; omega, j, by simp only [Setup.shape]; omega, ?_, ?_⟩
    · unfold masked
      rw [ne_eq, decide_eq_true_iff, not_lt, e1]
      exact hm
    · rw [percent_eq, e1, e2]
      unfold ratio
      rcases hp with hp | hp
      · have : number T (fun r => Used s r ∧ TrackIn s i j r) = 0 := by
          by_contra h
          obtain ⟨r, hr, h'⟩ := (number_pos_iff T _).mp (Nat.pos_of_ne_zero h)
          exact hp r hr h'.1 h'.2
        rw [if_pos this]
        simp
      · have h1 := (number_pos_iff T fun r => Used s r ∧ TrackIn s i j r ∧ Matched s r).mpr hp
        have h2 := number_mono T (fun r => Used s r ∧ TrackIn s i j r ∧ Matched s r) (fun r => Used s r ∧ TrackIn s i j r) fun r h => ⟨h.1, h.2.1⟩
        rw [if_neg (by omega)]
        simp only [ne_eq, Option.some.injEq]
        have a1 : ((number T fun r => Used s r ∧ TrackIn s i j r ∧ Matched s r : Nat) : K) ≠ 0 := by
          exact_mod_cast (by omega)
        have a2 : ((number T fun r => Used s r ∧ TrackIn s i j r : Nat) : K) ≠ 0 := by
          exact_mod_cast (by omega)
        exact div_ne_zero (mul_ne_zero (by norm_num) a1) a2

/-- C189: a DUT without regions whose first chunk has a track with close hit. -/
theorem C189_dut_iff (s : Setup K) (hr : s.regions = []) (T : List (Row K)) (hs : SortedBy Row.event T) (cs : Nat) (hcs : 0 < cs) (hm : ∀ e, multiplicity Row.event T e < cs)
    (hx : ValidEdges s.edgesX) (hy : ValidEdges s.edgesY) (hfirst : HitInFirstChunk s T cs) (sc : Scope K) :
    (∃ r, dutEfficiency s T cs sc = .ok r) ↔ Enough s T cs := by
  have herr := chunks_ok hs cs hcs hm
  obtain ⟨-, hno, -⟩ := BTA.Props.C01_no_loss hs cs hcs
  have hfl : (chunksOf T cs).flatten = T := by
    have := hno herr
    rw [Gen.rows, List.flatMap] at this
    exact this
  have hdut : (∃ r, dutEfficiency s T cs sc = .ok r) ↔ ∃ st, chunkLoop s (chunksOf T cs) (start s sc) = .ok st ∧ ∃ o, finish s st = .ok o := by
    unfold dutEfficiency
    dsimp only
    cases h1 : chunkLoop s (chunksOf T cs) (start s sc) with
    | error e =>
      unfold chunksOf start at h1
      rw [h1]
      constructor
      · rintro ⟨x, hx⟩
        cases hx
      · rintro ⟨x, hx, -⟩
        cases hx
    | ok st =>
      unfold chunksOf start at h1
      rw [h1]
      dsimp only
      rw [herr]
      dsimp only
      cases h3 : finish s st with
      | error e =>
        constructor
        · rintro ⟨x, hx⟩
          cases hx
        · rintro ⟨x, hx, o, ho⟩
          cases hx
          rw [h3] at ho
          cases ho
      | ok o => exact ⟨fun _ => ⟨st, rfl, o, h3⟩, fun _ => ⟨_, rfl⟩⟩
  rw [hdut]
  obtain ⟨c0, hc0, hr0⟩ := hfirst
  cases hi : (dataAligned Row.event T { chunkSize := cs }).items with
  | nil => rw [hi] at hc0; simp at hc0
  | cons c' rest =>
    rw [hi] at hc0
    simp only [List.head?_cons, Option.mem_def, Option.some.injEq] at hc0
    subst hc0
    have hch : chunksOf T cs = c'.1 :: rest.map Prod.fst := by rw [chunksOf, hi]; rfl
    have hloop : (∃ st, chunkLoop s (chunksOf T cs) (start s sc) = .ok st) ↔
        ∀ (n : Nat) c, (chunksOf T cs)[n]? = some c → (∃ r ∈ c, Used s r ∧ Matched s r) → (∃ r ∈ ((chunksOf T cs).take n).flatten ++ c, Used s r ∧ InHist s r) → ∃ r ∈ c, Used s r ∧ InHist s r := by
      have hsplit : (∀ (n : Nat) c, (chunksOf T cs)[n]? = some c → StepOk s (prepare s ((chunksOf T cs).take n).flatten) (prepare s c)) ↔
          StepOk s [] (prepare s c'.1) ∧ ∀ (n : Nat) c, (rest.map Prod.fst)[n]? = some c → StepOk s (prepare s c'.1 ++ prepare s ((rest.map Prod.fst).take n).flatten) (prepare s c) := by
        rw [hch]
        constructor
        · intro h
          refine ⟨?_, ?_⟩
          · have := h 0 c'.1 rfl
            simpa [prepare] using this
          · intro n c hc
            have := h (n + 1) c hc
            rwa [List.take_succ_cons, List.flatten_cons, prepare_append] at this
        · rintro ⟨h1, h2⟩ n c hc
          cases n with
          | zero =>
            obtain rfl := Option.some.inj hc
            simpa [prepare] using h1
          | succ n =>
            rw [List.take_succ_cons, List.flatten_cons, prepare_append]
            exact h2 n c hc
      simp only [← stepOk_iff s hx hy]
      rw [hsplit, hch, chunkLoop, ← step_start hr hx hy (st := start s sc) rfl]
      cases hstep : stepChunk s c'.1 (start s sc) with
      | error e =>
        constructor
        · rintro ⟨x, hx⟩
          cases hx
        · rintro ⟨⟨x, hx⟩, -⟩
          cases hx
      | ok st1 =>
        dsimp only
        rw [loop_filled hr hx hy _ (filled_first (s := s) (st := start s sc) rfl ((valid_ne_nil_iff s c'.1).mpr hr0) hstep)]
        exact ⟨fun h => ⟨⟨_, rfl⟩, h⟩, fun h => h.2⟩
    have hfilled : ∀ st, chunkLoop s (chunksOf T cs) (start s sc) = .ok st → Filled s (prepare s T) st := by
      intro st hl
      rw [hch] at hl
      have hfl' := hfl
      rw [hch] at hfl'
      rw [chunkLoop] at hl
      cases hstep : stepChunk s c'.1 (start s sc) with
      | error e => simp [hstep] at hl
      | ok st1 =>
        rw [hstep] at hl
        have hf := filled_loop (filled_first (s := s) (st := start s sc) rfl ((valid_ne_nil_iff s c'.1).mpr hr0) hstep) hl
        rwa [← prepare_append, ← List.flatten_cons, hfl'] at hf
    constructor
    · rintro ⟨st, h1, h2⟩
      obtain ⟨a, b⟩ := (finish_filled hx hy (hfilled st h1)).mp h2
      exact ⟨hloop.mp ⟨st, h1⟩, a, b⟩
    · intro h
      obtain ⟨st, h1⟩ := hloop.mpr h.chunks
      exact ⟨st, h1, (finish_filled hx hy (hfilled st h1)).mpr ⟨h.track, h.bin⟩⟩

/-- C189: the first selected DUT, without regions: it is processed if and only if its first chunk has a track with close hit and there is enough data. -/
theorem C189_first_dut (s : Setup K) (hr : s.regions = []) (T : List (Row K)) (hs : SortedBy Row.event T) (cs : Nat) (hcs : 0 < cs) (hm : ∀ e, multiplicity Row.event T e < cs)
    (hx : ValidEdges s.edgesX) (hy : ValidEdges s.edgesY) :
    (∃ o, efficiency cs [(s, T)] = .ok [o]) ↔ HitInFirstChunk s T cs ∧ Enough s T cs := by
  have hone : (∃ o, efficiency cs [(s, T)] = .ok [o]) ↔ ∃ r, dutEfficiency s T cs ⟨none, none⟩ = .ok r := by
    unfold efficiency efficiencyLoop efficiencyLoop
    cases h : dutEfficiency s T cs ⟨none, none⟩ with
    | error e =>
      constructor
      · rintro ⟨x, hx⟩
        cases hx
      · rintro ⟨x, hx⟩
        cases hx
    | ok r => exact ⟨fun _ => ⟨r, rfl⟩, fun _ => ⟨r.1, rfl⟩⟩
  rw [hone]
  by_cases hf : HitInFirstChunk s T cs
  · rw [C189_dut_iff s hr T hs cs hcs hm hx hy hf]
    exact ⟨fun h => ⟨hf, h⟩, fun h => h.2⟩
  · constructor
    · rintro ⟨r, h⟩
      exact absurd h (C45_first_chunk_without_hit s T hs cs hcs _ rfl hf r)
    · intro h
      exact absurd h.1 hf

/-- C189: if this holds for all selected DUTs, all are processed, and all the results are right. -/
theorem C189_all_duts (cs : Nat) (hcs : 0 < cs) (duts : List (Setup K × List (Row K)))
    (h : ∀ d ∈ duts, d.1.regions = [] ∧ SortedBy Row.event d.2 ∧ (∀ e, multiplicity Row.event d.2 e < cs) ∧ ValidEdges d.1.edgesX ∧ ValidEdges d.1.edgesY ∧
      HitInFirstChunk d.1 d.2 cs ∧ Enough d.1 d.2 cs) :
    ∃ os, efficiency cs duts = .ok os ∧ List.Forall₂ (fun d o => Correct d.1 d.2 o) duts os := by
  unfold efficiency
  generalize (⟨none, none⟩ : Scope K) = sc
  induction duts generalizing sc with
  | nil => exact ⟨[], rfl, .nil⟩
  | cons d ds ih =>
    obtain ⟨s, T⟩ := d
    obtain ⟨h1, h2, h3, h4, h5, h6, h7⟩ := h (s, T) List.mem_cons_self
    obtain ⟨⟨o, sc'⟩, ho⟩ := (C189_dut_iff s h1 T h2 cs hcs h3 h4 h5 h6 sc).mpr h7
    obtain ⟨os, hos, hall⟩ := ih (fun d hd => h d (List.mem_cons_of_mem _ hd)) sc'
    refine ⟨o :: os, ?_, .cons (C45_any_dut_partial s T h2 cs hcs h4 h5 sc sc' o h6 ho) hall⟩
    rw [efficiencyLoop, ho]
    dsimp only
    rw [hos]

/-- A table that is not longer than a chunk is read in one go. -/
theorem one_chunk {ρ : Type} (ev : ρ → Int) (T : List ρ) (hT : T ≠ []) (cs : Nat) (h : T.length ≤ cs) : (dataAligned ev T { chunkSize := cs }).items = [(T, T.length)] := by
  rw [dataAligned_default, dataLoop]
  have hpos : 0 < T.length := List.length_pos_iff.mpr hT
  rw [dif_pos hpos]
  have e1 : min (0 + cs) T.length = T.length := by omega
  have e2 : readRows T 0 T.length = T := by simp [readRows]
  simp only [e1, e2]
  obtain ⟨first, hf⟩ := Option.isSome_iff_exists.mp (List.isSome_head?.mpr hT)
  obtain ⟨last, hl⟩ := Option.ne_none_iff_exists'.mp (mt List.getLast?_eq_none_iff.mp hT)
  rw [hf, hl]
  have e3 : chunkStopIndex (T.map ev) none (decide True) (ev last) = T.length := by simp [chunkStopIndex]
  dsimp only
  rw [e3, dif_neg (by omega), dataLoop, dif_neg (by omega)]
  simp

/-- C189: a table that is not longer than a chunk, all used tracks inside of the histogram. -/
theorem C189_short (s : Setup K) (hr : s.regions = []) (T : List (Row K)) (hs : SortedBy Row.event T) (cs : Nat) (hlen : T.length < cs)
    (hx : ValidEdges s.edgesX) (hy : ValidEdges s.edgesY) (hin : ∀ r ∈ T, Used s r → InHist s r)
    (hbin : ∃ i j, s.minimumTrackDensity ≤ ((number T fun r => Used s r ∧ TrackIn s i j r : Nat) : K) ∧ ∃ r ∈ T, Used s r ∧ TrackIn s i j r ∧ Matched s r) :
    ∃ o, efficiency cs [(s, T)] = .ok [o] := by
  obtain ⟨i, j, hden, r, hrT, hu, ht, hm⟩ := hbin
  have hne : T ≠ [] := List.ne_nil_of_mem hrT
  have hit := one_chunk Row.event T hne cs (le_of_lt hlen)
  refine (C189_first_dut s hr T hs cs (by omega) (fun e => lt_of_le_of_lt (List.length_filter_le _ _) hlen) hx hy).mpr ⟨?_, ?_, ?_, ?_⟩
  · unfold HitInFirstChunk
    rw [hit]
    exact ⟨_, rfl, r, hrT, hu, hm⟩
  · intro n c hc hmt _
    unfold chunksOf at hc
    rw [hit] at hc
    cases n with
    | zero =>
      obtain rfl := Option.some.inj hc
      obtain ⟨r', h1, h2, -⟩ := hmt
      exact ⟨r', h1, h2, hin r' h1 h2⟩
    | succ n => cases hc
  · exact ⟨r, hrT, hu, hin r hrT hu⟩
  · obtain ⟨⟨_, _, -, h1, -⟩, ⟨_, _, -, h2, -⟩⟩ := (id ht : TrackIn s i j r)
    have b1 := (List.getElem?_eq_some_iff.mp h1).1
    have b2 := (List.getElem?_eq_some_iff.mp h2).1
    exact ⟨i, j, b1, b2, hden, .inr ⟨r, hrT, hu, ht, hm⟩⟩

/-! ### Concrete cases -/

/-- The table `tableA` of Verif.Props.Efficiency meets all conditions, for chunk size 3 and 100. -/
example : ∀ cs ∈ [3, 100], HitInFirstChunk setup tableA cs ∧ Enough setup tableA cs := by
  intro cs hcs
  have hs : SortedBy Row.event tableA := by unfold SortedBy; decide +kernel
  have hx : ValidEdges setup.edgesX := by unfold ValidEdges; decide +kernel
  have hy : ValidEdges setup.edgesY := by unfold ValidEdges; decide +kernel
  have hm : ∀ cs ∈ [3, 100], ∀ e, multiplicity Row.event tableA e < cs := by
    intro cs hcs e
    have h3 : multiplicity Row.event tableA e < 3 := by
      by_cases he : e ∈ tableA.map Row.event
      · have : ∀ e ∈ tableA.map Row.event, multiplicity Row.event tableA e < 3 := by decide +kernel
        exact this e he
      · have : multiplicity Row.event tableA e = 0 := by
          unfold multiplicity
          rw [List.length_eq_zero_iff, List.filter_eq_nil_iff]
          intro r hr h
          exact he (List.mem_map.mpr ⟨r, hr, of_decide_eq_true h⟩)
        omega
    simp at hcs
    omega
  refine (C189_first_dut setup rfl tableA hs cs (by simp at hcs; omega) (hm cs hcs) hx hy).mp ?_
  have hsome : ∀ cs ∈ [3, 100], (efficiency cs [(setup, tableA)]).toOption.map List.length = some 1 := by decide +kernel
  have := hsome cs hcs
  cases h : efficiency cs [(setup, tableA)] with
  | error e => rw [h] at this; simp [Except.toOption] at this
  | ok os =>
    rw [h] at this
    simp only [Except.toOption, Option.map_some, Option.some.injEq] at this
    obtain ⟨o, rfl⟩ := List.length_eq_one_iff.mp this
    exact ⟨o, rfl⟩

/-- A track beside the histogram, alone in its chunk and with close hit: the call fails (ValueError), although there is no problem with a larger chunk size. -/
example : (efficiency 3 [(setup, [trk 1 4 (some 1), trk 1 5 (some 1), trk 2 (-3) (some 1), trk 3 (-3) none])]).toOption.isNone ∧
    (efficiency 100 [(setup, [trk 1 4 (some 1), trk 1 5 (some 1), trk 2 (-3) (some 1), trk 3 (-3) none])]).toOption.isSome := by
  decide +kernel

end BTA.Efficiency.Props
