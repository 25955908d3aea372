import Verif.Lemmas.CheckFile
import Mathlib.Data.Rat.Floor
import Mathlib.Algebra.Order.Ring.Rat
/-
C83: tables accepted by `check_file`. C84: event numbers and their distances. C85: correlation of consecutive events.
-/
namespace BTA.Check
open BTA.Dut BTA.Spec BTA.Check.Spec

section
variable {K : Type} [Field K] [LinearOrder K] [FloorRing K] [IsStrictOrderedRing K]

/-! ### Lemmas -/

theorem onMatrix_iff (a : Args K) (h1 : 0 < a.dut.columnSize) (h2 : 0 < a.dut.rowSize) (h3 : 0 < a.res.1) (h4 : 0 < a.res.2) (r : Row K) :
    (rowIndex (accIndex a.dut) (indexPosition a.dut) (a.dut.nColumns * a.dut.columnSize) (a.dut.nRows * a.dut.rowSize) a.res r).isSome
      = true ↔ OnMatrix a.dut r := by
  unfold rowIndex accIndex
  simp only [decide_eq_true_eq]
  split
  · next h =>
    obtain ⟨⟨g1, g2⟩, g3, g4⟩ := h
    have e1 := binIndex_some (a.dut.nColumns * a.dut.columnSize) a.res.1 (indexPosition a.dut r).1 h3
      (by unfold indexPosition; dsimp only; nlinarith) (by unfold indexPosition; dsimp only; nlinarith)
    have e2 := binIndex_some (a.dut.nRows * a.dut.rowSize) a.res.2 (indexPosition a.dut r).2 h4
      (by unfold indexPosition; dsimp only; nlinarith) (by unfold indexPosition; dsimp only; nlinarith)
    rw [e1, e2]
    simp only [Option.isSome_some, true_iff]
    exact ⟨⟨g1, g2⟩, g3, g4⟩
  · next h =>
    simp only [Option.isSome_none, Bool.false_eq_true, false_iff]
    exact h

theorem nBins_pixels (n : Nat) (size : K) (h : 0 < size) : nBins (n * size) size = n := by
  unfold nBins
  rw [mul_div_assoc, div_self (ne_of_gt h), mul_one, Nat.ceil_natCast]

theorem binIndex_pixels_edge (n : Nat) (size : K) (h : 0 < size) (x : K) (hx : n * size / 2 ≤ x) : binIndex (n * size) size x = none := by
  have hv : (n : K) ≤ (x - histStart (n * size) size) / size := by
    unfold histStart
    rw [nBins_pixels n size h, le_div_iff₀ h]
    linarith
  have hn : (0 : K) ≤ n := Nat.cast_nonneg n
  unfold binIndex
  dsimp only
  rw [if_neg (by linarith), if_neg, ]
  rw [nBins_pixels n size h, not_lt]
  exact Nat.le_floor hv

theorem onSensor_iff (a : Args K) (h1 : 0 < a.dut.columnSize) (h2 : 0 < a.dut.rowSize) (h3 : a.resolution = none) (r : Row K) :
    (rowIndex (accPosition a.dut) Row.plain (a.dut.nColumns * a.dut.columnSize) (a.dut.nRows * a.dut.rowSize) a.res r).isSome = true ↔
      OnSensor a.dut r := by
  have hr : a.res = (a.dut.columnSize, a.dut.rowSize) := by unfold Args.res; rw [h3]; rfl
  rw [hr]
  constructor
  · intro h
    unfold rowIndex at h
    split at h
    · next ha =>
      obtain ⟨⟨g1, g2⟩, g3, g4⟩ := of_decide_eq_true ha
      refine ⟨⟨g1, ?_⟩, g3, ?_⟩
      · by_contra hn
        rw [binIndex_pixels_edge _ _ h1 _ (not_lt.mp hn)] at h
        simp at h
      · by_contra hn
        rw [binIndex_pixels_edge _ _ h2 _ (not_lt.mp hn)] at h
        split at h <;> simp_all
    · simp at h
  · rintro ⟨⟨g1, g2⟩, g3, g4⟩
    unfold rowIndex
    rw [if_pos (show accPosition a.dut r = true from decide_eq_true ⟨⟨g1, g2.le⟩, g3, g4.le⟩), binIndex_some _ _ _ h1 g1 g2, binIndex_some _ _ _ h2 g3 g4]
    rfl

/-! ### C83 -/

/-- C83 (proved part: small tables, and sorted tables where no event fills a chunk): a table of hits with pixel indices is accepted exactly
if the event numbers are not negative and never decrease and all hits are on the pixel matrix, for every positive resolution and event range.
Missing: unsorted tables with several chunks, see `C83_unsorted_accepted`. -/
theorem C83_indices_partial (a : Args K) (t : Table K) (ht : IndexTable t) (h1 : 0 < a.dut.columnSize) (h2 : 0 < a.dut.rowSize)
    (h3 : 0 < a.res.1) (h4 : 0 < a.res.2) (hd : Delivered a.chunkSize t.rows) :
    (∃ s, checkFile a t = .ok s) ↔ GoodEvents t.rows ∧ ∀ r ∈ t.rows, OnMatrix a.dut r := by
  obtain ⟨d1, d2⟩ := delivered_all a t.rows hd
  have key := checkFile_iff a t h1 h2 (prepares_index a t _ _ ht)
  rw [d1, d2, goodEvents_iff] at key
  simp only [onMatrix_iff a h1 h2 h3 h4, true_and] at key
  constructor
  · rintro ⟨s, hs⟩
    exact ⟨((key s).mp hs).1, ((key s).mp hs).2.1⟩
  · rintro ⟨g1, g2⟩
    exact ⟨_, (key _).mpr ⟨g1, g2, rfl⟩⟩

/-- C83 (proved part, as above): a table of hits with local positions is accepted exactly if the event numbers are not negative and never
decrease and all hits are on the sensor, where a hit on an upper edge is not accepted, see `C83_upper_edge`. -/
theorem C83_positions_partial (a : Args K) (t : Table K) (ht : PositionTable t) (h1 : 0 < a.dut.columnSize) (h2 : 0 < a.dut.rowSize)
    (h3 : a.resolution = none) (hd : Delivered a.chunkSize t.rows) :
    (∃ s, checkFile a t = .ok s) ↔ GoodEvents t.rows ∧ ∀ r ∈ t.rows, OnSensor a.dut r := by
  obtain ⟨d1, d2⟩ := delivered_all a t.rows hd
  have key := checkFile_iff a t h1 h2 (prepares_position a t _ _ h1 h2 ht)
  rw [d1, d2, goodEvents_iff] at key
  simp only [onSensor_iff a h1 h2 h3, true_and] at key
  constructor
  · rintro ⟨s, hs⟩
    exact ⟨((key s).mp hs).1, ((key s).mp hs).2.1⟩
  · rintro ⟨g1, g2⟩
    exact ⟨_, (key _).mpr ⟨g1, g2, rfl⟩⟩

theorem checkFile_single (a : Args K) (t : Table K) (h1 : 0 < a.dut.columnSize) (h2 : 0 < a.dut.rowSize) (hl : t.rows.length ≤ a.chunkSize)
    (hne : t.rows ≠ []) :
    checkFile a t = stepChunk a t (a.dut.nColumns * a.dut.columnSize) (a.dut.nRows * a.dut.rowSize) State.init t.rows := by
  unfold checkFile
  rw [Props.xExtent_eq _ h1, Props.yExtent_eq _ h2]
  dsimp only
  have e1 : (a.dut.nColumns * a.dut.columnSize / 2 - -(a.dut.nColumns * a.dut.columnSize / 2) : K) = a.dut.nColumns * a.dut.columnSize := by
    ring
  have e2 : (a.dut.nRows * a.dut.rowSize / 2 - -(a.dut.nRows * a.dut.rowSize / 2) : K) = a.dut.nRows * a.dut.rowSize := by ring
  rw [e1, e2, single_chunk _ _ _ hl hne]
  simp only [List.map_cons, List.map_nil, chunkLoop]
  cases stepChunk a t (a.dut.nColumns * a.dut.columnSize) (a.dut.nRows * a.dut.rowSize) State.init t.rows <;> rfl

/-- C83, errors: bad event numbers are refused with the documented exception, whatever else is wrong. -/
theorem C83_bad_events_refused (a : Args K) (t : Table K) (h1 : 0 < a.dut.columnSize) (h2 : 0 < a.dut.rowSize)
    (hl : t.rows.length ≤ a.chunkSize) (hg : ¬ GoodEvents t.rows) : checkFile a t = .error .order := by
  have hne : t.rows ≠ [] := by
    intro h0; apply hg; rw [h0]; exact ⟨by simp, List.Pairwise.nil⟩
  rw [checkFile_single a t h1 h2 hl hne]
  unfold stepChunk
  rw [if_neg]
  rw [← goodEvents_iff] at hg
  exact hg

/-- C83, errors: a hit that is not on the pixel matrix is refused with one of the two documented exceptions; the first if an index is below 1. -/
theorem C83_bad_index_refused (a : Args K) (t : Table K) (ht : IndexTable t) (h1 : 0 < a.dut.columnSize) (h2 : 0 < a.dut.rowSize)
    (hl : t.rows.length ≤ a.chunkSize) (hg : GoodEvents t.rows) (hb : ∃ r ∈ t.rows, ¬ OnMatrix a.dut r) :
    (checkFile a t = .error .startsAtOne ∧ ∃ r ∈ t.rows, r.plain.1 < 1 ∨ r.plain.2 < 1) ∨
    (checkFile a t = .error .exceeds ∧ (∀ r ∈ t.rows, 1 ≤ r.plain.1 ∧ 1 ≤ r.plain.2) ∧
      ∃ r ∈ t.rows, (a.dut.nColumns : K) < r.plain.1 ∨ (a.dut.nRows : K) < r.plain.2) := by
  obtain ⟨t1, t2, t3⟩ := ht
  obtain ⟨r, hr, hb⟩ := hb
  have hne : t.rows ≠ [] := by intro h0; rw [h0] at hr; simp at hr
  rw [checkFile_single a t h1 h2 hl hne]
  unfold stepChunk
  rw [if_pos (show increasing State.init.lastEventNumber (t.rows.map Row.ev) = true from (goodEvents_iff _).mpr hg)]
  unfold prepare checkRows
  rw [t2, t3]
  simp only [Bool.false_eq_true, if_false, Bool.not_true]
  by_cases hs : ∃ r ∈ t.rows, r.plain.1 < 1 ∨ r.plain.2 < 1
  · left
    refine ⟨?_, hs⟩
    obtain ⟨r', hr', hs'⟩ := hs
    rw [if_pos]
    rw [Bool.or_eq_true, List.any_eq_true, List.any_eq_true]
    rcases hs' with hs' | hs'
    · exact .inl ⟨r', hr', decide_eq_true hs'⟩
    · exact .inr ⟨r', hr', decide_eq_true hs'⟩
  · right
    push Not at hs
    have hx : (a.dut.nColumns : K) < r.plain.1 ∨ (a.dut.nRows : K) < r.plain.2 := by
      by_contra hn
      push Not at hn
      exact hb ⟨⟨(hs r hr).1, hn.1⟩, (hs r hr).2, hn.2⟩
    refine ⟨?_, hs, r, hr, hx⟩
    rw [if_neg, if_pos]
    · rw [Bool.or_eq_true, List.any_eq_true, List.any_eq_true]
      rcases hx with hx | hx
      · exact .inl ⟨r, hr, decide_eq_true hx⟩
      · exact .inr ⟨r, hr, decide_eq_true hx⟩
    · rw [Bool.or_eq_true, List.any_eq_true, List.any_eq_true]
      rintro (⟨r', hr', h⟩ | ⟨r', hr', h⟩)
      · exact absurd (of_decide_eq_true h) (not_lt.mpr (hs r' hr').1)
      · exact absurd (of_decide_eq_true h) (not_lt.mpr (hs r' hr').2)

/-- C83, errors: a position off the sensor is refused, but with a TypeError: the message of the documented exception cannot be built. -/
theorem C83_off_sensor_typeError (a : Args K) (t : Table K) (ht : PositionTable t) (h1 : 0 < a.dut.columnSize) (h2 : 0 < a.dut.rowSize)
    (hl : t.rows.length ≤ a.chunkSize) (hg : GoodEvents t.rows)
    (hb : ∃ r ∈ t.rows, r.plain.1 < -(a.dut.nColumns * a.dut.columnSize / 2) ∨ a.dut.nColumns * a.dut.columnSize / 2 < r.plain.1 ∨
      r.plain.2 < -(a.dut.nRows * a.dut.rowSize / 2) ∨ a.dut.nRows * a.dut.rowSize / 2 < r.plain.2) :
    checkFile a t = .error .typeError := by
  obtain ⟨r, hr, hb⟩ := hb
  have hne : t.rows ≠ [] := by intro h0; rw [h0] at hr; simp at hr
  rw [checkFile_single a t h1 h2 hl hne]
  unfold stepChunk
  rw [if_pos (show increasing State.init.lastEventNumber (t.rows.map Row.ev) = true from (goodEvents_iff _).mpr hg)]
  unfold prepare
  rw [checkRows_position _ _ h1 h2 ht, if_neg]
  intro hall
  obtain ⟨⟨g1, g2⟩, g3, g4⟩ := of_decide_eq_true (hall r hr)
  rcases hb with h | h | h | h <;> linarith

/-- C83, negation: a hit on the upper edge of the sensor passes the checks, but its bin does not exist: the correlation writes outside of the
histogram. -/
theorem C83_upper_edge (a : Args K) (t : Table K) (ht : PositionTable t) (h1 : 0 < a.dut.columnSize) (h2 : 0 < a.dut.rowSize)
    (h3 : a.resolution = none) (hl : t.rows.length ≤ a.chunkSize) (hg : GoodEvents t.rows)
    (hin : ∀ r ∈ t.rows, (-(a.dut.nColumns * a.dut.columnSize / 2) ≤ r.plain.1 ∧ r.plain.1 ≤ a.dut.nColumns * a.dut.columnSize / 2) ∧
      (-(a.dut.nRows * a.dut.rowSize / 2) ≤ r.plain.2 ∧ r.plain.2 ≤ a.dut.nRows * a.dut.rowSize / 2))
    (hb : ∃ r ∈ t.rows, r.plain.1 = a.dut.nColumns * a.dut.columnSize / 2 ∨ r.plain.2 = a.dut.nRows * a.dut.rowSize / 2) :
    checkFile a t = .error .outside := by
  obtain ⟨r, hr, hb⟩ := hb
  have hne : t.rows ≠ [] := by intro h0; rw [h0] at hr; simp at hr
  have hp := prepares_position a t (a.dut.nColumns * a.dut.columnSize) (a.dut.nRows * a.dut.rowSize) h1 h2 ht
  rw [checkFile_single a t h1 h2 hl hne]
  unfold stepChunk
  rw [if_pos (show increasing State.init.lastEventNumber (t.rows.map Row.ev) = true from (goodEvents_iff _).mpr hg)]
  have hnot : ∀ hits, prepare a t (a.dut.nColumns * a.dut.columnSize) (a.dut.nRows * a.dut.rowSize) t.rows ≠ .ok hits := by
    intro hits h
    have := ((map_some_iff _ _ _).mp ((hp.ok _ _).mp h)).1 r hr
    obtain ⟨⟨-, g2⟩, -, g4⟩ := (onSensor_iff a h1 h2 h3 r).mp this
    rcases hb with h | h <;> linarith
  have : prepare a t (a.dut.nColumns * a.dut.columnSize) (a.dut.nRows * a.dut.rowSize) t.rows = .error .outside := by
    cases hpr : prepare a t (a.dut.nColumns * a.dut.columnSize) (a.dut.nRows * a.dut.rowSize) t.rows with
    | ok hits => exact absurd hpr (hnot hits)
    | error e =>
      unfold prepare at hpr
      rw [checkRows_position _ _ h1 h2 ht, if_pos (show ∀ r ∈ t.rows, accPosition a.dut r = true from fun r hr => decide_eq_true (hin r hr))] at hpr
      unfold localPositions at hpr
      rw [ht.1, ht.2.1] at hpr
      simp only [Bool.false_eq_true, if_false, if_true] at hpr
      split at hpr
      · exact hpr.symm
      · simp at hpr
  rw [this]

/-- C83, negation: a file of clusters (which has no columns `column` and `row`, or `x` and `y`) is never accepted. -/
theorem C83_clusters_refused (a : Args K) (t : Table K) (ht : t.hasPlain = false) (h1 : 0 < a.dut.columnSize) (h2 : 0 < a.dut.rowSize)
    (hl : t.rows.length ≤ a.chunkSize) (hne : t.rows ≠ []) (hg : GoodEvents t.rows) : checkFile a t = .error .noField := by
  rw [checkFile_single a t h1 h2 hl hne]
  unfold stepChunk
  rw [if_pos (show increasing State.init.lastEventNumber (t.rows.map Row.ev) = true from (goodEvents_iff _).mpr hg)]
  unfold prepare checkRows
  rw [ht, Props.xExtent_eq _ h1, Props.yExtent_eq _ h2]
  cases t.positions <;> rfl

/-- C83, negation: if the first chunk ends with a row whose event number is below all others of the chunk, the chunk reader stops silently
and nothing is checked; the file is accepted, whatever the hits are. -/
theorem C83_unsorted_accepted (a : Args K) (t : Table K) (h1 : 0 < a.dut.columnSize) (h2 : 0 < a.dut.rowSize) (front : List (Row K))
    (r next : Row K) (rest : List (Row K)) (e : t.rows = front ++ r :: next :: rest) (hs : a.chunkSize = front.length + 1)
    (hne : front ≠ []) (hlt : ∀ q ∈ front, r.ev < q.ev) : ¬ GoodEvents t.rows ∧ checkFile a t = .ok State.init := by
  obtain ⟨q, front', rfl⟩ := List.exists_cons_of_ne_nil hne
  constructor
  · rintro ⟨-, h⟩
    unfold SortedBy at h
    rw [e, List.pairwise_append] at h
    have := h.2.2 q (by simp) r (by simp)
    have := hlt q (by simp)
    omega
  · have hd : dataAligned Row.ev t.rows { chunkSize := a.chunkSize } = ⟨[], none⟩ := by
      have hlen : t.rows.length = (q :: front').length + (rest.length + 2) := by rw [e]; simp; omega
      have hmin : min (0 + a.chunkSize) t.rows.length = (q :: front').length + 1 := by rw [hs, hlen]; omega
      have hch : readRows t.rows 0 ((q :: front').length + 1) = (q :: front') ++ [r] := by
        unfold readRows
        rw [e, List.drop_zero, List.take_append]
        simp
      have hss : searchsortedLeft (((q :: front') ++ [r]).map Row.ev) r.ev = 0 := by
        have := hlt q (by simp)
        simp [searchsortedLeft, List.takeWhile_cons]
        omega
      rw [dataAligned_default, dataLoop, dif_pos (by omega)]
      dsimp only
      rw [hmin, hch]
      have hf : ((q :: front') ++ [r]).head? = some q := rfl
      have hl : ((q :: front') ++ [r]).getLast? = some r := by rw [List.getLast?_append_of_ne_nil _ (by simp)]; rfl
      rw [hf, hl]
      dsimp only
      have hns : chunkStopIndex (((q :: front') ++ [r]).map Row.ev) none (decide ((q :: front').length + 1 = t.rows.length)) r.ev = 0 := by
        unfold chunkStopIndex
        dsimp only
        rw [if_neg, hss]
        rw [decide_eq_true_eq]; omega
      rw [dif_pos hns, if_neg]
      have := hlt q (by simp)
      rintro ⟨-, h⟩
      omega
    unfold checkFile
    rw [Props.xExtent_eq _ h1, Props.yExtent_eq _ h2]
    dsimp only
    rw [hd]
    rfl

/-! ### C84 -/

/-- Accepted tables of both kinds: the state is the fold over the chunks. -/
theorem accepted_state (a : Args K) (t : Table K) (ht : IndexTable t ∨ PositionTable t) (h1 : 0 < a.dut.columnSize) (h2 : 0 < a.dut.rowSize)
    (hd : Delivered a.chunkSize t.rows) (s : State) (hs : checkFile a t = .ok s) :
    GoodEvents t.rows ∧ ∃ f, s =
      ((dataAligned Row.ev t.rows { chunkSize := a.chunkSize }).items.map Prod.fst).foldl (nextState f a.eventRange) State.init := by
  obtain ⟨d1, d2⟩ := delivered_all a t.rows hd
  rcases ht with ht | ht
  · obtain ⟨-, g2, -, g4⟩ := (checkFile_iff a t h1 h2 (prepares_index a t _ _ ht) s).mp hs
    rw [d2, goodEvents_iff] at g2
    exact ⟨g2, _, g4⟩
  · obtain ⟨-, g2, -, g4⟩ := (checkFile_iff a t h1 h2 (prepares_position a t _ _ h1 h2 ht) s).mp hs
    rw [d2, goodEvents_iff] at g2
    exact ⟨g2, _, g4⟩

/-- C84: the stored event numbers are the different event numbers of the table, increasing, for every chunk size. -/
theorem C84_event_numbers (a : Args K) (t : Table K) (ht : IndexTable t ∨ PositionTable t) (h1 : 0 < a.dut.columnSize)
    (h2 : 0 < a.dut.rowSize) (hd : Delivered a.chunkSize t.rows) (s : State) (hs : checkFile a t = .ok s) :
    DifferentOf (t.rows.map Row.ev) s.eventNumber := by
  obtain ⟨hg, f, rfl⟩ := accepted_state a t ht h1 h2 hd s hs
  exact eventNumber_different f a.eventRange a.chunkSize t.rows hd hg.2

/-- C84 (proved part: no event 0, or one chunk): the stored distances are the distances of neighbouring stored event numbers.
Missing: event 0 at the end of a chunk, see `C84_event_zero`. -/
theorem C84_distances_partial (a : Args K) (t : Table K) (ht : IndexTable t ∨ PositionTable t) (h1 : 0 < a.dut.columnSize)
    (h2 : 0 < a.dut.rowSize) (hd : Delivered a.chunkSize t.rows) (hz : (∀ r ∈ t.rows, r.ev ≠ 0) ∨ t.rows.length ≤ a.chunkSize)
    (s : State) (hs : checkFile a t = .ok s) : Distances s.eventNumber s.eventDelta := by
  obtain ⟨hg, f, rfl⟩ := accepted_state a t ht h1 h2 hd s hs
  have hdel : (((dataAligned Row.ev t.rows { chunkSize := a.chunkSize }).items.map Prod.fst).foldl (nextState f a.eventRange)
      State.init).eventDelta = npDiff (((dataAligned Row.ev t.rows { chunkSize := a.chunkSize }).items.map Prod.fst).foldl
        (nextState f a.eventRange) State.init).eventNumber := by
    rcases hz with hz | hz
    · apply foldl_delta
      · intro c hc
        obtain ⟨p, hp, rfl⟩ := List.mem_map.mp hc
        rw [dataAligned_default] at hp
        exact chunks_ne_nil _ _ _ _ _ _ p hp
      · rfl
      · rfl
      · intro e he; simp [State.init] at he
      · rw [(delivered_all a t.rows hd).2]; exact hz
    · by_cases hne : t.rows = []
      · rw [hne, no_chunk]; rfl
      · rw [single_chunk _ _ _ hz hne]
        simp only [List.map_cons, List.map_nil, List.foldl_cons, List.foldl_nil, nextState, State.init, List.nil_append]
        rfl
  rw [hdel]
  exact distances_npDiff _

/-! ### C85 -/

omit [LinearOrder K] [FloorRing K] [IsStrictOrderedRing K] in
theorem pairCount_filterMap (f : Row K → Option IHit) (l m : List (Row K)) (P : IHit → IHit → Bool) (Q : Row K → Row K → Bool)
    (h : ∀ q ∈ l, ∀ p ∈ m, ∃ x y, f q = some x ∧ f p = some y ∧ P x y = Q q p) :
    pairCount (l.filterMap f) (m.filterMap f) P = pairCount l m Q := by
  unfold pairCount
  rw [List.countP_flatMap, List.countP_flatMap]
  induction l with
  | nil => rfl
  | cons q l ih =>
    have ih' := ih fun q hq => h q (by simp [hq])
    by_cases hm : m = []
    · subst hm
      simp [Function.comp_def]
    · obtain ⟨p0, hp0⟩ := List.exists_mem_of_ne_nil m hm
      obtain ⟨x, -, hx, -, -⟩ := h q (by simp) p0 hp0
      rw [List.filterMap_cons, hx]
      simp only [List.map_cons, List.sum_cons]
      rw [ih']
      congr 1
      simp only [Function.comp_apply]
      have : ∀ p ∈ m, ∃ y, f p = some y ∧ P x y = Q q p := by
        intro p hp
        obtain ⟨x', y, hx', hy, e⟩ := h q (by simp) p hp
        rw [hx] at hx'
        injection hx' with hx'
        subst hx'
        exact ⟨y, hy, e⟩
      clear ih ih' h hm hp0
      induction m with
      | nil => rfl
      | cons p m ihm =>
        obtain ⟨y, hy, e⟩ := this p (by simp)
        have := ihm (fun p hp => this p (by simp [hp]))
        rw [List.filterMap_cons, hy]
        simp only [List.map_cons, List.countP_cons, e, this]

theorem pairCount_mono {A B : Type} (l l' : List A) (m m' : List B) (P : A → B → Bool) (h1 : l.Sublist l') (h2 : m.Sublist m') :
    pairCount l m P ≤ pairCount l' m' P := by
  unfold pairCount
  apply List.Sublist.countP_le
  induction h1 with
  | slnil => simp
  | cons a h ih => exact ih.trans (List.sublist_append_right _ _)
  | cons_cons a h ih =>
    rw [List.flatMap_cons, List.flatMap_cons]
    exact (h2.map _).append ih

theorem pairCount_append_le {A : Type} (l m : List A) (P : A → A → Bool) :
    pairCount l l P + pairCount m m P ≤ pairCount (l ++ m) (l ++ m) P := by
  have h1 : pairCount (l ++ m) (l ++ m) P = pairCount l (l ++ m) P + pairCount m (l ++ m) P := by
    unfold pairCount
    rw [List.flatMap_append, List.countP_append]
  have h2 := pairCount_mono l l l (l ++ m) P (List.Sublist.refl _) (List.sublist_append_left _ _)
  have h3 := pairCount_mono m m m (l ++ m) P (List.Sublist.refl _) (List.sublist_append_right _ _)
  omega

theorem pairCount_flatten_le {A : Type} (cs : List (List A)) (P : A → A → Bool) :
    (cs.map fun c => pairCount c c P).sum ≤ pairCount cs.flatten cs.flatten P := by
  induction cs with
  | nil => simp
  | cons c r ih =>
    rw [List.map_cons, List.sum_cons, List.flatten_cons]
    exact le_trans (Nat.add_le_add_left ih _) (pairCount_append_le c r.flatten P)

theorem binIndex_pixel (n c : Nat) (size : K) (h : 0 < size) (h1 : 1 ≤ c) (h2 : c ≤ n) :
    binIndex (n * size) size (size * (c - (n + 1) / 2)) = some (c - 1) := by
  have c1 : (1 : K) ≤ c := by exact_mod_cast h1
  have c2 : (c : K) ≤ n := by exact_mod_cast h2
  rw [binIndex_some _ _ _ h (by nlinarith) (by nlinarith)]
  have e : (size * ((c : K) - (n + 1) / 2) - histStart (n * size) size) / size = ((c - 1 : Nat) : K) + 1 / 2 := by
    unfold histStart
    rw [nBins_pixels n size h, Nat.cast_sub h1]
    field_simp
    push_cast
    ring
  rw [e, Option.some.injEq, Nat.floor_eq_iff (by positivity)]
  constructor <;> linarith

/-- Integer pixel indices. -/
theorem rowIndex_pixel (a : Args K) (h1 : 0 < a.dut.columnSize) (h2 : 0 < a.dut.rowSize) (h3 : a.resolution = none) (r : Row K)
    (hi : ∃ c w : Nat, r.plain = ((c : K), (w : K))) (hm : OnMatrix a.dut r) :
    ∃ c w : Nat, r.plain = (((c + 1 : Nat) : K), ((w + 1 : Nat) : K)) ∧
      rowIndex (accIndex a.dut) (indexPosition a.dut) (a.dut.nColumns * a.dut.columnSize) (a.dut.nRows * a.dut.rowSize) a.res r
        = some ⟨r.ev, c, w⟩ := by
  have hr : a.res = (a.dut.columnSize, a.dut.rowSize) := by unfold Args.res; rw [h3]; rfl
  obtain ⟨c, w, hi⟩ := hi
  have hm' := hm
  unfold OnMatrix at hm'
  rw [hi] at hm'
  dsimp only at hm'
  obtain ⟨⟨g1, g2⟩, g3, g4⟩ := hm'
  have c1 : 1 ≤ c := by exact_mod_cast g1
  have c2 : c ≤ a.dut.nColumns := by exact_mod_cast g2
  have w1 : 1 ≤ w := by exact_mod_cast g3
  have w2 : w ≤ a.dut.nRows := by exact_mod_cast g4
  refine ⟨c - 1, w - 1, by rw [hi, Nat.sub_add_cancel c1, Nat.sub_add_cancel w1], ?_⟩
  unfold rowIndex
  rw [if_pos (show accIndex a.dut r = true from decide_eq_true hm), hr]
  dsimp only [indexPosition]
  rw [hi]
  dsimp only
  rw [binIndex_pixel _ _ _ h1 c1 c2, binIndex_pixel _ _ _ h2 w1 w2]

/-- Rows of two events `q` and `p`, where `p` is at most `range` events before `q`, with `f p = u` and `f q = v`. -/
def Earlier (range : Nat) (f : Row K → K) (u v : K) (q p : Row K) : Bool :=
  decide ((0 < q.ev - p.ev ∧ q.ev - p.ev ≤ range) ∧ f p = u ∧ f q = v)

theorem pairCount_rows (a : Args K) (h1 : 0 < a.dut.columnSize) (h2 : 0 < a.dut.rowSize) (h3 : a.resolution = none) (rows : List (Row K))
    (hi : ∀ r ∈ rows, ∃ c w : Nat, r.plain = ((c : K), (w : K))) (hm : ∀ r ∈ rows, OnMatrix a.dut r) (i j : Nat) :
    let f := rowIndex (accIndex a.dut) (indexPosition a.dut) (a.dut.nColumns * a.dut.columnSize) (a.dut.nRows * a.dut.rowSize) a.res
    pairCount (rows.filterMap f) (rows.filterMap f) (earlierPair a.eventRange fun q p => decide (p.x = i ∧ q.x = j)) =
      pairCount rows rows (Earlier a.eventRange (fun r => r.plain.1) (i + 1) (j + 1)) ∧
    pairCount (rows.filterMap f) (rows.filterMap f) (earlierPair a.eventRange fun q p => decide (p.y = i ∧ q.y = j)) =
      pairCount rows rows (Earlier a.eventRange (fun r => r.plain.2) (i + 1) (j + 1)) := by
  intro f
  constructor
  · apply pairCount_filterMap
    intro q hq p hp
    obtain ⟨c, w, hc, hf⟩ := rowIndex_pixel a h1 h2 h3 q (hi q hq) (hm q hq)
    obtain ⟨c', w', hc', hf'⟩ := rowIndex_pixel a h1 h2 h3 p (hi p hp) (hm p hp)
    refine ⟨_, _, hf, hf', ?_⟩
    unfold earlierPair Earlier
    rw [← Bool.decide_and]
    congr 1
    dsimp only
    rw [hc, hc', eq_iff_iff]
    dsimp only
    apply and_congr Iff.rfl
    norm_cast
    omega
  · apply pairCount_filterMap
    intro q hq p hp
    obtain ⟨c, w, hc, hf⟩ := rowIndex_pixel a h1 h2 h3 q (hi q hq) (hm q hq)
    obtain ⟨c', w', hc', hf'⟩ := rowIndex_pixel a h1 h2 h3 p (hi p hp) (hm p hp)
    refine ⟨_, _, hf, hf', ?_⟩
    unfold earlierPair Earlier
    rw [← Bool.decide_and]
    congr 1
    dsimp only
    rw [hc, hc', eq_iff_iff]
    dsimp only
    apply and_congr Iff.rfl
    norm_cast
    omega

theorem accepted_corr (a : Args K) (t : Table K) (ht : IndexTable t) (h1 : 0 < a.dut.columnSize) (h2 : 0 < a.dut.rowSize)
    (h3 : a.resolution = none) (hd : Delivered a.chunkSize t.rows) (hi : ∀ r ∈ t.rows, ∃ c w : Nat, r.plain = ((c : K), (w : K)))
    (s : State) (hs : checkFile a t = .ok s) (i j : Nat) :
    s.xCorr i j = (((dataAligned Row.ev t.rows { chunkSize := a.chunkSize }).items.map Prod.fst).map fun (c : List (Row K)) =>
      pairCount c c (Earlier a.eventRange (fun r => r.plain.1) (i + 1) (j + 1))).sum ∧
    s.yCorr i j = (((dataAligned Row.ev t.rows { chunkSize := a.chunkSize }).items.map Prod.fst).map fun (c : List (Row K)) =>
      pairCount c c (Earlier a.eventRange (fun r => r.plain.2) (i + 1) (j + 1))).sum := by
  have hr : a.res = (a.dut.columnSize, a.dut.rowSize) := by unfold Args.res; rw [h3]; rfl
  obtain ⟨d1, d2⟩ := delivered_all a t.rows hd
  obtain ⟨-, -, g3, g4⟩ := (checkFile_iff a t h1 h2 (prepares_index a t _ _ ht) s).mp hs
  rw [d2] at g3
  have hm : ∀ r ∈ t.rows, OnMatrix a.dut r := fun r hrr =>
    (onMatrix_iff a h1 h2 (by rw [hr]; exact h1) (by rw [hr]; exact h2) r).mp (g3 r hrr)
  have hsub : ∀ c ∈ (dataAligned Row.ev t.rows { chunkSize := a.chunkSize }).items.map Prod.fst, ∀ r ∈ c, r ∈ t.rows := by
    intro c hc r hrc
    rw [← d2]; exact List.mem_flatten.mpr ⟨c, hc, hrc⟩
  have hf := foldl_corr (rowIndex (accIndex a.dut) (indexPosition a.dut) (a.dut.nColumns * a.dut.columnSize) (a.dut.nRows * a.dut.rowSize)
    a.res) a.eventRange ((dataAligned Row.ev t.rows { chunkSize := a.chunkSize }).items.map Prod.fst) State.init i j
  rw [← g4] at hf
  rw [hf.1, hf.2]
  have z1 : State.init.xCorr i j = 0 := rfl
  have z2 : State.init.yCorr i j = 0 := rfl
  rw [z1, z2, Nat.zero_add, Nat.zero_add]
  constructor
  · congr 1
    apply List.map_congr_left
    intro c hc
    exact (pairCount_rows a h1 h2 h3 c (fun r hr => hi r (hsub c hc r hr)) (fun r hr => hm r (hsub c hc r hr)) i j).1
  · congr 1
    apply List.map_congr_left
    intro c hc
    exact (pairCount_rows a h1 h2 h3 c (fun r hr => hi r (hsub c hc r hr)) (fun r hr => hm r (hsub c hc r hr)) i j).2

/-- C85 (proved part: tables not longer than a chunk): entry (i, j) of the column histogram is the number of pairs of hits, the first in
column i + 1 and the second in column j + 1 of an event at most `event_range` later; same for rows.
Missing: pairs that are not in the same chunk are lost, see `C85_border_lost`. -/
theorem C85_pairs_partial (a : Args K) (t : Table K) (ht : IndexTable t) (h1 : 0 < a.dut.columnSize) (h2 : 0 < a.dut.rowSize)
    (h3 : a.resolution = none) (hl : t.rows.length ≤ a.chunkSize) (hi : ∀ r ∈ t.rows, ∃ c w : Nat, r.plain = ((c : K), (w : K)))
    (s : State) (hs : checkFile a t = .ok s) (i j : Nat) :
    s.xCorr i j = pairCount t.rows t.rows (Earlier a.eventRange (fun r => r.plain.1) (i + 1) (j + 1)) ∧
    s.yCorr i j = pairCount t.rows t.rows (Earlier a.eventRange (fun r => r.plain.2) (i + 1) (j + 1)) := by
  obtain ⟨g1, g2⟩ := accepted_corr a t ht h1 h2 h3 (.inl hl) hi s hs i j
  rw [g1, g2]
  by_cases hne : t.rows = []
  · rw [hne, no_chunk]; exact ⟨rfl, rfl⟩
  · rw [single_chunk _ _ _ hl hne]; simp

/-- C85: for every chunk size no pair is counted that does not exist: no correlation is shown for distinct events. -/
theorem C85_no_false_pairs (a : Args K) (t : Table K) (ht : IndexTable t) (h1 : 0 < a.dut.columnSize) (h2 : 0 < a.dut.rowSize)
    (h3 : a.resolution = none) (hd : Delivered a.chunkSize t.rows) (hi : ∀ r ∈ t.rows, ∃ c w : Nat, r.plain = ((c : K), (w : K)))
    (s : State) (hs : checkFile a t = .ok s) (i j : Nat) :
    s.xCorr i j ≤ pairCount t.rows t.rows (Earlier a.eventRange (fun r => r.plain.1) (i + 1) (j + 1)) ∧
    s.yCorr i j ≤ pairCount t.rows t.rows (Earlier a.eventRange (fun r => r.plain.2) (i + 1) (j + 1)) := by
  obtain ⟨g1, g2⟩ := accepted_corr a t ht h1 h2 h3 hd hi s hs i j
  have := (delivered_all a t.rows hd).2
  rw [g1, g2]
  constructor
  · conv_rhs => rw [← this]
    exact pairCount_flatten_le _ _
  · conv_rhs => rw [← this]
    exact pairCount_flatten_le _ _

end

/-! ### Witnesses -/

/-- A DUT with one pixel of 50 x 50. -/
def onePixel (cs : Nat) : Args ℚ := ⟨⟨50, 50, 1, 1⟩, none, 1, cs⟩

/-- One hit in each of the events. -/
def hitsOf (events : List Int) : Table ℚ := ⟨false, false, true, events.map fun e => ⟨e, (1, 1), (0, 0)⟩⟩

theorem hitsOf_chunks (x y z : Int) (h1 : x < y) (h2 : y < z) :
    dataAligned Row.ev (hitsOf [x, y, z]).rows { chunkSize := 2 } =
      ⟨[([⟨x, (1, 1), (0, 0)⟩], 1), ([⟨y, (1, 1), (0, 0)⟩, ⟨z, (1, 1), (0, 0)⟩], 3)], none⟩ := by
  have s1 : searchsortedLeft [x, y] y = 1 := by
    unfold searchsortedLeft
    rw [List.takeWhile_cons, if_pos (by simpa using h1), List.takeWhile_cons, if_neg (by simp)]
    rfl
  rw [dataAligned_default]
  rw [dataLoop]
  simp only [hitsOf, List.map_cons, List.map_nil, List.length_cons, List.length_nil, readRows, chunkStopIndex]
  norm_num
  rw [if_neg (by rw [s1]; omega), s1]
  rw [dataLoop]
  simp only [readRows, chunkStopIndex]
  norm_num
  rw [dataLoop]
  norm_num

theorem hitsOf_ok (x y z : Int) (h0 : 0 ≤ x) (h1 : x < y) (h2 : y < z) : ∃ s, checkFile (onePixel 2) (hitsOf [x, y, z]) = .ok s := by
  rw [C83_indices_partial _ _ ⟨rfl, rfl, rfl⟩ (by simp [onePixel]) (by simp [onePixel]) (by simp [onePixel, Args.res])
    (by simp [onePixel, Args.res])]
  · refine ⟨⟨?_, ?_⟩, ?_⟩
    · simp [hitsOf]; omega
    · simp [SortedBy, hitsOf]; omega
    · simp [hitsOf, OnMatrix, onePixel]
  · refine .inr ⟨by simp [onePixel], ?_, ?_⟩
    · simp [SortedBy, hitsOf]; omega
    · intro e
      simp only [BTA.Spec.multiplicity, hitsOf, onePixel, List.map_cons, List.map_nil, List.filter_cons, List.filter_nil]
      by_cases e1 : x = e
      · simp [e1, show ¬ y = e by omega, show ¬ z = e by omega]
      · by_cases e2 : y = e
        · simp [e1, e2, show ¬ z = e by omega]
        · by_cases e3 : z = e <;> simp [e1, e2, e3]

/-- C84, negation: event 0 in a chunk of its own, followed by event 1: the distance is missing. -/
theorem C84_event_zero : ∃ s, checkFile (onePixel 2) (hitsOf [0, 1, 2]) = .ok s ∧ s.eventNumber = [0, 1, 2] ∧ s.eventDelta = [1] ∧
    ¬ Distances s.eventNumber s.eventDelta := by
  obtain ⟨s, hs⟩ := hitsOf_ok 0 1 2 (by omega) (by omega) (by omega)
  obtain ⟨-, -, -, g4⟩ := (checkFile_iff (onePixel 2) _ (by simp [onePixel]) (by simp [onePixel]) (prepares_index _ _ _ _ ⟨rfl, rfl, rfl⟩) s).mp hs
  have hch := hitsOf_chunks 0 1 2 (by omega) (by omega)
  rw [show (onePixel 2).chunkSize = 2 from rfl, hch] at g4
  have u1 : npUnique [0] = [0] := by rw [npUnique_sorted _ (by simp)]; decide
  have u2 : npUnique [1, 2] = [1, 2] := by rw [npUnique_sorted _ (by simp)]; decide
  have e1 : s.eventNumber = [0, 1, 2] := by
    rw [g4]
    simp only [List.map_cons, List.map_nil, List.foldl_cons, List.foldl_nil, nextState, State.init, u1, u2]
    rfl
  have e2 : s.eventDelta = [1] := by
    rw [g4]
    simp only [List.map_cons, List.map_nil, List.foldl_cons, List.foldl_nil, nextState, State.init, u1, u2]
    rfl
  refine ⟨s, hs, e1, e2, ?_⟩
  rw [e1, e2]
  rintro ⟨h, -⟩
  simp at h

/-- C85, negation: hits in events 1, 2 and 3: two pairs of consecutive events; with chunks of two rows only one of them is counted. -/
theorem C85_border_lost : ∃ s, checkFile (onePixel 2) (hitsOf [1, 2, 3]) = .ok s ∧ s.xCorr 0 0 = 1 ∧
    pairCount (hitsOf [1, 2, 3]).rows (hitsOf [1, 2, 3]).rows (Earlier 1 (fun r => r.plain.1) 1 1) = 2 := by
  obtain ⟨s, hs⟩ := hitsOf_ok 1 2 3 (by omega) (by omega) (by omega)
  have hch := hitsOf_chunks 1 2 3 (by omega) (by omega)
  have hd : Delivered (onePixel 2).chunkSize (hitsOf [1, 2, 3]).rows := by
    refine .inr ⟨by simp [onePixel], by simp [SortedBy, hitsOf], ?_⟩
    intro e
    simp only [BTA.Spec.multiplicity, hitsOf, onePixel, List.map_cons, List.map_nil, List.filter_cons, List.filter_nil]
    by_cases e1 : (1 : Int) = e
    · subst e1; decide
    · by_cases e2 : (2 : Int) = e
      · subst e2; decide
      · by_cases e3 : (3 : Int) = e <;> simp [e1, e2, e3]
  have := (accepted_corr (onePixel 2) _ ⟨rfl, rfl, rfl⟩ (by simp [onePixel]) (by simp [onePixel]) rfl hd
    (by intro r hr; exact ⟨1, 1, by simp [hitsOf] at hr; rcases hr with rfl | rfl | rfl <;> simp⟩) s hs 0 0).1
  rw [show (onePixel 2).chunkSize = 2 from rfl, hch] at this
  refine ⟨s, hs, ?_, ?_⟩
  · rw [this]
    decide +kernel
  · decide +kernel

/-! ### Examples -/

/-- Two hits of event 3 and one of event 5 on a matrix of 2 x 3 pixels. -/
def exTable : Table ℚ := ⟨false, false, true, [⟨3, (1, 3), (0, 0)⟩, ⟨3, (2, 1), (0, 0)⟩, ⟨5, (2, 2), (0, 0)⟩]⟩

def exArgs (cs : Nat) : Args ℚ := ⟨⟨250, 50, 2, 3⟩, none, 2, cs⟩

example : ∃ s, checkFile (exArgs 10) exTable = .ok s ∧ DifferentOf [3, 3, 5] s.eventNumber ∧ Distances s.eventNumber s.eventDelta ∧
    s.xCorr 1 1 = 1 ∧ s.xCorr 0 1 = 1 ∧ s.xCorr 0 0 = 0 := by
  have hl : exTable.rows.length ≤ (exArgs 10).chunkSize := by decide
  have p1 : 0 < (exArgs 10).dut.columnSize := by simp [exArgs]
  have p2 : 0 < (exArgs 10).dut.rowSize := by simp [exArgs]
  have ok := (C83_indices_partial (exArgs 10) exTable ⟨rfl, rfl, rfl⟩ p1 p2 (by simp [exArgs, Args.res]) (by simp [exArgs, Args.res])
    (.inl hl)).mpr ⟨⟨by simp [exTable], by simp [SortedBy, exTable]⟩, by
      simp [exTable, OnMatrix, exArgs]; norm_num⟩
  obtain ⟨s, hs⟩ := ok
  have hc := fun i j => (C85_pairs_partial (exArgs 10) exTable ⟨rfl, rfl, rfl⟩ p1 p2 rfl hl (by
    intro r hr
    simp only [exTable, List.mem_cons, List.not_mem_nil, or_false] at hr
    rcases hr with rfl | rfl | rfl
    · exact ⟨1, 3, by norm_num⟩
    · exact ⟨2, 1, by norm_num⟩
    · exact ⟨2, 2, by norm_num⟩) s hs i j).1
  refine ⟨s, hs, C84_event_numbers _ _ (.inl ⟨rfl, rfl, rfl⟩) p1 p2 (.inl hl) s hs,
    C84_distances_partial _ _ (.inl ⟨rfl, rfl, rfl⟩) p1 p2 (.inl hl) (.inr hl) s hs, ?_, ?_, ?_⟩
  · rw [hc]; decide +kernel
  · rw [hc]; decide +kernel
  · rw [hc]; decide +kernel

/-- Column 3 does not exist. -/
example : checkFile (exArgs 10) ⟨false, false, true, [⟨3, (3, 1), (0, 0)⟩]⟩ = .error .exceeds := by
  rcases C83_bad_index_refused (exArgs 10) ⟨false, false, true, [⟨3, (3, 1), (0, 0)⟩]⟩ ⟨rfl, rfl, rfl⟩ (by simp [exArgs]) (by simp [exArgs])
    (by decide) ⟨by simp, by simp [SortedBy]⟩ ⟨_, List.mem_cons_self, by simp [OnMatrix, exArgs]; norm_num⟩ with h | h
  · obtain ⟨-, r, hr, h⟩ := h
    simp only [List.mem_cons, List.not_mem_nil, or_false] at hr
    subst hr
    norm_num at h
  · exact h.1

/-- Events 5, 6, 3, 9 in chunks of three rows: accepted, although the second hit is not on the matrix. -/
example : checkFile (exArgs 3) ⟨false, false, true, [⟨5, (1, 1), (0, 0)⟩, ⟨6, (0, 1), (0, 0)⟩, ⟨3, (1, 1), (0, 0)⟩, ⟨9, (1, 1), (0, 0)⟩]⟩
    = .ok State.init :=
  (C83_unsorted_accepted (exArgs 3) _ (by simp [exArgs]) (by simp [exArgs]) [⟨5, (1, 1), (0, 0)⟩, ⟨6, (0, 1), (0, 0)⟩] _ _ [] rfl rfl
    (by simp) (by simp)).2

/-- The sensor is 500 wide: x = 250 is written outside of the histogram, x = 249 is accepted, x = 251 is a TypeError. -/
example : checkFile (exArgs 3) ⟨false, true, true, [⟨5, (250, 0), (0, 0)⟩]⟩ = .error .outside ∧
    (∃ s, checkFile (exArgs 3) ⟨false, true, true, [⟨5, (249, 0), (0, 0)⟩]⟩ = .ok s) ∧
    checkFile (exArgs 3) ⟨false, true, true, [⟨5, (251, 0), (0, 0)⟩]⟩ = .error .typeError := by
  refine ⟨?_, ?_, ?_⟩
  · apply C83_upper_edge _ _ ⟨rfl, rfl, rfl⟩ (by simp [exArgs]) (by simp [exArgs]) rfl (by decide) ⟨by simp, by simp [SortedBy]⟩
    · simp [exArgs]; norm_num
    · simp [exArgs]
  · rw [C83_positions_partial _ _ ⟨rfl, rfl, rfl⟩ (by simp [exArgs]) (by simp [exArgs]) rfl (.inl (by decide))]
    refine ⟨⟨by simp, by simp [SortedBy]⟩, ?_⟩
    simp [OnSensor, exArgs]; norm_num
  · apply C83_off_sensor_typeError _ _ ⟨rfl, rfl, rfl⟩ (by simp [exArgs]) (by simp [exArgs]) (by decide) ⟨by simp, by simp [SortedBy]⟩
    simp [exArgs]; norm_num

end BTA.Check
