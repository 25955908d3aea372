import Verif.Lemmas.Plots
import Verif.Spec.Plots
import Verif.Props.ShapeHist

/-! C195, C202: the histograms of `plot_cluster_hists`. -/

namespace BTA.Plots.Props
open BTA.Plots BTA.Spec BTA.Spec.Plots BTA.Binning

theorem sel_eq (ofDut : Bool) (T : List ClusterRow) : sel ofDut T = clustersOf ofDut T := by
  cases ofDut <;> simp [sel, clustersOf]

theorem count_map (cl : List ClusterRow) (n : Nat) : (cl.map ClusterRow.nHits).count n = cl.countP fun r => r.nHits == n := by
  rw [List.count, List.countP_map]; rfl

theorem shapeHist_eq (cl : List ClusterRow) (s : Nat) (hs : s < 65534) : shapeHist cl s = cl.countP fun r => r.shape == (s : Int) := by
  unfold shapeHist counts
  apply List.countP_congr
  intro v _
  rw [decide_eq_true_iff, ShapeHist.Props.bin_int _ _ (by norm_num), beq_iff_eq]
  omega

theorem countP_or (cl : List ClusterRow) (p q : ClusterRow → Bool) (h : ∀ r, ¬(p r = true ∧ q r = true)) :
    cl.countP p + cl.countP q = cl.countP fun r => p r || q r := by
  induction cl with
  | nil => rfl
  | cons r t ih =>
    simp only [List.countP_cons, ← ih]
    have := h r
    cases hp : p r <;> cases hq : q r <;> simp_all <;> omega

/-- The number of elements with a value in a list without repetitions. -/
theorem sum_countP_list (cl : List ClusterRow) (l : List Int) (hl : l.Nodup) :
    (l.map fun s => cl.countP fun r => r.shape == s).sum = cl.countP fun r => l.contains r.shape := by
  induction l with
  | nil => simp
  | cons a t ih =>
    rw [List.nodup_cons] at hl
    rw [List.map_cons, List.sum_cons, ih hl.2, countP_or]
    · apply List.countP_congr
      intro r _
      simp
    · rintro r ⟨h1, h2⟩
      rw [beq_iff_eq] at h1
      rw [List.contains_iff_mem, h1] at h2
      exact hl.1 h2

theorem shows_after (cl : List ClusterRow) (hcl : cl ≠ []) (p : ClusterPlot) (h : drawClusters (after cl).scope (after cl).nHits (after cl).nClusters = .ok p) : ShowsClusters cl p := by
  obtain ⟨m, hm⟩ := max?_of_ne (l := cl.map ClusterRow.nHits) (by simpa using hcl)
  cases Except.ok.inj h
  have hlen := bincount_length _ 0 m hm
  rw [if_pos (by omega)] at hlen
  have hmax := hm
  rw [List.max?_eq_some_iff] at hmax
  have hshapes : (shownShapes.map (shapeHist cl)) = shapesWithBar.map fun s => cl.countP fun r => r.shape == s := by
    have : shapesWithBar = shownShapes.map fun n : Nat => (n : Int) := by decide
    rw [this, List.map_map]
    apply List.map_congr_left
    intro s hs
    have hlt : ∀ s ∈ shownShapes, s < 65534 := by decide
    exact shapeHist_eq cl s (hlt s hs)
  refine ⟨rfl, rfl, ?_, ⟨?_, ?_⟩, ?_, hshapes, ?_⟩
  · intro n
    dsimp only
    rw [List.getD_eq_getElem?_getD, List.getElem?_drop, bincount_get _ 0 m hm, ← count_map, Nat.add_comm 1 n]
    split
    · rfl
    · rename_i hn
      rw [count_above _ m hm (n + 1) (by omega)]; rfl
  · intro r hr
    dsimp only
    rw [List.length_drop, hlen]
    exact hmax.2 _ (List.mem_map_of_mem hr)
  · obtain ⟨r, hr, hrm⟩ := List.mem_map.1 hmax.1
    refine ⟨r, hr, ?_⟩
    dsimp only
    rw [List.length_drop, hlen, hrm]
    rfl
  · dsimp only
    rw [hlen, List.drop_take, Nat.add_sub_cancel]
    rw [Nat.add_sub_cancel]
    rcases le_total 10 m with h10 | h10
    · rw [min_eq_left h10]
    · rw [min_eq_right h10, List.take_of_length_le (by simp [hlen]), List.take_of_length_le (by simpa [hlen] using h10)]
  · dsimp only
    change ((cl.length : Nat) : Int) - ((shownShapes.map (shapeHist cl)).sum : Nat) = _
    rw [hshapes, sum_countP_list cl shapesWithBar (by decide), List.length_eq_countP_add_countP (fun r : ClusterRow => shapesWithBar.contains r.shape) (l := cl)]
    simp

/-- C195: if `plot_cluster_hists` returns, then the plots of a DUT with a non-empty table show exactly the clusters of this DUT, for every chunk size.

Partial: it is not true that the function returns for every file (`C195_no_hit_fails`, `C195_chunk_size_fails`), and not true for an empty table (`C195_empty_table_stale`). -/
theorem C195_exact_partial (ofDut : Bool) (cs : Nat) (hcs : 0 < cs) (tables : List (List ClusterRow)) (hs : ∀ T ∈ tables, SortedBy ClusterRow.event T) (plots : List ClusterPlot)
    (h : plotClusterHists ofDut (none, none) cs tables = .ok plots) :
    plots.length = tables.length ∧
    ∀ (i : Nat) (T : List ClusterRow) (p : ClusterPlot), tables[i]? = some T → plots[i]? = some p → T ≠ [] → ShowsClusters (clustersOf ofDut T) p := by
  refine ⟨clusterDuts_length _ _ _ _ _ _ h, ?_⟩
  intro i T p hT hp hne
  obtain ⟨sc1, sc2, h1⟩ := clusterDuts_mem _ _ _ _ _ _ h i T p hT hp
  obtain ⟨hsel, h2, -⟩ := clusterDut_ok ofDut cs hcs T (hs T (List.mem_of_getElem? hT)) hne sc1 p sc2 h1
  rw [sel_eq] at hsel h2
  exact shows_after _ hsel p h2

theorem clusterDut_total (ofDut : Bool) (cs : Nat) (hcs : 0 < cs) (T : List ClusterRow) (hs : SortedBy ClusterRow.event T) (hT : T ≠ []) (hm : ∀ e, multiplicity ClusterRow.event T e < cs)
    (hall : ∀ r ∈ T, ofDut = true → r.hit = true) (sc : ClusterScope) : ∃ p sc', clusterDut ofDut (none, none) cs T sc = .ok (p, sc') := by
  obtain ⟨hne, hfl⟩ := chunks_ok ClusterRow.event T hs cs hcs
  obtain ⟨he, -⟩ := BTA.Props.C01_complete hs cs hcs hm
  unfold clusterDut
  dsimp only
  generalize dataAligned ClusterRow.event T { chunkSize := cs } = g at hne hfl he ⊢
  cases hi : g.items.map Prod.fst with
  | nil => rw [hi] at hfl; exact absurd (hfl he).symm hT
  | cons c r =>
    rw [hi] at hne hfl
    have hsel : ∀ c' ∈ c :: r, sel ofDut c' ≠ [] := by
      intro c' hc'
      have : sel ofDut c' = c' := by
        rw [sel_eq, clustersOf, List.filter_eq_self]
        intro row hrow
        have := hall row (by rw [← hfl he]; exact List.mem_flatten.2 ⟨c', hc', hrow⟩)
        cases ofDut <;> simp_all
      rw [this]; exact hne c' hc'
    rw [clusterLoop_first, if_pos hsel, he]
    obtain ⟨p, hp⟩ := drawClusters_after (sel ofDut (c :: r).flatten)
    dsimp only
    rw [hp]
    exact ⟨p, _, rfl⟩

/-- C195: it returns if all tables have rows, every row has a cluster of the DUT and the events are smaller than the chunks; then the plots do not depend on the chunk size. -/
theorem C195_returns (ofDut : Bool) (cs : Nat) (hcs : 0 < cs) (tables : List (List ClusterRow)) (hs : ∀ T ∈ tables, SortedBy ClusterRow.event T) (hT : ∀ T ∈ tables, T ≠ [])
    (hm : ∀ T ∈ tables, ∀ e, multiplicity ClusterRow.event T e < cs) (hall : ∀ T ∈ tables, ∀ r ∈ T, ofDut = true → r.hit = true) :
    ∃ plots, plotClusterHists ofDut (none, none) cs tables = .ok plots := by
  unfold plotClusterHists
  generalize (⟨none, none⟩ : ClusterScope) = sc
  induction tables generalizing sc with
  | nil => exact ⟨[], rfl⟩
  | cons T r ih =>
    obtain ⟨p, sc', hp⟩ := clusterDut_total ofDut cs hcs T (hs T (by simp)) (hT T (by simp)) (hm T (by simp)) (hall T (by simp)) sc
    obtain ⟨ps, hps⟩ := ih (fun t ht => hs t (by simp [ht])) (fun t ht => hT t (by simp [ht])) (fun t ht => hm t (by simp [ht])) (fun t ht => hall t (by simp [ht])) sc'
    exact ⟨p :: ps, by rw [clusterDuts, hp]; dsimp only; rw [hps]⟩

/-- C195, negation: a DUT without any hit in the table makes the function fail, for every chunk size and all other DUTs. -/
theorem C195_no_hit_fails (cs : Nat) (hcs : 0 < cs) (tables : List (List ClusterRow)) (hs : ∀ T ∈ tables, SortedBy ClusterRow.event T) (T : List ClusterRow) (hT : T ∈ tables) (hne : T ≠ [])
    (hno : ∀ r ∈ T, r.hit = false) : ∃ e, plotClusterHists true (none, none) cs tables = .error e := by
  cases h : plotClusterHists true (none, none) cs tables with
  | error e => exact ⟨e, rfl⟩
  | ok plots =>
    exfalso
    obtain ⟨hl, -⟩ := C195_exact_partial true cs hcs tables hs plots h
    obtain ⟨i, hi, hiT⟩ := List.mem_iff_getElem.1 hT
    obtain ⟨sc1, sc2, h1⟩ := clusterDuts_mem _ _ _ _ _ _ h i T plots[i] (by rw [List.getElem?_eq_getElem hi, hiT]) (by rw [List.getElem?_eq_getElem])
    obtain ⟨hsel, -, -⟩ := clusterDut_ok true cs hcs T (hs T hT) hne sc1 _ sc2 h1
    apply hsel
    rw [sel_eq, clustersOf, List.filter_eq_nil_iff]
    intro r hr
    simp [hno r hr]

/-- The exception, if any. -/
def errOf {α : Type} : Except Err α → Option Err
  | .error e => some e
  | .ok _ => none

theorem errOf_some {α : Type} {x : Except Err α} {e : Err} (h : errOf x = some e) : x = .error e := by
  cases x with
  | error e' => cases Option.some.inj h; rfl
  | ok _ => cases h

theorem errOf_none {α : Type} {x : Except Err α} (h : errOf x = none) : ∃ a, x = .ok a := by
  cases x with
  | error e' => cases h
  | ok a => exact ⟨a, rfl⟩

/-- A table without hit of the DUT in the second event. -/
def lateTable : List ClusterRow := [⟨0, 2, 3, true⟩, ⟨1, 1, 1, false⟩, ⟨2, 1, 1, true⟩, ⟨3, 1, 1, true⟩]

/-- C195, negation: whether the function returns depends on the chunk size. All events are smaller than both chunk sizes. -/
theorem C195_chunk_size_fails :
    (∃ plots, plotClusterHists true (none, none) 5 [lateTable] = .ok plots) ∧ plotClusterHists true (none, none) 2 [lateTable] = .error .emptyMax ∧
    ∀ e, multiplicity ClusterRow.event lateTable e < 2 := by
  refine ⟨?_, ?_, ?_⟩
  · exact errOf_none (by decide +kernel)
  · exact errOf_some (by decide +kernel)
  · intro e
    simp only [multiplicity, lateTable, List.filter_cons, List.filter_nil]
    split <;> split <;> split <;> split <;> simp_all <;> omega

theorem empty_table {α : Type} (ev : α → Int) (cs : Nat) : dataAligned ev [] { chunkSize := cs } = ⟨[], none⟩ := by
  simp [dataAligned, boundsReversed]
  unfold dataLoop
  simp

/-- C195, negation: for an empty table after another DUT the bars of the other DUT are shown, the titles say that there are no clusters, and the bar of the other shapes is not positive. -/
theorem C195_empty_table_stale (ofDut : Bool) (cs : Nat) (T : List ClusterRow) (p : ClusterPlot) (h : plotClusterHists ofDut (none, none) cs [T] = .ok [p]) :
    ∃ q, plotClusterHists ofDut (none, none) cs [T, []] = .ok [p, q] ∧ q.sizes = p.sizes ∧ q.small = p.small ∧ q.shapes = p.shapes ∧ q.nClusters = 0 ∧ q.nHits = 0 ∧ q.others = -((p.shapes.sum : Nat) : Int) := by
  unfold plotClusterHists at h ⊢
  rw [clusterDuts] at h
  rw [clusterDuts]
  cases h1 : clusterDut ofDut (none, none) cs T ⟨none, none⟩ with
  | error e => rw [h1] at h; cases h
  | ok r =>
    obtain ⟨p', sc'⟩ := r
    rw [h1] at h
    dsimp only [clusterDuts] at h
    have hp : p' = p := by simpa using Except.ok.inj h
    subst hp
    have hd : ∃ a b, drawClusters sc' a b = .ok p' := by
      unfold clusterDut at h1
      dsimp only at h1
      split at h1
      · cases h1
      · split at h1
        · cases h1
        · split at h1
          · cases h1
          · rename_i hq
            have := Except.ok.inj h1
            simp only [Prod.mk.injEq] at this
            obtain ⟨rfl, rfl⟩ := this
            exact ⟨_, _, hq⟩
    obtain ⟨a, b, hd⟩ := hd
    obtain ⟨so, ho⟩ := sc'
    cases so with
    | none => cases hd
    | some size =>
      cases ho with
      | none => cases hd
      | some shapes =>
        cases Except.ok.inj hd
        have hq : clusterDut ofDut (none, none) cs [] ⟨some size, some shapes⟩ = .ok (⟨size.drop 1, (size.take (min 10 (size.length - 1) + 1)).drop 1, shownShapes.map shapes, ((0 : Nat) : Int) - ((shownShapes.map shapes).sum : Nat), 0, 0⟩, ⟨some size, some shapes⟩) := by
          unfold clusterDut
          dsimp only
          rw [empty_table]
          rfl
        refine ⟨⟨size.drop 1, (size.take (min 10 (size.length - 1) + 1)).drop 1, shownShapes.map shapes, ((0 : Nat) : Int) - ((shownShapes.map shapes).sum : Nat), 0, 0⟩, ?_, rfl, rfl, rfl, rfl, rfl, ?_⟩
        · dsimp only
          rw [clusterDuts, hq]
          rfl
        · simp

/-- C195, negation: without a previous DUT an empty table raises an exception. -/
theorem C195_empty_table_fails (ofDut : Bool) (cs : Nat) (r : List (List ClusterRow)) : plotClusterHists ofDut (none, none) cs ([] :: r) = .error .unbound := by
  have : clusterDut ofDut (none, none) cs [] ⟨none, none⟩ = .error .unbound := by
    unfold clusterDut
    dsimp only
    rw [empty_table]
    rfl
  unfold plotClusterHists
  rw [clusterDuts, this]

theorem zipIdx_sum (size : List Nat) (k : Nat) : ((size.zipIdx k).map fun p => p.1 * p.2).sum = (weightedSum size) + k * size.sum := by
  unfold weightedSum
  induction size generalizing k with
  | nil => simp
  | cons a t ih =>
    rw [List.zipIdx_cons, List.zipIdx_cons, List.map_cons, List.map_cons, List.sum_cons, List.sum_cons, List.sum_cons, ih (k + 1), ih (0 + 1)]
    ring

theorem weightedSum_cons (a : Nat) (t : List Nat) : weightedSum (a :: t) = weightedSum t + t.sum := by
  conv_lhs => unfold weightedSum
  rw [List.zipIdx_cons, List.map_cons, List.sum_cons, zipIdx_sum]
  ring

/-- Totals of a histogram of numbers. -/
theorem hist_totals (size : List Nat) (cl : List Nat) (h : ∀ n, size.getD n 0 = cl.count n) : weightedSum size = cl.sum ∧ size.sum = cl.length := by
  induction size generalizing cl with
  | nil =>
    have : cl = [] := by
      cases cl with
      | nil => rfl
      | cons a t => have := h a; simp at this
    subst this
    exact ⟨rfl, rfl⟩
  | cons a t ih =>
    -- the sizes without the zeros, lowered by one
    have key : ∀ l : List Nat, l.sum = ((l.filter (· ≠ 0)).map (· - 1)).sum + (l.filter (· ≠ 0)).length ∧ l.length = l.count 0 + (l.filter (· ≠ 0)).length ∧
        ∀ n, l.count (n + 1) = ((l.filter (· ≠ 0)).map (· - 1)).count n := by
      intro l
      induction l with
      | nil => simp
      | cons b r ihl =>
        obtain ⟨h1, h2, h3⟩ := ihl
        cases b with
        | zero =>
          refine ⟨by simpa using h1, ?_, ?_⟩
          · simp only [List.length_cons, List.count_cons_self]
            simp only [ne_eq, not_true_eq_false, decide_false, Bool.false_eq_true, not_false_eq_true, List.filter_cons_of_neg]
            have := h2
            simp only [ne_eq] at this
            omega
          · intro n
            rw [List.count_cons_of_ne (by omega), h3 n]
            simp
        | succ b =>
          refine ⟨?_, ?_, ?_⟩
          · simp only [List.sum_cons, ne_eq, Nat.add_eq_zero_iff, one_ne_zero, and_false, not_false_eq_true, decide_true, List.filter_cons_of_pos, List.map_cons, List.length_cons]
            have := h1
            simp only [ne_eq] at this
            omega
          · rw [List.count_cons_of_ne (by omega)]
            simp only [List.length_cons, ne_eq, Nat.add_eq_zero_iff, one_ne_zero, and_false, not_false_eq_true, decide_true, List.filter_cons_of_pos]
            have := h2
            simp only [ne_eq] at this
            omega
          · intro n
            simp only [ne_eq, Nat.add_eq_zero_iff, one_ne_zero, and_false, not_false_eq_true, decide_true, List.filter_cons_of_pos, List.map_cons, Nat.add_sub_cancel]
            have := h3 n
            simp only [ne_eq] at this
            rw [List.count_cons, List.count_cons, this]
            simp
    obtain ⟨h1, h2, h3⟩ := key cl
    obtain ⟨h4, h5⟩ := ih ((cl.filter (· ≠ 0)).map (· - 1)) (by
      intro n
      rw [← h3 n]
      simpa using h (n + 1))
    have h0 : a = cl.count 0 := by simpa using h 0
    rw [List.length_map] at h5
    refine ⟨?_, ?_⟩
    · rw [weightedSum_cons, h4, h5, h1]
    · rw [List.sum_cons, h5, h2, h0]

/-- C195: with the histograms stored in the file (HistClusterSize and HistClusterShape) the plots show the clusters that have been counted in them. -/
theorem C195_stored (ofDut : Bool) (cs : Nat) (tables : List (List ClusterRow)) (size shapes : List Nat) (cl : List ClusterRow)
    (hsize : ∀ n : Nat, size.getD n 0 = cl.countP fun r => r.nHits == n) (hlen : (∀ r ∈ cl, r.nHits + 1 ≤ size.length) ∧ ∃ r ∈ cl, r.nHits + 1 = size.length)
    (hshapes : ∀ n : Nat, n < 65534 → shapes.getD n 0 = cl.countP fun r => r.shape == (n : Int)) :
    ∃ plots, plotClusterHists ofDut (some size, some shapes) cs tables = .ok plots ∧ plots.length = tables.length ∧ ∀ p ∈ plots, ShowsClusters cl p := by
  have hgen : ∀ sc : ClusterScope, ∃ plots, clusterDuts ofDut (some size, some shapes) cs tables sc = .ok plots ∧ plots.length = tables.length ∧ ∀ p ∈ plots, ShowsClusters cl p := by
    have hs : ∃ p sc', (∀ (T : List ClusterRow) (sc : ClusterScope), clusterDut ofDut (some size, some shapes) cs T sc = .ok (p, sc')) ∧ ShowsClusters cl p := by
      refine ⟨_, _, fun T sc => rfl, ?_⟩
      obtain ⟨ht1, ht2⟩ := hist_totals size (cl.map ClusterRow.nHits) (fun n => by rw [hsize n, count_map])
      rw [List.length_map] at ht2
      obtain ⟨hle, r0, hr0, hr1⟩ := hlen
      have hsh : (shownShapes.map fun i => shapes.getD i 0) = shapesWithBar.map fun s => cl.countP fun r => r.shape == s := by
        have : shapesWithBar = shownShapes.map fun n : Nat => (n : Int) := by decide
        rw [this, List.map_map]
        apply List.map_congr_left
        intro s hs
        have hlt : ∀ s ∈ shownShapes, s < 65534 := by decide
        exact hshapes s (hlt s hs)
      refine ⟨ht2, ht1, ?_, ⟨?_, r0, hr0, ?_⟩, ?_, hsh, ?_⟩
      · intro n
        dsimp only
        rw [← hsize (n + 1), List.getD_eq_getElem?_getD, List.getElem?_drop, List.getD_eq_getElem?_getD, Nat.add_comm]
      · intro r hr
        dsimp only
        rw [List.length_drop]
        have := hle r hr
        omega
      · dsimp only
        rw [List.length_drop]
        omega
      · dsimp only
        rw [List.drop_take, Nat.add_sub_cancel]
        rcases le_total 10 (size.length - 1) with h10 | h10
        · rw [min_eq_left h10]
        · rw [min_eq_right h10, List.take_of_length_le (by simp), List.take_of_length_le (by simpa using h10)]
      · dsimp only
        rw [hsh, sum_countP_list cl shapesWithBar (by decide), ht2, List.length_eq_countP_add_countP (fun r : ClusterRow => shapesWithBar.contains r.shape) (l := cl)]
        simp
    obtain ⟨p, sc', hp, hshow⟩ := hs
    induction tables with
    | nil => exact fun _ => ⟨[], rfl, rfl, by simp⟩
    | cons T r ih =>
      intro sc
      obtain ⟨ps, h1, h2, h3⟩ := ih sc'
      refine ⟨p :: ps, ?_, by simp [h2], ?_⟩
      · rw [clusterDuts, hp]
        dsimp only
        rw [h1]
      · intro q hq
        rcases List.mem_cons.1 hq with rfl | hq
        · exact hshow
        · exact h3 q hq
  exact hgen _

/-- Two DUTs, two chunks for the first one. -/
example : ∃ p q, plotClusterHists true (none, none) 2 [[⟨0, 1, 1, true⟩, ⟨1, 12, 2, true⟩, ⟨2, 1, 1, true⟩], [⟨0, 2, 3, true⟩]] = .ok [p, q] ∧
    ShowsClusters [⟨0, 1, 1, true⟩, ⟨1, 12, 2, true⟩, ⟨2, 1, 1, true⟩] p ∧ ShowsClusters [⟨0, 2, 3, true⟩] q := by
  have hs : ∀ T ∈ ([[⟨0, 1, 1, true⟩, ⟨1, 12, 2, true⟩, ⟨2, 1, 1, true⟩], [⟨0, 2, 3, true⟩]] : List (List ClusterRow)), SortedBy ClusterRow.event T := by
    intro T hT
    rcases List.mem_cons.1 hT with rfl | hT
    · simp [SortedBy]
    · rw [List.mem_singleton.1 hT]; simp [SortedBy]
  obtain ⟨plots, h⟩ := errOf_none (x := plotClusterHists true (none, none) 2 [[⟨0, 1, 1, true⟩, ⟨1, 12, 2, true⟩, ⟨2, 1, 1, true⟩], [⟨0, 2, 3, true⟩]]) (by decide +kernel)
  obtain ⟨hl, hp⟩ := C195_exact_partial true 2 (by norm_num) _ hs plots h
  match plots, hl with
  | [p, q], _ => exact ⟨p, q, h, hp 0 _ p rfl rfl (by simp), hp 1 _ q rfl rfl (by simp)⟩

/-- The names that count as given: an empty name is no name. -/
def givenFiles (f : ClusterFiles) : List String := [f.cluster, f.merged, f.candidates, f.tracks].filterMap (Option.filter fun s => decide (s ≠ ""))

/-- C202: if exactly one file is given (and the other arguments fit), then this file is used; if no file is given, the call is refused. A cluster file is used only if it is the only file.

Partial: calls with several other files are not refused, see `C202_several_files_fail`. -/
theorem C202_single_file_partial (f : ClusterFiles) (telescope selectDuts dutName : Bool) :
    (givenFiles f = [] → clusterInput f telescope selectDuts dutName = .error .argument) ∧
    (∀ name, givenFiles f = [name] → (f.cluster = some name → telescope = false ∧ selectDuts = false) → (f.cluster ≠ some name → dutName = false) →
      clusterInput f telescope selectDuts dutName = .ok name) ∧
    (∀ name, clusterInput f telescope selectDuts dutName = .ok name → name ∈ givenFiles f ∧ (∀ c, f.cluster = some c → c ≠ "" → givenFiles f = [c])) := by
  have hgiven : ∀ name ∈ givenFiles f, name ≠ "" := by
    intro name h
    rw [givenFiles, List.mem_filterMap] at h
    obtain ⟨o, -, ho⟩ := h
    rw [Option.filter_eq_some_iff] at ho
    simpa using ho.2
  obtain ⟨c, m, k, t⟩ := f
  unfold givenFiles at hgiven ⊢
  unfold clusterInput
  have hc : ∀ name, c = some name → name ≠ "" → c.filter (fun s => decide (s ≠ "")) = some name := by
    rintro name rfl h
    simp [Option.filter, h]
  have hc' : ∀ name, c.filter (fun s => decide (s ≠ "")) = some name → c = some name ∧ name ≠ "" := by
    intro name h
    rw [Option.filter_eq_some_iff] at h
    exact ⟨h.1, by simpa using h.2⟩
  dsimp only at hgiven ⊢
  simp only [List.filterMap_cons, List.filterMap_nil] at hgiven ⊢
  generalize c.filter (fun s => decide (s ≠ "")) = c1 at *
  generalize m.filter (fun s => decide (s ≠ "")) = m1 at *
  generalize k.filter (fun s => decide (s ≠ "")) = k1 at *
  generalize t.filter (fun s => decide (s ≠ "")) = t1 at *
  unfold chooseInput
  refine ⟨?_, ?_, ?_⟩
  · cases c1 <;> cases m1 <;> cases k1 <;> cases t1 <;> simp
  · intro name h1 h2 h3
    rcases c1 with - | c1
    · have hne : c ≠ some name := fun h => absurd (hc name h (hgiven name (by rw [h1]; exact List.mem_singleton.2 rfl))) (by simp)
      have hd : dutName = false := h3 hne
      subst hd
      clear hc hc' hgiven h2 h3 hne
      cases m1 <;> cases k1 <;> cases t1 <;> simp at h1 ⊢ <;> exact h1
    · obtain ⟨h4, -⟩ := hc' c1 rfl
      have h5 : c1 = name := by
        have := (List.cons.inj h1).1
        exact this
      subst h5
      obtain ⟨rfl, rfl⟩ := h2 h4
      clear hc hc' hgiven h2 h3
      cases m1 <;> cases k1 <;> cases t1 <;> simp at h1 ⊢
  · intro name h
    refine ⟨?_, ?_⟩
    · cases c1 <;> cases m1 <;> cases k1 <;> cases t1 <;> cases telescope <;> cases selectDuts <;> cases dutName <;> simp_all
    · intro x hx hne
      have := hc x hx hne
      subst this
      cases m1 <;> cases k1 <;> cases t1 <;> simp_all

/-- C202, negation: of several files of hits or tracks one is used and the others are ignored silently, in spite of the message "A single input file must be given". -/
theorem C202_several_files_fail (m t : String) (hm : m ≠ "") (ht : t ≠ "") (telescope selectDuts : Bool) :
    clusterInput ⟨none, some m, none, some t⟩ telescope selectDuts false = .ok m := by
  unfold clusterInput chooseInput
  simp [Option.filter, hm, ht]

/-- C202: the other arguments have to fit to the file. With a cluster file neither a telescope configuration nor a selection of DUTs is accepted, with the
other files no name of a DUT: a call that is not refused has a cluster file and no telescope configuration or selection, or another file and no name. -/
theorem C202_arguments (f : ClusterFiles) (telescope selectDuts dutName : Bool) (name : String) (h : clusterInput f telescope selectDuts dutName = .ok name) :
    (f.cluster = some name ∧ telescope = false ∧ selectDuts = false) ∨ ((f.merged = some name ∨ f.candidates = some name ∨ f.tracks = some name) ∧ dutName = false) := by
  obtain ⟨c, m, k, t⟩ := f
  unfold clusterInput at h
  have hc : ∀ (o : Option String) x, o.filter (fun s => decide (s ≠ "")) = some x → o = some x := fun o x ho => (Option.filter_eq_some_iff.mp ho).1
  dsimp only at h ⊢
  have hc' := hc c
  have hm' := hc m
  have hk' := hc k
  have ht' := hc t
  generalize c.filter (fun s => decide (s ≠ "")) = c2 at h hc'
  generalize m.filter (fun s => decide (s ≠ "")) = m2 at h hm'
  generalize k.filter (fun s => decide (s ≠ "")) = k2 at h hk'
  generalize t.filter (fun s => decide (s ≠ "")) = t2 at h ht'
  unfold chooseInput at h
  cases c2 <;> cases m2 <;> cases k2 <;> cases t2 <;> cases telescope <;> cases selectDuts <;> cases dutName <;>
    simp_all

example : clusterInput ⟨none, none, none, some "tracks.h5"⟩ true true false = .ok "tracks.h5" := by decide +kernel

end BTA.Plots.Props
