import Verif.Model.Plots
import Verif.Lemmas.Binning
import Verif.Lemmas.ResidualFit
import Verif.Props.ChunkReader

/-! Lemmas on the plots of clusters. -/

namespace BTA.Plots
open BTA.Binning BTA.Spec

/-- The chunks of a table are not empty, and they are the table if the reader does not fail. -/
theorem chunks_ok {α : Type} (ev : α → Int) (T : List α) (hs : SortedBy ev T) (cs : Nat) (hcs : 0 < cs) :
    (∀ c ∈ (dataAligned ev T { chunkSize := cs }).items.map Prod.fst, c ≠ []) ∧
    ((dataAligned ev T { chunkSize := cs }).err = none → ((dataAligned ev T { chunkSize := cs }).items.map Prod.fst).flatten = T) := by
  obtain ⟨-, hno, -⟩ := BTA.Props.C01_no_loss hs cs hcs
  refine ⟨?_, ?_⟩
  · intro c hm
    rw [List.mem_map] at hm
    obtain ⟨⟨c', idx⟩, hm, rfl⟩ := hm
    exact (BTA.Props.C02_chunks_aligned (T := T) hs { chunkSize := cs } hcs rfl (by simp) c' idx hm).1
  · intro h0
    have := hno h0
    rwa [Gen.rows, List.flatMap] at this

theorem max?_append_some (a b : List Nat) (m k : Nat) (ha : a.max? = some m) (hb : b.max? = some k) : (a ++ b).max? = some (if m ≤ k then k else m) := by
  rw [List.max?_eq_some_iff] at *
  refine ⟨?_, ?_⟩
  · split
    · exact List.mem_append_right _ hb.1
    · exact List.mem_append_left _ ha.1
  · intro x hx
    rcases List.mem_append.1 hx with h | h
    · have := ha.2 x h
      split <;> omega
    · have := hb.2 x h
      split <;> omega

theorem bincount_eq (x : List Nat) (k m : Nat) (hm : x.max? = some m) : bincount x k = (List.range (if k ≤ m + 1 then m + 1 else k)).map fun n => x.count n := by
  simp only [bincount, hm]
  rw [max_def]

theorem bincount_length (x : List Nat) (k m : Nat) (hm : x.max? = some m) : (bincount x k).length = if k ≤ m + 1 then m + 1 else k := by
  rw [bincount_eq x k m hm, List.length_map, List.length_range]

theorem bincount_get (x : List Nat) (k m : Nat) (hm : x.max? = some m) (n : Nat) : (bincount x k)[n]? = if n < k ∨ n < m + 1 then some (x.count n) else none := by
  rw [bincount_eq x k m hm, List.getElem?_map]
  by_cases h : n < k ∨ n < m + 1
  · rw [if_pos h, List.getElem?_range (by split <;> omega)]; rfl
  · rw [if_neg h, List.getElem?_eq_none (by rw [List.length_range]; split <;> omega)]; rfl

theorem count_above (x : List Nat) (m : Nat) (hm : x.max? = some m) (n : Nat) (h : m < n) : x.count n = 0 := by
  rw [List.count_eq_zero]
  intro hn
  rw [List.max?_eq_some_iff] at hm
  exact absurd (hm.2 n hn) (by omega)

theorem resize_get (a : List Nat) (k n : Nat) (h : a.length ≤ k) : (resize a k)[n]? = if n < k then some (a.getD n 0) else none := by
  unfold resize
  rw [List.take_of_length_le h, List.getElem?_append]
  split
  · rename_i h1
    rw [if_pos (by omega), List.getD_eq_getElem?_getD, List.getElem?_eq_getElem h1]; rfl
  · rename_i h1
    rw [List.getElem?_replicate, List.getD_eq_getElem?_getD, List.getElem?_eq_none (by omega)]
    simp only [Option.getD_none]
    congr 1
    exact propext ⟨fun h => by omega, fun h => by omega⟩

/-- The two ways of adding the sizes of a chunk (L465-470). -/
theorem size_add (a b : List Nat) (m k : Nat) (ha : a.max? = some m) (hb : b.max? = some k) :
    (if (bincount a 0).length < k + 1 then addArrays (resize (bincount a 0) (k + 1)) (bincount b (k + 1)) else addArrays (bincount a 0) (bincount b (bincount a 0).length))
      = .ok (bincount (a ++ b) 0) := by
  have hab := max?_append_some a b m k ha hb
  have hl := bincount_length a 0 m ha
  rw [if_pos (by omega)] at hl
  rw [hl]
  split
  · rename_i h
    have hr : (resize (bincount a 0) (k + 1)).length = k + 1 := by unfold resize; rw [List.length_append, List.length_take, List.length_replicate, hl]; omega
    rw [addArrays, if_pos (by rw [hr, bincount_length b (k + 1) k hb, if_pos (by omega)])]
    congr 1
    apply List.ext_getElem?
    intro n
    rw [List.getElem?_zipWith, resize_get _ _ _ (by omega), bincount_get b _ k hb, bincount_get _ _ _ hab, List.getD_eq_getElem?_getD, bincount_get a 0 m ha, List.count_append]
    by_cases hn : n < k + 1
    · have h3 : n < 0 ∨ n < (if m ≤ k then k else m) + 1 := Or.inr (by split <;> omega)
      rw [if_pos hn, if_pos (Or.inl hn : n < k + 1 ∨ n < k + 1), if_pos h3]
      by_cases hm : n < m + 1
      · rw [if_pos (by omega)]; rfl
      · rw [if_neg (by omega), count_above a m ha n (by omega)]; rfl
    · rw [if_neg hn, if_neg (by omega : ¬(n < k + 1 ∨ n < k + 1)), if_neg (by split <;> omega : ¬(n < 0 ∨ n < (if m ≤ k then k else m) + 1))]
  · rename_i h
    rw [addArrays, if_pos (by rw [hl, bincount_length b (m + 1) k hb]; split <;> omega)]
    congr 1
    apply List.ext_getElem?
    intro n
    rw [List.getElem?_zipWith, bincount_get b _ k hb, bincount_get _ _ _ hab, bincount_get a 0 m ha, List.count_append]
    by_cases hn : n < m + 1
    · rw [if_pos (Or.inr hn), if_pos (Or.inl hn), if_pos (Or.inr (by split <;> omega))]
    · rw [if_neg (by omega), if_neg (by omega), if_neg (by split <;> omega : ¬(n < 0 ∨ n < (if m ≤ k then k else m) + 1))]

/-- The clusters of a DUT. -/
def sel (ofDut : Bool) (rows : List ClusterRow) : List ClusterRow := if ofDut then rows.filter ClusterRow.hit else rows

theorem sel_append (ofDut : Bool) (a b : List ClusterRow) : sel ofDut (a ++ b) = sel ofDut a ++ sel ofDut b := by cases ofDut <;> simp [sel]

/-- The variables after the clusters `rows`. -/
def after (rows : List ClusterRow) : ClusterState :=
  ⟨false, (rows.map ClusterRow.nHits).sum, rows.length, ⟨some (bincount (rows.map ClusterRow.nHits) 0), some (shapeHist rows)⟩⟩

theorem clusterStep_empty (ofDut : Bool) (c : List ClusterRow) (st : ClusterState) (h : sel ofDut c = []) : clusterStep ofDut c st = .error .emptyMax := by
  unfold clusterStep
  unfold sel at h
  dsimp only
  rw [h]
  rfl

theorem max?_of_ne {l : List Nat} (h : l ≠ []) : ∃ m, l.max? = some m := by
  cases hm : l.max? with
  | none => exact absurd (List.max?_eq_none_iff.1 hm) h
  | some m => exact ⟨m, rfl⟩

theorem bincount_max (l : List Nat) (m : Nat) (h : l.max? = some m) : bincount l (m + 1) = bincount l 0 := by simp [bincount, h]

theorem clusterStep_first (ofDut : Bool) (c : List ClusterRow) (st : ClusterState) (hf : st.first = true) (h1 : st.nHits = 0) (h2 : st.nClusters = 0) (h : sel ofDut c ≠ []) :
    clusterStep ofDut c st = .ok (after (sel ofDut c)) := by
  obtain ⟨m, hm⟩ := max?_of_ne (l := (sel ofDut c).map ClusterRow.nHits) (by simpa using h)
  unfold clusterStep
  dsimp only
  change (match ((sel ofDut c).map ClusterRow.nHits).max? with | none => _ | some m => _) = _
  rw [hm]
  simp only [hf, if_true]
  have hb := bincount_max _ _ hm
  unfold sel at hb
  rw [hb, h1, h2, after, Nat.zero_add, Nat.zero_add, List.length_map]
  rfl

theorem shapeHist_append (a b : List ClusterRow) : shapeHist (a ++ b) = fun i => shapeHist a i + shapeHist b i := by
  funext i; unfold shapeHist; rw [counts_append]

theorem clusterStep_next (ofDut : Bool) (c rows : List ClusterRow) (hr : rows ≠ []) (h : sel ofDut c ≠ []) :
    clusterStep ofDut c (after rows) = .ok (after (rows ++ sel ofDut c)) := by
  obtain ⟨k, hk⟩ := max?_of_ne (l := (sel ofDut c).map ClusterRow.nHits) (by simpa using h)
  obtain ⟨m, hm⟩ := max?_of_ne (l := rows.map ClusterRow.nHits) (by simpa using hr)
  have ha := size_add _ _ m k hm hk
  unfold clusterStep
  dsimp only
  change (match ((sel ofDut c).map ClusterRow.nHits).max? with | none => _ | some m => _) = _
  rw [hk]
  simp only [after, Bool.false_eq_true, if_false]
  change (match (if (bincount (rows.map ClusterRow.nHits) 0).length < k + 1
      then addArrays (resize (bincount (rows.map ClusterRow.nHits) 0) (k + 1)) (bincount ((sel ofDut c).map ClusterRow.nHits) (k + 1))
      else addArrays (bincount (rows.map ClusterRow.nHits) 0) (bincount ((sel ofDut c).map ClusterRow.nHits) (bincount (rows.map ClusterRow.nHits) 0).length)) with
    | .error e => _ | .ok s => _) = _
  rw [ha]
  dsimp only
  rw [List.map_append, List.sum_append, List.length_append, shapeHist_append]
  simp only [List.length_map]
  rfl

theorem clusterLoop_next (ofDut : Bool) (cs : List (List ClusterRow)) (rows : List ClusterRow) (hr : rows ≠ []) :
    clusterLoop ofDut cs (after rows) = if ∀ c ∈ cs, sel ofDut c ≠ [] then .ok (after (rows ++ sel ofDut cs.flatten)) else .error .emptyMax := by
  induction cs generalizing rows with
  | nil => cases ofDut <;> simp [clusterLoop, sel]
  | cons c r ih =>
    rw [clusterLoop]
    by_cases h : sel ofDut c = []
    · rw [clusterStep_empty _ _ _ h, if_neg (by simp [h])]
    · rw [clusterStep_next _ _ _ hr h]
      dsimp only
      rw [ih _ (by simp [hr])]
      simp only [List.mem_cons, forall_eq_or_imp, List.flatten_cons, sel_append, List.append_assoc, ne_eq, h, not_false_eq_true, true_and]

theorem clusterLoop_first (ofDut : Bool) (c : List ClusterRow) (cs : List (List ClusterRow)) (sc : ClusterScope) :
    clusterLoop ofDut (c :: cs) ⟨true, 0, 0, sc⟩ = if ∀ c' ∈ c :: cs, sel ofDut c' ≠ [] then .ok (after (sel ofDut (c :: cs).flatten)) else .error .emptyMax := by
  rw [clusterLoop]
  by_cases h : sel ofDut c = []
  · rw [clusterStep_empty _ _ _ h, if_neg (by simp [h])]
  · rw [clusterStep_first _ _ _ rfl rfl rfl h]
    dsimp only
    rw [clusterLoop_next _ _ _ h]
    simp only [List.mem_cons, forall_eq_or_imp, List.flatten_cons, sel_append, ne_eq, h, not_false_eq_true, true_and]

theorem drawClusters_after (rows : List ClusterRow) : ∃ p, drawClusters (after rows).scope (after rows).nHits (after rows).nClusters = .ok p := ⟨_, rfl⟩

/-- One DUT with a table that is not empty. -/
theorem clusterDut_ok (ofDut : Bool) (cs : Nat) (hcs : 0 < cs) (T : List ClusterRow) (hs : SortedBy ClusterRow.event T) (hT : T ≠ []) (sc : ClusterScope) (p : ClusterPlot) (sc' : ClusterScope)
    (h : clusterDut ofDut (none, none) cs T sc = .ok (p, sc')) :
    sel ofDut T ≠ [] ∧ drawClusters (after (sel ofDut T)).scope (after (sel ofDut T)).nHits (after (sel ofDut T)).nClusters = .ok p ∧ sc' = (after (sel ofDut T)).scope := by
  obtain ⟨-, hfl⟩ := chunks_ok ClusterRow.event T hs cs hcs
  unfold clusterDut at h
  dsimp only at h
  generalize dataAligned ClusterRow.event T { chunkSize := cs } = g at h hfl
  cases hi : g.items.map Prod.fst with
  | nil =>
    exfalso
    cases h0 : g.err with
    | some e => rw [hi, clusterLoop, h0] at h; cases h
    | none => rw [hi] at hfl; exact hT (hfl h0).symm
  | cons c r =>
    rw [hi, clusterLoop_first] at h
    rw [hi] at hfl
    split at h
    · cases h
    · rename_i st hst
      split at hst
      · rename_i hall
        cases Except.ok.inj hst
        cases h0 : g.err with
        | some e => rw [h0] at h; cases h
        | none =>
          rw [h0, hfl h0] at h
          have hne : sel ofDut T ≠ [] := by
            rw [← hfl h0, List.flatten_cons, sel_append]
            simp [hall c List.mem_cons_self]
          obtain ⟨q, hq⟩ := drawClusters_after (sel ofDut T)
          dsimp only at h
          rw [hq] at h
          have := Except.ok.inj h
          simp only [Prod.mk.injEq] at this
          exact ⟨hne, by rw [hq, this.1], this.2.symm⟩
      · cases hst

theorem clusterDuts_mem (ofDut : Bool) (stored : Option (List Nat) × Option (List Nat)) (cs : Nat) (ts : List (List ClusterRow)) (sc : ClusterScope) (ps : List ClusterPlot)
    (h : clusterDuts ofDut stored cs ts sc = .ok ps) (i : Nat) (T : List ClusterRow) (p : ClusterPlot) (hT : ts[i]? = some T) (hp : ps[i]? = some p) :
    ∃ sc1 sc2, clusterDut ofDut stored cs T sc1 = .ok (p, sc2) := by
  induction ts generalizing sc ps i with
  | nil => simp at hT
  | cons t r ih =>
    rw [clusterDuts] at h
    split at h
    · cases h
    · rename_i p' sc' h1
      split at h
      · cases h
      · rename_i ps' h2
        cases Except.ok.inj h
        cases i with
        | zero =>
          simp only [List.getElem?_cons_zero, Option.some.injEq] at hT hp
          subst hT; subst hp
          exact ⟨sc, sc', h1⟩
        | succ j => exact ih sc' ps' h2 j (by simpa using hT) (by simpa using hp)

theorem clusterDuts_length (ofDut : Bool) (stored : Option (List Nat) × Option (List Nat)) (cs : Nat) (ts : List (List ClusterRow)) (sc : ClusterScope) (ps : List ClusterPlot)
    (h : clusterDuts ofDut stored cs ts sc = .ok ps) : ps.length = ts.length := by
  induction ts generalizing sc ps with
  | nil => cases Except.ok.inj h; rfl
  | cons t r ih =>
    rw [clusterDuts] at h
    split at h
    · cases h
    · split at h
      · cases h
      · rename_i ps' h2
        cases Except.ok.inj h
        simp [ih _ _ h2]

end BTA.Plots

/-! ### plot_track_chi2 -/

namespace BTA.Plots
open BTA.Binning BTA.Spec

section chi2
variable {K : Type} [Field K] [LinearOrder K] [FloorRing K]

theorem chi2Hists_append (edges : List K) (a b : List (Chi2Row K)) : chi2Hists edges (a ++ b) = (chi2Hists edges a).add (chi2Hists edges b) := by
  simp only [chi2Hists, Chi2Hists.add, Chi2Hists.mk.injEq, true_and]
  refine ⟨?_, ?_, ?_, ?_⟩ <;> funext i <;> rw [counts_append]

theorem chi2Loop_next (p99 : List K → K) (cs : List (List (Chi2Row K))) (edges : List K) (rows : List (Chi2Row K)) :
    chi2Loop p99 cs false (some (chi2Hists edges rows)) = .ok (some (chi2Hists edges (rows ++ cs.flatten))) := by
  induction cs generalizing rows with
  | nil => simp [chi2Loop]
  | cons c r ih =>
    rw [chi2Loop]
    rw [show (chi2Hists edges rows).edges = edges from rfl, ← chi2Hists_append, ih, List.flatten_cons, List.append_assoc]

theorem chi2Loop_first (p99 : List K → K) (c : List (Chi2Row K)) (cs : List (List (Chi2Row K))) (sc : Option (Chi2Hists K)) :
    chi2Loop p99 (c :: cs) true sc = match fullEdges p99 (c.filterMap Chi2Row.chi2) with
      | .error e => .error e
      | .ok edges => .ok (some (chi2Hists edges (c :: cs).flatten)) := by
  rw [chi2Loop]
  cases fullEdges p99 (c.filterMap Chi2Row.chi2) with
  | error e => rfl
  | ok edges => dsimp only; rw [chi2Loop_next, List.flatten_cons]

/-- The tables of a file. -/
def tablesOf : List (Chi2Node K) → List (List (Chi2Row K))
  | [] => []
  | .group :: r => tablesOf r
  | .table _ t :: r => t :: tablesOf r

theorem chi2Nodes_mem (p99 : List K → K) (cs : Nat) (hcs : 0 < cs) (nodes : List (Chi2Node K)) (hs : ∀ T ∈ tablesOf nodes, SortedBy Chi2Row.event T) (sc : Option (Chi2Hists K)) (hists : List (Chi2Hists K))
    (h : chi2Nodes p99 cs nodes sc = .ok hists) :
    hists.length = (tablesOf nodes).length ∧
    ∀ (i : Nat) (T : List (Chi2Row K)) (q : Chi2Hists K), (tablesOf nodes)[i]? = some T → hists[i]? = some q → T ≠ [] →
      ∃ n, 0 < n ∧ fullEdges p99 ((T.take n).filterMap Chi2Row.chi2) = .ok q.edges ∧ q = chi2Hists q.edges T := by
  induction nodes generalizing sc hists with
  | nil => cases Except.ok.inj h; simp [tablesOf]
  | cons node r ih =>
    cases node with
    | group => exact ih hs sc hists h
    | table digits t =>
      cases digits with
      | false => cases h
      | true =>
        rw [chi2Nodes] at h
        obtain ⟨hne, hfl⟩ := chunks_ok Chi2Row.event t (hs t (by simp [tablesOf])) cs hcs
        generalize dataAligned Chi2Row.event t { chunkSize := cs } = g at h hne hfl
        split at h
        · cases h
        · rename_i sc' h1
          split at h
          · cases h
          · cases h
          · rename_i q0 he
            split at h
            · cases h
            · rename_i hs' h2
              cases Except.ok.inj h
              obtain ⟨hl, hall⟩ := ih (fun T hT => hs T (by simp [tablesOf, hT])) _ _ h2
              refine ⟨by simp [tablesOf, hl], ?_⟩
              intro i T q hT hq hT0
              cases i with
              | succ j => exact hall j T q (by simpa [tablesOf] using hT) (by simpa using hq) hT0
              | zero =>
                simp only [tablesOf, List.getElem?_cons_zero, Option.some.injEq] at hT hq
                subst hT; subst hq
                have hfl := hfl he
                cases hi : g.items.map Prod.fst with
                | nil => rw [hi] at hfl; exact absurd hfl.symm hT0
                | cons c cs' =>
                  rw [hi, chi2Loop_first] at h1
                  rw [hi] at hfl hne
                  split at h1
                  · cases h1
                  · rename_i edges hed
                    have := Option.some.inj (Except.ok.inj h1)
                    subst this
                    refine ⟨c.length, List.length_pos_iff.2 (hne c (by simp)), ?_, ?_⟩
                    · rw [← hfl, List.flatten_cons, List.take_left]; exact hed
                    · rw [hfl]; rfl

end chi2

/-! ### maps -/

section maps
variable {K : Type} [Field K] [LinearOrder K]

theorem densityLoop_next (strict : Bool) (s : Sensor K) (cs : List (List (MapRow K))) (rows : List (MapRow K)) (q : Option Density)
    (h : densityLoop strict s cs false (some ⟨counts (trackPixel s) rows, counts (hitPixel s) rows⟩) = .ok q) :
    q = some ⟨counts (trackPixel s) (rows ++ cs.flatten), counts (hitPixel s) (rows ++ cs.flatten)⟩ := by
  induction cs generalizing rows with
  | nil => cases Except.ok.inj h; simp
  | cons c r ih =>
    rw [densityLoop] at h
    split at h
    · cases h
    · have := ih (rows ++ c) (by
        convert h using 3
        simp only [Bool.false_eq_true, if_false]
        congr 3 <;> funext b <;> rw [counts_append])
      rw [this, List.flatten_cons, List.append_assoc]

theorem densityLoop_first (strict : Bool) (s : Sensor K) (c : List (MapRow K)) (cs : List (List (MapRow K))) (q : Option Density)
    (h : densityLoop strict s (c :: cs) true none = .ok q) : q = some ⟨counts (trackPixel s) (c :: cs).flatten, counts (hitPixel s) (c :: cs).flatten⟩ := by
  rw [densityLoop] at h
  split at h
  · cases h
  · simp only [if_true] at h
    rw [List.flatten_cons]
    exact densityLoop_next _ _ _ _ _ h

theorem densityDuts_mem (strict : Bool) (cs : Nat) (hcs : 0 < cs) (duts : List (Sensor K × List (MapRow K))) (hs : ∀ d ∈ duts, SortedBy MapRow.event d.2) (sc : Option (Sensor K × Density)) (ps : List DensityPlot)
    (h : densityDuts strict cs duts sc = .ok ps) :
    ps.length = duts.length ∧ ∀ (i : Nat) (s : Sensor K) (T : List (MapRow K)) (p : DensityPlot), duts[i]? = some (s, T) → ps[i]? = some p → T ≠ [] →
      drawDensity s ⟨counts (trackPixel s) T, counts (hitPixel s) T⟩ = .ok p := by
  induction duts generalizing sc ps with
  | nil => cases Except.ok.inj h; simp
  | cons d r ih =>
    obtain ⟨s, t⟩ := d
    rw [densityDuts] at h
    obtain ⟨hne, hfl⟩ := chunks_ok MapRow.event t (hs (s, t) (by simp)) cs hcs
    generalize dataAligned MapRow.event t { chunkSize := cs } = g at h hne hfl
    split at h
    · cases h
    · rename_i sc' h1
      split at h
      · cases h
      · rename_i he
        split at h
        · cases h
        · rename_i s' q h3
          split at h
          · cases h
          · rename_i p0 h4
            split at h
            · cases h
            · rename_i ps' h2
              cases Except.ok.inj h
              obtain ⟨hl, hall⟩ := ih (fun d hd => hs d (by simp [hd])) _ _ h2
              refine ⟨by simp [hl], ?_⟩
              intro i s1 T p hT hp hT0
              cases i with
              | succ j => exact hall j s1 T p (by simpa using hT) (by simpa using hp) hT0
              | zero =>
                simp only [List.getElem?_cons_zero, Option.some.injEq, Prod.mk.injEq] at hT hp
                obtain ⟨rfl, rfl⟩ := hT
                subst hp
                have hfl := hfl he
                cases hi : g.items.map Prod.fst with
                | nil => rw [hi] at hfl; exact absurd hfl.symm hT0
                | cons c cs' =>
                  rw [hi] at h1 hfl
                  have := densityLoop_first _ _ _ _ _ h1
                  rw [this, hfl] at h3
                  simp only [Option.map_some, Option.or_some, Option.some.injEq, Prod.mk.injEq] at h3
                  obtain ⟨rfl, rfl⟩ := h3
                  exact h4

section
variable [IsStrictOrderedRing K]

theorem chargeOf_append (s : Sensor K) (a b : List (MapRow K)) : chargeOf s (a ++ b) = (chargeOf s a).add (chargeOf s b) := by
  simp only [chargeOf, Charge.add, Charge.mk.injEq, List.filter_append]
  refine ⟨?_, ?_, ?_, ?_⟩ <;> funext i
  · rw [average_binMean]
  · rw [counts_append]
  · rw [average_binMean]
  · rw [counts_append]

theorem chargeLoop_some (s : Sensor K) (cs : List (List (MapRow K))) (rows : List (MapRow K)) :
    chargeLoop s cs (some (chargeOf s rows)) = some (chargeOf s (rows ++ cs.flatten)) := by
  induction cs generalizing rows with
  | nil => simp [chargeLoop]
  | cons c r ih => rw [chargeLoop, ← chargeOf_append, ih, List.flatten_cons, List.append_assoc]

theorem plotCharge_ok (cs : Nat) (hcs : 0 < cs) (s : Sensor K) (T : List (MapRow K)) (hs : SortedBy MapRow.event T) (p : ChargePlot K) (h : plotCharge cs s T = .ok p) :
    p = drawCharge s (chargeOf s T) := by
  unfold plotCharge at h
  dsimp only at h
  obtain ⟨hne, hfl⟩ := chunks_ok MapRow.event T hs cs hcs
  generalize dataAligned MapRow.event T { chunkSize := cs } = g at h hne hfl
  cases hi : g.items.map Prod.fst with
  | nil =>
    rw [hi, chargeLoop] at h
    cases he : g.err with
    | none => rw [he] at h; cases h
    | some e => rw [he] at h; cases h
  | cons c r =>
    rw [hi, chargeLoop, chargeLoop_some] at h
    cases he : g.err with
    | some e => rw [he] at h; cases h
    | none =>
      rw [he] at h
      have hf := hfl he
      rw [hi, List.flatten_cons] at hf
      rw [hf] at h
      exact (Except.ok.inj h).symm
end

end maps
end BTA.Plots
