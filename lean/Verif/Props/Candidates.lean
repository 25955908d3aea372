import Verif.Model.MergedColumns
import Verif.Props.MergeClusters
import Verif.Props.FindFile
/-
C179: columns of the merged table.
C180: from the cluster tables to the track candidates.
-/
namespace BTA.MergedColumns.Props
open BTA.MergedColumns BTA.Merge BTA.Spec BTA.Dut
open BTA.Find.Props (columnName CleanBase nameOfDut_iff)
open BTA.FindFile (Row Setting findFile)
open BTA.Fit (Sampling)

theorem base_clean (f : Col) : CleanBase f.base := by
  unfold CleanBase
  cases f <;> decide

theorem base_inj (f f' : Col) (h : f.base = f'.base) : f = f' := by
  cases f <;> cases f' <;> first | rfl | (revert h; decide)

theorem nameOf_inj (f f' : Col) (d d' : Nat) (h : nameOf f d = nameOf f' d') : f = f' ∧ d = d' := by
  have h1 : Nat.toDigits 10 d' <+: Nat.toDigits 10 d := by
    rw [← nameOfDut_iff f.base (base_clean f) d d', show columnName f.base d = nameOf f d from rfl, h,
      show nameOf f' d' = columnName f'.base d' from rfl, nameOfDut_iff f'.base (base_clean f')]
  have h2 : Nat.toDigits 10 d <+: Nat.toDigits 10 d' := by
    rw [← nameOfDut_iff f'.base (base_clean f') d' d, show columnName f'.base d' = nameOf f' d' from rfl, ← h,
      show nameOf f d = columnName f.base d from rfl, nameOfDut_iff f.base (base_clean f)]
  have hd : Nat.toDigits 10 d = Nat.toDigits 10 d' := h2.eq_of_length (Nat.le_antisymm h2.length_le h1.length_le)
  have hdd : d = d' := by
    rw [← Nat.ofDigitChars_toDigits (b := 10) (n := d) (by decide) (by decide), hd, Nat.ofDigitChars_toDigits (by decide) (by decide)]
  subst hdd
  refine ⟨base_inj f f' ?_, rfl⟩
  unfold nameOf at h
  exact List.append_cancel_right (List.append_cancel_right h)

theorem mem_fields (f : Col) : f ∈ fields := by cases f <;> decide

variable {K : Type} [Field K] [LinearOrder K]

/-- C179: the columns of DUT `k` in a row of the merged table are those of the cluster of the DUT in this row, or the values for no cluster. -/
theorem C179_columns (duts : List (Bool × Pixels K)) (cells : List (Option (Clust K))) (k : Nat) (usePositions : Bool) (p : Pixels K)
    (cell : Option (Clust K)) (hk : duts[k]? = some (usePositions, p)) (hc : cells[k]? = some cell) (ev : Int) (f : Col) :
    (mergedRow duts (ev, cells)).cols (nameOf f k) = cellValue usePositions p cell f := by
  change columnsOf duts cells (nameOf f k) = _
  unfold columnsOf
  have hz : (((usePositions, p), cell), k) ∈ (duts.zip cells).zipIdx := by
    rw [List.mem_zipIdx_iff_getElem?]
    rw [List.getElem?_zip_eq_some]
    exact ⟨hk, hc⟩
  have hmem : (nameOf f k, cellValue usePositions p cell f) ∈
      (duts.zip cells).zipIdx.flatMap fun q => fields.map fun f => (nameOf f q.2, cellValue q.1.1.1 q.1.1.2 q.1.2 f) :=
    List.mem_flatMap.mpr ⟨_, hz, List.mem_map.mpr ⟨f, mem_fields f, rfl⟩⟩
  cases hf : ((duts.zip cells).zipIdx.flatMap fun q => fields.map fun f => (nameOf f q.2, cellValue q.1.1.1 q.1.1.2 q.1.2 f)).find? fun v => decide (v.1 = nameOf f k) with
  | none =>
    have := List.find?_eq_none.mp hf _ hmem
    simp at this
  | some v =>
    have h1 := List.find?_some hf
    have h2 := List.mem_of_find?_eq_some hf
    obtain ⟨q, hq, hv⟩ := List.mem_flatMap.mp h2
    obtain ⟨f', -, rfl⟩ := List.mem_map.mp hv
    obtain ⟨rfl, hd⟩ := nameOf_inj _ _ _ _ (of_decide_eq_true h1)
    have hq' := List.mem_zipIdx_iff_getElem?.mp hq
    rw [hd, List.getElem?_zip_eq_some, hk, hc] at hq'
    obtain ⟨e1, e2⟩ := hq'
    have e1 := Option.some.inj e1
    have e2 := Option.some.inj e2
    dsimp only
    rw [← e1, ← e2]

/-- C179: bit `k` of the hit flag is set iff there is a cluster of DUT `k`. -/
theorem C179_hit_flag (duts : List (Bool × Pixels K)) (hn : duts.length ≤ 32) (cells : List (Option (Clust K))) (hl : cells.length = duts.length) (ev : Int) (k : Nat) (hk : k < 32) :
    (mergedRow duts (ev, cells)).flag.getLsbD k = true ↔ ∃ c, cells[k]? = some (some c) := by
  have hf := BTA.Find.Props.C23_hit_flag duts.length hn (fun d => isFinite (columnsOf duts cells (nameOf .x d))) k hk
  change (mergedRow duts (ev, cells)).flag.getLsbD k = _ at hf
  rw [hf, Bool.and_eq_true, decide_eq_true_eq]
  constructor
  · rintro ⟨h1, h2⟩
    have hc := List.getElem?_eq_getElem (l := cells) (i := k) (by omega)
    have := C179_columns duts cells k duts[k].1 duts[k].2 cells[k] (List.getElem?_eq_getElem h1) hc ev .x
    change columnsOf duts cells (nameOf .x k) = _ at this
    rw [this] at h2
    cases hcell : cells[k] with
    | none => rw [hcell] at h2; cases h2
    | some c => exact ⟨c, by rw [hc, hcell]⟩
  · rintro ⟨c, hc⟩
    have h1 : k < duts.length := by rw [← hl]; exact (List.getElem?_eq_some_iff.mp hc).1
    refine ⟨h1, ?_⟩
    have := C179_columns duts cells k duts[k].1 duts[k].2 (some c) (List.getElem?_eq_getElem h1) hc ev .x
    change columnsOf duts cells (nameOf .x k) = _ at this
    rw [this]
    rfl

/-- C179: the position of a cluster given by column and row is the local position of `index_to_local_position`, with errors in units of length; if the cluster table has local positions,
they are used. -/
theorem C179_position (duts : List (Bool × Pixels K)) (cells : List (Option (Clust K))) (k : Nat) (usePositions : Bool) (p : Pixels K) (c : Clust K)
    (hk : duts[k]? = some (usePositions, p)) (hc : cells[k]? = some (some c)) (ev : Int) :
    let v := fun f => (mergedRow duts (ev, cells)).cols (nameOf f k)
    (usePositions = true → v .x = .real c.meanX ∧ v .y = .real c.meanY ∧ v .z = .real 0 ∧ v .xErr = .real c.errX ∧ v .yErr = .real c.errY ∧ v .zErr = .real 0) ∧
    (usePositions = false → (∀ pos, indexToLocal p [(c.meanColumn, c.meanRow)] = .ok [pos] → v .x = .real pos.1 ∧ v .y = .real pos.2.1 ∧ v .z = .real pos.2.2) ∧
      v .xErr = .real (c.errColumn * p.columnSize) ∧ v .yErr = .real (c.errRow * p.rowSize) ∧ v .zErr = .real 0) := by
  intro v
  have hv : ∀ f, v f = clusterValue usePositions p c f := fun f => C179_columns duts cells k usePositions p (some c) hk hc ev f
  refine ⟨?_, ?_⟩
  · rintro rfl
    simp only [hv]
    exact ⟨rfl, rfl, rfl, rfl, rfl, rfl⟩
  · rintro rfl
    simp only [hv]
    refine ⟨?_, rfl, rfl, rfl⟩
    intro pos h
    unfold indexToLocal at h
    split at h
    · have := Except.ok.inj h
      simp only [List.map_cons, List.map_nil, List.cons.injEq, and_true] at this
      rw [← this]
      exact ⟨rfl, rfl, rfl⟩
    · cases h

/-- Two DUTs: one cluster with local position, no cluster for the other DUT. -/
example : let row := mergedRow (K := ℚ) [(true, ⟨50, 250, 80, 336⟩), (false, ⟨50, 250, 80, 336⟩)] (7, [some ⟨7, 0, 0, 0, 0, 3, 4, 1, 2, 9, 5, 2, 1, 3, 1⟩, none])
    row.cols (nameOf .x 0) = .real 3 ∧ row.cols (nameOf .frame 0) = .int 5 ∧ row.cols (nameOf .x 1) = .nan ∧ row.cols (nameOf .nHits 1) = .int 0 ∧ row.flag = 1#32 := by
  decide +kernel

/-! ### C180 -/

theorem filter_map_perm {n : Nat} (src : Nat → Nat) (hp : ((List.range n).map src).Perm (List.range n)) (q : Nat → Bool) (hq : ∀ r < n, q (src r) = q r) :
    (((List.range n).filter q).map src).Perm ((List.range n).filter q) := by
  have h1 := hp.filter q
  rw [List.filter_map] at h1
  have : (List.range n).filter (q ∘ src) = (List.range n).filter q := by
    apply List.filter_congr
    intro r hr
    exact hq r (List.mem_range.mp hr)
  rw [this] at h1
  exact h1

theorem filterMap_range {α β : Type} (l : List α) (q : α → Bool) (g : α → Option β) :
    ((List.range l.length).filter fun r => (l[r]?).any q).filterMap (fun r => (l[r]?).bind g) = (l.filter q).filterMap g := by
  have h : l = (List.range l.length).filterMap fun r => l[r]? := by
    apply List.ext_getElem?
    intro i
    rw [BTA.Merge.Props.range_filterMap, List.take_length]
  conv_rhs => rw [h]
  generalize l.length = n
  induction n with
  | zero => rfl
  | succ n ih =>
    rw [List.range_succ, List.filter_append, List.filterMap_append, ih, List.filterMap_append, List.filter_append, List.filterMap_append]
    congr 1
    cases hl : l[n]? with
    | none => simp [hl]
    | some a =>
      cases hq : q a <;> simp [hl, hq, List.filterMap_cons]

/-- The merged table of `merge_cluster_data` and the result of `find_tracks`. -/
theorem merge_find {F : Type} (G : Setting F (Value K)) (hz : G.setup.zs.Nodup) (S : Sampling) (cs : Nat) (hcs : 0 < cs)
    (duts : List (Bool × Pixels K)) (T0 : List (Clust K)) (others : List (List (Clust K))) (hd : duts.length = others.length + 1)
    (hs0 : SortedBy Clust.ev T0) (hs : ∀ T ∈ others, SortedBy Clust.ev T) (hm : ∀ T ∈ T0 :: others, ∀ e, multiplicity Clust.ev T e < cs) :
    ∃ merged events out, mergeClusterData Clust.ev T0 others cs = .ok merged ∧ findFile G S 0 cs (merged.map (mergedRow duts)) = some (out, none) ∧
      merged = rowsFor Clust.ev (T0 :: others) events ∧
      (∀ e, events.count e = if ∃ x ∈ T0, e ≤ x.ev then maxMultiplicity Clust.ev (T0 :: others) e else 0) ∧
      (∀ m ∈ merged, m.2.length = duts.length) ∧ SortedBy Row.ev (merged.map (mergedRow duts)) ∧
      (∀ e, multiplicity Row.ev (merged.map (mergedRow duts)) e < cs) ∧
      ∀ (k : Nat) (T : List (Clust K)), (T0 :: others)[k]? = some T → ∀ e, (∃ x ∈ T0, e ≤ x.ev) →
        BTA.Merge.Props.cellsOfEvent merged k e = T.filter fun x => decide (x.ev = e) := by
  obtain ⟨merged, h1, h2, h3⟩ := BTA.Merge.Props.C14_every_cluster_once_partial T0 others hs0 hs cs hcs hm
  have hok : BTA.Merge.Props.MergedOk Clust.ev T0 others merged := by
    rcases BTA.Merge.Props.C14_merged_table T0 others hs0 hs cs hcs with ⟨o, g1, g2⟩ | ⟨g1, -⟩
    · rw [h1] at g1
      rw [Except.ok.inj g1]
      exact g2
    · rw [h1] at g1; cases g1
  obtain ⟨events, hrows, hsorted, hcount⟩ := hok
  have hev : merged.map Prod.fst = events := by
    rw [hrows]
    unfold rowsFor
    rw [List.map_map]
    simp [Function.comp_def, List.zipIdx_map_fst]
  have hcells : ∀ m ∈ merged, m.2.length = duts.length := by
    intro m hm'
    rw [hrows] at hm'
    unfold rowsFor at hm'
    obtain ⟨p, -, rfl⟩ := List.mem_map.mp hm'
    simp [hd]
  have hTs : SortedBy Row.ev (merged.map (mergedRow duts)) := by
    unfold SortedBy
    rw [List.pairwise_map]
    rw [List.pairwise_map] at h2
    exact h2
  have hTm : ∀ e, multiplicity Row.ev (merged.map (mergedRow duts)) e < cs := by
    intro e
    have : multiplicity Row.ev (merged.map (mergedRow duts)) e = events.count e := by
      unfold BTA.Spec.multiplicity
      rw [← hev, List.filter_map, List.length_map, List.count_eq_countP, List.countP_map, List.countP_eq_length_filter]
      congr 1
    rw [this, hcount e]
    split
    · unfold maxMultiplicity
      have : ∀ (l : List (List (Clust K))) (a : Nat), a < cs → (∀ T ∈ l, multiplicity Clust.ev T e < cs) →
          (l.map fun T => multiplicity Clust.ev T e).foldl max a < cs := by
        intro l
        induction l with
        | nil => intro a ha _; exact ha
        | cons T l ih =>
          intro a ha hl
          exact ih _ (Nat.max_lt.mpr ⟨ha, hl T (by simp)⟩) (fun T hT => hl T (by simp [hT]))
      exact this (T0 :: others) 0 hcs (fun T hT => hm T hT e)
    · exact hcs
  obtain ⟨out, -, g2⟩ := BTA.FindFile.Props.C176_one_chunk G hz S cs hcs _ hTs hTm
  exact ⟨merged, events, out, h1, g2, hrows, hcount, hcells, hTs, hTm, h3⟩

/-- C180: `merge_cluster_data` followed by `find_tracks`, up to 10 DUTs, with a chunk size larger than the number of clusters of a DUT in each event. For each DUT `k` there are cells, one for each
row of the candidates, such that all columns of the DUT in the row are those of the cell (a cluster or no cluster); the clusters in the rows of an event are exactly the clusters of this event in the
cluster table of the DUT, each once, for all events up to the last event of DUT 0. -/
theorem C180_every_cluster_once {F : Type} (G : Setting F (Value K)) (hz : G.setup.zs.Nodup) (S : Sampling) (cs : Nat) (hcs : 0 < cs)
    (duts : List (Bool × Pixels K)) (hG : G.n ≤ 10) (hn : G.n = duts.length) (T0 : List (Clust K)) (others : List (List (Clust K))) (hd : duts.length = others.length + 1)
    (hs0 : SortedBy Clust.ev T0) (hs : ∀ T ∈ others, SortedBy Clust.ev T) (hm : ∀ T ∈ T0 :: others, ∀ e, multiplicity Clust.ev T e < cs) :
    ∃ merged out, mergeClusterData Clust.ev T0 others cs = .ok merged ∧ findFile G S 0 cs (merged.map (mergedRow duts)) = some (out, none) ∧
      ∀ (k : Nat) (T : List (Clust K)) (dut : Bool × Pixels K), (T0 :: others)[k]? = some T → duts[k]? = some dut → ∃ cells : List (Option (Clust K)),
        cells.length = out.length ∧
        (∀ (r : Nat) (row : Row (Value K)) (cell : Option (Clust K)), out[r]? = some row → cells[r]? = some cell →
          ∀ f : Col, row.cols (nameOf f k) = cellValue dut.1 dut.2 cell f) ∧
        ∀ e, (∃ x ∈ T0, e ≤ x.ev) → (((out.zip cells).filter fun p => decide (p.1.ev = e)).filterMap Prod.snd).Perm (T.filter fun c => decide (c.ev = e)) := by
  obtain ⟨merged, -, out, h1, g2, -, -, hcells, hTs, hTm, h3⟩ := merge_find G hz S cs hcs duts T0 others hd hs0 hs hm
  obtain ⟨hlen, src, hperm, hrow⟩ := BTA.FindFile.Props.C176_rows G hz hG S cs hcs _ hTs hTm out g2
  rw [List.length_map] at hlen hperm
  refine ⟨merged, out, h1, g2, ?_⟩
  intro k T dut hT hdut
  have hkn : k < G.n := by rw [hn]; exact (List.getElem?_eq_some_iff.mp hdut).1
  let cell : Nat → Option (Clust K) := fun r => (merged[src k r]?).bind fun m => (m.2[k]?).getD none
  refine ⟨(List.range out.length).map cell, by simp, ?_, ?_⟩
  · intro r row c hr hc f
    obtain ⟨-, hcol, -⟩ := hrow r row hr
    obtain ⟨i, hi, -, hi'⟩ := hcol k hkn
    rw [List.getElem?_map, Option.map_eq_some_iff] at hi
    obtain ⟨m, hm', rfl⟩ := hi
    have hrl : r < out.length := (List.getElem?_eq_some_iff.mp hr).1
    rw [List.getElem?_map, List.getElem?_range hrl, Option.map_some] at hc
    have hc := Option.some.inj hc
    have hmk : m.2[k]? = some c := by
      have hl : k < m.2.length := by rw [hcells m (List.mem_of_getElem? hm'), ← hn]; exact hkn
      rw [← hc]
      simp only [cell, hm', Option.bind_some]
      rw [List.getElem?_eq_getElem hl]
      rfl
    rw [show nameOf f k = columnName f.base k from rfl, hi' f.base (base_clean f)]
    exact C179_columns duts m.2 k dut.1 dut.2 c hdut hmk m.1 f
  · intro e he
    rw [← h3 k T hT e he]
    unfold BTA.Merge.Props.cellsOfEvent
    -- rows of the event
    let q : Nat → Bool := fun r => (merged[r]?).any fun m => decide (m.1 = e)
    have hqs : ∀ r < merged.length, q (src k r) = q r := by
      intro r hr
      obtain ⟨⟨i, hi, hie, -⟩, hcol, -⟩ := hrow r _ (List.getElem?_eq_getElem (by omega))
      obtain ⟨j, hj, hje, -⟩ := hcol k hkn
      rw [List.getElem?_map, Option.map_eq_some_iff] at hi hj
      obtain ⟨mi, hmi, rfl⟩ := hi
      obtain ⟨mj, hmj, rfl⟩ := hj
      have : mi.1 = mj.1 := hie.trans hje.symm
      simp only [q, hmi, hmj, Option.any_some, this]
    have hleft : ((out.zip ((List.range out.length).map cell)).filter fun p => decide (p.1.ev = e)).filterMap Prod.snd =
        (((List.range merged.length).filter q).map (src k)).filterMap fun r => (merged[r]?).bind fun m => (m.2[k]?).getD none := by
      rw [List.filterMap_map, ← filterMap_range (out.zip ((List.range out.length).map cell))]
      have hzl : (out.zip ((List.range out.length).map cell)).length = merged.length := by simp [hlen]
      rw [hzl]
      have hget : ∀ r (hr : r < merged.length), (out.zip ((List.range out.length).map cell))[r]? = some (out[r]'(by rw [hlen]; exact hr), cell r) := by
        intro r hr
        rw [List.getElem?_zip_eq_some]
        exact ⟨List.getElem?_eq_getElem _, by rw [List.getElem?_map, List.getElem?_range (by omega)]; rfl⟩
      have hfil : ((List.range merged.length).filter fun r => ((out.zip ((List.range out.length).map cell))[r]?).any fun p => decide (p.1.ev = e)) =
          (List.range merged.length).filter q := by
        apply List.filter_congr
        intro r hr
        have hr := List.mem_range.mp hr
        rw [hget r hr, Option.any_some]
        obtain ⟨⟨i, hi, hie, -⟩, -⟩ := hrow r _ (List.getElem?_eq_getElem (l := out) (by omega))
        rw [List.getElem?_map, Option.map_eq_some_iff] at hi
        obtain ⟨mi, hmi, rfl⟩ := hi
        simp only [q, hmi, Option.any_some]
        rw [← hie]
        rfl
      rw [hfil]
      apply List.filterMap_congr
      intro r hr
      have hr := List.mem_range.mp (List.mem_filter.mp hr).1
      rw [hget r hr]
      rfl
    rw [hleft, ← filterMap_range merged]
    exact (filter_map_perm (src k) (hperm k) q hqs).filterMap _

/-- Cluster with event number and position. -/
def exCluster (e : Int) (x : ℚ) : Clust ℚ := ⟨e, 0, 0, 0, 0, x, 0, 1, 1, 10, 0, 1, 0, 1, 1⟩

/-- Two DUTs; the second has two clusters in event 3 and none in event 5. -/
def exTables : List (List (Clust ℚ)) := [[exCluster 3 1, exCluster 5 2, exCluster 8 6], [exCluster 3 1, exCluster 3 9, exCluster 8 6]]

/-- Positions are given by the column x. -/
def exPosition (v : Value ℚ) : Option Int :=
  match v with
  | .real v => some v.num
  | _ => none

def exSetting : Setting (Option Int) (Value ℚ) where
  n := 2
  setup := BTA.Find.Props.exSetup
  pos := fun d cols => (exPosition (cols (nameOf .x d)), some 0, some 0)
  finite := fun d cols => isFinite (cols (nameOf .x d))

example : (∀ T ∈ exTables, SortedBy Clust.ev T) ∧ ∀ T ∈ exTables, ∀ e, BTA.Spec.multiplicity Clust.ev T e < 4 := by
  refine ⟨?_, ?_⟩
  · intro T hT
    simp only [exTables, List.mem_cons, List.not_mem_nil, or_false] at hT
    rcases hT with rfl | rfl <;> simp [SortedBy, exCluster]
  · intro T hT e
    refine Nat.lt_of_le_of_lt (List.length_filter_le _ _) ?_
    simp only [exTables, List.mem_cons, List.not_mem_nil, or_false] at hT
    rcases hT with rfl | rfl <;> simp

example : exSetting.setup.zs.Nodup ∧ exSetting.n ≤ 10 := by decide

end BTA.MergedColumns.Props
