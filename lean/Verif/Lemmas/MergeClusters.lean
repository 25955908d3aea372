import Verif.Model.MergeClusters
import Verif.Props.ChunkReader
import Verif.Props.EventArrays
import Mathlib.Data.List.Forall2
import Mathlib.Tactic.Common
import Mathlib.Order.Basic
/-
Lemmas about the model of `merge_cluster_data`.
-/
namespace BTA.Merge
open Spec BTA.Props

variable {C : Type} {ev : C → Int}

/-! ### Reading one DUT -/

/-- A chunk list in which event numbers increase strictly from chunk to chunk. -/
def Separated (ev : C → Int) (items : List (List C × Nat)) : Prop :=
  items.Pairwise fun p q => ∀ x ∈ p.1, ∀ y ∈ q.1, ev x < ev y

theorem mem_readRows_drop {T : List C} {a b : Nat} {x : C} (h : x ∈ readRows T a b) : x ∈ T.drop a := by
  unfold readRows at h
  rw [List.drop_take] at h
  exact List.mem_of_mem_take h

theorem dataLoop_separated {T : List C} (hs : SortedBy ev T) (stopEvent : Option Int) (cs stop cur : Nat) (hcs : 0 < cs)
    (hstop : stop ≤ T.length) : Separated ev (dataLoop ev T stopEvent cs stop cur).items := by
  unfold Separated
  fun_induction dataLoop ev T stopEvent cs stop cur with
  | case1 | case2 | case4 | case5 => exact List.Pairwise.nil
  | case3 cur hcur cstop chunk first last hL hF nrows hn r ih =>
    refine List.Pairwise.cons ?_ ih
    intro q hq x hx y hy
    have hit : (dataLoop ev T stopEvent cs stop cur).items = [] ++ (chunk.take nrows, cur + nrows) :: r.items := by
      rw [dataLoop]
      simp only [hcur, dif_pos]
      have h1 : (readRows T cur (min (cur + cs) stop)).head? = some first := hF
      have h2 : (readRows T cur (min (cur + cs) stop)).getLast? = some last := hL
      simp only [h1, h2]
      rw [dif_neg hn]
      rfl
    obtain ⟨-, -, -, -, -, -, h7, -⟩ := dataLoop_chunks hs stopEvent cs stop cur hcs hstop _ _ _ _ hit
    apply h7 x hx y
    obtain ⟨-, ⟨rest, hrest⟩, -⟩ := dataLoop_spec hs stopEvent cs stop (cur + nrows) hcs hstop
    apply mem_readRows_drop (b := stop)
    rw [hrest]
    apply List.mem_append_left
    exact List.mem_flatMap.mpr ⟨q, hq, hy⟩

theorem dataAligned_separated {T : List C} (hs : SortedBy ev T) (args : ReadArgs) (hcs : 0 < args.chunkSize)
    (hsp : args.trySpeedup = false) (hstop : ∀ s ∈ args.stopIndex, s ≤ T.length) :
    Separated ev (dataAligned ev T args).items := by
  have hst : args.stopIndex.getD T.length ≤ T.length := by
    cases hh : args.stopIndex with
    | none => simp
    | some s => simpa using hstop s (by rw [hh]; rfl)
  unfold dataAligned
  simp only [hsp]
  split
  · exact List.Pairwise.nil
  · simp only [Bool.false_eq_true, if_false, Option.isSome_none, false_and, Option.getD_none]
    generalize boundsReversed args.startEvent args.stopEvent = B
    cases B
    · simp only [Bool.false_eq_true, if_false]
      split
      · exact List.Pairwise.nil
      · exact dataLoop_separated hs _ _ _ _ hcs hst
    · exact List.Pairwise.nil

/-- The start index is not behind the first row with an event number ≥ `a`. -/
def IdxOk (ev : C → Int) (T : List C) (s : Option Nat) (a : Option Int) : Prop :=
  s.getD 0 ≤ T.length ∧ ∀ x ∈ T.take (s.getD 0), ∃ v, a = some v ∧ ev x < v

theorem filter_drop_of_false (T : List C) (k : Nat) (p : C → Bool) (h : ∀ x ∈ T.take k, p x = false) :
    (T.drop k).filter p = T.filter p := by
  conv_rhs => rw [← List.take_append_drop k T, List.filter_append,
    List.filter_eq_nil_iff.mpr (fun x (hx : x ∈ T.take k) => by simp [h x hx]), List.nil_append]

theorem read_spec {T : List C} (hs : SortedBy ev T) (a : Option Int) (b : Int) (s : Option Nat) (cs : Nat) (hcs : 0 < cs)
    (hok : IdxOk ev T s a) (hab : ∀ x ∈ a, x ≤ b) :
    let g := dataAligned ev T { startIndex := s, startEvent := a, stopEvent := some b, chunkSize := cs, failOnMissing := false }
    ((g.err = none ∧ g.rows = T.filter (fun r => inRange a (some b) (ev r)) ∧
        IdxOk ev T (indexAfter g.items s) (some b)) ∨
      (g.err = some .chunkTooSmall ∧ ∃ e, cs ≤ multiplicity ev T e)) ∧
    Separated ev g.items ∧ ∀ it ∈ g.items, it.1 ≠ [] ∧ SortedBy ev it.1 := by
  intro g
  have hal : ∀ d idx, (d, idx) ∈ g.items → d ≠ [] ∧ d.length ≤ cs ∧ d.length ≤ idx ∧
      d = (T.take idx).drop (idx - d.length) ∧ (∀ x ∈ d, ∀ y ∈ T.drop idx, ev x < ev y) := fun d idx hd =>
    C02_chunks_aligned hs { startIndex := s, startEvent := a, stopEvent := some b, chunkSize := cs, failOnMissing := false } hcs rfl (by simp) d idx hd
  refine ⟨?_, dataAligned_separated hs _ hcs rfl (by simp), ?_⟩
  · have hg : g = dataAligned ev T { startIndex := some (s.getD 0), startEvent := a, stopEvent := some b, chunkSize := cs, failOnMissing := false } := by
      cases s <;> rfl
    obtain ⟨h1, h2⟩ := range_spec hs a (some b) (s.getD 0) cs hcs hok.1 (by simpa using hab) false
    rw [← hg] at h1 h2
    rcases h2 with h2 | ⟨h2, e, he⟩ | ⟨-, h, -⟩
    · left
      have hr : g.rows = T.filter (fun r => inRange a (some b) (ev r)) := by
        rw [h1 h2]
        apply filter_drop_of_false
        intro x hx
        obtain ⟨v, rfl, hv⟩ := hok.2 x hx
        simp only [inRange, Option.all_some, Bool.and_eq_false_iff, decide_eq_false_iff_not]
        left; omega
      refine ⟨h2, hr, ?_⟩
      unfold indexAfter
      cases hl : g.items.getLast? with
      | none =>
        simp only []
        refine ⟨hok.1, fun x hx => ?_⟩
        obtain ⟨v, hv, hx'⟩ := hok.2 x hx
        have := hab v hv
        exact ⟨b, rfl, by omega⟩
      | some it =>
        obtain ⟨d, i⟩ := it
        have hmem := List.mem_of_getLast? hl
        obtain ⟨hne, -, hlen, hd, hlater⟩ := hal d i hmem
        have hin : ∀ x ∈ d, ev x < b := by
          intro x hx
          have : x ∈ g.rows := List.mem_flatMap.mpr ⟨_, hmem, hx⟩
          rw [hr, List.mem_filter] at this
          have := this.2
          simp only [inRange, Option.all_some, Bool.and_eq_true, decide_eq_true_eq] at this
          exact this.2
        have hil : i ≤ T.length := by
          have h0 := congrArg List.length hd
          rw [List.length_drop, List.length_take] at h0
          have := List.length_pos_of_ne_nil hne
          omega
        refine ⟨hil, fun x hx => ⟨b, rfl, ?_⟩⟩
        simp only [Option.getD_some] at hx
        -- the last row of `d` is the last row of `T.take i`
        rw [← List.take_append_drop (i - d.length) (T.take i), ← hd] at hx
        rcases List.mem_append.mp hx with hx | hx
        · have hz := hin (d.getLast hne) (List.getLast_mem hne)
          have hsorted : SortedBy ev ((T.take i).take (i - d.length) ++ d) := by
            have : SortedBy ev (T.take i) := List.Pairwise.sublist (List.take_sublist _ _) hs
            rw [← List.take_append_drop (i - d.length) (T.take i), ← hd] at this
            exact this
          have := (List.pairwise_append.mp hsorted).2.2 x hx _ (List.getLast_mem hne)
          omega
        · exact hin x hx
    · right
      refine ⟨h2, e, Nat.le_trans he ?_⟩
      unfold multiplicity
      exact ((List.drop_sublist _ _).filter _).length_le
    · cases h
  · intro it hit
    obtain ⟨hne, -, -, hd, -⟩ := hal it.1 it.2 hit
    refine ⟨hne, ?_⟩
    rw [hd]
    exact List.Pairwise.sublist ((List.drop_sublist _ _).trans (List.take_sublist _ _)) hs

/-! ### First loop -/

theorem commonOfChunks_spec (items : List (List C × Nat)) (hsep : Separated ev items)
    (hit : ∀ it ∈ items, it.1 ≠ [] ∧ SortedBy ev it.1) (common : List Int) (hc : common.Pairwise (· ≤ ·)) (hne : common ≠ []) :
    ∃ r, commonOfChunks ev items common = .ok r ∧ r.Pairwise (· ≤ ·) ∧ r ≠ [] ∧
      ∀ e, r.count e = max (common.count e) (((items.flatMap Prod.fst).map ev).count e) := by
  induction items generalizing common with
  | nil => exact ⟨common, rfl, hc, hne, fun e => by simp⟩
  | cons it rest ih =>
    obtain ⟨d, i⟩ := it
    obtain ⟨hdne, hds⟩ := hit (d, i) (by simp)
    have hds' : (d.map ev).Pairwise (· ≤ ·) := List.pairwise_map.mpr hds
    obtain ⟨r, hr, hrs, hrc⟩ := C12_max_events common (d.map ev) hc hds' hne (by simpa using hdne)
    have hrne : r ≠ [] := by
      obtain ⟨c, rest', rfl⟩ := List.exists_cons_of_ne_nil hne
      have := hrc c
      intro h
      rw [h] at this
      simp only [List.count_nil, List.count_cons_self] at this
      omega
    obtain ⟨r', hr', hrs', hrne', hrc'⟩ := ih (List.Pairwise.of_cons hsep) (fun it h => hit it (by simp [h])) r hrs hrne
    refine ⟨r', ?_, hrs', hrne', fun e => ?_⟩
    · rw [commonOfChunks, hr]
      exact hr'
    · rw [hrc' e, hrc e, List.flatMap_cons, List.map_append, List.count_append]
      -- the event occurs in at most one chunk
      by_cases hed : e ∈ d.map ev
      · obtain ⟨x, hx, hxe⟩ := List.mem_map.mp hed
        have : ((rest.flatMap Prod.fst).map ev).count e = 0 := by
          apply List.count_eq_zero_of_not_mem
          intro h
          obtain ⟨y, hy, hye⟩ := List.mem_map.mp h
          obtain ⟨q, hq, hyq⟩ := List.mem_flatMap.mp hy
          have := (List.pairwise_cons.mp hsep).1 q hq x hx y hyq
          omega
        simp only [this]
        omega
      · have := List.count_eq_zero_of_not_mem hed
        simp only [this]
        omega

/-- State of the indices of all other DUTs. -/
def AllOk (ev : C → Int) (others : List (List C)) (ss : List (Option Nat)) (a : Option Int) : Prop :=
  List.Forall₂ (fun T s => IdxOk ev T s a) others ss

theorem firstLoop_spec (a : Option Int) (b : Int) (cs : Nat) (hcs : 0 < cs) (hab : ∀ x ∈ a, x ≤ b) (others : List (List C))
    (hs : ∀ T ∈ others, SortedBy ev T) (ss : List (Option Nat)) (hok : AllOk ev others ss a) (common : List Int)
    (hc : common.Pairwise (· ≤ ·)) (hne : common ≠ []) :
    (∃ r ss', firstLoop ev a b cs (others.zip ss) common = .ok (r, ss') ∧ AllOk ev others ss' (some b) ∧
      r.Pairwise (· ≤ ·) ∧ r ≠ [] ∧
      ∀ e, r.count e = (others.map fun T => ((T.filter fun r => inRange a (some b) (ev r)).map ev).count e).foldl max
        (common.count e)) ∨
    (firstLoop ev a b cs (others.zip ss) common = .error (.read .chunkTooSmall) ∧
      ∃ T ∈ others, ∃ e, cs ≤ multiplicity ev T e) := by
  induction others generalizing ss common with
  | nil =>
    cases hok
    exact .inl ⟨common, [], rfl, .nil, hc, hne, fun e => rfl⟩
  | cons T others ih =>
    cases hok with
    | cons hTs hrest =>
      rename_i s ss
      obtain ⟨h1, hsep, hit⟩ := read_spec (hs T (by simp)) a b s cs hcs hTs hab
      generalize hg : dataAligned ev T { startIndex := s, startEvent := a, stopEvent := some b, chunkSize := cs, failOnMissing := false } = g at h1 hsep hit
      obtain ⟨r, hr, hrs, hrne, hrc⟩ := commonOfChunks_spec g.items hsep hit common hc hne
      rw [List.zip_cons_cons, firstLoop]
      simp only [hg, hr]
      rcases h1 with ⟨herr, hrows, hidx⟩ | ⟨herr, e, he⟩
      · simp only [herr]
        rcases ih (fun T h => hs T (by simp [h])) ss hrest r hrs hrne with ⟨r', ss', h', hok', hs', hne', hc'⟩ | ⟨h', T', hT', h''⟩
        · left
          rw [h']
          refine ⟨r', _, rfl, .cons hidx hok', hs', hne', fun e => ?_⟩
          rw [hc' e, List.map_cons, List.foldl_cons, hrc e]
          rw [show g.items.flatMap Prod.fst = g.rows from rfl, hrows]
        · right
          rw [h']
          exact ⟨by trivial, T', by simp [hT'], h''⟩
      · right
        simp only [herr]
        exact ⟨by trivial, T, by simp, e, he⟩

/-! ### Second loop -/

theorem count_zip_aux (events : List Int) (clusters : List C) (e : Int) (k : Nat) :
    nthOfEvent (evO ev) (clusters.map some) e k = (nthOfEvent ev clusters e k).map some := by
  unfold nthOfEvent
  rw [List.filter_map, List.getElem?_map]
  rfl

/-- Row `m` of the array filled by `map_cluster`. -/
theorem mapped_getElem (common : List Int) (hc : common.Pairwise (· ≤ ·)) (clusters : List C) (hs : SortedBy ev clusters) :
    (mapped ev common clusters).length = common.length ∧
    ∀ m (hm : m < common.length), (mapped ev common clusters)[m]? =
      some (nthOfEvent ev clusters common[m] ((common.take m).count common[m])) := by
  have hs' : SortedBy (evO ev) (clusters.map some) := List.pairwise_map.mpr hs
  obtain ⟨h1, h2⟩ := C13_map_cluster (evO ev) common (clusters.map some) (List.replicate common.length none) hc hs' (by simp)
  refine ⟨h1, fun m hm => ?_⟩
  unfold mapped
  rw [h2 m hm, count_zip_aux common]
  cases nthOfEvent ev clusters common[m] ((common.take m).count common[m]) <;> simp

theorem overlay_getElem (col new : List (Option C)) (m : Nat) (a b : Option C) (h1 : col[m]? = some a) (h2 : new[m]? = some b) :
    (overlay col new)[m]? = some (b <|> a) := by
  unfold overlay
  rw [List.getElem?_zipWith, h1, h2]

theorem filter_eq_nil_of_lt {l : List C} {e : Int} (h : ∀ x ∈ l, ev x ≠ e) : (l.filter fun b => decide (ev b = e)) = [] := by
  rw [List.filter_eq_nil_iff]
  intro x hx
  simpa using h x hx

theorem overlay_fold (common : List Int) (hc : common.Pairwise (· ≤ ·)) (items : List (List C × Nat))
    (hsep : Separated ev items) (hit : ∀ it ∈ items, it.1 ≠ [] ∧ SortedBy ev it.1) (col : List (Option C))
    (m : Nat) (hm : m < common.length) (a : Option C) (ha : col[m]? = some a) :
    (items.foldl (fun col it => overlay col (mapped ev common it.1)) col)[m]? =
      some (nthOfEvent ev (items.flatMap Prod.fst) common[m] ((common.take m).count common[m]) <|> a) := by
  induction items generalizing col a with
  | nil => rw [List.foldl_nil, ha]; simp [nthOfEvent]
  | cons it rest ih =>
    obtain ⟨d, i⟩ := it
    obtain ⟨hdne, hds⟩ := hit (d, i) (by simp)
    rw [List.foldl_cons]
    have h1 := overlay_getElem col _ m _ _ ha ((mapped_getElem common hc d hds).2 m hm)
    rw [ih (List.Pairwise.of_cons hsep) (fun it h => hit it (by simp [h])) _ _ h1]
    congr 1
    generalize common[m] = e
    generalize (common.take m).count e = k
    rw [List.flatMap_cons]
    unfold nthOfEvent
    rw [List.filter_append]
    by_cases hed : ∃ x ∈ d, ev x = e
    · obtain ⟨x, hx, hxe⟩ := hed
      have : ((rest.flatMap Prod.fst).filter fun b => decide (ev b = e)) = [] := by
        apply filter_eq_nil_of_lt
        intro y hy
        obtain ⟨q, hq, hyq⟩ := List.mem_flatMap.mp hy
        have := (List.pairwise_cons.mp hsep).1 q hq x hx y hyq
        omega
      rw [this]
      simp
    · rw [filter_eq_nil_of_lt (l := d) (fun x hx he => hed ⟨x, hx, he⟩)]
      simp

theorem nthOfEvent_filter (T : List C) (p : C → Bool) (e : Int) (k : Nat) (h : ∀ x ∈ T, ev x = e → p x = true) :
    nthOfEvent ev (T.filter p) e k = nthOfEvent ev T e k := by
  unfold nthOfEvent
  rw [List.filter_filter]
  congr 1
  apply List.filter_congr
  intro x hx
  by_cases he : ev x = e
  · simp [he, h x hx he]
  · simp [he]

theorem secondLoop_spec (common : List Int) (hc : common.Pairwise (· ≤ ·)) (a b : Int) (hab : a ≤ b)
    (hin : ∀ e ∈ common, a ≤ e ∧ e < b) (cs : Nat) (hcs : 0 < cs) (others : List (List C))
    (hs : ∀ T ∈ others, SortedBy ev T) (ss : List (Option Nat)) (hok : AllOk ev others ss (some a)) :
    (∃ cols ss', secondLoop ev common a b cs (others.zip ss) = .ok (cols, ss') ∧ AllOk ev others ss' (some b) ∧
      List.Forall₂ (fun T col => ∀ m (hm : m < common.length), col[m]? =
        some (nthOfEvent ev T common[m] ((common.take m).count common[m]))) others cols) ∨
    (secondLoop ev common a b cs (others.zip ss) = .error (.read .chunkTooSmall) ∧
      ∃ T ∈ others, ∃ e, cs ≤ multiplicity ev T e) := by
  induction others generalizing ss with
  | nil =>
    cases hok
    exact .inl ⟨[], [], rfl, .nil, .nil⟩
  | cons T others ih =>
    cases hok with
    | cons hTs hrest =>
      rename_i s ss
      obtain ⟨h1, hsep, hit⟩ := read_spec (hs T (by simp)) (some a) b s cs hcs hTs (by simpa using hab)
      generalize hg : dataAligned ev T { startIndex := s, startEvent := some a, stopEvent := some b, chunkSize := cs, failOnMissing := false } = g at h1 hsep hit
      rw [List.zip_cons_cons, secondLoop]
      simp only [hg]
      rcases h1 with ⟨herr, hrows, hidx⟩ | ⟨herr, e, he⟩
      · simp only [herr]
        rcases ih (fun T h => hs T (by simp [h])) ss hrest with ⟨cols, ss', h', hok', hcols⟩ | ⟨h', T', hT', h''⟩
        · left
          rw [h']
          refine ⟨_, _, rfl, .cons hidx hok', .cons ?_ hcols⟩
          intro m hm
          rw [overlay_fold common hc g.items hsep hit _ m hm none (by simp [hm])]
          rw [show g.items.flatMap Prod.fst = g.rows from rfl, hrows, nthOfEvent_filter]
          · simp
          · intro x hx he
            have := hin common[m] (List.getElem_mem hm)
            simp only [inRange, Option.all_some, Bool.and_eq_true, decide_eq_true_eq, he]
            exact this
        · right
          rw [h']
          exact ⟨by trivial, T', by simp [hT'], h''⟩
      · right
        simp only [herr]
        exact ⟨by trivial, T, by simp, e, he⟩

/-! ### Main loop -/

theorem count_map_ev (T : List C) (e : Int) : (T.map ev).count e = multiplicity ev T e := by
  unfold multiplicity
  rw [List.count, List.countP_map, List.countP_eq_length_filter]
  congr 1

theorem multiplicity_append (A B : List C) (e : Int) : multiplicity ev (A ++ B) e = multiplicity ev A e + multiplicity ev B e := by
  simp [multiplicity, List.filter_append]

theorem multiplicity_eq_zero {A : List C} {e : Int} (h : ∀ x ∈ A, ev x ≠ e) : multiplicity ev A e = 0 := by
  unfold multiplicity
  rw [filter_eq_nil_of_lt h]; rfl

theorem foldl_max_zero (l : List Nat) (h : ∀ n ∈ l, n = 0) : l.foldl max 0 = 0 := by
  induction l with
  | nil => rfl
  | cons a l ih =>
    rw [List.foldl_cons, h a (by simp)]
    exact ih fun n hn => h n (by simp [hn])

theorem le_foldl_max (l : List Nat) (a : Nat) : a ≤ l.foldl max a := by
  induction l generalizing a with
  | nil => exact Nat.le_refl a
  | cons b l ih => exact Nat.le_trans (Nat.le_max_left a b) (ih (max a b))

theorem le_foldl_max_mem (l : List Nat) (a n : Nat) (h : n ∈ l) : n ≤ l.foldl max a := by
  induction l generalizing a with
  | nil => simp at h
  | cons b l ih =>
    rcases List.mem_cons.mp h with rfl | h
    · exact Nat.le_trans (Nat.le_max_right a n) (le_foldl_max l (max a n))
    · exact ih (max a b) h

/-- Rows of one chunk. -/
theorem mergedRows_eq (common : List Int) (tables : List (List C)) (cols : List (List (Option C)))
    (h : List.Forall₂ (fun T col => ∀ m (hm : m < common.length), col[m]? =
        some (nthOfEvent ev T common[m] ((common.take m).count common[m]))) tables cols) :
    mergedRows common cols = rowsFor ev tables common := by
  unfold mergedRows rowsFor
  apply List.map_congr_left
  rintro ⟨e, m⟩ hem
  rw [List.mem_zipIdx_iff_getElem?] at hem
  obtain ⟨hm, he⟩ := List.getElem?_eq_some_iff.mp hem
  simp only [Prod.mk.injEq, true_and]
  clear hem
  induction h with
  | nil => rfl
  | cons hd _ ih =>
    rw [List.map_cons, List.map_cons, ih, hd m hm, he]
    rfl

theorem rowsFor_append (tables : List (List C)) (A B : List Int) (h : ∀ a ∈ A, ∀ b ∈ B, a < b) :
    rowsFor ev tables (A ++ B) = rowsFor ev tables A ++ rowsFor ev tables B := by
  unfold rowsFor
  rw [List.zipIdx_append, List.map_append]
  congr 1
  · apply List.map_congr_left
    rintro ⟨e, m⟩ hem
    rw [List.mem_zipIdx_iff_getElem?] at hem
    have hm := (List.getElem?_eq_some_iff.mp hem).1
    simp only [Prod.mk.injEq, true_and]
    rw [List.take_append_of_le_length (by omega)]
  · rw [List.zipIdx_eq_map_add, List.map_map]
    apply List.map_congr_left
    rintro ⟨e, m⟩ hem
    rw [List.mem_zipIdx_iff_getElem?] at hem
    have he := List.mem_of_getElem? hem
    have h0 : A.count e = 0 := List.count_eq_zero_of_not_mem fun ha => by have := h e ha e he; omega
    simp only [Function.comp, Prod.mk.injEq, true_and]
    rw [show 0 + A.length + m = A.length + m by omega, List.take_length_add_append, List.count_append, h0, Nat.zero_add]

theorem rowsFor_congr (T T' : List C) (others : List (List C)) (events : List Int)
    (h : ∀ e ∈ events, ∀ k, nthOfEvent ev T e k = nthOfEvent ev T' e k) :
    rowsFor ev (T :: others) events = rowsFor ev (T' :: others) events := by
  unfold rowsFor
  apply List.map_congr_left
  rintro ⟨e, m⟩ hem
  rw [List.mem_zipIdx_iff_getElem?] at hem
  simp only [List.map_cons]
  rw [h e (List.mem_of_getElem? hem)]

theorem getLast?_of_max (l : List Int) (hs : l.Pairwise (· ≤ ·)) (m : Int) (hm : m ∈ l) (hle : ∀ x ∈ l, x ≤ m) :
    l.getLast? = some m := by
  have hne : l ≠ [] := List.ne_nil_of_mem hm
  rw [List.getLast?_eq_some_getLast hne]
  congr 1
  have h1 := hle _ (List.getLast_mem hne)
  have h2 := mem_getLast?_ge (ev := id) hs (List.getLast?_eq_some_getLast hne) m hm
  simp only [id] at h2
  omega

theorem mainLoop_spec (others : List (List C)) (hs : ∀ T ∈ others, SortedBy ev T) (cs : Nat) (hcs : 0 < cs)
    (items : List (List C × Nat)) (hsep : Separated ev items) (hit : ∀ it ∈ items, it.1 ≠ [] ∧ SortedBy ev it.1)
    (start : Option Int) (sm sd : List (Option Nat)) (hsm : AllOk ev others sm start) (hsd : AllOk ev others sd start)
    (hstart : ∀ v ∈ start, ∀ it ∈ items, ∀ x ∈ it.1, v ≤ ev x) :
    (∃ events, mainLoop ev others cs items start sm sd = .ok (rowsFor ev (items.flatMap Prod.fst :: others) events) ∧
      events.Pairwise (· ≤ ·) ∧
      ∀ e, events.count e = if (∃ x ∈ items.flatMap Prod.fst, e ≤ ev x) ∧ (∀ v ∈ start, v ≤ e)
        then maxMultiplicity ev (items.flatMap Prod.fst :: others) e else 0) ∨
    (mainLoop ev others cs items start sm sd = .error (.read .chunkTooSmall) ∧
      ∃ T ∈ others, ∃ e, cs ≤ multiplicity ev T e) := by
  induction items generalizing start sm sd with
  | nil => exact .inl ⟨[], rfl, List.Pairwise.nil, fun e => by simp⟩
  | cons it rest ih =>
    obtain ⟨d0, i0⟩ := it
    obtain ⟨hdne, hds⟩ := hit (d0, i0) (by simp)
    simp only at hdne hds
    have hsep' := List.pairwise_cons.mp hsep
    have hlast : (d0.map ev).getLast? = some (ev (d0.getLast hdne)) := by
      rw [List.getLast?_map, List.getLast?_eq_some_getLast hdne]; rfl
    generalize hl0 : ev (d0.getLast hdne) = last at hlast
    have hd0le : ∀ x ∈ d0, ev x ≤ last := by
      intro x hx
      rw [← hl0]
      exact mem_getLast?_ge hds (List.getLast?_eq_some_getLast hdne) x hx
    have hd0mem : last ∈ d0.map ev := hl0 ▸ List.mem_map_of_mem (List.getLast_mem hdne)
    have hrestgt : ∀ x ∈ rest.flatMap Prod.fst, last < ev x := by
      intro x hx
      obtain ⟨q, hq, hxq⟩ := List.mem_flatMap.mp hx
      rw [← hl0]
      exact hsep'.1 q hq _ (List.getLast_mem hdne) x hxq
    have hstart0 : ∀ v ∈ start, ∀ x ∈ d0, v ≤ ev x := fun v hv x hx => hstart v hv (d0, i0) (by simp) x hx
    have hab : ∀ x ∈ start, x ≤ last + 1 := by
      intro v hv
      have := hstart0 v hv _ (List.getLast_mem hdne)
      omega
    rw [mainLoop]
    simp only [hlast]
    rcases firstLoop_spec start (last + 1) cs hcs hab others hs sm hsm (d0.map ev) (List.pairwise_map.mpr hds)
      (by simpa using hdne) with ⟨common, sm', h1, hsm', hcs1, hcne, hcc⟩ | ⟨h1, h2⟩
    case inr => right; rw [h1]; exact ⟨by trivial, h2⟩
    rw [h1]
    simp only []
    -- counts of the common event numbers
    have hcount : ∀ e, common.count e = if e ≤ last ∧ (∀ v ∈ start, v ≤ e) then maxMultiplicity ev (d0 :: others) e else 0 := by
      intro e
      rw [hcc e]
      by_cases hr : e ≤ last ∧ ∀ v ∈ start, v ≤ e
      · rw [if_pos hr]
        unfold maxMultiplicity
        rw [List.map_cons, List.foldl_cons, Nat.zero_max, count_map_ev]
        congr 1
        apply List.map_congr_left
        intro T _
        rw [count_map_ev]
        unfold multiplicity
        rw [List.filter_filter]
        congr 1
        apply List.filter_congr
        intro x _
        by_cases he : ev x = e
        · have : inRange start (some (last + 1)) (ev x) = true := by
            rw [he]
            simp only [inRange, Option.all_some, Bool.and_eq_true, decide_eq_true_eq]
            refine ⟨?_, by omega⟩
            cases start with
            | none => rfl
            | some v => simpa using hr.2 v rfl
          simp [he] at this ⊢
          exact this
        · simp [he]
      · rw [if_neg hr]
        have h0 : (d0.map ev).count e = 0 := by
          apply List.count_eq_zero_of_not_mem
          intro h
          obtain ⟨x, hx, rfl⟩ := List.mem_map.mp h
          exact hr ⟨hd0le x hx, fun v hv => hstart0 v hv x hx⟩
        rw [h0]
        apply foldl_max_zero
        intro n hn
        obtain ⟨T, _, rfl⟩ := List.mem_map.mp hn
        apply List.count_eq_zero_of_not_mem
        intro h
        obtain ⟨x, hx, rfl⟩ := List.mem_map.mp h
        have := (List.mem_filter.mp hx).2
        simp only [inRange, Option.all_some, Bool.and_eq_true, decide_eq_true_eq] at this
        apply hr
        refine ⟨by omega, fun v hv => ?_⟩
        have h' := this.1
        rw [show start = some v from hv] at h'
        simpa using h'
    have hmemc : ∀ e ∈ common, e ≤ last ∧ ∀ v ∈ start, v ≤ e := by
      intro e he
      by_contra hcon
      have := hcount e
      rw [if_neg hcon] at this
      have h0 := List.count_pos_iff.mpr he
      omega
    have hlastc : last ∈ common := by
      rw [← List.count_pos_iff, hcc last]
      have h0 : 0 < (d0.map ev).count last := List.count_pos_iff.mpr hd0mem
      exact Nat.lt_of_lt_of_le h0 (le_foldl_max _ _)
    have hgl := getLast?_of_max common hcs1 last hlastc (fun e he => (hmemc e he).1)
    have hhd := List.head?_eq_some_head hcne
    generalize hfd : common.head hcne = f at hhd
    have hfmem : f ∈ common := hfd ▸ List.head_mem hcne
    have hfle : ∀ e ∈ common, f ≤ e := by
      intro e he
      obtain ⟨c, r, rfl⟩ := List.exists_cons_of_ne_nil hcne
      simp only [List.head_cons] at hfd
      subst hfd
      rcases List.mem_cons.mp he with rfl | he
      · omega
      · exact (List.pairwise_cons.mp hcs1).1 e he
    rw [hgl, hhd]
    simp only []
    have hsdf : AllOk ev others sd (some f) := by
      refine hsd.imp ?_
      rintro T s ⟨h1, h2⟩
      refine ⟨h1, fun x hx => ?_⟩
      obtain ⟨v, hv, hxv⟩ := h2 x hx
      have := (hmemc f hfmem).2 v hv
      exact ⟨f, rfl, by omega⟩
    rcases secondLoop_spec common hcs1 f (last + 1) (by have := hfle last hlastc; omega)
      (fun e he => ⟨hfle e he, by have := (hmemc e he).1; omega⟩) cs hcs others hs sd hsdf with
      ⟨cols, sd', h2, hsd', hcols⟩ | ⟨h2, h3⟩
    case inr => right; rw [h2]; exact ⟨by trivial, h3⟩
    rw [h2]
    simp only []
    rcases ih hsep'.2 (fun it h => hit it (by simp [h])) (some (last + 1)) sm' sd' hsm' hsd' (by
      intro v hv it hit' x hx
      cases hv
      have := hrestgt x (List.mem_flatMap.mpr ⟨it, hit', hx⟩)
      omega) with ⟨events, h3, hes, hec⟩ | ⟨h3, h4⟩
    case inr => right; rw [h3]; exact ⟨by trivial, h4⟩
    left
    rw [h3]
    have hev' : ∀ e ∈ events, last < e := by
      intro e he
      by_contra hcon
      have := hec e
      rw [if_neg (fun h => hcon (by have := h.2 (last + 1) rfl; omega))] at this
      have h0 := List.count_pos_iff.mpr he
      omega
    refine ⟨common ++ events, ?_, ?_, ?_⟩
    · show Except.ok (mergedRows common
        (overlay (List.replicate common.length none) (mapped ev common d0) :: cols) ++ _) = _
      congr 1
      rw [rowsFor_append _ _ _ (fun a ha b hb => by have := (hmemc a ha).1; have := hev' b hb; omega)]
      rw [List.flatMap_cons]
      congr 1
      · rw [mergedRows_eq common (d0 :: others) _ (.cons ?_ hcols)]
        · apply rowsFor_congr
          intro e he k
          unfold nthOfEvent
          rw [List.filter_append, filter_eq_nil_of_lt (l := rest.flatMap Prod.fst), List.append_nil]
          intro x hx
          have := hrestgt x hx
          have := (hmemc e he).1
          omega
        · intro m hm
          rw [overlay_getElem _ _ m none _ (by simp [hm]) ((mapped_getElem common hcs1 d0 hds).2 m hm)]
          simp
      · apply rowsFor_congr
        intro e he k
        unfold nthOfEvent
        rw [List.filter_append, filter_eq_nil_of_lt (l := d0), List.nil_append]
        intro x hx
        have := hd0le x hx
        have := hev' e he
        omega
    · rw [List.pairwise_append]
      refine ⟨hcs1, hes, fun a ha b hb => ?_⟩
      have := (hmemc a ha).1
      have := hev' b hb
      omega
    · intro e
      rw [List.count_append, hcount e, hec e, List.flatMap_cons]
      have hmax : ∀ T T' : List C, multiplicity ev T e = multiplicity ev T' e →
          maxMultiplicity ev (T :: others) e = maxMultiplicity ev (T' :: others) e := by
        intro T T' h
        simp only [maxMultiplicity, List.map_cons, h]
      by_cases hv : ∀ v ∈ start, v ≤ e
      · by_cases hel : e ≤ last
        · rw [if_pos ⟨hel, hv⟩, if_neg (fun h => by have := h.2 (last + 1) rfl; omega), if_pos, Nat.add_zero]
          · apply hmax
            rw [multiplicity_append, multiplicity_eq_zero (A := rest.flatMap Prod.fst)]
            · rfl
            · intro x hx
              have := hrestgt x hx
              omega
          · refine ⟨⟨d0.getLast hdne, ?_, by rw [hl0]; exact hel⟩, hv⟩
            exact List.mem_append_left _ (List.getLast_mem hdne)
        · rw [if_neg (fun h => hel h.1), Nat.zero_add]
          have hm0 : multiplicity ev d0 e = 0 := multiplicity_eq_zero (fun x hx => by have := hd0le x hx; omega)
          by_cases hx : ∃ x ∈ rest.flatMap Prod.fst, e ≤ ev x
          · obtain ⟨x, hx, hex⟩ := hx
            rw [if_pos ⟨⟨x, hx, hex⟩, fun v hv => by cases hv; omega⟩,
              if_pos ⟨⟨x, List.mem_append_right _ hx, hex⟩, hv⟩]
            apply hmax
            rw [multiplicity_append, hm0, Nat.zero_add]
          · rw [if_neg (fun h => hx h.1), if_neg]
            rintro ⟨⟨x, hx', hex⟩, -⟩
            rcases List.mem_append.mp hx' with h | h
            · have := hd0le x h; omega
            · exact hx ⟨x, h, hex⟩
      · have hnot : ¬ ∀ v ∈ some (last + 1), v ≤ e := by
          intro h
          apply hv
          intro v hv'
          have := hab v hv'
          have := h (last + 1) rfl
          omega
        rw [if_neg (fun h => hv h.2), if_neg (fun h => hnot h.2), if_neg (fun h => hv h.2)]

end BTA.Merge
