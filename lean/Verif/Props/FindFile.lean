import Verif.Lemmas.FindFile
import Verif.Props.DataSelection
/-
C176: the track candidates of a file.
C177: `max_events` of `find_tracks`.
-/
namespace BTA.FindFile.Props
open BTA.FindFile BTA.Find BTA.Sel BTA.Spec
open BTA.Find.Props (columnName CleanBase)
open BTA.Fit (Sampling)

variable {F E : Type} (G : Setting F E)

/-- C176: for a sorted table in which no event has `chunk_size` or more rows, `find_tracks` ends without exception, and its output is the same as for a single
chunk with the complete table. -/
theorem C176_one_chunk (hn : G.setup.zs.Nodup) (S : Sampling) (cs : Nat) (hcs : 0 < cs) (T : List (Row E)) (hT : SortedBy Row.ev T)
    (hm : ∀ e, multiplicity Row.ev T e < cs) : ∃ out, findChunk G T = some out ∧ findFile G S 0 cs T = some (out, none) := by
  obtain ⟨hsep, -, hg⟩ := chunks_default hT cs hcs
  have herr := chunks_ok hT cs hcs hm
  have hflat : (dataAligned Row.ev T { chunkSize := cs }).items.flatMap Prod.fst = T := by
    rcases hg with ⟨h, -⟩ | ⟨-, h⟩
    · rw [herr] at h; cases h
    · exact h
  obtain ⟨out, h1, h2⟩ := fileLoop_all G hn S T.length _ hsep 0
  rw [hflat] at h1
  refine ⟨out, h1, ?_⟩
  unfold findFile
  rw [h2, herr]
  rfl

/-- Two DUTs, hits with the positions in the columns `x_dut_0`, `x_dut_1` (NaN as `none`). -/
def exSetting : Setting (Option Int) (Option Int) where
  n := 2
  setup := BTA.Find.Props.exSetup
  pos := fun d cols => (cols (columnName ['x'] d), some 0, some 0)
  finite := fun d cols => (cols (columnName ['x'] d)).isSome

/-- Five rows in three events. -/
def exTable : List (Row (Option Int)) :=
  [(3, 1, 4), (3, 4, 1), (5, 2, 2), (8, 6, 9), (8, 9, 6)].map fun (e, a, b) =>
    ⟨e, 0, fun name => if name = columnName ['x'] 0 then some a else if name = columnName ['x'] 1 then some b else none⟩

theorem exTable_sorted : SortedBy Row.ev exTable := by
  unfold SortedBy exTable
  simp

theorem exTable_multiplicity (cs : Nat) (hcs : 3 ≤ cs) (e : Int) : multiplicity Row.ev exTable e < cs := by
  have : multiplicity Row.ev exTable e ≤ 2 := by
    unfold multiplicity exTable
    simp only [List.map_cons, List.map_nil, List.filter_cons, List.filter_nil, decide_eq_true_eq]
    by_cases h3 : (3 : Int) = e
    · simp [← h3]
    · by_cases h5 : (5 : Int) = e
      · simp [← h5]
      · simp only [h3, h5, if_false]
        split <;> simp
  omega

example (S : Sampling) : ∃ out, findChunk exSetting exTable = some out ∧ findFile exSetting S 0 3 exTable = some (out, none) :=
  C176_one_chunk exSetting (by decide) S 3 (by decide) exTable exTable_sorted (exTable_multiplicity 3 (by decide))

/-- C176: the result does not depend on the chunk size. -/
theorem C176_chunk_size (hn : G.setup.zs.Nodup) (S S' : Sampling) (cs cs' : Nat) (hcs : 0 < cs) (hcs' : 0 < cs') (T : List (Row E)) (hT : SortedBy Row.ev T)
    (hm : ∀ e, multiplicity Row.ev T e < cs) (hm' : ∀ e, multiplicity Row.ev T e < cs') : findFile G S 0 cs T = findFile G S' 0 cs' T := by
  obtain ⟨o, h1, h2⟩ := C176_one_chunk G hn S cs hcs T hT hm
  obtain ⟨o', h1', h2'⟩ := C176_one_chunk G hn S' cs' hcs' T hT hm'
  rw [h1] at h1'
  rw [h2, h2', Option.some.inj h1']

example (S S' : Sampling) : findFile exSetting S 0 3 exTable = findFile exSetting S' 0 1000 exTable :=
  C176_chunk_size exSetting (by decide) S S' 3 1000 (by decide) (by decide) exTable exTable_sorted (exTable_multiplicity 3 (by decide))
    (exTable_multiplicity 1000 (by decide))

/-- C176, events are independent of each other: the candidates of a table followed by a table with other events are the candidates of both. -/
theorem C176_events_independent (hn : G.setup.zs.Nodup) (S : Sampling) (cs : Nat) (hcs : 0 < cs) (A B : List (Row E)) (hT : SortedBy Row.ev (A ++ B))
    (hAB : ∀ a ∈ A, ∀ b ∈ B, a.ev ≠ b.ev) (hm : ∀ e, multiplicity Row.ev (A ++ B) e < cs) (oa ob : List (Row E))
    (ha : findFile G S 0 cs A = some (oa, none)) (hb : findFile G S 0 cs B = some (ob, none)) :
    findFile G S 0 cs (A ++ B) = some (oa ++ ob, none) := by
  have hA : SortedBy Row.ev A := (List.pairwise_append.mp hT).1
  have hB : SortedBy Row.ev B := (List.pairwise_append.mp hT).2.1
  have mA : ∀ e, multiplicity Row.ev A e < cs := fun e => by
    have := hm e
    unfold multiplicity at this ⊢
    rw [List.filter_append, List.length_append] at this
    omega
  have mB : ∀ e, multiplicity Row.ev B e < cs := fun e => by
    have := hm e
    unfold multiplicity at this ⊢
    rw [List.filter_append, List.length_append] at this
    omega
  obtain ⟨oa', h1, h2⟩ := C176_one_chunk G hn S cs hcs A hA mA
  obtain ⟨ob', h3, h4⟩ := C176_one_chunk G hn S cs hcs B hB mB
  obtain ⟨o, h5, h6⟩ := C176_one_chunk G hn S cs hcs (A ++ B) hT hm
  rw [h2] at ha
  rw [h4] at hb
  have ea : oa' = oa := (Prod.mk.inj (Option.some.inj ha)).1
  have eb : ob' = ob := (Prod.mk.inj (Option.some.inj hb)).1
  subst ea eb
  rw [findChunk_append G hn A B hAB _ _ h1 h3] at h5
  rw [h6, ← Option.some.inj h5]

/-- C176: the rows of the output (up to 10 DUTs). Row `r` has the event number of row `r` of the input. All columns of DUT `d` are those of a row `source d r` of the input
which belongs to the same event; for each DUT every row of the input is used once. Columns without the number of a DUT are not changed. The bit of a DUT in the hit flag is set iff the row
has a hit of the DUT. -/
theorem C176_rows (hn : G.setup.zs.Nodup) (hG : G.n ≤ 10) (S : Sampling) (cs : Nat) (hcs : 0 < cs) (T : List (Row E)) (hT : SortedBy Row.ev T)
    (hm : ∀ e, multiplicity Row.ev T e < cs) (out : List (Row E)) (h : findFile G S 0 cs T = some (out, none)) :
    out.length = T.length ∧ ∃ source : Nat → Nat → Nat,
      (∀ d, ((List.range T.length).map (source d)).Perm (List.range T.length)) ∧
      ∀ (r : Nat) (row : Row E), out[r]? = some row →
        (∃ i : Row E, T[r]? = some i ∧ i.ev = row.ev ∧ ∀ name : List Char, ¬ ['d', 'u', 't', '_'] <:+: name → row.cols name = i.cols name) ∧
        (∀ d < G.n, ∃ i : Row E, T[source d r]? = some i ∧ i.ev = row.ev ∧ ∀ base, CleanBase base → row.cols (columnName base d) = i.cols (columnName base d)) ∧
        ∀ d < 32, row.flag.getLsbD d = (decide (d < G.n) && G.finite d row.cols) := by
  obtain ⟨o, h1, h2⟩ := C176_one_chunk G hn S cs hcs T hT hm
  rw [h2] at h
  have e : o = out := (Prod.mk.inj (Option.some.inj h)).1
  subst e
  rw [findChunk_eq] at h1
  cases ht : findLoop (setupOf G T) (-1) 0 (startOf G T) with
  | none => rw [ht] at h1; cases h1
  | some t =>
    rw [ht, Option.map_some] at h1
    have h1 := Option.some.inj h1
    subst h1
    have hrun : runFindTracks (setupOf G T) (startOf G T).x (startOf G T).y (startOf G T).z = some t := ht
    have hlen : (setupOf G T).ev.length = T.length := List.length_map _
    obtain ⟨σ, hp, -⟩ := BTA.Find.Props.run_permuted (setupOf G T) _ _ _ hn t hrun
    have hidx : ∀ r d, t.idx r d = σ d r := fun r d => hp.idx r d
    have hlt := idx_lt G hn T t ht
    refine ⟨by simp, fun d r => t.idx r d, ?_, ?_⟩
    · intro d
      apply (List.perm_ext_iff_of_nodup ?_ List.nodup_range).mpr
      · intro i
        rw [List.mem_map, List.mem_range]
        constructor
        · rintro ⟨r, hr, rfl⟩
          exact hlt r (List.mem_range.mp hr) d
        · intro hi
          refine ⟨(σ d).symm i, ?_, by dsimp only; rw [hidx, Equiv.apply_symm_apply]⟩
          rw [List.mem_range]
          have he := hp.event ((σ d).symm i) d
          rw [Equiv.apply_symm_apply] at he
          by_contra hge
          rw [List.getElem?_eq_getElem (l := (setupOf G T).ev) (i := i) (by rw [hlen]; exact hi), List.getElem?_eq_none (by rw [hlen]; omega)] at he
          cases he
      · refine List.Nodup.map_on ?_ List.nodup_range
        intro a _ b _ hab
        dsimp only at hab
        rw [hidx, hidx] at hab
        exact (σ d).injective hab
    · intro r row hrow
      rw [List.getElem?_map, Option.map_eq_some_iff] at hrow
      obtain ⟨⟨i, r'⟩, hi, rfl⟩ := hrow
      rw [List.getElem?_zipIdx, Option.map_eq_some_iff] at hi
      obtain ⟨i', hi, heq⟩ := hi
      obtain ⟨rfl, rfl⟩ := Prod.mk.inj heq
      rw [Nat.zero_add]
      have hr : r < T.length := (List.getElem?_eq_some_iff.mp hi).1
      refine ⟨⟨i', hi, rfl, ?_⟩, ?_, ?_⟩
      · intro name hname
        have hno : ∀ d, nameOfDut name d = false := by
          intro d
          unfold nameOfDut
          rw [decide_eq_false_iff_not]
          intro hin
          exact hname (List.IsInfix.trans (List.infix_append [] _ _) hin)
        have : copyColumn G.n t.idx name (fun r' => T.getD r' i') r = T.getD r i' := by
          unfold copyColumn
          simp only [hno, Bool.false_eq_true, if_false]
          have : ∀ l : List Nat, List.foldl (fun (c : Nat → Row E) (_ : Nat) => c) (fun r' => T.getD r' i') l = fun r' => T.getD r' i' := by
            intro l
            induction l with
            | nil => rfl
            | cons a l ih => exact ih
          rw [this]
        unfold outRow
        dsimp only
        rw [this, List.getD_eq_getElem?_getD, hi]
        rfl
      · intro d hd
        have hl := hlt r hr d
        refine ⟨T[t.idx r d], List.getElem?_eq_getElem hl, ?_, ?_⟩
        · have he := hp.event r d
          rw [← hidx] at he
          have e1 : (setupOf G T).ev[t.idx r d]? = some T[t.idx r d].ev := by
            change (T.map Row.ev)[_]? = _
            rw [List.getElem?_map, List.getElem?_eq_getElem hl]
            rfl
          have e2 : (setupOf G T).ev[r]? = some i'.ev := by
            change (T.map Row.ev)[_]? = _
            rw [List.getElem?_map, hi]
            rfl
          rw [e1, e2] at he
          exact Option.some.inj he
        · intro base hb
          unfold outRow
          dsimp only
          rw [BTA.Find.Props.C22_assigned_row_partial G.n hG t.idx d hd base hb]
          congr 1
          rw [List.getD_eq_getElem?_getD, List.getElem?_eq_getElem hl]
          rfl
      · intro d hd
        exact BTA.Find.Props.C23_hit_flag G.n (by omega) _ d hd

example (S : Sampling) (out : List (Row (Option Int))) (h : findFile exSetting S 0 3 exTable = some (out, none)) : out.length = 5 :=
  (C176_rows exSetting (by decide) (by decide) S 3 (by decide) exTable exTable_sorted (exTable_multiplicity 3 (by decide)) out h).1

/-! ### C177 -/

/-- C177: `find_tracks` with `max_events` gives the candidates of the table that `reduce_events` makes with the same `max_events` and `chunk_size`; it raises an exception iff `reduce_events`
does. -/
theorem C177_reduced (hn : G.setup.zs.Nodup) (S : Sampling) (maxEvents cs : Nat) (hmax : maxEvents ≠ 0) (hcs : 0 < cs) (T : List (Row E)) (hT : SortedBy Row.ev T) :
    ∃ out, findChunk G (reduceEvents Row.ev S maxEvents cs T).1 = some out ∧
      findFile G S maxEvents cs T = some (out, (reduceEvents Row.ev S maxEvents cs T).2) := by
  obtain ⟨hsep, -, -⟩ := chunks_default hT cs hcs
  obtain ⟨out, h1, h2⟩ := fileLoop_reduce G hn S maxEvents T.length hmax _ hsep 0
  refine ⟨out, h1, ?_⟩
  unfold findFile reduceEvents
  rw [h2]
  dsimp only
  cases (reduceLoop Row.ev S maxEvents T.length (dataAligned Row.ev T { chunkSize := cs }).items 0).2 <;> rfl

/-- With the sampling that takes the first event of each chunk: the rows of the events 3 and 5. -/
example : ((reduceEvents Row.ev BTA.Props.firstEvents 2 3 exTable).1.map Row.ev, (reduceEvents Row.ev BTA.Props.firstEvents 2 3 exTable).2) = ([3, 3, 5], none) := by
  decide +kernel

/-- C177: if there is no exception, not more than `max_events` events are selected, each with all its rows, and the candidates of the selected events are those
that `find_tracks` gives for them without limit. -/
theorem C177_max_events (hn : G.setup.zs.Nodup) (S : Sampling) (hS : ValidSampling S) (maxEvents cs : Nat) (hmax : maxEvents ≠ 0) (hcs : 0 < cs)
    (T : List (Row E)) (hT : SortedBy Row.ev T) (hm : ∀ e, multiplicity Row.ev T e < cs) (out : List (Row E)) (h : findFile G S maxEvents cs T = some (out, none)) :
    ∃ sel : List Int, sel.Nodup ∧ sel.length ≤ maxEvents ∧ (∀ e ∈ sel, ∃ t ∈ T, t.ev = e) ∧
      findFile G S 0 cs (T.filter fun t => decide (t.ev ∈ sel)) = some (out, none) ∧
      ∃ all, findFile G S 0 cs T = some (all, none) ∧ out = all.filter fun t => decide (t.ev ∈ sel) := by
  obtain ⟨o, h1, h2⟩ := C177_reduced G hn S maxEvents cs hmax hcs T hT
  rw [h2] at h
  obtain ⟨rfl, hnone⟩ := Prod.mk.inj (Option.some.inj h)
  rcases BTA.Props.C39_reduce_events Row.ev S hS maxEvents cs hcs T hT with ⟨sel, g1, g2, g3, g4⟩ | ⟨g, -⟩ | ⟨g, -⟩
  · rw [g4] at h1
    have hsub : (T.filter fun t => decide (t.ev ∈ sel)).Sublist T := List.filter_sublist
    have hm' : ∀ e, multiplicity Row.ev (T.filter fun t => decide (t.ev ∈ sel)) e < cs := by
      intro e
      refine Nat.lt_of_le_of_lt ?_ (hm e)
      unfold multiplicity
      exact (hsub.filter _).length_le
    obtain ⟨o', h3, h4⟩ := C176_one_chunk G hn S cs hcs _ (List.Pairwise.sublist hsub hT) hm'
    rw [h1] at h3
    have e := Option.some.inj h3
    subst e
    obtain ⟨all, a1, a2⟩ := C176_one_chunk G hn S cs hcs T hT hm
    refine ⟨sel, g1, g2, g3, h4, all, a2, ?_⟩
    have := findChunk_filter G hn (fun e => decide (e ∈ sel)) _ T (Nat.le_refl _) hT all a1
    rw [h1] at this
    exact Option.some.inj this
  · rw [hnone] at g; cases g
  · rw [hnone] at g; cases g

example : ∃ out, findFile exSetting BTA.Props.firstEvents 2 3 exTable = some (out, none) ∧ out.map Row.ev = [3, 3, 5] := by
  obtain ⟨out, h1, h2⟩ := C177_reduced exSetting (by decide) BTA.Props.firstEvents 2 3 (by decide) (by decide) exTable exTable_sorted
  have h3 : (reduceEvents Row.ev BTA.Props.firstEvents 2 3 exTable).2 = none := by decide +kernel
  have h4 : (reduceEvents Row.ev BTA.Props.firstEvents 2 3 exTable).1.map Row.ev = [3, 3, 5] := by decide +kernel
  exact ⟨out, by rw [h2, h3], by rw [findChunk_ev exSetting _ out h1, h4]⟩

end BTA.FindFile.Props
