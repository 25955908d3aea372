import Verif.Lemmas.Combine
import Verif.Lemmas.Selection
/-
C38: `combine_files` keeps all rows and gives the events of different files different numbers.
C39: `reduce_events` (and `max_events` of `select_tracks`) keeps whole events, not more than requested.
C40: criteria of `select_tracks`.
-/
namespace BTA.Props
open BTA.Sel BTA.Spec
open BTA.Fit (Sampling)

/-! ### C38 -/

section
variable {N P : Type} [DecidableEq N]

/-- The result of `combine_files` does not depend on the chunk size. -/
theorem C38_chunk_size (hasEvent : N → Bool) (names : Option (List N)) (manual : Option (List (Option Int)))
    (files : List (List (Table N P))) (cs cs' : Nat) (h : 0 < cs) (h' : 0 < cs') :
    combineFiles hasEvent names manual cs files = combineFiles hasEvent names manual cs' files := by
  rw [combineFiles_eq _ _ _ cs h, combineFiles_eq _ _ _ cs' h']

/-- If `combine_files` returns, there is an output table exactly for the selected names of the input tables. It consists of
the rows of all tables with this name, in the order of the files. Nothing but the event number is changed; the event
number of all rows of one input table is increased by the same offset. This offset is returned, and is the offset
given by the user if there is one for the file. Tables without event number are not changed. -/
theorem C38_all_rows (hasEvent : N → Bool) (names : Option (List N)) (manual : Option (List (Option Int))) (cs : Nat) (hcs : 0 < cs)
    (files : List (List (Table N P))) (out : N → Option (List (Row P) × List Int))
    (h : combineFiles hasEvent names manual cs files = .ok out) (n : N) :
    ((¬ Selected names n ∨ tablesOf files n = []) → out n = none) ∧
    (Selected names n → tablesOf files n ≠ [] → hasEvent n = true →
      ∃ (rows : List (Row P)) (bs : List ((Nat × List (Row P)) × Int)), out n = some (rows, bs.map Prod.snd) ∧
        bs.map Prod.fst = tablesOf files n ∧
        rows = bs.flatMap (fun b => b.1.2.map fun r => ⟨r.event + b.2, r.data⟩) ∧
        ∀ b ∈ bs, ∀ x, manualOffset manual b.1.1 = some x → b.2 = x) ∧
    (Selected names n → tablesOf files n ≠ [] → hasEvent n = false →
      out n = some ((tablesOf files n).flatMap Prod.snd, [])) := by
  rw [combineFiles_eq _ _ _ cs hcs] at h
  cases hr : runList hasEvent names manual (allTables files) ⟨fun _ => none, none⟩ with
  | error e => rw [hr] at h; cases h
  | ok s =>
    rw [hr] at h
    simp only [Except.ok.injEq] at h
    subst h
    have hg := runList_good (allTables files) (L := []) (fun n => by simp [GoodOut]) hr n
    rw [List.nil_append] at hg
    have hnil : tablesOf files n = [] ↔ (allTables files).filter (fun t => decide (t.2.name = n)) = [] := by
      simp [tablesOf]
    unfold GoodOut at hg
    refine ⟨fun hn => ?_, fun hsel hne hev => ?_, fun hsel hne hev => ?_⟩
    · rw [if_neg] at hg
      · simp only [hg]; rfl
      · rintro ⟨h1, h2⟩
        rcases hn with hn | hn
        · exact hn h1
        · exact h2 (hnil.mp hn)
    · rw [if_pos ⟨hsel, fun h => hne (hnil.mpr h)⟩] at hg
      obtain ⟨ot, h1, h2⟩ := hg
      rw [if_pos hev] at h2
      obtain ⟨bs, h3, h4, h5, h6⟩ := h2
      refine ⟨ot.rows, bs.map fun b => ((b.1.1, b.1.2.rows), b.2), ?_, ?_, ?_, ?_⟩
      · simp only [h1, Option.map_some, h4, List.map_map]; rfl
      · rw [List.map_map]
        unfold tablesOf
        rw [← h3, List.map_map]
        rfl
      · rw [h5, List.flatMap_map]; rfl
      · intro b hb x hx
        obtain ⟨b', hb', rfl⟩ := List.mem_map.mp hb
        exact h6 b' hb' x hx
    · rw [if_pos ⟨hsel, fun h => hne (hnil.mpr h)⟩] at hg
      obtain ⟨ot, h1, h2⟩ := hg
      rw [if_neg (by simp [hev])] at h2
      simp only [h1, Option.map_some, h2.1, h2.2]
      unfold tablesOf
      rw [List.flatMap_map]

/-- With generated offsets, if the tables with event numbers are not empty, sorted by the event number, and have no negative
event numbers, then `combine_files` returns, the first file keeps its event numbers, and all event numbers of a file are larger
than those of the files before.

Missing for the full claim: empty tables (see `C38_empty_raises` and `C38_empty_collision`) and tables which are not sorted
(see `C38_unsorted_collision`). -/
theorem C38_disjoint_partial (hasEvent : N → Bool) (names : Option (List N)) (cs : Nat) (hcs : 0 < cs)
    (files : List (List (Table N P)))
    (htab : ∀ f ∈ files, ∀ t ∈ f, Selected names t.name → hasEvent t.name = true →
      t.rows ≠ [] ∧ (∀ r ∈ t.rows, 0 ≤ r.event) ∧ SortedBy Row.event t.rows) :
    ∃ out, combineFiles hasEvent names none cs files = .ok out ∧
      ∀ n, Selected names n → hasEvent n = true → tablesOf files n ≠ [] →
        ∃ (rows : List (Row P)) (bs : List ((Nat × List (Row P)) × Int)), out n = some (rows, bs.map Prod.snd) ∧
          bs.map Prod.fst = tablesOf files n ∧
          rows = bs.flatMap (fun b => b.1.2.map fun r => ⟨r.event + b.2, r.data⟩) ∧
          (bs.map Prod.snd).head? = some 0 ∧
          bs.Pairwise fun a b => ∀ r ∈ a.1.2, ∀ r' ∈ b.1.2, r.event + a.2 < r'.event + b.2 := by
  have hall : ∀ t ∈ allTables files, Selected names t.2.name → hasEvent t.2.name = true → GoodTable t.2.rows := by
    intro t ht hsel hev
    obtain ⟨f, hf, ht⟩ := List.mem_flatMap.mp ht
    obtain ⟨t', ht', rfl⟩ := List.mem_map.mp ht
    exact htab f.1 (List.fst_mem_of_mem_zipIdx hf) t' ht' hsel hev
  obtain ⟨s, hr, hs⟩ := runList_sep (allTables files) (L := []) (s := ⟨fun _ => none, none⟩)
    (fun n _ _ => by simp [SepOut]) hall
  have hok : combineFiles hasEvent names none cs files = .ok fun n => (s.out n).map fun o => (o.rows, o.offsets) := by
    rw [combineFiles_eq _ _ _ cs hcs, hr]
  refine ⟨_, hok, fun n hsel hev hne => ?_⟩
  have hg := runList_good (allTables files) (L := []) (fun n => by simp [GoodOut]) hr n
  have hsp := hs n hsel hev
  rw [List.nil_append] at hg hsp
  have hne' : (allTables files).filter (fun t => decide (t.2.name = n)) ≠ [] := by
    intro h; apply hne; unfold tablesOf; rw [h]; rfl
  unfold GoodOut at hg
  unfold SepOut at hsp
  rw [if_pos ⟨hsel, hne'⟩] at hg
  rw [if_pos hne'] at hsp
  obtain ⟨ot, h1, h2⟩ := hg
  rw [if_pos hev] at h2
  obtain ⟨bs, h3, h4, h5, -⟩ := h2
  obtain ⟨ot', h1', -, bs', h3', h4', -, h6', -, h7'⟩ := hsp
  have hot : ot' = ot := by rw [h1] at h1'; exact (Option.some.inj h1').symm
  have hbs : bs' = bs := by
    apply List.ext_getElem
    · have := congrArg List.length (h3.trans h3'.symm)
      simpa using this.symm
    · intro i hi hi'
      have e1 : (bs'.map Prod.fst)[i]'(by simpa using hi) = (bs.map Prod.fst)[i]'(by simpa using hi') := by
        congr 1; rw [h3, h3']
      have e2 : (bs'.map Prod.snd)[i]'(by simpa using hi) = (bs.map Prod.snd)[i]'(by simpa using hi') := by
        congr 1; rw [← h4, ← h4', hot]
      simp only [List.getElem_map] at e1 e2
      exact Prod.ext e1 e2
  subst hbs
  refine ⟨ot.rows, bs'.map fun b => ((b.1.1, b.1.2.rows), b.2), ?_, ?_, ?_, ?_, ?_⟩
  · simp only [h1, Option.map_some, h4, List.map_map]; rfl
  · rw [List.map_map]
    unfold tablesOf
    rw [← h3, List.map_map]
    rfl
  · rw [h5, List.flatMap_map]; rfl
  · rw [List.map_map]; exact h6'
  · rw [List.pairwise_map]
    exact h7'.imp fun h => h

/-- If the first selected table of the first file has event numbers and is empty, `combine_files` raises an exception. -/
theorem C38_empty_raises (hasEvent : N → Bool) (names : Option (List N)) (cs : Nat) (hcs : 0 < cs) (n : N)
    (hn : Selected names n) (hev : hasEvent n = true) (ts : List (Table N P)) (files : List (List (Table N P))) :
    combineFiles hasEvent names none cs ((⟨n, []⟩ :: ts) :: files) = .error .unbound := by
  rw [combineFiles_eq _ _ _ cs hcs]
  have : allTables ((⟨n, []⟩ :: ts) :: files) = (0, ⟨n, []⟩) :: (allTables ((⟨n, []⟩ :: ts) :: files)).tail := by
    simp [allTables, List.zipIdx_cons]
  rw [this, runList]
  simp [tableStep, hn, hev, eventOffset]

end

/-- The hit tables `A` and `B` of three files; `B` of the second file is empty. -/
def filesEmpty : List (List (Table String Unit)) :=
  [[⟨"A", [⟨0, ()⟩]⟩, ⟨"B", [⟨5, ()⟩]⟩], [⟨"A", [⟨0, ()⟩]⟩, ⟨"B", []⟩], [⟨"B", [⟨3, ()⟩]⟩]]

/-- The full claim is wrong if a table is empty: after an empty table, the offset of the next file is taken from another table,
and event 5 of the first file and event 3 of the third file get the same number. -/
theorem C38_empty_collision :
    (match combineFiles (fun _ => true) none none 1000000 filesEmpty with
      | .ok out => out "B"
      | .error _ => none) = some ([⟨5, ()⟩, ⟨5, ()⟩], [0, 6, 2]) := by
  decide +kernel

/-- The full claim is wrong for tables which are not sorted. -/
theorem C38_unsorted_collision :
    (match combineFiles (fun _ => true) none none 1000000 [[(⟨"A", [⟨7, ()⟩, ⟨3, ()⟩]⟩ : Table String Unit)], [⟨"A", [⟨3, ()⟩]⟩]] with
      | .ok out => out "A"
      | .error _ => none) = some ([⟨7, ()⟩, ⟨3, ()⟩, ⟨7, ()⟩], [0, 4]) := by
  decide +kernel

/-- Two runs with hit tables of two DUTs. -/
def filesRuns : List (List (Table String Nat)) :=
  [[⟨"Hits_DUT0", [⟨0, 10⟩, ⟨0, 11⟩, ⟨4, 12⟩]⟩, ⟨"Hits_DUT1", [⟨2, 20⟩]⟩],
   [⟨"Hits_DUT0", [⟨0, 13⟩, ⟨1, 14⟩]⟩, ⟨"Hits_DUT1", [⟨0, 21⟩, ⟨3, 22⟩]⟩]]

/-- The hypotheses of `C38_disjoint_partial` are met by two runs with two tables. -/
example : ∀ f ∈ filesRuns, ∀ t ∈ f, Selected (none : Option (List String)) t.name → (fun _ => true) t.name = true →
    t.rows ≠ [] ∧ (∀ r ∈ t.rows, 0 ≤ r.event) ∧ SortedBy Row.event t.rows := by
  unfold filesRuns SortedBy; decide

example : (match combineFiles (fun _ => true) none none 2 filesRuns with
      | .ok out => (out "Hits_DUT0", out "Hits_DUT1")
      | .error _ => (none, none))
    = (some ([⟨0, 10⟩, ⟨0, 11⟩, ⟨4, 12⟩, ⟨5, 13⟩, ⟨6, 14⟩], [0, 5]), some ([⟨2, 20⟩, ⟨3, 21⟩, ⟨6, 22⟩], [0, 3])) := by
  decide +kernel

/-- Offsets given by the user. -/
example : (match combineFiles (fun _ => true) (some ["Hits_DUT1"]) (some [some 100, none]) 2 filesRuns with
      | .ok out => (out "Hits_DUT0", out "Hits_DUT1")
      | .error _ => (none, none))
    = (none, some ([⟨102, 20⟩, ⟨103, 21⟩, ⟨106, 22⟩], [100, 103])) := by
  decide +kernel

/-! ### C39 -/

variable {R : Type}

/-- `reduce_events` on a table sorted by event number. Whatever number of events is calculated for the chunks, if
the function returns, then there are at most `max_events` different events of the table such that the output has exactly the
rows of these events, unchanged and in the same order. The only possible exceptions are the one of the chunk size, if an event
has at least `chunk_size` rows, and the one of `np.random.choice` if a calculated number of events is negative. -/
theorem C39_reduce_events (ev : R → Int) (S : Sampling) (hS : ValidSampling S) (maxEvents cs : Nat) (hcs : 0 < cs) (T : List R)
    (hT : SortedBy ev T) :
    (∃ sel : List Int, sel.Nodup ∧ sel.length ≤ maxEvents ∧ (∀ e ∈ sel, ∃ t ∈ T, ev t = e) ∧
      reduceEvents ev S maxEvents cs T = (T.filter fun t => decide (ev t ∈ sel), none)) ∨
    ((reduceEvents ev S maxEvents cs T).2 = some (.chunks .chunkTooSmall) ∧ ∃ e, cs ≤ multiplicity ev T e) ∨
    ((reduceEvents ev S maxEvents cs T).2 = some .sample ∧ ∃ i, ∀ n, S.size i = some n → n < 0) := by
  obtain ⟨hsep, -, hg⟩ := chunks_default hT cs hcs
  rcases reduceLoop_spec ev S hS maxEvents T.length _ hsep 0 (Nat.zero_le _) with ⟨h1, h2⟩ | ⟨h0, sel, h1, h2, h3, h4⟩
  · right; right
    refine ⟨by simp [reduceEvents, h1], ?_⟩
    unfold SizesOk at h2
    push Not at h2
    exact h2
  · rcases hg with ⟨h5, h6⟩ | ⟨h5, h6⟩
    · right; left
      exact ⟨by simp [reduceEvents, h0, h5], h6⟩
    · left
      rw [h6] at h3 h4
      exact ⟨sel, h1, by omega, h3, by simp [reduceEvents, h0, h4, h5]⟩

/-- A table which is read at once: exactly `max_events` events are kept, or all if there are fewer. -/
theorem C39_reduce_single_chunk (ev : R → Int) (S : Sampling) (hS : ValidSampling S) (maxEvents cs : Nat) (T : List R)
    (hcs : T.length ≤ cs) (hne : T ≠ []) :
    ∃ sel : List Int, sel.Nodup ∧ sel.length = min maxEvents (T.map ev).dedup.length ∧ (∀ e ∈ sel, ∃ t ∈ T, ev t = e) ∧
      reduceEvents ev S maxEvents cs T = (T.filter fun t => decide (ev t ∈ sel), none) := by
  obtain ⟨sel, h1, h2, h3, h4⟩ := reduceLoop_single ev S hS maxEvents T
  refine ⟨sel, h1, h3, h2, ?_⟩
  simp [reduceEvents, dataAligned_single ev T cs hne hcs, h4]

/-- A sampling: the first events. -/
def firstEvents : Sampling := ⟨fun _ => some 1, fun _ l n => l.take n⟩

theorem firstEvents_valid : ValidSampling firstEvents := by
  intro idx l n hl hn
  exact ⟨hl.sublist (List.take_sublist _ _), fun e he => List.mem_of_mem_take he, by simp [firstEvents, hn]⟩

example : reduceEvents id firstEvents 3 3 [1, 1, 2, 4, 5, 5, 7, 8] = ([1, 1, 2, 5, 5], none) := by decide +kernel
example : reduceEvents id firstEvents 3 100 [1, 1, 2, 4, 5, 5, 7, 8] = ([1, 1, 2, 4], none) := by decide +kernel

/-! ### C40 -/

/-- Behaviour for one DUT without limit on the number of events, for a table sorted by event number in which no event
has `chunk_size` or more rows: the output table has exactly the tracks meeting the criteria and the query, in the same order. An
exception is raised exactly if there is no criterion except the query, or if no track meets the criteria. -/
theorem C40_select_dut (ev : R → Int) (flags : R → Flags) (c : Criteria) (query : Option (R → Bool)) (S : Sampling)
    (cs : Nat) (hcs : 0 < cs) (T : List R) (hT : SortedBy ev T) (hm : ∀ e, multiplicity ev T e < cs)
    (hf : ∀ t ∈ T, (flags t).hit < 2 ^ 32) (hc : ∀ d ∈ c.noHit, d < 32) :
    selectDut ev flags c query S 0 cs T =
      (T.filter fun t => decide (Required c (flags t)) && queryTrue query t,
       if (c.hit = [] ∧ c.noHit = [] ∧ c.quality = [] ∧ c.isoTrack = [] ∧ c.isoHit = []) ∨ ¬ ∃ t ∈ T, Required c (flags t)
       then some .zeroDivision else none) := by
  have herr := chunks_ok hT cs hcs hm
  obtain ⟨-, -, hg⟩ := chunks_default hT cs hcs
  have hflat : (dataAligned ev T { chunkSize := cs }).items.flatMap Prod.fst = T := by
    rcases hg with ⟨h, -⟩ | ⟨-, h⟩
    · rw [herr] at h; cases h
    · exact h
  have hfil : T.filter (passes c flags query) = T.filter fun t => decide (Required c (flags t)) && queryTrue query t :=
    List.filter_congr fun t ht => passes_eq c flags query t (hf t ht) hc
  rcases selectLoop_eq ev flags c query S 0 T.length (dataAligned ev T { chunkSize := cs }).items 0 ⟨0, 0, 0, 0⟩ with ⟨-, h⟩ | ⟨h, -⟩
  · unfold selectDut
    simp only [h, herr, hflat, hfil]
    congr 1
    apply if_congr ?_ rfl rfl
    rw [← anyMask_iff]
    unfold countsOf
    by_cases ha : anyMask c = true
    · rw [if_pos ha]
      simp only [Nat.zero_add, List.countP_eq_zero, ha, Bool.true_eq_false, false_or]
      have hp : (¬ ∃ t ∈ T, Required c (flags t)) ↔ ∀ t ∈ T, passAll c (flags t) = false := by
        push Not
        refine forall_congr' fun t => imp_congr_right fun ht => ?_
        rw [passAll_eq c _ (hf t ht) hc, decide_eq_false_iff_not]
      rw [hp]
      constructor
      · rintro (h | h | h | h) t ht <;> replace h := h t ht <;> clear hp <;> unfold passAll at * <;> revert h <;>
          cases passHit c (flags t) <;> cases passQuality c (flags t) <;> cases passIsoTrack c (flags t) <;> simp
      · intro h
        exact .inr (.inr (.inr fun t ht => by simp [h t ht]))
    · rw [if_neg ha]
      simp [ha]
  · exact absurd rfl h

/-- The documented criteria (a bit is only evaluated for DUTs with hit), if the DUTs for which isolated tracks are required are
also required to have a hit.

Missing for the full claim: isolated tracks without a hit, see `C40_isolated_track_without_hit`; the exception of the summary, see
`C40_no_mask_raises`. -/
theorem C40_documented_partial (ev : R → Int) (flags : R → Flags) (c : Criteria) (query : Option (R → Bool)) (S : Sampling)
    (cs : Nat) (hcs : 0 < cs) (T : List R) (hT : SortedBy ev T) (hm : ∀ e, multiplicity ev T e < cs)
    (hf : ∀ t ∈ T, (flags t).hit < 2 ^ 32) (hc : ∀ d ∈ c.noHit, d < 32) (hiso : ∀ d ∈ c.isoTrack, d ∈ c.hit) :
    (selectDut ev flags c query S 0 cs T).1.Sublist T ∧
    ∀ t ∈ T, t ∈ (selectDut ev flags c query S 0 cs T).1 ↔ Documented c (flags t) ∧ queryTrue query t = true := by
  rw [C40_select_dut ev flags c query S cs hcs T hT hm hf hc]
  refine ⟨List.filter_sublist, fun t ht => ?_⟩
  simp only [List.mem_filter, ht, true_and, Bool.and_eq_true, decide_eq_true_eq]
  refine and_congr_left fun _ => ?_
  constructor
  · rintro ⟨h1, h2, h3, h4, h5⟩
    exact ⟨h1, h2, h3, fun d hd _ => h4 d hd, h5⟩
  · rintro ⟨h1, h2, h3, h4, h5⟩
    exact ⟨h1, h2, h3, fun d hd => h4 d hd (h1 d (hiso d hd)), h5⟩

/-- The documentation is not met: a track without hit in a DUT of `select_isolated_track_duts` is removed if the bit is not
set, although the bit is "only evaluated for DUTs where the hit flag is set". -/
theorem C40_isolated_track_without_hit (ev : R → Int) (flags : R → Flags) (d : Nat) (c : Criteria) (query : Option (R → Bool))
    (S : Sampling) (cs : Nat) (hcs : 0 < cs) (T : List R) (hT : SortedBy ev T) (hm : ∀ e, multiplicity ev T e < cs)
    (hf : ∀ t ∈ T, (flags t).hit < 2 ^ 32) (hc : ∀ d ∈ c.noHit, d < 32)
    (hd : d ∈ c.isoTrack) (t : R) (hbit : (flags t).isoTrack.testBit d = false) :
    t ∉ (selectDut ev flags c query S 0 cs T).1 := by
  rw [C40_select_dut ev flags c query S cs hcs T hT hm hf hc]
  intro h
  have := (List.mem_filter.mp h).2
  simp only [Bool.and_eq_true, decide_eq_true_eq] at this
  have := this.1.2.2.2.1 d hd
  rw [hbit] at this
  cases this

/-- A selection with only a query (or without any criterion) always raises an exception after the first DUT: only this
DUT has an output table. -/
theorem C40_no_mask_raises (ev : R → Int) (flags : R → Flags) (S : Sampling) (cs : Nat) (hcs : 0 < cs) (j : Job R)
    (jobs : List (Job R)) (hT : SortedBy ev j.table) (hm : ∀ e, multiplicity ev j.table e < cs)
    (hf : ∀ t ∈ j.table, (flags t).hit < 2 ^ 32)
    (hj : j.criteria = ⟨[], [], [], [], []⟩) (hok : ∀ j' ∈ jobs, ∀ d ∈ j'.criteria.noHit, d ∉ j'.criteria.hit) :
    selectTracks ev flags S 0 cs (j :: jobs) = ([(j.dut, j.table.filter (queryTrue j.query))], some .zeroDivision) := by
  unfold selectTracks
  have : ((j :: jobs).any fun j => j.criteria.noHit.any fun d => decide (d ∈ j.criteria.hit)) = false := by
    rw [List.any_eq_false]
    intro j' hj'
    rw [Bool.not_eq_true, List.any_eq_false]
    intro d hd
    rcases List.mem_cons.mp hj' with rfl | h
    · rw [hj] at hd; cases hd
    · simp [hok j' h d hd]
  rw [this]
  simp only [Bool.false_eq_true, if_false, selectJobs,
    C40_select_dut ev flags j.criteria j.query S cs hcs j.table hT hm hf (by simp [hj])]
  rw [if_pos (.inl (by simp [hj]))]
  simp only []
  congr 3
  apply List.filter_congr
  intro t _
  have : Required j.criteria (flags t) := by rw [hj]; simp [Required]
  simp [this]

/-- A DUT which is required to have a hit and to have no hit is rejected; nothing is stored. -/
theorem C40_contradiction (ev : R → Int) (flags : R → Flags) (S : Sampling) (maxEvents cs : Nat) (jobs : List (Job R)) :
    (∃ j ∈ jobs, ∃ d ∈ j.criteria.hit, d ∈ j.criteria.noHit) →
      selectTracks ev flags S maxEvents cs jobs = ([], some .contradiction) := by
  rintro ⟨j, hj, d, h1, h2⟩
  unfold selectTracks
  rw [if_pos]
  rw [List.any_eq_true]
  refine ⟨j, hj, ?_⟩
  rw [List.any_eq_true]
  exact ⟨d, h2, by simp [h1]⟩

/-- Several DUTs: if no exception is raised, every DUT has its output table, in the order of the DUTs. -/
theorem C40_all_duts (ev : R → Int) (flags : R → Flags) (S : Sampling) (maxEvents cs : Nat) (jobs : List (Job R))
    (h : (selectTracks ev flags S maxEvents cs jobs).2 = none) :
    (selectTracks ev flags S maxEvents cs jobs).1
      = jobs.map fun j => (j.dut, (selectDut ev flags j.criteria j.query S maxEvents cs j.table).1) := by
  unfold selectTracks at h ⊢
  split at h
  · cases h
  · rename_i hc
    rw [if_neg hc]
    clear hc
    induction jobs with
    | nil => rfl
    | cons j rest ih =>
      rw [selectJobs] at h ⊢
      generalize hs : selectDut ev flags j.criteria j.query S maxEvents cs j.table = x at h ⊢
      obtain ⟨rows, e⟩ := x
      cases e with
      | some e => cases h
      | none =>
        simp only [] at h ⊢
        rw [ih h, List.map_cons, hs]

/-- With a limit on the number of events: if no exception is raised, then there are at most `max_events` different events
such that the output has exactly the tracks which meet the criteria and belong to these events. -/
theorem C39_select_tracks (ev : R → Int) (flags : R → Flags) (c : Criteria) (query : Option (R → Bool)) (S : Sampling)
    (hS : ValidSampling S) (maxEvents cs : Nat) (hcs : 0 < cs) (hmax : maxEvents ≠ 0) (T : List R) (hT : SortedBy ev T)
    (hf : ∀ t ∈ T, (flags t).hit < 2 ^ 32) (hc : ∀ d ∈ c.noHit, d < 32)
    (h : (selectDut ev flags c query S maxEvents cs T).2 = none) :
    ∃ sel : List Int, sel.Nodup ∧ sel.length ≤ maxEvents ∧ 
      (∀ e ∈ sel, ∃ t ∈ T, Required c (flags t) ∧ queryTrue query t = true ∧ ev t = e) ∧
      (selectDut ev flags c query S maxEvents cs T).1
        = T.filter fun t => (decide (Required c (flags t)) && queryTrue query t) && decide (ev t ∈ sel) := by
  obtain ⟨hsep, -, hg⟩ := chunks_default hT cs hcs
  rcases selectLoop_eq ev flags c query S maxEvents T.length (dataAligned ev T { chunkSize := cs }).items 0 ⟨0, 0, 0, 0⟩ with ⟨h0, -⟩ | ⟨-, h1, h2, -⟩
  · exact absurd h0 hmax
  · unfold selectDut at h ⊢
    simp only [h2] at h
    rcases reduceLoop_spec ev S hS maxEvents T.length _ (separated_filter (passes c flags query) hsep) 0 (Nat.zero_le _) with
      ⟨g1, -⟩ | ⟨g0, sel, g1, g2, g3, g4⟩
    · rw [g1] at h; cases h
    · rw [flatMap_filter_fst] at g3 g4
      rcases hg with ⟨h5, -⟩ | ⟨h5, h6⟩
      · rw [g0, h5] at h; cases h
      · rw [h6] at g3 g4
        refine ⟨sel, g1, by omega, ?_, ?_⟩
        · intro e he
          obtain ⟨t, ht, hte⟩ := g3 e he
          rw [List.mem_filter] at ht
          have h7 := ht.2
          rw [passes_eq c flags query t (hf t ht.1) hc, Bool.and_eq_true, decide_eq_true_iff] at h7
          exact ⟨t, ht.1, h7.1, h7.2, hte⟩
        · simp only [h1, g4, List.filter_filter]
          apply List.filter_congr
          intro t ht
          rw [passes_eq c flags query t (hf t ht) hc]
          exact Bool.and_comm _ _

/-- Tracks (event, flags) of two events: hits in DUT 0 and 1, in DUT 0 only. -/
def twoTracks : List (Int × Flags) := [(0, ⟨3, 1, 3, 3⟩), (0, ⟨1, 1, 1, 1⟩), (2, ⟨3, 3, 3, 3⟩), (3, ⟨3, 3, 3, 1⟩)]

example : (selectDut Prod.fst Prod.snd ⟨[0], [], [0, 1], [0], [1]⟩ none firstEvents 0 3 twoTracks).1.map Prod.fst = [0, 2] := by
  decide +kernel
example : (selectDut Prod.fst Prod.snd ⟨[0], [1], [], [], []⟩ none firstEvents 0 3 twoTracks).1.map Prod.fst = [0] := by
  decide +kernel
/-- The second track has no hit in DUT 1 and is removed because of the flag for isolated tracks. -/
example : (selectDut Prod.fst Prod.snd ⟨[0], [], [], [1], []⟩ none firstEvents 0 3 twoTracks).1.map (fun t => t.2.hit) = [3, 3, 3] := by
  decide +kernel
/-- Conditions of the theorems. -/
example : SortedBy Prod.fst twoTracks ∧ (∀ t ∈ twoTracks, t.2.hit < 2 ^ 32) := by
  unfold SortedBy twoTracks; decide
/-- At most one event. -/
example : (selectDut Prod.fst Prod.snd ⟨[0], [], [0, 1], [0], [1]⟩ none firstEvents 1 5 twoTracks).1.map Prod.fst = [0] := by
  decide +kernel
example : (selectDut Prod.fst Prod.snd ⟨[0], [], [0, 1], [0], [1]⟩ none firstEvents 1 5 twoTracks).2 = none := by
  decide +kernel
end BTA.Props
