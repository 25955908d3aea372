import Verif.Lemmas.SmcEnd
import Verif.Lemmas.SmcCombine
import Verif.Lemmas.Chunks
import Mathlib.Data.Nat.Pairing
/-
Properties of `SMC`, beam_telescope_analysis/tools/smc.py: C27, C28, C29, C61, C62.

`run P sched n` is the state of the call after `n` steps if the threads are scheduled as given by `sched`; `stored` is what is
in the output file under the names given by the user; `ended` means that the constructor has returned.
-/
namespace BTA.Props
open BTA.Smc BTA.Spec

variable {α ρ A R K : Type}

theorem serialFrom_eq (P : Params α ρ A) (acc : Option A) (l : List α) :
    serialFrom P acc l = l.foldlM (fun acc c => do return some (← P.combine acc (← P.func c))) acc := by
  induction l generalizing acc with
  | nil => rfl
  | cons c l ih =>
    rw [serialFrom, List.foldlM_cons]
    cases h : P.func c with
    | none => rfl
    | some v =>
      simp only []
      cases h2 : P.combine acc v with
      | none => simp [h2]
      | some a => simp [h2, ih]

/-- Nothing can fail except the user function and the combination of its values. -/
def NoFaults (P : Params α ρ A) : Prop := P.readFails = false ∧ P.inFails = false ∧ P.outFails = false

/-! ### C27 -/

/-- C27: at any time and for every schedule, if something is stored, it is the result of serial processing of all chunks. A
result of only a part of the chunks is never stored. -/
theorem C27_stored_is_serial (P : Params α ρ A) (sched : Nat → Actor) (n : Nat) (a : A)
    (h : (run P sched n).stored = some a) : serial P.func P.combine P.chunks = some (some a) := by
  obtain ⟨proc, hi⟩ := inv_run P sched n
  have := hi.stored a h
  rwa [serialFrom_eq] at this

/-- C27: if serial processing succeeds with the result `a`, then every fair execution ends with `a` stored, for any number of
cores and any timing of the worker processes. -/
theorem C27_serial_is_stored (P : Params α ρ A) (sched : Nat → Actor) (hfair : Fair sched) (hf : NoFaults P) (a : A)
    (h : serial P.func P.combine P.chunks = some (some a)) :
    ∃ N, ∀ m, N ≤ m → (run P sched m).ended = true ∧ (run P sched m).stored = some a := by
  have h' : serialFrom P none P.chunks = some (some a) := by rw [serialFrom_eq]; exact h
  have hne : P.chunks ≠ [] := by
    intro h0
    rw [h0] at h'
    cases h'
  obtain ⟨N, hN⟩ := fair_ends P sched hfair (by rw [h']; exact Option.some_ne_none _)
  refine ⟨N, fun m hm => ⟨hN m hm, ?_⟩⟩
  obtain ⟨b, hb1, hb2⟩ := ended_result P sched m hf.1 hf.2.1 hf.2.2 hne (by rw [h']; exact Option.some_ne_none _) (hN m hm)
  rw [h'] at hb2
  cases hb2
  exact hb1

/-- C27: tables and histograms. If the function returns for every chunk items of the given kinds, every fair execution ends with
the sum of the items of all chunks stored for every node: the rows of all chunks one after the other in table order, or the
element-wise sum of the histograms (which may differ in the length of the first axis). -/
theorem C27_tables_and_histograms [AddCommMonoid K] (chunks : List α) (hne : chunks ≠ []) (nCores : Nat) (sameFile : Bool)
    (kinds : List Kind) (f : α → List (Item R K))
    (hf : ∀ c ∈ chunks, (f c).length = kinds.length ∧
      ∀ (i : Nat) k b, kinds[i]? = some k → (f c)[i]? = some b → k.Match b)
    (sched : Nat → Actor) (hfair : Fair sched) :
    let P : Params α (List (Item R K)) (List (Item R K)) :=
      { chunks, readFails := false, nCores, func := fun c => some (f c), combine := combine kinds.length, sameFile,
        inFails := false, outFails := false }
    ∃ out N, (∀ m, N ≤ m → (run P sched m).ended = true ∧ (run P sched m).stored = some out) ∧
      out.length = kinds.length ∧
      ∀ (i : Nat) k o, kinds[i]? = some k → out[i]? = some o → k.IsSum (chunks.map fun c => (f c).getD i .other) o := by
  intro P
  obtain ⟨out, h1, h2, h3⟩ := serial_sum kinds f chunks hf hne
  obtain ⟨N, hN⟩ := C27_serial_is_stored P sched hfair ⟨rfl, rfl, rfl⟩ out h1
  refine ⟨out, N, hN, h2, ?_⟩
  intro i k o hk ho
  have := h3 i k o hk ho
  rwa [List.map_map] at this

/-- C27: a function that works row by row gives the same table as if it is applied to the whole input table, whatever the chunk
size and the number of cores. -/
theorem C27_rowwise [AddCommMonoid K] (ev : α → Int) (T : List α) (hs : SortedBy ev T) (cs : Nat) (hcs : 0 < cs)
    (hmult : ∀ e, multiplicity ev T e < cs) (hT : T ≠ []) (g : α → List R) (nCores : Nat) (sameFile : Bool)
    (sched : Nat → Actor) (hfair : Fair sched) :
    let P : Params (List α) (List (Item R K)) (List (Item R K)) :=
      { chunks := (dataAligned ev T { chunkSize := cs }).items.map Prod.fst,
        readFails := (dataAligned ev T { chunkSize := cs }).err.isSome, nCores,
        func := fun c => some [.table (c.flatMap g)], combine := combine 1, sameFile, inFails := false, outFails := false }
    ∃ N, ∀ m, N ≤ m → (run P sched m).ended = true ∧ (run P sched m).stored = some [.table (T.flatMap g)] := by
  intro P
  obtain ⟨-, -, h | ⟨herr, hcat⟩⟩ := chunks_default hs cs hcs
  · obtain ⟨-, e, he⟩ := h
    exact absurd (hmult e) (by omega)
  have hne : P.chunks ≠ [] := by
    intro h0
    have : (dataAligned ev T { chunkSize := cs }).items = [] := by simpa [P] using h0
    rw [this] at hcat
    exact hT (by simpa using hcat.symm)
  have hr : P.readFails = false := by simp [P, herr]
  obtain ⟨out, N, hN, hlen, hsum⟩ := C27_tables_and_histograms (K := K) P.chunks hne nCores sameFile [.table]
    (fun c => [.table (c.flatMap g)]) (by
      intro c _
      refine ⟨rfl, ?_⟩
      intro i k b hk hb
      cases i with
      | zero => simp only [List.getElem?_cons_zero, Option.some.injEq] at hk hb; subst hk hb; trivial
      | succ i => simp at hk) sched hfair
  refine ⟨N, ?_⟩
  have hP : P =
      { chunks := P.chunks, readFails := false, nCores, func := fun c => some [.table (c.flatMap g)],
        combine := combine 1, sameFile, inFails := false, outFails := false } := by
    simp [P, herr]
  have hout : out = [.table (T.flatMap g)] := by
    match out, hlen with
    | [o], _ =>
      have := hsum 0 .table o rfl rfl
      simp only [Kind.IsSum] at this
      rw [this, ← hcat]
      simp only [P, List.flatMap_map, List.getD_cons_zero, List.map_map]
      congr 2
      rw [List.flatMap_assoc]
      rfl
  intro m hm
  have := hN m hm
  rw [hP, ← hout]
  exact this

/-- A fair schedule: the threads in turn, then a task of the pool. -/
def roundRobin (n : Nat) : Actor :=
  if n % 4 = 0 then .reader
  else if n % 4 = 1 then .worker
  else if n % 4 = 2 then .writer
  else .pool (n / 4).unpair.1

theorem fair_roundRobin : Fair roundRobin := by
  refine ⟨fun n => ⟨4 * n, by omega, by simp [roundRobin]⟩, fun n => ⟨4 * n + 1, by omega, ?_⟩,
    fun n => ⟨4 * n + 2, by omega, ?_⟩, fun k n => ⟨4 * Nat.pair k n + 3, ?_, ?_⟩⟩
  · have : (4 * n + 1) % 4 = 1 := by omega
    simp [roundRobin, this]
  · have : (4 * n + 2) % 4 = 2 := by omega
    simp [roundRobin, this]
  · have := Nat.right_le_pair k n
    omega
  · have h1 : (4 * Nat.pair k n + 3) % 4 = 3 := by omega
    have h2 : (4 * Nat.pair k n + 3) / 4 = Nat.pair k n := by omega
    simp [roundRobin, h1, h2]

/-- Three chunks of numbers: the table of their doubles and the histogram of their values. -/
def exampleFunc (c : List Nat) : List (Item Nat Nat) :=
  [.table (c.map (2 * ·)), .hist [c.foldl max 0 + 1] ((List.range (c.foldl max 0 + 1)).map fun v => c.count v)]

def exampleParams : Params (List Nat) (List (Item Nat Nat)) (List (Item Nat Nat)) where
  chunks := [[1, 1], [0], [3, 1]]
  readFails := false
  nCores := 2
  func := fun c => some (exampleFunc c)
  combine := combine 2
  sameFile := true
  inFails := false
  outFails := false

example : ∃ N, ∀ m, N ≤ m → (run exampleParams roundRobin m).ended = true ∧
    (run exampleParams roundRobin m).stored = some [.table [2, 2, 0, 6, 2], .hist [4] [1, 3, 0, 1]] :=
  C27_serial_is_stored exampleParams roundRobin fair_roundRobin ⟨rfl, rfl, rfl⟩ _ rfl

/-- The hypotheses of `C27_tables_and_histograms` are met by this function. -/
example : ∀ c ∈ [[1, 1], [0], [3, 1]], (exampleFunc c).length = [Kind.table, Kind.hist []].length ∧
    ∀ (i : Nat) k b, [Kind.table, Kind.hist []][i]? = some k → (exampleFunc c)[i]? = some b → k.Match b := by
  intro c _
  refine ⟨rfl, fun i k b hk hb => ?_⟩
  match i with
  | 0 => cases hk; cases hb; trivial
  | 1 => cases hk; cases hb; exact ⟨_, rfl, by simp⟩
  | i + 2 => simp at hk

/-! ### C29 -/

/-- C29: at any time at most one chunk waits for the worker, and at most `n_cores + 1` results wait for the writer. After
`force_stop` is set one more result may be added. -/
theorem C29_bounded (P : Params α ρ A) (sched : Nat → Actor) (n : Nat) :
    ((run P sched n).dq.filter Option.isSome).length ≤ 1 ∧
    ((run P sched n).rq.filter Option.isSome).length ≤ P.nCores + 2 ∧
    ((run P sched n).force = false → ((run P sched n).rq.filter Option.isSome).length ≤ P.nCores + 1) := by
  obtain ⟨proc, h⟩ := inv_run P sched n
  generalize run P sched n = s at h
  have hlen : ∀ {β : Type} (l : List (Option β)), (l.filter Option.isSome).length = (somes l).length := by
    intro β l
    induction l with
    | nil => rfl
    | cons x l ih => cases x <;> simp [somes] <;> simpa [somes] using ih
  rw [hlen, hlen]
  refine ⟨?_, ?_, fun hf => ?_⟩
  · have := h.reader
    unfold ReaderOk at this
    cases hr : s.reader <;> simp only [hr] at this <;> grind [somes]
  · have h1 := h.worker.bound
    have h2 := Worker.cap_mono s.worker P.nCores s.force
    have h3 : s.worker.cap P.nCores true ≤ P.nCores + 2 := by cases s.worker <;> simp [Worker.cap]
    omega
  · have h1 := h.worker.bound
    rw [hf] at h1
    have h3 : s.worker.cap P.nCores false ≤ P.nCores + 1 := by cases s.worker <;> simp [Worker.cap]
    omega

/-- The bound is reached: the writer makes no step. -/
example : ((run { exampleParams with chunks := List.replicate 6 [0], sameFile := false }
    (fun n => if n % 2 = 0 then .reader else .worker) 100).rq.filter Option.isSome).length = 3 := by decide +kernel

/-! ### C28 -/

/-- C28, partial: every fair execution ends if the function and the combination raise for no chunk. This includes executions in
which the input cannot be read or a file cannot be opened. What is missing is the case that the function raises: then the
claim is false, see below. -/
theorem C28_ends_partial (P : Params α ρ A) (sched : Nat → Actor) (hfair : Fair sched)
    (h : serial P.func P.combine P.chunks ≠ none) : ∃ N, ∀ m, N ≤ m → (run P sched m).ended = true :=
  fair_ends P sched hfair (by rw [serialFrom_eq]; exact h)

example : ∃ N, ∀ m, N ≤ m → (run { exampleParams with readFails := true } roundRobin m).ended = true :=
  C28_ends_partial _ _ fair_roundRobin (by decide +kernel)

theorem serial_prefix (P : Params α ρ A) (l m : List α) (h : serialFrom P none (l ++ m) ≠ none) : serialFrom P none l ≠ none := by
  intro h0
  rw [serialFrom_append, h0] at h
  exact h rfl

/-- C28 is false: with one core, if the function raises for some chunk, the call never ends, under no schedule. -/
theorem C28_one_core_fails (P : Params α ρ A) (h1 : P.nCores = 1) (hf : NoFaults P) (hcomb : ∀ acc v, P.combine acc v ≠ none)
    (c : α) (hc : c ∈ P.chunks) (hfunc : P.func c = none) (sched : Nat → Actor) (n : Nat) :
    (run P sched n).ended = false := by
  by_contra he
  have he : (run P sched n).ended = true := by simpa using he
  have hv := values_run P h1 sched n
  rcases ended_cases P sched n hf.1 hf.2.1 hf.2.2 (List.ne_nil_of_mem hc) he with h | ⟨r, hw, -⟩
  · exact serialFrom_func P none P.chunks h c hc hfunc
  · obtain ⟨proc, hi⟩ := inv_run P sched n
    have hl := hi.writer.localOk
    rw [hw] at hl
    have h2 := hv.2.1 r (by rw [hw]; rfl)
    obtain ⟨v, hv⟩ := Option.ne_none_iff_exists'.mp h2
    exact hcomb _ _ (hl.2 v hv)

/-- The function raises for the second chunk. -/
def raisingFunc (c : List Nat) : Option (List (Item Nat Nat)) := if c = [0] then none else some (exampleFunc c)

/-- A combination that never raises: the values are counted. -/
def countValues (acc : Option Nat) (_ : List (Item Nat Nat)) : Option Nat := some (acc.getD 0 + 1)

def raisingParams (nCores : Nat) (chunks : List (List Nat)) : Params (List Nat) (List (Item Nat Nat)) Nat where
  chunks
  readFails := false
  nCores
  func := raisingFunc
  combine := countValues
  sameFile := false
  inFails := false
  outFails := false

example (sched : Nat → Actor) (n : Nat) : (run (raisingParams 1 [[1], [0]]) sched n).ended = false :=
  C28_one_core_fails _ rfl ⟨rfl, rfl, rfl⟩ (by simp [raisingParams, countValues]) [0] (by simp [raisingParams]) rfl sched n

/-- C28 is false: with more cores, if the function raises for a chunk that is followed by at least `n_cores + 2` chunks, the call
never ends. -/
theorem C28_more_cores_fails (P : Params α ρ A) (h1 : P.nCores ≠ 1) (hf : NoFaults P) (hcomb : ∀ acc v, P.combine acc v ≠ none)
    (before after : List α) (c : α) (hc : P.chunks = before ++ c :: after) (hfunc : P.func c = none)
    (hlen : P.nCores + 2 ≤ after.length) (sched : Nat → Actor) (n : Nat) : (run P sched n).ended = false := by
  by_contra he
  have he : (run P sched n).ended = true := by simpa using he
  have hmem : c ∈ P.chunks := by rw [hc]; simp
  rcases ended_cases P sched n hf.1 hf.2.1 hf.2.2 (List.ne_nil_of_mem hmem) he with
    h | ⟨r, hw, ⟨d, hd⟩ | ⟨proc, rest, hp, hrest, hser, -⟩⟩
  · exact serialFrom_func P none P.chunks h c hmem hfunc
  · obtain ⟨proc, hi⟩ := inv_run P sched n
    have := hi.worker.deadOk
    rw [hd] at this
    exact h1 this.1
  · -- the chunk is one of the processed ones
    have hl : before.length < proc.length := by
      have := congrArg List.length (hc.symm.trans hp)
      simp at this
      omega
    have : c ∈ proc := by
      have h2 := congrArg (fun l => l[before.length]?) (hc.symm.trans hp)
      simp only [List.getElem?_append_right (Nat.le_refl _), Nat.sub_self, List.getElem?_cons_zero,
        List.getElem?_append_left hl] at h2
      exact List.mem_of_getElem? h2.symm
    exact serialFrom_func P none proc hser c this hfunc

example (sched : Nat → Actor) (n : Nat) :
    (run (raisingParams 2 ([[1], [0]] ++ List.replicate 4 [2])) sched n).ended = false :=
  C28_more_cores_fails _ (by simp [raisingParams]) ⟨rfl, rfl, rfl⟩ (by simp [raisingParams, countValues])
    [[1]] (List.replicate 4 [2]) [0] rfl rfl (by simp [raisingParams]) sched n

/-! ### C61 -/

/-- C61, partial: if reading the input or opening a file fails, or the function or the combination raises, nothing is stored
under the names given by the user, at any time. What is missing: the exception does not reach the caller, see below. -/
theorem C61_failure_stores_nothing_partial (P : Params α ρ A) (sched : Nat → Actor) (n : Nat)
    (h : ¬ NoFaults P ∨ serial P.func P.combine P.chunks = none) : (run P sched n).stored = none := by
  by_contra hs
  rcases h with h | h
  · exact h ((noFault_run P sched n).stored hs)
  · obtain ⟨a, ha⟩ := Option.ne_none_iff_exists'.mp hs
    have := C27_stored_is_serial P sched n a ha
    rw [h] at this
    cases this

/-- C61 is false: if reading the input fails after some chunks (for instance because an event has more rows than `chunk_size`), the
call returns normally and the result is missing, for every function and number of cores. -/
theorem C61_read_error_not_reported (P : Params α ρ A) (sched : Nat → Actor) (hfair : Fair sched) (hr : P.readFails = true)
    (h : serial P.func P.combine P.chunks ≠ none) :
    ∃ N, ∀ m, N ≤ m → (run P sched m).ended = true ∧ (run P sched m).stored = none := by
  obtain ⟨N, hN⟩ := C28_ends_partial P sched hfair h
  exact ⟨N, fun m hm => ⟨hN m hm, C61_failure_stores_nothing_partial P sched m (.inl fun h => by simp [NoFaults, hr] at h)⟩⟩

/-- An event with three rows and chunks of two rows. -/
example : (dataAligned (fun e : Nat => (e : Int)) [0, 1, 1, 1] { chunkSize := 2 }).err.isSome = true := by decide +kernel

example : ∃ N, ∀ m, N ≤ m → (run { exampleParams with readFails := true } roundRobin m).ended = true ∧
    (run { exampleParams with readFails := true } roundRobin m).stored = none :=
  C61_read_error_not_reported _ _ fair_roundRobin rfl (by decide +kernel)

/-- C61 is false: an empty input table gives no result and no exception. -/
theorem C61_empty_table_not_reported (P : Params α ρ A) (sched : Nat → Actor) (hfair : Fair sched) (hc : P.chunks = []) :
    ∃ N, ∀ m, N ≤ m → (run P sched m).ended = true ∧ (run P sched m).stored = none := by
  obtain ⟨N, hN⟩ := C28_ends_partial P sched hfair (by rw [hc]; simp [serial])
  refine ⟨N, fun m hm => ⟨hN m hm, ?_⟩⟩
  by_contra hs
  obtain ⟨a, ha⟩ := Option.ne_none_iff_exists'.mp hs
  have := C27_stored_is_serial P sched m a ha
  rw [hc] at this
  cases this

/-! ### C62 -/

/-- C62, partial: adding two histograms gives the element-wise sum, elements outside of an array being zero, if the shapes differ
only in the length of the first axis (in particular for one-dimensional histograms). What is missing: other shapes, for which the
claim is false, see below. -/
theorem C62_elementwise_sum_partial [AddCommMonoid K] (n m : Nat) (tail : List Nat) (a b : List K)
    (ha : a.length = n * tail.foldr (· * ·) 1) (hb : b.length = m * tail.foldr (· * ·) 1) :
    ∃ c : Item R K, (Item.hist (n :: tail) a).add (.hist (m :: tail) b) = some c ∧
      ∀ idx, histAt c idx = elem (n :: tail) a idx + elem (m :: tail) b idx := by
  obtain ⟨c, h1, -, h2⟩ := add_isSum (.hist tail) [.hist (n :: tail) a] (.hist (n :: tail) a) (.hist (m :: tail) b : Item R K)
    ⟨⟨n, rfl, ha⟩, fun idx => by simp⟩ ⟨m, rfl, hb⟩
  exact ⟨c, h1, fun idx => by rw [h2 idx]; simp [histAt]⟩

example : elem [2, 3] [1, 2, 3, 4, 5, 6] [1, 0] = 4 ∧ elem [2, 3] [1, 2, 3, 4, 5, 6] [2, 0] = 0 ∧
    (Item.hist [1, 2] [1, 2] : Item Nat Nat).add (.hist [2, 2] [1, 1, 1, 1]) = some (.hist [2, 2] [2, 3, 1, 1]) :=
  ⟨rfl, rfl, rfl⟩

/-- C62 is false: for histograms of shapes (2, 1) and (1, 2) the second row of the first one is added to the first row. -/
theorem C62_other_axis_fails [AddCommMonoid K] (a b c d : K) :
    ∃ out : Item R K, (Item.hist [2, 1] [a, b]).add (.hist [1, 2] [c, d]) = some out ∧
      elem [2, 1] [a, b] [1, 0] + elem [1, 2] [c, d] [1, 0] = b ∧ histAt out [1, 0] = 0 ∧
      elem [2, 1] [a, b] [0, 1] + elem [1, 2] [c, d] [0, 1] = d ∧ histAt out [0, 1] = b + d := by
  refine ⟨.hist [2, 2] [a + c, b + d, 0 + 0, 0 + 0], rfl, ?_⟩
  simp [elem, histAt]

/-! ### Results which do not fit to the output -/

/-- Two results for the same node can be combined: both are tables, or both are histograms with the same number of dimensions (or one of
them has one dimension). -/
def Compatible : Item R K → Item R K → Prop
  | .table _, .table _ => True
  | .hist s _, .hist s' _ => s.length = s'.length ∨ s.length = 1 ∨ s'.length = 1
  | _, _ => False

theorem maxShape_none_iff (a b : List Nat) : maxShape a b = none ↔ ¬ (a.length = b.length ∨ a.length = 1 ∨ b.length = 1) := by
  unfold maxShape
  split
  · rename_i h; simp [h]
  · rename_i h
    split
    · simp
    · simp
    · rename_i h1 h2
      simp only [true_iff, not_or]
      refine ⟨h, ?_, ?_⟩
      · intro hl; obtain ⟨x, rfl⟩ := List.length_eq_one_iff.mp hl; exact h1 x rfl
      · intro hl; obtain ⟨x, rfl⟩ := List.length_eq_one_iff.mp hl; exact h2 x rfl

theorem add_none_iff [AddCommMonoid K] (a b : Item R K) : a.add b = none ↔ ¬ Compatible a b := by
  cases a <;> cases b <;> simp only [Item.add, Compatible, not_true_eq_false, not_false_eq_true, reduceCtorEq]
  rename_i s d s' d'
  rw [← maxShape_none_iff]
  cases maxShape s s' <;> simp

theorem addAll_none_iff [AddCommMonoid K] : ∀ (out res : List (Item R K)),
    addAll out res = none ↔ ∃ (i : Nat) (a b : Item R K), out[i]? = some a ∧ res[i]? = some b ∧ ¬ Compatible a b
  | [], res => by simp [addAll]
  | a :: out, [] => by simp [addAll]
  | a :: out, b :: res => by
    unfold addAll
    have ih := addAll_none_iff out res
    constructor
    · intro h
      cases h1 : a.add b with
      | none => exact ⟨0, a, b, rfl, rfl, (add_none_iff a b).mp h1⟩
      | some c =>
        cases h2 : addAll out res with
        | none =>
          obtain ⟨i, x, y, hx, hy, hn⟩ := ih.mp h2
          exact ⟨i + 1, x, y, by simpa using hx, by simpa using hy, hn⟩
        | some cs => rw [h1, h2] at h; simp at h
    · rintro ⟨i, x, y, hx, hy, hn⟩
      cases i with
      | zero =>
        simp at hx hy
        subst hx hy
        rw [(add_none_iff a b).mpr hn]
      | succ i =>
        rw [ih.mpr ⟨i, x, y, by simpa using hx, by simpa using hy, hn⟩]
        cases a.add b <;> rfl

theorem addAll_some [AddCommMonoid K] : ∀ (out res new : List (Item R K)), out.length = res.length → addAll out res = some new →
    new.length = res.length ∧ ∀ (i : Nat) (a b : Item R K), out[i]? = some a → res[i]? = some b → ∃ c, new[i]? = some c ∧ a.add b = some c
  | [], [], new, _, h => by simp [addAll] at h; subst h; simp
  | a :: out, b :: res, new, hl, h => by
    unfold addAll at h
    cases h1 : a.add b with
    | none => rw [h1] at h; simp at h
    | some c =>
      cases h2 : addAll out res with
      | none => rw [h1, h2] at h; simp at h
      | some cs =>
        rw [h1, h2] at h
        simp at h
        subst h
        obtain ⟨i1, i2⟩ := addAll_some out res cs (by simpa using hl) h2
        refine ⟨by simp [i1], fun i x y hx hy => ?_⟩
        cases i with
        | zero => simp at hx hy; subst hx hy; exact ⟨c, rfl, h1⟩
        | succ i => simpa using i2 i x y (by simpa using hx) (by simpa using hy)

/-- C61: a result which cannot be stored is an error: something that is not an array, the wrong number of arrays, or an array which does
not fit to the results for earlier chunks. -/
theorem C61_unsuitable_result_iff [AddCommMonoid K] (nNodes : Nat) (out res : List (Item R K)) :
    combine nNodes (some out) res = none ↔
      (∃ item ∈ res, item = .other) ∨ res.length ≠ nNodes ∨
        ∃ (i : Nat) (a b : Item R K), out[i]? = some a ∧ res[i]? = some b ∧ ¬ Compatible a b := by
  unfold combine
  have e : (res.any fun item => !item.isArray) = true ↔ ∃ item ∈ res, item = .other := by
    rw [List.any_eq_true]
    refine exists_congr fun x => and_congr_right fun _ => ?_
    cases x <;> simp [Item.isArray]
  by_cases h1 : (res.any fun item => !item.isArray) = true
  · rw [if_pos h1]; simp only [true_iff]; exact .inl (e.mp h1)
  · rw [if_neg h1]
    by_cases h2 : res.length ≠ nNodes
    · rw [if_pos h2]; simp only [true_iff]; exact .inr (.inl h2)
    · rw [if_neg h2]
      simp only []
      rw [addAll_none_iff]
      constructor
      · exact fun h => .inr (.inr h)
      · rintro (h | h | h)
        · exact absurd (e.mpr h) h1
        · exact absurd h h2
        · exact h

/-- C61: no output is lost: after each chunk there is one output for every node. -/
theorem C61_all_nodes [AddCommMonoid K] (nNodes : Nat) (acc : Option (List (Item R K))) (res new : List (Item R K))
    (hacc : ∀ out ∈ acc, out.length = nNodes) (h : combine nNodes acc res = some new) : new.length = nNodes := by
  unfold combine at h
  split at h
  · cases h
  · split at h
    · cases h
    · rename_i hl
      have hl : res.length = nNodes := by simpa using hl
      cases acc with
      | none => rw [← hl]; exact (addAll_some _ _ _ (by simp) h).1
      | some out => rw [← hl]; exact (addAll_some _ _ _ (by rw [hl]; exact hacc out rfl) h).1

example : combine 2 (some [.table [1], .hist [2, 2] [1, 2, 3, 4]] : Option (List (Item Nat Nat))) [.table [2], .hist [2, 1, 1] [1, 2]] = none ∧
    combine 2 (some [.table [1], .hist [2] [1, 2]] : Option (List (Item Nat Nat))) [.table [2], .hist [3] [1, 2, 3]] =
      some [.table [1, 2], .hist [3] [2, 4, 3]] := by
  constructor <;> rfl

end BTA.Props
