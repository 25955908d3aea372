import Verif.Lemmas.SmcFair
/-
Which executions of `SMC` end, and with which result.
-/
namespace BTA.Smc

variable {α ρ A : Type}

theorem serialFrom_append (P : Params α ρ A) (acc : Option A) (l m : List α) :
    serialFrom P acc (l ++ m) = (serialFrom P acc l).bind fun a => serialFrom P a m := by
  induction l generalizing acc with
  | nil => rfl
  | cons c l ih =>
    rw [List.cons_append, serialFrom, serialFrom]
    split
    · rfl
    · split
      · rfl
      · exact ih _

theorem serialFrom_func (P : Params α ρ A) (acc : Option A) (l : List α) (h : serialFrom P acc l ≠ none) (c : α) (hc : c ∈ l) :
    P.func c ≠ none := by
  induction l generalizing acc with
  | nil => cases hc
  | cons d l ih =>
    unfold serialFrom at h
    split at h
    · exact absurd rfl h
    · rename_i v hv
      split at h
      · exact absurd rfl h
      · rcases List.mem_cons.mp hc with rfl | hc
        · rw [hv]; exact Option.some_ne_none _
        · exact ih _ h hc

/-- The writer ends normally only after storing the result, or if it was told to stop. -/
theorem done_stored (P : Params α ρ A) (sched : Nat → Actor) (n : Nat) (r : Option (Nat × α))
    (h : (run P sched n).writer = .done r) : (run P sched n).force = true ∨ (run P sched n).stored ≠ none := by
  induction n generalizing r with
  | zero => cases h
  | succ n ih =>
    rw [run_succ] at h ⊢
    generalize run P sched n = s at ih h
    obtain ⟨reader, worker, writer, src, dq, rq, opened, force, submitted, completed, acc, stored⟩ := s
    simp only at ih h
    cases ha : sched n with
    | reader =>
      rw [ha] at h
      rw [writer_only P _ _ (by simp)] at h
      have := ih r h
      simp only [step, stepReader]
      cases reader <;> simp only [] <;> (repeat' split) <;> simp_all
    | worker =>
      rw [ha] at h
      rw [writer_only P _ _ (by simp)] at h
      have := ih r h
      simp only [step, stepWorker]
      cases worker <;> simp only [] <;> (repeat' split) <;> simp_all
    | writer =>
      rw [ha] at h
      rcases writer with _ | (_ | r) | _ | r | r | r | r <;> simp only [step, stepWriter, process] at h ⊢ <;>
        (repeat' split at h) <;> simp_all
    | pool k =>
      rw [ha] at h
      rw [writer_only P _ _ (by simp)] at h
      have := ih r h
      simp only [step]
      split <;> simp_all

/-- With one core a result waiting for the writer is a value, the function has not raised. -/
def Values (P : Params α ρ A) (s : State α A) : Prop :=
  (∀ r, some r ∈ s.rq → P.func r.2 ≠ none) ∧ (∀ r, s.writer.res = some r → P.func r.2 ≠ none) ∧
  ∀ c, s.worker = .append c → P.func c ≠ none

theorem values_run (P : Params α ρ A) (h1 : P.nCores = 1) (sched : Nat → Actor) (n : Nat) : Values P (run P sched n) := by
  induction n with
  | zero => simp [run, init, Values, Writer.res]
  | succ n ih =>
    rw [run_succ]
    generalize run P sched n = s at ih
    obtain ⟨reader, worker, writer, src, dq, rq, opened, force, submitted, completed, acc, stored⟩ := s
    unfold Values at *
    simp only at ih
    cases sched n with
    | reader =>
      cases reader <;> simp only [step, stepReader] <;> (repeat' split) <;> exact ih
    | worker =>
      cases worker <;> simp only [step, stepWorker] <;> (repeat' split) <;> first | exact ih | (grind)
    | writer =>
      rcases writer with _ | (_ | r) | _ | r | r | r | r <;> simp only [step, stepWriter, process] <;> (repeat' split) <;>
        first | exact ih | grind [Writer.res]
    | pool k =>
      simp only [step]
      split <;> exact ih

section
variable {P : Params α ρ A} {proc : List α} {s : State α A}

/-- The writer raised although every chunk can be processed: not possible. -/
theorem writer_dead (h : Inv P proc s) (r : Nat × α) (hw : s.writer = .dead (some r)) : serialFrom P none P.chunks = none := by
  have hc := h.cons
  unfold Conserved at hc
  have hl := h.writer.localOk
  rw [hw] at hl hc
  simp only [Writer.held, Writer.res, Option.toList, List.map_cons, List.map_nil, List.cons_append, List.nil_append] at hc
  rw [← hc, serialFrom_append, h.acc]
  simp only [Option.bind_some, serialFrom]
  cases hf : P.func r.2 with
  | none => rfl
  | some v => simp only []; rw [hl.2 v hf]

theorem reader_done_of (h : Inv P proc s) (hf : s.force = false) (he : s.reader.ended = true) : s.reader = .done := by
  have := h.reader
  unfold ReaderOk at this
  cases hr : s.reader <;> simp_all [Reader.ended]

theorem worker_loop (h : s.worker.norm = Worker.norm .loop) : s.worker.running = true := by
  cases hw : s.worker <;> simp_all [Worker.norm, Worker.running]

theorem worker_wait {c : α} (h : s.worker.norm = Worker.norm (.waitLen c)) : s.worker.held ≠ [] := by
  cases hw : s.worker <;> simp_all [Worker.norm, Worker.held]

/-- The end mark of the reader is in the deque until the worker takes it. -/
theorem worker_mark (h : Inv P proc s) (hf : s.force = false) (hr : s.reader = .done) (hw : s.worker.running = true) :
    s.dq ≠ [] := by
  have := h.worker.mark
  simp only [hf, hr, Reader.isDone, hw, Bool.false_eq_true, Bool.true_eq_false, false_or] at this
  simp [this]

/-- A stable state in which every chunk can be processed is an end state. -/
theorem stable_ended (P : Params α ρ A) (sched : Nat → Actor) (hfair : Fair sched)
    (hser : serialFrom P none P.chunks ≠ none) (N : Nat)
    (hst : ∀ m, N ≤ m → (run P sched m).norm = (run P sched N).norm) : (run P sched N).ended = true := by
  obtain ⟨proc, h⟩ := inv_run P sched N
  have hR := stable_reader P sched N hst hfair
  have hW := stable_worker P sched N hst hfair
  have hT := stable_writer P sched N hst hfair
  generalize run P sched N = s at *
  by_cases hforce : s.force = true
  · simp only [hforce, Bool.true_eq_false, and_false, or_false, exists_false] at hR hW hT
    simp [State.ended, hR, hW, hT]
  · have hforce : s.force = false := by simpa using hforce
    have hmem : ∀ c, c ∈ s.worker.held → P.func c ≠ none := by
      intro c hc
      refine serialFrom_func P none P.chunks hser c ?_
      rw [← h.cons]
      simp [hc]
    -- the reader ends as soon as the worker takes what it appends
    have hreader : s.opened = true → s.dq = [] → s.reader = .done := by
      intro h1 h2
      simp only [h1, h2, hforce, Bool.true_eq_false, false_and, and_false, or_false, ne_eq, not_true_eq_false] at hR
      exact reader_done_of h hforce hR
    rcases hT with hT | ⟨hT, hrq, -⟩
    · cases hw : s.writer with
      | done r =>
        have h1 := h.writer.ended
        simp only [hforce, hw, Writer.running, Bool.false_eq_true, false_or] at h1
        have h2 : s.worker = .done := by
          have := h1.1
          cases hh : s.worker <;> simp_all [Worker.isDone]
        have h3 := h.worker.ended
        simp only [hforce, h2, Worker.running, Bool.false_eq_true, false_or] at h3
        have h4 : s.reader = .done := by
          have := h3.1
          cases hh : s.reader <;> simp_all [Reader.isDone]
        simp [State.ended, hw, h2, h4, Reader.ended, Worker.ended, Writer.ended]
      | dead r =>
        cases r with
        | some r => exact absurd (writer_dead h r hw) hser
        | none =>
          have h1 := h.writer.localOk
          simp only [hw, Writer.localOk, hforce, Bool.false_eq_true, false_or] at h1
          have hc := h.cons
          unfold Conserved at hc
          rw [h1.1] at hc
          simp only [List.append_eq_nil_iff, List.map_eq_nil_iff] at hc
          obtain ⟨-, -, -, hc4, hc5, -, -⟩ := hc
          have hr : s.reader.ended = true := by
            rcases hR with hR | ⟨-, hR, -⟩ | ⟨hR, hR2, -⟩
            · exact hR
            · rw [h1.2] at hR; cases hR
            · have h2 := h.reader
              unfold ReaderOk at h2
              cases hr : s.reader <;> simp only [hr, Reader.norm, reduceCtorEq] at h2 hR <;>
                (rcases h2 with h2 | ⟨c, h2⟩ <;> simp [h2, somes] at hR2 hc5)
          have hr' := reader_done_of h hforce hr
          have hw' : s.worker.ended = true := by
            rcases hW with hW | ⟨hW, hW2, -⟩ | ⟨c, hW, -⟩
            · exact hW
            · exact absurd hW2 (worker_mark h hforce hr' (worker_loop hW))
            · exact absurd hc4 (worker_wait hW)
          simp [State.ended, hw, hr, hw', Writer.ended]
      | _ => simp [hw, Writer.ended] at hT
    · have hopen : s.opened = true := by
        have := h.writer.localOk
        cases hw : s.writer with
        | loop r => simpa [hw, Writer.localOk] using this
        | pop => simpa [hw, Writer.localOk] using this
        | _ => simp [hw, Writer.norm] at hT
      rcases hW with hW | ⟨hW, hW2, -⟩ | ⟨c, hW, hW2, -⟩
      · exfalso
        cases hk : s.worker with
        | done =>
          have := h.writer.mark
          simp only [hforce, hk, Worker.isDone, hrq, Bool.false_eq_true, Bool.true_eq_false, false_or, List.nil_eq,
            List.append_eq_nil_iff, List.cons_ne_nil, and_false, false_and, exists_false, or_false] at this
          cases hw : s.writer <;> simp [hw, Writer.norm, Writer.running] at hT this
        | dead c =>
          have h1 := h.worker.deadOk
          rw [hk] at h1
          exact hmem c (by rw [hk]; simp [Worker.held]) h1.2
        | _ => simp [hk, Worker.ended] at hW
      · exact absurd hW2 (worker_mark h hforce (hreader hopen hW2) (worker_loop hW))
      · rw [hrq] at hW2
        simp at hW2

end

theorem State.ended_norm (s : State α A) : s.norm.ended = s.ended := by
  simp [State.ended, State.norm, Reader.ended_norm, Worker.ended_norm, Writer.ended_norm]

/-- If every chunk can be processed, every fair execution ends. -/
theorem fair_ends (P : Params α ρ A) (sched : Nat → Actor) (hfair : Fair sched)
    (hser : serialFrom P none P.chunks ≠ none) : ∃ N, ∀ m, N ≤ m → (run P sched m).ended = true := by
  obtain ⟨N, hN⟩ := eventually_stable P sched
  refine ⟨N, fun m hm => ?_⟩
  rw [← State.ended_norm, hN m hm, State.ended_norm]
  exact stable_ended P sched hfair hser N hN

/-- The reader ends normally only if nothing failed before. -/
structure NoFault (P : Params α ρ A) (s : State α A) : Prop where
  openFile : s.reader = .waitOpened ∨ s.reader = .waitStop ∨ s.reader = .openFile ∨ s.reader = .dead ∨ P.inFails = false
  read : s.reader = .final ∨ s.reader = .done → s.force = true ∨ P.readFails = false
  stored : s.stored ≠ none → P.readFails = false ∧ P.inFails = false ∧ P.outFails = false

theorem noFault_run (P : Params α ρ A) (sched : Nat → Actor) (n : Nat) : NoFault P (run P sched n) := by
  induction n with
  | zero => constructor <;> cases h : P.sameFile <;> simp [run, init, h]
  | succ n ih =>
    obtain ⟨proc, hinv⟩ := inv_run P sched n
    rw [run_succ]
    generalize run P sched n = s at ih hinv
    have hwe := hinv.worker.ended
    have hte := hinv.writer.ended
    have hto := hinv.writer.opened
    have htl := hinv.writer.localOk
    clear hinv
    obtain ⟨reader, worker, writer, src, dq, rq, opened, force, submitted, completed, acc, stored⟩ := s
    obtain ⟨i1, i2, i3⟩ := ih
    simp only at i1 i2 i3 hwe hte hto htl
    cases sched n with
    | reader =>
      cases reader <;> simp only [step, stepReader] <;> (repeat' split) <;> constructor <;> simp_all
    | worker =>
      cases worker <;> simp only [step, stepWorker] <;> (repeat' split) <;> constructor <;> simp_all
    | writer =>
      rcases writer with _ | (_ | r) | _ | r | r | r | r
      case finish =>
        simp only [step, stepWriter]
        split
        · exact ⟨i1, i2, i3⟩
        · rename_i hf
          split
          · exact ⟨i1, i2, i3⟩
          · refine ⟨i1, i2, fun _ => ?_⟩
            simp only [hf, Writer.running, Bool.false_eq_true, false_or] at hte
            have h1 := hte.1
            have h2 : reader = .done := by
              cases worker <;> simp [Worker.isDone] at h1
              simp only [hf, Worker.running, Bool.false_eq_true, false_or] at hwe
              have := hwe.1
              cases reader <;> simp_all [Reader.isDone]
            subst h2
            simp only [Writer.localOk] at htl
            simp_all
      all_goals simp only [step, stepWriter, process] <;> (repeat' split) <;> constructor <;> simp_all
    | pool k =>
      simp only [step]
      split <;> exact ⟨i1, i2, i3⟩

section
variable (P : Params α ρ A) (sched : Nat → Actor) (n : Nat)

/-- Without faults nothing sets `force_stop`. -/
theorem no_force (h1 : P.readFails = false) (h2 : P.inFails = false) (h3 : P.outFails = false) :
    (run P sched n).force = false := by
  obtain ⟨proc, h⟩ := inv_run P sched n
  by_contra hf
  have := h.force (by simpa using hf)
  simp [h1, h2, h3] at this

/-- The result of an execution that has ended without faults. -/
theorem ended_result (h1 : P.readFails = false) (h2 : P.inFails = false) (h3 : P.outFails = false) (hc : P.chunks ≠ [])
    (hser : serialFrom P none P.chunks ≠ none) (he : (run P sched n).ended = true) :
    ∃ a, (run P sched n).stored = some a ∧ serialFrom P none P.chunks = some (some a) := by
  have hf := no_force P sched n h1 h2 h3
  obtain ⟨proc, h⟩ := inv_run P sched n
  have hd := done_stored P sched n
  generalize run P sched n = s at *
  simp only [State.ended, Bool.and_eq_true] at he
  cases hw : s.writer with
  | done r =>
    have := hd r hw
    simp only [hf, Bool.false_eq_true, false_or] at this
    obtain ⟨a, ha⟩ := Option.ne_none_iff_exists'.mp this
    exact ⟨a, ha, h.stored a ha⟩
  | dead r =>
    cases r with
    | some r => exact absurd (writer_dead h r hw) hser
    | none =>
      have := h.writer.localOk
      simp [hw, Writer.localOk, hf, hc] at this
  | _ => simp [hw, Writer.ended] at he

/-- The end state without faults: either everything is processed, or the writer was ended by an exception and the results it
did not take are still in `res_deque`, or the worker was ended by an exception. -/
theorem ended_cases (h1 : P.readFails = false) (h2 : P.inFails = false) (h3 : P.outFails = false) (hc : P.chunks ≠ [])
    (he : (run P sched n).ended = true) :
    serialFrom P none P.chunks ≠ none ∨
    (∃ r, (run P sched n).writer = .dead (some r) ∧ ((∃ c, (run P sched n).worker = .dead c) ∨
      ∃ proc rest, P.chunks = proc ++ r.2 :: rest ∧ rest.length ≤ P.nCores + 1 ∧ serialFrom P none proc ≠ none ∧
        serialFrom P none (proc ++ [r.2]) = none)) := by
  have hf := no_force P sched n h1 h2 h3
  obtain ⟨proc, h⟩ := inv_run P sched n
  generalize run P sched n = s at *
  simp only [State.ended, Bool.and_eq_true] at he
  have hcons := h.cons
  unfold Conserved at hcons
  cases hw : s.writer with
  | done r =>
    left
    have a1 := h.writer.ended
    simp only [hf, hw, Writer.running, Bool.false_eq_true, false_or] at a1
    have a2 : s.worker = .done := by
      have := a1.1
      cases hh : s.worker <;> simp_all [Worker.isDone]
    have a3 := h.worker.ended
    simp only [hf, a2, Worker.running, Bool.false_eq_true, false_or] at a3
    have a4 : s.reader = .done := by
      have := a3.1
      cases hh : s.reader <;> simp_all [Reader.isDone]
    have : proc = P.chunks := by
      rw [← hcons, hw, a2, a4, a3.2.1, a3.2.2, a1.2.1]
      have : r = none := by simpa [hw, Writer.res] using a1.2.2
      simp [this, Writer.held, Writer.res, Worker.held, Reader.held, somes]
    rw [← this, h.acc]
    simp
  | dead r =>
    cases r with
    | none =>
      have := h.writer.localOk
      simp [hw, Writer.localOk, hf, hc] at this
    | some r =>
      right
      refine ⟨r, rfl, ?_⟩
      cases hk : s.worker with
      | dead c => exact .inl ⟨c, rfl⟩
      | done =>
        right
        have a3 := h.worker.ended
        simp only [hf, hk, Worker.running, Bool.false_eq_true, false_or] at a3
        have a4 : s.reader = .done := by
          have := a3.1
          cases hh : s.reader <;> simp_all [Reader.isDone]
        have hb := h.worker.bound
        simp only [hk, Worker.cap, hf, Bool.false_eq_true, if_false] at hb
        refine ⟨proc, (somes s.rq).map Prod.snd, ?_, by simpa using hb, by simp [h.acc], ?_⟩
        · rw [← hcons, hw, hk, a4, a3.2.1, a3.2.2]
          simp [Writer.held, Writer.res, Worker.held, Reader.held, somes]
        · rw [serialFrom_append, h.acc]
          have hl := h.writer.localOk
          rw [hw] at hl
          simp only [Option.bind_some, serialFrom]
          cases hf : P.func r.2 with
          | none => rfl
          | some v => simp only []; rw [hl.2 v hf]
      | _ => simp [hk, Worker.ended] at he
  | _ => simp [hw, Writer.ended] at he

end

end BTA.Smc
