import Verif.Model.Smc
/-
Invariants of the threads of `SMC`.
-/
namespace BTA.Smc

variable {α ρ A : Type}

/-- The chunks (not the end marks) in a deque. -/
def somes (l : List (Option β)) : List β := l.filterMap id

theorem somes_nil : somes ([] : List (Option β)) = [] := rfl
theorem somes_none (l : List (Option β)) : somes (none :: l) = somes l := rfl
theorem somes_some (x : β) (l : List (Option β)) : somes (some x :: l) = x :: somes l := rfl
theorem somes_snoc_none (l : List (Option β)) : somes (l ++ [none]) = somes l := by simp [somes]
theorem somes_snoc_some (x : β) (l : List (Option β)) : somes (l ++ [some x]) = somes l ++ [x] := by simp [somes]

/-- Serial processing: the combined results, `none` if an exception is raised. -/
def serialFrom (P : Params α ρ A) : Option A → List α → Option (Option A)
  | acc, [] => some acc
  | acc, c :: rest =>
    match P.func c with
    | none => none
    | some v =>
      match P.combine acc v with
      | none => none
      | some a => serialFrom P (some a) rest

theorem serialFrom_snoc (P : Params α ρ A) (acc : Option A) (l : List α) (b : Option A) (h : serialFrom P acc l = some b)
    (c : α) (v : ρ) (a : A) (hv : P.func c = some v) (ha : P.combine b v = some a) :
    serialFrom P acc (l ++ [c]) = some (some a) := by
  induction l generalizing acc with
  | nil =>
    cases h
    simp [serialFrom, hv, ha]
  | cons d l ih =>
    unfold serialFrom at h
    rw [List.cons_append]
    unfold serialFrom
    split at h
    · cases h
    · rename_i w hw
      split at h
      · cases h
      · exact ih _ h

def Reader.held : Reader α → List α
  | .append c => [c]
  | _ => []

def Worker.held : Worker α → List α
  | .waitLen c => [c]
  | .waitForce c => [c]
  | .call c => [c]
  | .append c => [c]
  | .dead c => [c]
  | _ => []

def Writer.res : Writer α → Option (Nat × α)
  | .loop r => r
  | .get r => some r
  | .finish r => r
  | .done r => r
  | .dead r => r
  | _ => none

def Writer.held (w : Writer α) : List α := w.res.toList.map Prod.snd

/-- No chunk is lost, duplicated or reordered. -/
def Conserved (P : Params α ρ A) (proc : List α) (s : State α A) : Prop :=
  proc ++ (s.writer.held ++ ((somes s.rq).map Prod.snd ++ (s.worker.held ++ (somes s.dq ++ (s.reader.held ++ s.src))))) = P.chunks

def ReaderOk (P : Params α ρ A) (s : State α A) : Prop :=
  match s.reader with
  | .waitOpened => s.dq = [] ∧ P.sameFile = true
  | .waitStop => s.dq = [] ∧ P.sameFile = true
  | .openFile => s.dq = [] ∧ (P.sameFile = true → s.opened = true ∨ s.force = true)
  | .loop => s.dq = [] ∨ (s.force = true ∧ ∃ c, s.dq = [some c])
  | .next => s.dq = []
  | .append _ => s.dq = []
  | .waitLen => s.dq = [] ∨ ∃ c, s.dq = [some c]
  | .waitForce => s.dq = [] ∨ ∃ c, s.dq = [some c]
  | .final => (s.dq = [] ∧ (s.src = [] ∨ s.force = true)) ∨ (s.force = true ∧ ∃ c, s.dq = [some c])
  | .done => (s.force = true ∧ (s.dq = [] ∨ s.dq = [none] ∨ ∃ c, s.dq = [some c, none])) ∨
      (s.src = [] ∧ (s.dq = [none] ∨ s.dq = []))
  | .dead => s.force = true ∧ s.dq = []

/-- The worker has not seen the end mark. -/
def Worker.running : Worker α → Bool
  | .final => false
  | .done => false
  | _ => true

def Worker.isDone : Worker α → Bool
  | .done => true
  | _ => false

def Reader.isDone : Reader α → Bool
  | .done => true
  | _ => false

/-- Largest number of results in `res_deque`, given the state of the worker. -/
def Worker.cap (w : Worker α) (n : Nat) (force : Bool) : Nat :=
  match w with
  | .call _ => if force then n + 1 else n
  | .append _ => if force then n + 1 else n
  | .pop => n + 1
  | .waitLen _ => n + 1
  | .waitForce _ => n + 1
  | .dead _ => if force then n + 2 else n + 1
  | .loop => if force then n + 2 else n + 1
  | .final => if force then n + 2 else n + 1
  | .done => if force then n + 2 else n + 1

theorem Worker.cap_mono (w : Worker α) (n : Nat) (force : Bool) : w.cap n force ≤ w.cap n true := by
  cases w <;> cases force <;> simp [Worker.cap]

def Worker.deadOk (P : Params α ρ A) : Worker α → Prop
  | .dead c => P.nCores = 1 ∧ P.func c = none
  | _ => True

structure WorkerOk (P : Params α ρ A) (s : State α A) : Prop where
  noMark : s.worker.isDone = false → none ∉ s.rq
  bound : (somes s.rq).length ≤ s.worker.cap P.nCores s.force
  deadOk : s.worker.deadOk P
  ended : s.force = true ∨ s.worker.running = true ∨ (s.reader.isDone = true ∧ s.dq = [] ∧ s.src = [])
  mark : s.force = true ∨ s.reader.isDone = false ∨ s.worker.running = false ∨ s.dq = [none]

def Writer.running : Writer α → Bool
  | .finish _ => false
  | .done _ => false
  | _ => true

def Writer.localOk (P : Params α ρ A) (opened force : Bool) (acc : Option A) : Writer α → Prop
  | .openFile => opened = false
  | .dead none => force = true ∨ (P.chunks = [] ∧ opened = true)
  | .dead (some r) => opened = true ∧ ∀ v, P.func r.2 = some v → P.combine acc v = none
  | .loop _ => opened = true
  | .pop => opened = true
  | .get _ => opened = true
  | .finish _ => opened = true
  | .done _ => opened = true

structure WriterOk (P : Params α ρ A) (s : State α A) : Prop where
  localOk : s.writer.localOk P s.opened s.force s.acc
  opened : s.opened = true → P.outFails = false
  ended : s.force = true ∨ s.writer.running = true ∨ (s.worker.isDone = true ∧ s.rq = [] ∧ s.writer.res = none)
  mark : s.force = true ∨ s.worker.isDone = false ∨ s.writer.running = false ∨ s.writer = .dead none ∨
    ∃ l, s.rq = l ++ [none] ∧ none ∉ l

structure Inv (P : Params α ρ A) (proc : List α) (s : State α A) : Prop where
  cons : Conserved P proc s
  acc : serialFrom P none proc = some s.acc
  reader : ReaderOk P s
  worker : WorkerOk P s
  writer : WriterOk P s
  stored : ∀ a, s.stored = some a → serialFrom P none P.chunks = some (some a)
  force : s.force = true → P.readFails = true ∨ P.inFails = true ∨ P.outFails = true

theorem inv_init (P : Params α ρ A) : Inv P [] (init P) := by
  constructor
  · simp [Conserved, init, somes, Writer.held, Writer.res, Worker.held]
    cases P.sameFile <;> rfl
  · rfl
  · unfold ReaderOk init
    cases P.sameFile <;> simp
  · constructor <;> cases h : P.sameFile <;> simp [init, h, Worker.isDone, Worker.running, Reader.isDone, somes, Worker.deadOk]
  · constructor <;> simp [init, Writer.running, Worker.isDone, Writer.localOk]
  · intro a h; cases h
  · intro h; cases h

theorem Writer.localOk_force {P : Params α ρ A} {opened force : Bool} {acc : Option A} {w : Writer α}
    (h : w.localOk P opened force acc) : w.localOk P opened true acc := by
  unfold Writer.localOk at *
  split <;> simp_all

/-- The condition of the writer is kept by steps that do not touch its variables. -/
theorem WriterOk.of {P : Params α ρ A} {s s' : State α A} (h : WriterOk P s) (h1 : s'.writer = s.writer)
    (h2 : s'.opened = s.opened) (h3 : s'.acc = s.acc) (h4 : s'.force = s.force ∨ s'.force = true)
    (h5 : s'.worker.isDone = s.worker.isDone) (h6 : s'.rq = s.rq) : WriterOk P s' := by
  obtain ⟨a, b, c, d⟩ := h
  rcases h4 with h4 | h4
  · constructor
    · rw [h1, h2, h3, h4]; exact a
    · rw [h2]; exact b
    · rw [h1, h4, h5, h6]; exact c
    · rw [h1, h4, h5, h6]; exact d
  · constructor
    · rw [h1, h2, h3, h4]; exact Writer.localOk_force a
    · rw [h2]; exact b
    · exact .inl h4
    · exact .inl h4

theorem inv_reader (P : Params α ρ A) (proc : List α) (s : State α A) (h : Inv P proc s) : Inv P proc (stepReader P s) := by
  have h0 := h
  obtain ⟨h1, h2, h3, ⟨a, b, c, d, e⟩, h5, h6, h7⟩ := h
  have hcap := s.worker.cap_mono P.nCores s.force
  unfold Conserved ReaderOk at *
  cases hr : s.reader
  case done => rw [show stepReader P s = s by simp only [stepReader, hr]]; exact h0
  case dead => rw [show stepReader P s = s by simp only [stepReader, hr]]; exact h0
  all_goals
    clear h0
    simp only [stepReader, hr, Reader.held, Reader.isDone] at *
    (repeat' split) <;>
    refine ⟨?_, h2, ?_, ⟨a, ?_, c, ?_, ?_⟩, h5.of rfl rfl rfl (by simp) rfl rfl, h6, ?_⟩ <;>
    (try simp only [Conserved, ReaderOk, Reader.held, Reader.isDone, somes_snoc_some, somes_snoc_none]) <;>
    grind [somes_nil]

/-- Removing the first entry of `data_deque` keeps the condition of the reader. -/
theorem ReaderOk.pop {P : Params α ρ A} {s s' : State α A} {x : Option α} (h : ReaderOk P s) (h1 : s'.reader = s.reader)
    (h2 : s.dq = x :: s'.dq) (h3 : s'.src = s.src) (h4 : s'.force = s.force) : ReaderOk P s' := by
  unfold ReaderOk at *
  rw [h1]
  cases hr : s.reader <;> simp only [hr, h2, h3, h4] at h ⊢ <;> grind

theorem inv_worker (P : Params α ρ A) (proc : List α) (s : State α A) (h : Inv P proc s) : Inv P proc (stepWorker P s) := by
  have h0 := h
  obtain ⟨h1, h2, h3, ⟨a, b, c, d, e⟩, h5, h6, h7⟩ := h
  unfold Conserved at *
  cases hr : s.worker
  case done => rw [show stepWorker P s = s by simp only [stepWorker, hr]]; exact h0
  case dead => rw [show stepWorker P s = s by simp only [stepWorker, hr]]; exact h0
  case loop =>
    simp only [stepWorker, hr, Worker.held, Worker.isDone, Worker.running, Worker.cap, Worker.deadOk] at h1 a b c d e ⊢
    split <;> refine ⟨?_, h2, h3, ⟨?_, ?_, ?_, ?_, ?_⟩, h5.of rfl rfl rfl (by simp) (by simp [hr, Worker.isDone]) rfl, h6, h7⟩ <;>
    (try simp only [Conserved, Worker.held, Worker.isDone, Worker.running, Worker.cap, Worker.deadOk]) <;>
    grind
  case pop =>
    simp only [stepWorker, hr, Worker.held, Worker.isDone, Worker.running, Worker.cap, Worker.deadOk] at h1 a b c d e ⊢
    cases hq : s.dq with
    | nil =>
      refine ⟨?_, h2, by simpa only [ReaderOk, hq] using h3, ⟨?_, ?_, ?_, ?_, ?_⟩, h5.of rfl rfl rfl (by simp) (by simp [hr, Worker.isDone]) rfl, h6, h7⟩ <;>
      (try simp only [Conserved, Worker.held, Worker.isDone, Worker.running, Worker.cap, Worker.deadOk]) <;>
      grind
    | cons x rest =>
      have h3' := h3
      unfold ReaderOk at h3'
      cases x with
      | none =>
        refine ⟨?_, h2, h3.pop rfl hq rfl rfl, ⟨?_, ?_, ?_, ?_, ?_⟩,
          h5.of rfl rfl rfl (by simp) (by simp [hr, Worker.isDone]) rfl, h6, h7⟩ <;>
        simp only [hq, somes_none] at * <;>
        (try simp only [Conserved, Worker.held, Worker.isDone, Worker.running, Worker.cap, Worker.deadOk]) <;>
        (try cases hrd : s.reader <;> simp only [hrd, Reader.isDone] at *) <;>
        grind
      | some c =>
        refine ⟨?_, h2, h3.pop rfl hq rfl rfl, ⟨?_, ?_, ?_, ?_, ?_⟩,
          h5.of rfl rfl rfl (by simp) (by simp [hr, Worker.isDone]) rfl, h6, h7⟩ <;>
        simp only [hq, somes_some] at * <;>
        (try simp only [Conserved, Worker.held, Worker.isDone, Worker.running, Worker.cap, Worker.deadOk]) <;>
        grind
  case waitLen =>
    simp only [stepWorker, hr, Worker.held, Worker.isDone, Worker.running, Worker.cap, Worker.deadOk] at h1 a b c d e ⊢
    have : (somes s.rq).length ≤ s.rq.length := by unfold somes; exact List.length_filterMap_le ..
    split <;> refine ⟨?_, h2, h3, ⟨?_, ?_, ?_, ?_, ?_⟩, h5.of rfl rfl rfl (by simp) (by simp [hr, Worker.isDone]) rfl, h6, h7⟩ <;>
    (try simp only [Conserved, Worker.held, Worker.isDone, Worker.running, Worker.cap, Worker.deadOk]) <;>
    grind
  case waitForce =>
    simp only [stepWorker, hr, Worker.held, Worker.isDone, Worker.running, Worker.cap, Worker.deadOk] at h1 a b c d e ⊢
    split <;> refine ⟨?_, h2, h3, ⟨?_, ?_, ?_, ?_, ?_⟩, h5.of rfl rfl rfl (by simp) (by simp [hr, Worker.isDone]) rfl, h6, h7⟩ <;>
    (try simp only [Conserved, Worker.held, Worker.isDone, Worker.running, Worker.cap, Worker.deadOk]) <;>
    grind
  case call =>
    simp only [stepWorker, hr, Worker.held, Worker.isDone, Worker.running, Worker.cap, Worker.deadOk] at h1 a b c d e ⊢
    split <;> refine ⟨?_, h2, h3, ⟨?_, ?_, ?_, ?_, ?_⟩, h5.of rfl rfl rfl (by simp) (by simp [hr, Worker.isDone]) rfl, h6, h7⟩ <;>
    (try simp only [Conserved, Worker.held, Worker.isDone, Worker.running, Worker.cap, Worker.deadOk]) <;>
    grind
  case append =>
    obtain ⟨f1, f2, f3, f4⟩ := h5
    simp only [stepWorker, hr, Worker.held, Worker.isDone, Worker.running, Worker.cap, Worker.deadOk] at h1 a b c d e f3 f4 ⊢
    refine ⟨?_, h2, h3, ⟨?_, ?_, ?_, ?_, ?_⟩, ⟨f1, f2, ?_, ?_⟩, h6, h7⟩ <;>
    (try simp only [Conserved, Worker.held, Worker.isDone, Worker.running, Worker.cap, Worker.deadOk, somes_snoc_some]) <;>
    grind
  case final =>
    obtain ⟨f1, f2, f3, f4⟩ := h5
    simp only [stepWorker, hr, Worker.held, Worker.isDone, Worker.running, Worker.cap, Worker.deadOk] at h1 a b c d e f3 f4 ⊢
    refine ⟨?_, h2, h3, ⟨?_, ?_, ?_, ?_, ?_⟩, ⟨f1, f2, ?_, ?_⟩, h6, h7⟩ <;>
    (try simp only [Conserved, Worker.held, Worker.isDone, Worker.running, Worker.cap, Worker.deadOk, somes_snoc_none]) <;>
    grind

/-- The condition of the worker is kept by steps of the writer that do not add to `res_deque`. -/
theorem WorkerOk.of {P : Params α ρ A} {s s' : State α A} (h : WorkerOk P s) (h1 : s'.worker = s.worker)
    (h2 : s'.reader = s.reader) (h3 : s'.dq = s.dq) (h4 : s'.src = s.src) (h5 : s'.force = s.force ∨ s'.force = true)
    (h6 : s'.rq.Sublist s.rq) : WorkerOk P s' := by
  obtain ⟨a, b, c, d, e⟩ := h
  have hb : (somes s'.rq).length ≤ (somes s.rq).length := (h6.filterMap id).length_le
  have hcap := s.worker.cap_mono P.nCores s.force
  rcases h5 with h5 | h5 <;> constructor
  all_goals simp only [h1, h2, h3, h4, h5]
  · exact fun h hm => a h (h6.subset hm)
  · omega
  · exact c
  · exact d
  · exact e
  · exact fun h hm => a h (h6.subset hm)
  · omega
  · exact c
  · exact .inl trivial
  · exact .inl trivial

theorem ReaderOk.of {P : Params α ρ A} {s s' : State α A} (h : ReaderOk P s) (h1 : s'.reader = s.reader)
    (h2 : s'.dq = s.dq) (h3 : s'.src = s.src) (h4 : s'.force = s.force ∨ s'.force = true)
    (h5 : s'.opened = s.opened ∨ s'.opened = true) : ReaderOk P s' := by
  unfold ReaderOk at *
  rw [h1]
  cases hr : s.reader <;> simp only [hr, h2, h3] at h ⊢ <;> grind

theorem mark_tail_none {l rest : List (Option β)} (h : none :: rest = l ++ [none]) (hl : none ∉ l) : rest = [] := by
  cases l with
  | nil => simpa using h
  | cons x l =>
    rw [List.cons_append] at h
    obtain ⟨h1, -⟩ := List.cons.inj h
    rw [← h1] at hl
    exact absurd (List.mem_cons_self ..) hl

theorem mark_tail_some {l rest : List (Option β)} {r : β} (h : some r :: rest = l ++ [none]) (hl : none ∉ l) :
    ∃ l', rest = l' ++ [none] ∧ none ∉ l' := by
  cases l with
  | nil => simp at h
  | cons x l =>
    rw [List.cons_append] at h
    obtain ⟨-, h2⟩ := List.cons.inj h
    exact ⟨l, h2, fun hm => hl (List.mem_cons_of_mem _ hm)⟩

theorem inv_writer (P : Params α ρ A) (proc : List α) (s : State α A) (h : Inv P proc s) :
    ∃ proc', Inv P proc' (stepWriter P s) := by
  have h0 := h
  obtain ⟨h1, h2, h3, h4, ⟨a, b, c, d⟩, h6, h7⟩ := h
  unfold Conserved at *
  cases hr : s.writer
  case done => rw [show stepWriter P s = s by simp only [stepWriter, hr]]; exact ⟨_, h0⟩
  case dead => rw [show stepWriter P s = s by simp only [stepWriter, hr]]; exact ⟨_, h0⟩
  case openFile =>
    refine ⟨proc, ?_⟩
    simp only [stepWriter, hr, Writer.held, Writer.res, Writer.running, Writer.localOk] at h1 a b c d ⊢
    split <;> refine ⟨?_, h2, h3.of rfl rfl rfl (by simp) (by simp), h4.of rfl rfl rfl rfl (by simp) (List.Sublist.refl _),
      ⟨?_, ?_, ?_, ?_⟩, h6, ?_⟩ <;>
    (try simp only [Conserved, Writer.held, Writer.res, Writer.running, Writer.localOk]) <;>
    grind
  case loop res =>
    refine ⟨proc, ?_⟩
    simp only [stepWriter, hr, Writer.held, Writer.res, Writer.running, Writer.localOk] at h1 a b c d ⊢
    cases res <;> split <;> refine ⟨?_, h2, h3.of rfl rfl rfl (by simp) (by simp),
      h4.of rfl rfl rfl rfl (by simp) (List.Sublist.refl _), ⟨?_, ?_, ?_, ?_⟩, h6, ?_⟩ <;>
    (try simp only [Conserved, Writer.held, Writer.res, Writer.running, Writer.localOk]) <;>
    grind
  case pop =>
    refine ⟨proc, ?_⟩
    simp only [stepWriter, hr, Writer.held, Writer.res, Writer.running, Writer.localOk] at h1 a b c d ⊢
    cases hq : s.rq with
    | nil =>
      refine ⟨?_, h2, h3.of rfl rfl rfl (by simp) (by simp),
        h4.of rfl rfl rfl rfl (by simp) (by simp), ⟨?_, ?_, ?_, ?_⟩, h6, ?_⟩ <;>
      (try simp only [Conserved, Writer.held, Writer.res, Writer.running, Writer.localOk]) <;>
      grind
    | cons x rest =>
      cases x with
      | none =>
        have hm := h4.noMark
        rw [hq] at hm h1 d
        have hd : s.worker.isDone = true := by
          cases hw : s.worker.isDone with
          | true => rfl
          | false => exact absurd (List.mem_cons_self ..) (hm hw)
        have hrest : s.force = true ∨ rest = [] := by
          rcases d with d | d | d | d | ⟨l, d, d'⟩
          · exact .inl d
          · rw [hd] at d; cases d
          · cases d
          · cases d
          · exact .inr (mark_tail_none d d')
        refine ⟨h1, h2, h3.of rfl rfl rfl (by simp) (by simp), h4.of rfl rfl rfl rfl (by simp) (by simp [hq]),
          ⟨a, b, ?_, .inr (.inr (.inl rfl))⟩, h6, h7⟩
        rcases hrest with h | h
        · exact .inl h
        · exact .inr (.inr ⟨hd, h, rfl⟩)
      | some r =>
        rw [hq] at h1 d
        refine ⟨?_, h2, h3.of rfl rfl rfl (by simp) (by simp), h4.of rfl rfl rfl rfl (by simp) (by simp [hq]),
          ⟨a, b, .inr (.inl rfl), ?_⟩, h6, h7⟩
        · simpa [Conserved, Writer.held, Writer.res, somes_some] using h1
        · rcases d with d | d | d | d | ⟨l, d, d'⟩
          · exact .inl d
          · exact .inr (.inl d)
          · cases d
          · cases d
          · exact .inr (.inr (.inr (.inr (mark_tail_some d d'))))
  case get r =>
    simp only [stepWriter, hr, Writer.held, Writer.res, Writer.running, Writer.localOk] at h1 a b c d ⊢
    have hp : ∃ proc', Inv P proc' (process P s r) := by
      unfold process
      split
      · rename_i hf
        refine ⟨proc, ⟨h1, h2, h3.of rfl rfl rfl (by simp) (by simp),
          h4.of rfl rfl rfl rfl (by simp) (List.Sublist.refl _), ⟨⟨a, ?_⟩, b, .inr (.inl rfl), ?_⟩, h6, h7⟩⟩
        · simp [hf]
        · grind
      · rename_i v hf
        split
        · rename_i hc
          refine ⟨proc, ⟨h1, h2, h3.of rfl rfl rfl (by simp) (by simp),
            h4.of rfl rfl rfl rfl (by simp) (List.Sublist.refl _), ⟨⟨a, ?_⟩, b, .inr (.inl rfl), ?_⟩, h6, h7⟩⟩
          · intro v' hv'
            rw [hf] at hv'
            cases hv'
            exact hc
          · grind
        · rename_i acc' hc
          refine ⟨proc ++ [r.2], ⟨?_, serialFrom_snoc P none proc _ h2 _ _ _ hf hc, h3.of rfl rfl rfl (by simp) (by simp),
            h4.of rfl rfl rfl rfl (by simp) (List.Sublist.refl _), ⟨a, b, .inr (.inl rfl), ?_⟩, h6, h7⟩⟩
          · simpa [Conserved, Writer.held, Writer.res] using h1
          · grind
    split
    · exact hp
    · split
      · exact hp
      · refine ⟨proc, ⟨h1, h2, h3.of rfl rfl rfl (by simp) (by simp),
          h4.of rfl rfl rfl rfl (by simp) (List.Sublist.refl _), ⟨a, b, .inr (.inl rfl), ?_⟩, h6, h7⟩⟩
        grind
  case finish res =>
    refine ⟨proc, ?_⟩
    simp only [stepWriter, hr, Writer.held, Writer.res, Writer.running, Writer.localOk] at h1 a b c d ⊢
    split
    · refine ⟨h1, h2, h3.of rfl rfl rfl (by simp) (by simp), h4.of rfl rfl rfl rfl (by simp) (List.Sublist.refl _),
        ⟨a, b, c, .inr (.inr (.inl rfl))⟩, h6, h7⟩
    · rename_i hforce
      have hforce : s.force = false := by simpa using hforce
      rw [hforce] at c
      obtain ⟨c1, c2, c3⟩ : s.worker.isDone = true ∧ s.rq = [] ∧ res = none := by simpa using c
      have hd := h4.ended
      have hwk : s.worker = .done := by
        cases hw : s.worker <;> rw [hw] at c1 <;> first | rfl | cases c1
      rw [hforce, hwk] at hd
      obtain ⟨d1, d2, d3⟩ : s.reader.isDone = true ∧ s.dq = [] ∧ s.src = [] := by simpa [Worker.running] using hd
      have hrd : s.reader = .done := by
        cases hw : s.reader <;> rw [hw] at d1 <;> first | rfl | cases d1
      have hall : proc = P.chunks := by
        simpa [c2, c3, hwk, hrd, d2, d3, somes_nil, Worker.held, Reader.held] using h1
      cases hacc : s.acc with
      | none =>
        simp only []
        refine ⟨h1, by rw [h2, hacc], h3.of rfl rfl rfl (by simp) (by simp), h4.of rfl rfl rfl rfl (by simp) (List.Sublist.refl _),
          ⟨?_, b, .inr (.inl rfl), ?_⟩, h6, h7⟩
        · rw [c3]
          refine .inr ⟨?_, a⟩
          rw [hacc, hall] at h2
          cases hch : P.chunks with
          | nil => rfl
          | cons x xs =>
            exfalso
            rw [hch] at h2
            have : ∀ (l : List α) (b : A), serialFrom P (some b) l ≠ some none := by
              intro l
              induction l with
              | nil => simp [serialFrom]
              | cons y ys ih =>
                intro b h
                unfold serialFrom at h
                split at h
                · cases h
                · split at h
                  · cases h
                  · exact ih _ h
            unfold serialFrom at h2
            split at h2
            · cases h2
            · split at h2
              · cases h2
              · exact this _ _ h2
        · rw [c3]; simp
      | some acc' =>
        simp only []
        refine ⟨h1, by rw [h2, hacc], h3.of rfl rfl rfl (by simp) (by simp), h4.of rfl rfl rfl rfl (by simp) (List.Sublist.refl _),
          ⟨a, b, .inr (.inr ⟨c1, c2, c3⟩), .inr (.inr (.inl rfl))⟩, ?_, h7⟩
        intro a' ha'
        cases ha'
        rw [← hall, h2, hacc]

theorem inv_pool (P : Params α ρ A) (proc : List α) (s : State α A) (h : Inv P proc s) (k : Nat) :
    Inv P proc (step P s (.pool k)) := by
  unfold step
  simp only []
  split
  · obtain ⟨h1, h2, h3, h4, h5, h6, h7⟩ := h
    exact ⟨h1, h2, h3.of rfl rfl rfl (by simp) (by simp), h4.of rfl rfl rfl rfl (by simp) (List.Sublist.refl _),
      h5.of rfl rfl rfl (by simp) rfl rfl, h6, h7⟩
  · exact h

/-- The invariant holds in every execution. -/
theorem inv_run (P : Params α ρ A) (sched : Nat → Actor) (n : Nat) : ∃ proc, Inv P proc (run P sched n) := by
  induction n with
  | zero => exact ⟨[], inv_init P⟩
  | succ n ih =>
    obtain ⟨proc, h⟩ := ih
    unfold run
    cases sched n with
    | reader => exact ⟨proc, inv_reader P proc _ h⟩
    | worker => exact ⟨proc, inv_worker P proc _ h⟩
    | writer => exact inv_writer P proc _ h
    | pool k => exact ⟨proc, inv_pool P proc _ h k⟩

end BTA.Smc
