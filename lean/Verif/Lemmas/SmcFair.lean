import Verif.Lemmas.Smc
import Mathlib.Data.Nat.Init
import Mathlib.Tactic.Common
/-
Termination of `SMC` under fair schedules.
-/
namespace BTA.Smc

variable {α ρ A : Type}

/-! ### Remaining work -/

def Reader.work : Reader α → Nat
  | .waitOpened => 8
  | .waitStop => 8
  | .openFile => 7
  | .loop => 6
  | .next => 5
  | .append _ => 17
  | .waitLen => 8
  | .waitForce => 8
  | .final => 3
  | .done => 0
  | .dead => 0

def Worker.work : Worker α → Nat
  | .loop => 4
  | .pop => 4
  | .waitLen _ => 10
  | .waitForce _ => 10
  | .call _ => 9
  | .append _ => 8
  | .final => 3
  | .done => 0
  | .dead _ => 0

def Writer.work : Writer α → Nat
  | .openFile => 5
  | .loop none => 3
  | .pop => 3
  | .loop (some _) => 4
  | .get _ => 4
  | .finish _ => 2
  | .done _ => 0
  | .dead _ => 0

/-- Remaining work for the entries of a deque. -/
def qwork (w : Nat) (q : List (Option β)) : Nat := (q.map fun o => if o.isSome then w else 1).sum

theorem qwork_nil (w : Nat) : qwork w ([] : List (Option β)) = 0 := rfl
theorem qwork_none (w : Nat) (q : List (Option β)) : qwork w (none :: q) = 1 + qwork w q := by simp [qwork]
theorem qwork_some (w : Nat) (x : β) (q : List (Option β)) : qwork w (some x :: q) = w + qwork w q := by simp [qwork]
theorem qwork_snoc_none (w : Nat) (q : List (Option β)) : qwork w (q ++ [none]) = qwork w q + 1 := by simp [qwork]
theorem qwork_snoc_some (w : Nat) (x : β) (q : List (Option β)) : qwork w (q ++ [some x]) = qwork w q + w := by simp [qwork]

/-- Remaining work: no step increases it, and a step that keeps it is a step of a waiting loop. -/
def State.work (s : State α A) : Nat :=
  13 * s.src.length + s.reader.work + qwork 8 s.dq + s.worker.work + qwork 3 s.rq + s.writer.work

def Reader.norm : Reader α → Reader α
  | .waitStop => .waitOpened
  | .waitForce => .waitLen
  | r => r

def Worker.norm : Worker α → Worker α
  | .pop => .loop
  | .waitForce c => .waitLen c
  | w => w

def Writer.norm : Writer α → Writer α
  | .pop => .loop none
  | .get r => .loop (some r)
  | w => w

/-- The states of a waiting loop are identified. -/
def State.norm (s : State α A) : State α A :=
  { s with reader := s.reader.norm, worker := s.worker.norm, writer := s.writer.norm, completed := fun _ => false }

theorem reader_work (P : Params α ρ A) (s : State α A) :
    (stepReader P s).work < s.work ∨ (stepReader P s).norm = s.norm := by
  obtain ⟨reader, worker, writer, src, dq, rq, opened, force, submitted, completed, acc, stored⟩ := s
  cases reader <;> simp only [stepReader] <;> (repeat' split) <;>
    simp_all [State.work, State.norm, Reader.work, Reader.norm, qwork_snoc_some, qwork_snoc_none] <;> omega

theorem worker_work (P : Params α ρ A) (s : State α A) :
    (stepWorker P s).work < s.work ∨ (stepWorker P s).norm = s.norm := by
  obtain ⟨reader, worker, writer, src, dq, rq, opened, force, submitted, completed, acc, stored⟩ := s
  cases worker <;> simp only [stepWorker] <;> (repeat' split) <;>
    simp_all [State.work, State.norm, Worker.work, Worker.norm, qwork_snoc_some, qwork_snoc_none, qwork_some, qwork_none] <;> omega

theorem writer_work (P : Params α ρ A) (s : State α A) :
    (stepWriter P s).work < s.work ∨ (stepWriter P s).norm = s.norm := by
  obtain ⟨reader, worker, writer, src, dq, rq, opened, force, submitted, completed, acc, stored⟩ := s
  rcases writer with _ | (_ | r) | _ | r | r | r | r <;> simp only [stepWriter, process] <;> (repeat' split) <;>
    simp_all [State.work, State.norm, Writer.work, Writer.norm, qwork_some, qwork_none] <;> omega

theorem step_work (P : Params α ρ A) (s : State α A) (a : Actor) :
    (step P s a).work < s.work ∨ (step P s a).norm = s.norm := by
  cases a with
  | reader => exact reader_work P s
  | worker => exact worker_work P s
  | writer => exact writer_work P s
  | pool k =>
    right
    unfold step
    simp only []
    split <;> rfl

theorem work_norm (s s' : State α A) (h : s.norm = s'.norm) : s.work = s'.work := by
  have e : ∀ s : State α A, s.norm.work = s.work := by
    intro s
    obtain ⟨reader, worker, writer, src, dq, rq, opened, force, submitted, completed, acc, stored⟩ := s
    have h1 : reader.norm.work = reader.work := by cases reader <;> rfl
    have h2 : worker.norm.work = worker.work := by cases worker <;> rfl
    have h3 : writer.norm.work = writer.work := by rcases writer with _ | (_ | r) | _ | r | r | r | r <;> rfl
    simp only [State.norm, State.work, h1, h2, h3]
  rw [← e s, ← e s', h]

theorem run_succ (P : Params α ρ A) (sched : Nat → Actor) (n : Nat) :
    run P sched (n + 1) = step P (run P sched n) (sched n) := rfl

theorem run_work (P : Params α ρ A) (sched : Nat → Actor) (n : Nat) : (run P sched (n + 1)).work ≤ (run P sched n).work := by
  rw [run_succ]
  rcases step_work P (run P sched n) (sched n) with h | h
  · omega
  · exact Nat.le_of_eq (work_norm _ _ h)

/-- From some time on only waiting loops are executed. -/
theorem eventually_stable (P : Params α ρ A) (sched : Nat → Actor) :
    ∃ N, ∀ m, N ≤ m → (run P sched m).norm = (run P sched N).norm := by
  have key : ∀ w N, (run P sched N).work ≤ w → ∃ N', ∀ m, N' ≤ m → (run P sched m).norm = (run P sched N').norm := by
    intro w
    induction w with
    | zero =>
      intro N hN
      refine ⟨N, fun m hm => ?_⟩
      induction m, hm using Nat.le_induction with
      | base => rfl
      | succ m hm ih =>
        rw [← ih]
        have := work_norm _ _ ih
        rcases step_work P (run P sched m) (sched m) with h | h
        · omega
        · exact h
    | succ w ihw =>
      intro N hN
      by_cases hs : ∀ m, N ≤ m → (run P sched m).norm = (run P sched N).norm
      · exact ⟨N, hs⟩
      · by_cases hd : ∃ m, N ≤ m ∧ (run P sched m).work ≤ w
        · obtain ⟨m, -, hm⟩ := hd
          exact ihw m hm
        · exfalso
          apply hs
          intro m hm
          induction m, hm using Nat.le_induction with
          | base => rfl
          | succ m hm ih =>
            rw [← ih]
            have h1 := work_norm _ _ ih
            rcases step_work P (run P sched m) (sched m) with h | h
            · exact absurd ⟨m + 1, by omega, by rw [run_succ]; omega⟩ hd
            · exact h
  exact key _ 0 (Nat.le_refl _)

/-! ### Fairness -/

/-- Every thread is scheduled again and again, and every task of the pool completes at some time. -/
structure Fair (sched : Nat → Actor) : Prop where
  reader : ∀ n, ∃ m, n ≤ m ∧ sched m = .reader
  worker : ∀ n, ∃ m, n ≤ m ∧ sched m = .worker
  writer : ∀ n, ∃ m, n ≤ m ∧ sched m = .writer
  pool : ∀ k n, ∃ m, n ≤ m ∧ sched m = .pool k

/-- A thread that alternates between two program counters is scheduled at each of them. -/
theorem alternate {β : Type} (f : Nat → β) (tick : Nat → Prop) (N : Nat) (fair : ∀ n, ∃ m, n ≤ m ∧ tick m)
    (hother : ∀ m, N ≤ m → ¬ tick m → f (m + 1) = f m) (X Y : β) (hX : ∀ m, N ≤ m → tick m → f m = X → f (m + 1) = Y)
    (hY : ∀ m, N ≤ m → tick m → f m = Y → f (m + 1) = X) (m0 : Nat) (hm0 : N ≤ m0) (h0 : f m0 = X ∨ f m0 = Y) :
    (∃ m, N ≤ m ∧ tick m ∧ f m = X) ∧ ∃ m, N ≤ m ∧ tick m ∧ f m = Y := by
  have key : ∀ k j, N ≤ j → tick (j + k) → ∃ m, N ≤ m ∧ tick m ∧ f m = f j := by
    intro k
    induction k with
    | zero => intro j hj ht; exact ⟨j, hj, ht, rfl⟩
    | succ k ih =>
      intro j hj ht
      by_cases h : tick j
      · exact ⟨j, hj, h, rfl⟩
      · obtain ⟨m, h1, h2, h3⟩ := ih (j + 1) (by omega) (by rw [show j + 1 + k = j + (k + 1) by omega]; exact ht)
        exact ⟨m, h1, h2, h3.trans (hother j hj h)⟩
  have key' : ∀ j, N ≤ j → ∃ m, N ≤ m ∧ tick m ∧ f m = f j := by
    intro j hj
    obtain ⟨m, h1, h2⟩ := fair j
    exact key (m - j) j hj (by rw [show j + (m - j) = m by omega]; exact h2)
  rcases h0 with h0 | h0
  · obtain ⟨m1, a1, a2, a3⟩ := key' m0 hm0
    obtain ⟨m2, b1, b2, b3⟩ := key' (m1 + 1) (by omega)
    exact ⟨⟨m1, a1, a2, a3.trans h0⟩, ⟨m2, b1, b2, b3.trans (hX m1 a1 a2 (a3.trans h0))⟩⟩
  · obtain ⟨m1, a1, a2, a3⟩ := key' m0 hm0
    obtain ⟨m2, b1, b2, b3⟩ := key' (m1 + 1) (by omega)
    exact ⟨⟨m2, b1, b2, b3.trans (hY m1 a1 a2 (a3.trans h0))⟩, ⟨m1, a1, a2, a3.trans h0⟩⟩

theorem reader_only (P : Params α ρ A) (s : State α A) (a : Actor) (h : a ≠ .reader) : (step P s a).reader = s.reader := by
  cases a with
  | reader => exact absurd rfl h
  | worker => unfold step stepWorker; simp only []; (repeat' split) <;> rfl
  | writer => unfold step stepWriter process; simp only []; (repeat' split) <;> rfl
  | pool k => unfold step; simp only []; split <;> rfl

theorem worker_only (P : Params α ρ A) (s : State α A) (a : Actor) (h : a ≠ .worker) : (step P s a).worker = s.worker := by
  cases a with
  | worker => exact absurd rfl h
  | reader => unfold step stepReader; simp only []; (repeat' split) <;> rfl
  | writer => unfold step stepWriter process; simp only []; (repeat' split) <;> rfl
  | pool k => unfold step; simp only []; split <;> rfl

theorem writer_only (P : Params α ρ A) (s : State α A) (a : Actor) (h : a ≠ .writer) : (step P s a).writer = s.writer := by
  cases a with
  | writer => exact absurd rfl h
  | reader => unfold step stepReader; simp only []; (repeat' split) <;> rfl
  | worker => unfold step stepWorker; simp only []; (repeat' split) <;> rfl
  | pool k => unfold step; simp only []; split <;> rfl

/-! ### Tasks -/

/-- The results waiting for the writer belong to created tasks. -/
def Tasks (s : State α A) : Prop :=
  (∀ r, some r ∈ s.rq → r.1 < s.submitted) ∧ ∀ r, s.writer.res = some r → r.1 < s.submitted

theorem tasks_run (P : Params α ρ A) (sched : Nat → Actor) (n : Nat) : Tasks (run P sched n) := by
  induction n with
  | zero => simp [run, init, Tasks, Writer.res]
  | succ n ih =>
    rw [run_succ]
    generalize run P sched n = s at ih
    obtain ⟨reader, worker, writer, src, dq, rq, opened, force, submitted, completed, acc, stored⟩ := s
    unfold Tasks at *
    simp only at ih
    cases sched n with
    | reader =>
      cases reader <;> simp only [step, stepReader] <;> (repeat' split) <;> exact ih
    | worker =>
      cases worker <;> simp only [step, stepWorker] <;> (repeat' split) <;> first | exact ih | (grind)
    | writer =>
      rcases writer with _ | (_ | r) | _ | r | r | r | r <;> simp only [step, stepWriter, process] <;> (repeat' split) <;>
        first | exact ih | grind [Writer.res]
    | pool k =>
      simp only [step]
      split <;> exact ih

theorem completed_mono (P : Params α ρ A) (sched : Nat → Actor) (k n m : Nat) (hnm : n ≤ m)
    (h : (run P sched n).completed k = true) : (run P sched m).completed k = true := by
  induction m, hnm using Nat.le_induction with
  | base => exact h
  | succ m _ ih =>
    rw [run_succ]
    generalize run P sched m = s at ih
    cases sched m with
    | reader => unfold step stepReader; simp only []; (repeat' split) <;> exact ih
    | worker => unfold step stepWorker; simp only []; (repeat' split) <;> exact ih
    | writer => unfold step stepWriter process; simp only []; (repeat' split) <;> exact ih
    | pool i =>
      simp only [step]
      split
      · simp only []
        split
        · rfl
        · exact ih
      · exact ih

/-! ### The stable state -/

theorem reader_stuck (P : Params α ρ A) (s : State α A) (h : (stepReader P s).reader.norm = s.reader.norm) :
    s.reader.ended = true ∨ (s.reader = .waitOpened ∧ s.opened = false ∧ (stepReader P s).reader = .waitStop) ∨
    (s.reader = .waitStop ∧ s.force = false ∧ (stepReader P s).reader = .waitOpened) ∨
    (s.reader = .waitLen ∧ s.dq ≠ [] ∧ (stepReader P s).reader = .waitForce) ∨
    (s.reader = .waitForce ∧ s.force = false ∧ (stepReader P s).reader = .waitLen) := by
  unfold stepReader at *
  cases hr : s.reader <;> simp only [hr] at h ⊢ <;> (repeat' split at h) <;>
    simp_all [Reader.norm, Reader.ended]
  rename_i h1
  intro h0
  rw [h0] at h1
  simp at h1

theorem worker_stuck (P : Params α ρ A) (s : State α A) (h : (stepWorker P s).worker.norm = s.worker.norm) :
    s.worker.ended = true ∨ (s.worker = .loop ∧ s.force = false ∧ (stepWorker P s).worker = .pop) ∨
    (s.worker = .pop ∧ s.dq = [] ∧ (stepWorker P s).worker = .loop) ∨
    (∃ c, s.worker = .waitLen c ∧ P.nCores + 1 ≤ s.rq.length ∧ (stepWorker P s).worker = .waitForce c) ∨
    (∃ c, s.worker = .waitForce c ∧ s.force = false ∧ (stepWorker P s).worker = .waitLen c) := by
  unfold stepWorker at *
  cases hr : s.worker <;> simp only [hr] at h ⊢ <;> (try split at h) <;>
    simp_all [Worker.norm, Worker.ended] 

theorem writer_stuck (P : Params α ρ A) (s : State α A) (h : (stepWriter P s).writer.norm = s.writer.norm) :
    s.writer.ended = true ∨ (s.writer = .loop none ∧ s.force = false ∧ (stepWriter P s).writer = .pop) ∨
    (s.writer = .pop ∧ s.rq = [] ∧ (stepWriter P s).writer = .loop none) ∨
    (∃ r, s.writer = .loop (some r) ∧ s.force = false ∧ (stepWriter P s).writer = .get r) ∨
    (∃ r, s.writer = .get r ∧ s.completed r.1 = false ∧ (stepWriter P s).writer = .loop (some r)) := by
  unfold stepWriter process at *
  rcases hr : s.writer with _ | (_ | r) | _ | r | r | r | r <;> simp only [hr] at h ⊢ <;> (repeat' split at h) <;>
    simp_all [Writer.norm, Writer.ended]

theorem Reader.ended_norm (r : Reader α) : r.norm.ended = r.ended := by cases r <;> rfl
theorem Worker.ended_norm (r : Worker α) : r.norm.ended = r.ended := by cases r <;> rfl
theorem Writer.ended_norm (r : Writer α) : r.norm.ended = r.ended := by cases r <;> rfl

section
variable (P : Params α ρ A) (sched : Nat → Actor) (N : Nat)
  (hst : ∀ m, N ≤ m → (run P sched m).norm = (run P sched N).norm)
include hst

theorem stable_fields (m : Nat) (hm : N ≤ m) :
    (run P sched m).reader.norm = (run P sched N).reader.norm ∧ (run P sched m).worker.norm = (run P sched N).worker.norm ∧
    (run P sched m).writer.norm = (run P sched N).writer.norm ∧ (run P sched m).dq = (run P sched N).dq ∧
    (run P sched m).rq = (run P sched N).rq ∧ (run P sched m).force = (run P sched N).force ∧
    (run P sched m).opened = (run P sched N).opened :=
  have h := hst m hm
  ⟨congrArg State.reader h, congrArg State.worker h, congrArg State.writer h, congrArg (fun s => s.dq) h,
   congrArg (fun s => s.rq) h, congrArg (fun s => s.force) h, congrArg (fun s => s.opened) h⟩

theorem stable_reader (hfair : Fair sched) :
    (run P sched N).reader.ended = true ∨
    ((run P sched N).reader.norm = Reader.norm .waitOpened ∧ (run P sched N).opened = false ∧ (run P sched N).force = false) ∨
    ((run P sched N).reader.norm = Reader.norm .waitLen ∧ (run P sched N).dq ≠ [] ∧ (run P sched N).force = false) := by
  have F := stable_fields P sched N hst
  have next : ∀ m, sched m = .reader → (run P sched (m + 1)).reader = (stepReader P (run P sched m)).reader := by
    intro m hs
    rw [run_succ, hs]
    rfl
  have stuck : ∀ m, N ≤ m → sched m = .reader → _ := fun m hm hs => reader_stuck P (run P sched m) (by
    rw [← next m hs, (F (m + 1) (by omega)).1, (F m hm).1])
  have other : ∀ m, N ≤ m → ¬ sched m = .reader → (run P sched (m + 1)).reader = (run P sched m).reader := by
    intro m _ hs
    rw [run_succ]
    exact reader_only P _ _ hs
  obtain ⟨m, hm, hs⟩ := hfair.reader N
  have h0 := (F m hm).1
  have alt := alternate (fun m => (run P sched m).reader) (fun m => sched m = .reader) N hfair.reader other
  have loop1 : (run P sched m).reader = .waitOpened ∨ (run P sched m).reader = .waitStop →
      (run P sched N).opened = false ∧ (run P sched N).force = false := by
    intro h
    obtain ⟨⟨m1, a1, a2, a3⟩, ⟨m2, b1, b2, b3⟩⟩ := alt .waitOpened .waitStop
      (by intro m hm hs h; rw [next m hs]; have := stuck m hm hs; simpa [h, Reader.ended] using And.right (by simpa [h, Reader.ended] using this))
      (by intro m hm hs h; rw [next m hs]; have := stuck m hm hs; simpa [h, Reader.ended] using And.right (by simpa [h, Reader.ended] using this))
      m hm h
    have e1 := stuck m1 a1 a2
    have e2 := stuck m2 b1 b2
    simp only [a3, b3, Reader.ended, reduceCtorEq, false_and, true_and, or_false, false_or, Bool.false_eq_true] at e1 e2
    exact ⟨(F m1 a1).2.2.2.2.2.2 ▸ e1.1, (F m2 b1).2.2.2.2.2.1 ▸ e2.1⟩
  have loop2 : (run P sched m).reader = .waitLen ∨ (run P sched m).reader = .waitForce →
      (run P sched N).dq ≠ [] ∧ (run P sched N).force = false := by
    intro h
    obtain ⟨⟨m1, a1, a2, a3⟩, ⟨m2, b1, b2, b3⟩⟩ := alt .waitLen .waitForce
      (by intro m hm hs h; rw [next m hs]; have := stuck m hm hs; simpa [h, Reader.ended] using And.right (by simpa [h, Reader.ended] using this))
      (by intro m hm hs h; rw [next m hs]; have := stuck m hm hs; simpa [h, Reader.ended] using And.right (by simpa [h, Reader.ended] using this))
      m hm h
    have e1 := stuck m1 a1 a2
    have e2 := stuck m2 b1 b2
    simp only [a3, b3, Reader.ended, reduceCtorEq, false_and, true_and, or_false, false_or, Bool.false_eq_true] at e1 e2
    exact ⟨(F m1 a1).2.2.2.1 ▸ e1.1, (F m2 b1).2.2.2.2.2.1 ▸ e2.1⟩
  rcases stuck m hm hs with h | ⟨h, -⟩ | ⟨h, -⟩ | ⟨h, -⟩ | ⟨h, -⟩
  · left
    rw [← Reader.ended_norm, ← h0, Reader.ended_norm, h]
  · exact .inr (.inl ⟨by rw [← h0, h], loop1 (.inl h)⟩)
  · exact .inr (.inl ⟨by rw [← h0, h]; rfl, loop1 (.inr h)⟩)
  · exact .inr (.inr ⟨by rw [← h0, h], loop2 (.inl h)⟩)
  · exact .inr (.inr ⟨by rw [← h0, h]; rfl, loop2 (.inr h)⟩)

theorem stable_worker (hfair : Fair sched) :
    (run P sched N).worker.ended = true ∨
    ((run P sched N).worker.norm = Worker.norm .loop ∧ (run P sched N).dq = [] ∧ (run P sched N).force = false) ∨
    (∃ c, (run P sched N).worker.norm = Worker.norm (.waitLen c) ∧ P.nCores + 1 ≤ (run P sched N).rq.length ∧
      (run P sched N).force = false) := by
  have F := stable_fields P sched N hst
  have next : ∀ m, sched m = .worker → (run P sched (m + 1)).worker = (stepWorker P (run P sched m)).worker := by
    intro m hs
    rw [run_succ, hs]
    rfl
  have stuck : ∀ m, N ≤ m → sched m = .worker → _ := fun m hm hs => worker_stuck P (run P sched m) (by
    rw [← next m hs, (F (m + 1) (by omega)).2.1, (F m hm).2.1])
  have other : ∀ m, N ≤ m → ¬ sched m = .worker → (run P sched (m + 1)).worker = (run P sched m).worker := by
    intro m _ hs
    rw [run_succ]
    exact worker_only P _ _ hs
  obtain ⟨m, hm, hs⟩ := hfair.worker N
  have h0 := (F m hm).2.1
  have alt := alternate (fun m => (run P sched m).worker) (fun m => sched m = .worker) N hfair.worker other
  have loop1 : (run P sched m).worker = .loop ∨ (run P sched m).worker = .pop →
      (run P sched N).dq = [] ∧ (run P sched N).force = false := by
    intro h
    obtain ⟨⟨m1, a1, a2, a3⟩, ⟨m2, b1, b2, b3⟩⟩ := alt .loop .pop
      (by intro m hm hs h; rw [next m hs]; have := stuck m hm hs; simpa [h, Worker.ended] using And.right (by simpa [h, Worker.ended] using this))
      (by intro m hm hs h; rw [next m hs]; have := stuck m hm hs; simpa [h, Worker.ended] using And.right (by simpa [h, Worker.ended] using this))
      m hm h
    have e1 := stuck m1 a1 a2
    have e2 := stuck m2 b1 b2
    simp only [a3, b3, Worker.ended, reduceCtorEq, false_and, true_and, or_false, false_or, Bool.false_eq_true, exists_false] at e1 e2
    exact ⟨(F m2 b1).2.2.2.1 ▸ e2.1, (F m1 a1).2.2.2.2.2.1 ▸ e1.1⟩
  have loop2 : ∀ c, (run P sched m).worker = .waitLen c ∨ (run P sched m).worker = .waitForce c →
      P.nCores + 1 ≤ (run P sched N).rq.length ∧ (run P sched N).force = false := by
    intro c h
    obtain ⟨⟨m1, a1, a2, a3⟩, ⟨m2, b1, b2, b3⟩⟩ := alt (.waitLen c) (.waitForce c)
      (by intro m hm hs h; rw [next m hs]; have := stuck m hm hs; simpa [h, Worker.ended] using And.right (by simpa [h, Worker.ended] using this))
      (by intro m hm hs h; rw [next m hs]; have := stuck m hm hs; simpa [h, Worker.ended] using And.right (by simpa [h, Worker.ended] using this))
      m hm h
    have e1 := stuck m1 a1 a2
    have e2 := stuck m2 b1 b2
    simp only [a3, b3, Worker.ended, reduceCtorEq, false_and, true_and, or_false, false_or, Bool.false_eq_true, exists_false,
      Worker.waitLen.injEq, Worker.waitForce.injEq, exists_eq_left', exists_eq_left] at e1 e2
    exact ⟨(F m1 a1).2.2.2.2.1 ▸ e1.1, (F m2 b1).2.2.2.2.2.1 ▸ e2.1⟩
  rcases stuck m hm hs with h | ⟨h, -⟩ | ⟨h, -⟩ | ⟨c, h, -⟩ | ⟨c, h, -⟩
  · left
    rw [← Worker.ended_norm, ← h0, Worker.ended_norm, h]
  · exact .inr (.inl ⟨by rw [← h0, h], loop1 (.inl h)⟩)
  · exact .inr (.inl ⟨by rw [← h0, h]; rfl, loop1 (.inr h)⟩)
  · exact .inr (.inr ⟨c, by rw [← h0, h], loop2 c (.inl h)⟩)
  · exact .inr (.inr ⟨c, by rw [← h0, h]; rfl, loop2 c (.inr h)⟩)

theorem stable_writer (hfair : Fair sched) :
    (run P sched N).writer.ended = true ∨
    ((run P sched N).writer.norm = Writer.norm (.loop none) ∧ (run P sched N).rq = [] ∧ (run P sched N).force = false) := by
  have F := stable_fields P sched N hst
  have next : ∀ m, sched m = .writer → (run P sched (m + 1)).writer = (stepWriter P (run P sched m)).writer := by
    intro m hs
    rw [run_succ, hs]
    rfl
  have stuck : ∀ m, N ≤ m → sched m = .writer → _ := fun m hm hs => writer_stuck P (run P sched m) (by
    rw [← next m hs, (F (m + 1) (by omega)).2.2.1, (F m hm).2.2.1])
  have other : ∀ m, N ≤ m → ¬ sched m = .writer → (run P sched (m + 1)).writer = (run P sched m).writer := by
    intro m _ hs
    rw [run_succ]
    exact writer_only P _ _ hs
  obtain ⟨m, hm, hs⟩ := hfair.writer N
  have h0 := (F m hm).2.2.1
  have alt := fun M (hM : N ≤ M) => alternate (fun m => (run P sched m).writer) (fun m => sched m = .writer) M hfair.writer
    (fun m hm => other m (Nat.le_trans hM hm))
  have loop1 : (run P sched m).writer = .loop none ∨ (run P sched m).writer = .pop →
      (run P sched N).rq = [] ∧ (run P sched N).force = false := by
    intro h
    obtain ⟨⟨m1, a1, a2, a3⟩, ⟨m2, b1, b2, b3⟩⟩ := alt N (Nat.le_refl _) (.loop none) .pop
      (by intro m hm hs h; rw [next m hs]; have := stuck m hm hs; simpa [h, Writer.ended] using And.right (by simpa [h, Writer.ended] using this))
      (by intro m hm hs h; rw [next m hs]; have := stuck m hm hs; simpa [h, Writer.ended] using And.right (by simpa [h, Writer.ended] using this))
      m hm h
    have e1 := stuck m1 a1 a2
    have e2 := stuck m2 b1 b2
    simp only [a3, b3, Writer.ended, reduceCtorEq, false_and, true_and, or_false, false_or, Bool.false_eq_true, exists_false,
      Writer.loop.injEq] at e1 e2
    exact ⟨(F m2 b1).2.2.2.2.1 ▸ e2.1, (F m1 a1).2.2.2.2.2.1 ▸ e1.1⟩
  have loop2 : ∀ r, (run P sched m).writer = .loop (some r) ∨ (run P sched m).writer = .get r → False := by
    intro r h
    -- the task of `r` is completed at some time
    have hsub : r.1 < (run P sched m).submitted := (tasks_run P sched m).2 r (by rcases h with h | h <;> rw [h] <;> rfl)
    obtain ⟨k, hk, hsk⟩ := hfair.pool r.1 m
    have hX : ∀ j, N ≤ j → sched j = .writer → (run P sched j).writer = .loop (some r) → (run P sched (j + 1)).writer = .get r := by
      intro m hm hs h
      rw [next m hs]
      have := stuck m hm hs
      simpa [h, Writer.ended] using And.right (by simpa [h, Writer.ended] using this)
    have hY : ∀ j, N ≤ j → sched j = .writer → (run P sched j).writer = .get r → (run P sched (j + 1)).writer = .loop (some r) := by
      intro m hm hs h
      rw [next m hs]
      have := stuck m hm hs
      simpa [h, Writer.ended] using And.right (by simpa [h, Writer.ended] using this)
    have hall : ∀ j, m ≤ j → (run P sched j).writer = .loop (some r) ∨ (run P sched j).writer = .get r := by
      intro j hj
      induction j, hj using Nat.le_induction with
      | base => exact h
      | succ j hj ih =>
        by_cases hsj : sched j = .writer
        · rcases ih with ih | ih
          · exact .inr (hX j (by omega) hsj ih)
          · exact .inl (hY j (by omega) hsj ih)
        · rw [other j (by omega) hsj]
          exact ih
    have hcomp : (run P sched (k + 1)).completed r.1 = true := by
      have hsub' : r.1 < (run P sched k).submitted :=
        (tasks_run P sched k).2 r (by rcases hall k hk with h | h <;> rw [h] <;> rfl)
      rw [run_succ, hsk]
      simp [step, hsub']
    obtain ⟨-, ⟨m2, b1, b2, b3⟩⟩ := alt (k + 1) (by omega) (.loop (some r)) (.get r)
      (fun j hj => hX j (by omega)) (fun j hj => hY j (by omega)) (k + 1) (Nat.le_refl _) (hall (k + 1) (by omega))
    have e2 := stuck m2 (by omega) b2
    have e3 := completed_mono P sched r.1 (k + 1) m2 b1 hcomp
    simp [b3, Writer.ended, e3] at e2
  rcases stuck m hm hs with h | ⟨h, -⟩ | ⟨h, -⟩ | ⟨r, h, -⟩ | ⟨r, h, -⟩
  · left
    rw [← Writer.ended_norm, ← h0, Writer.ended_norm, h]
  · exact .inr ⟨by rw [← h0, h], loop1 (.inl h)⟩
  · exact .inr ⟨by rw [← h0, h]; rfl, loop1 (.inr h)⟩
  · exact (loop2 r (.inl h)).elim
  · exact (loop2 r (.inr h)).elim

end

end BTA.Smc
