/-
Model of the three threads of the class `SMC`, beam_telescope_analysis/tools/smc.py L165-357: `_reader`, `_async_worker`,
`_writer`, and the main thread that joins them (`split_map_combine`).

The threads interleave arbitrarily. A step of a thread makes one access to the shared variables (`data_deque`, `res_deque`,
`force_stop`, `out_file_opened`, `out_file`); local variables are part of the program counter. Deque and event operations are
atomic. `Event.wait(0.01)` returns the value of the event at some instant, waiting is not modelled otherwise.

Simplifications:
* The chunks are given as the list of values of the generator `data_aligned_at_events` and whether it raises after them (see
  the model of the generator for what these are).
* The user function is deterministic. It returns a value or raises; it neither returns None nor raises `TimeoutError`.
* With one core the value of the function is put into `res_deque`, else a handle of a task of the process pool. Both are the
  chunk here, together with the number of the task. A task of the pool completes at an arbitrary time.
* The code of L254-297 between two accesses is the function `combine` (see `Verif.Model.SmcCombine`); it returns none if an
  exception is raised.
* Closing the files never fails. The code of L300-322 never fails if there was at least one result.
-/
namespace BTA.Smc

/-- Input of the constructor as far as it matters for the threads. -/
structure Params (α ρ A : Type) where
  /-- values of the generator (L182) -/
  chunks : List α
  /-- the generator raises an exception after the chunks -/
  readFails : Bool
  nCores : Nat
  func : α → Option ρ
  combine : Option A → ρ → Option A
  /-- `input_filename == output_filename` -/
  sameFile : Bool
  /-- opening the input file or getting the node fails (L173, L178) -/
  inFails : Bool
  /-- opening the output file fails (L229) -/
  outFails : Bool

/-- Program counter of `_reader`. -/
inductive Reader (α : Type)
  /-- L168, `out_file_opened.wait` -/
  | waitOpened
  /-- L168, `force_stop.wait` -/
  | waitStop
  /-- L172-181 -/
  | openFile
  /-- L183 -/
  | loop
  /-- L186 -/
  | next
  /-- L192 -/
  | append (c : α)
  /-- L193, length of the deque -/
  | waitLen
  /-- L193, `force_stop.wait` -/
  | waitForce
  /-- L201 -/
  | final
  | done
  /-- ended by an exception -/
  | dead

/-- Program counter of `_async_worker`. -/
inductive Worker (α : Type)
  /-- L204 -/
  | loop
  /-- L206 -/
  | pop
  /-- L211, length of the deque -/
  | waitLen (c : α)
  /-- L211, `force_stop.wait` -/
  | waitForce (c : α)
  /-- L213-221 -/
  | call (c : α)
  /-- L222 -/
  | append (c : α)
  /-- L223 -/
  | final
  | done
  /-- ended by an exception -/
  | dead (c : α)

/-- Program counter of `_writer`. The argument is the local variable `res`. -/
inductive Writer (α : Type)
  /-- L229-233 -/
  | openFile
  /-- L238 -/
  | loop (res : Option (Nat × α))
  /-- L241 -/
  | pop
  /-- L246-297 -/
  | get (res : Nat × α)
  /-- L299-324 -/
  | finish (res : Option (Nat × α))
  | done (res : Option (Nat × α))
  /-- ended by an exception -/
  | dead (res : Option (Nat × α))

structure State (α A : Type) where
  reader : Reader α
  worker : Worker α
  writer : Writer α
  /-- chunks the generator has not returned yet -/
  src : List α
  /-- `data_deque` -/
  dq : List (Option α)
  /-- `res_deque` -/
  rq : List (Option (Nat × α))
  /-- `out_file_opened` -/
  opened : Bool
  /-- `force_stop` -/
  force : Bool
  /-- number of tasks created so far -/
  submitted : Nat
  /-- completed tasks of the pool -/
  completed : Nat → Bool
  /-- `out_tables`, `hists`: none before the first result -/
  acc : Option A
  /-- the results in the output file with their final names, written at the end (L299-322) -/
  stored : Option A

variable {α ρ A : Type}

/-- L329-344: the threads are started. -/
def init (P : Params α ρ A) : State α A where
  reader := if P.sameFile then .waitOpened else .openFile
  worker := .loop
  writer := .openFile
  src := P.chunks
  dq := []
  rq := []
  opened := false
  force := false
  submitted := 0
  completed := fun _ => false
  acc := none
  stored := none

/-- One step of `_reader` (L165-201). -/
def stepReader (P : Params α ρ A) (s : State α A) : State α A :=
  match s.reader with
  | .waitOpened => if s.opened then { s with reader := .openFile } else { s with reader := .waitStop }
  | .waitStop => if s.force then { s with reader := .openFile } else { s with reader := .waitOpened }
  | .openFile =>
    -- with the same file, `in_file` is None if the output file was not opened
    if P.inFails || (P.sameFile && !s.opened) then { s with reader := .dead, force := true }
    else { s with reader := .loop }
  | .loop => if s.force then { s with reader := .final } else { s with reader := .next }
  | .next =>
    match s.src with
    | [] => if P.readFails then { s with reader := .dead, force := true } else { s with reader := .final }
    | c :: rest => { s with reader := .append c, src := rest }
  | .append c => { s with reader := .waitLen, dq := s.dq ++ [some c] }
  | .waitLen => if s.dq.length ≥ 1 then { s with reader := .waitForce } else { s with reader := .loop }
  | .waitForce => if s.force then { s with reader := .loop } else { s with reader := .waitLen }
  | .final => { s with reader := .done, dq := s.dq ++ [none] }
  | .done => s
  | .dead => s

/-- One step of `_async_worker` (L203-223). -/
def stepWorker (P : Params α ρ A) (s : State α A) : State α A :=
  match s.worker with
  | .loop => if s.force then { s with worker := .final } else { s with worker := .pop }
  | .pop =>
    match s.dq with
    | [] => { s with worker := .loop }
    | none :: rest => { s with worker := .final, dq := rest }
    | some c :: rest => { s with worker := .waitLen c, dq := rest }
  | .waitLen c =>
    if s.rq.length ≥ P.nCores + 1 then { s with worker := .waitForce c } else { s with worker := .call c }
  | .waitForce c => if s.force then { s with worker := .call c } else { s with worker := .waitLen c }
  | .call c =>
    if P.nCores = 1 ∧ P.func c = none then { s with worker := .dead c }      -- exception of the user function
    else { s with worker := .append c }
  | .append c => { s with worker := .loop, rq := s.rq ++ [some (s.submitted, c)], submitted := s.submitted + 1 }
  | .final => { s with worker := .done, rq := s.rq ++ [none] }
  | .done => s
  | .dead _ => s

/-- L254-297 for the chunk of `r`, whose value is known. -/
def process (P : Params α ρ A) (s : State α A) (r : Nat × α) : State α A :=
  match P.func r.2 with
  | none => { s with writer := .dead (some r) }                               -- L250, exception of the user function
  | some v =>
    match P.combine s.acc v with
    | none => { s with writer := .dead (some r) }
    | some a => { s with writer := .loop none, acc := some a }

/-- One step of `_writer` (L225-327). -/
def stepWriter (P : Params α ρ A) (s : State α A) : State α A :=
  match s.writer with
  | .openFile =>
    if P.outFails then { s with writer := .dead none, force := true }
    else { s with writer := .loop none, opened := true }
  | .loop res =>
    if s.force then { s with writer := .finish res }
    else match res with
      | none => { s with writer := .pop }
      | some r => { s with writer := .get r }
  | .pop =>
    match s.rq with
    | [] => { s with writer := .loop none }
    | none :: rest => { s with writer := .finish none, rq := rest }
    | some r :: rest => { s with writer := .get r, rq := rest }
  | .get r =>
    if P.nCores = 1 then process P s r
    else if s.completed r.1 then process P s r
    else { s with writer := .loop (some r) }                                  -- L251-252, timeout
  | .finish res =>
    if s.force then { s with writer := .done res }
    else match s.acc with
      | none => { s with writer := .dead res }                                -- L301, `res_data` is not defined
      | some a => { s with writer := .done res, stored := some a }
  | .done _ => s
  | .dead _ => s

/-- Who makes the next step: a thread, or the pool completing a task. -/
inductive Actor
  | reader | worker | writer
  | pool (task : Nat)
deriving DecidableEq

def step (P : Params α ρ A) (s : State α A) : Actor → State α A
  | .reader => stepReader P s
  | .worker => stepWorker P s
  | .writer => stepWriter P s
  | .pool k => if k < s.submitted then { s with completed := fun i => if i = k then true else s.completed i } else s

/-- The execution under a schedule. -/
def run (P : Params α ρ A) (sched : Nat → Actor) : Nat → State α A
  | 0 => init P
  | n + 1 => step P (run P sched n) (sched n)

def Reader.ended : Reader α → Bool
  | .done => true
  | .dead => true
  | _ => false

def Worker.ended : Worker α → Bool
  | .done => true
  | .dead _ => true
  | _ => false

def Writer.ended : Writer α → Bool
  | .done _ => true
  | .dead _ => true
  | _ => false

/-- All joins of L346-353 have returned: the constructor returns. Exceptions of the threads are not raised again. -/
def State.ended (s : State α A) : Bool := s.reader.ended && s.worker.ended && s.writer.ended

end BTA.Smc
