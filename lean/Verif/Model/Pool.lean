import Mathlib.Logic.Function.Basic
import Mathlib.Data.List.FinRange

/-!
# ThreadPool (src/electionguard/async.hpp:240-309) and wait_all (async.hpp:77-98)

The workers `Fin n`, the thread that destroys the pool and any number of threads that submit tasks (among
them the workers, while they run a task) take steps in any order.  A step is one operation on the queue or
one access to `_running`; that operations of the queue are atomic is C51.  A task is the number of
its submission.  A task ends sometime, with a result or an exception, which `std::packaged_task` stores.
That a thread cannot be started (async.hpp:250-253) is not modelled.
-/

namespace EG.Pool

/-- Where a worker is, async.hpp:298-308. -/
inductive WPc where
  /-- 303: before `_running` is read -/
  | loop
  /-- 305: before the queue is asked -/
  | pop
  /-- 306: the task runs -/
  | exec (i : ℕ)
  /-- the thread has ended -/
  | exited

/-- Where the destructor is, async.hpp:259-266. -/
inductive DPc (n : ℕ) where
  /-- not called yet -/
  | alive
  /-- 293: before `_running` is read -/
  | waitLoop
  /-- 294: before the queue is asked -/
  | waitEmpty
  /-- 267 -/
  | stop
  /-- 268-270: the threads that are still to be joined -/
  | join (ws : List (Fin n))
  /-- the destructor has returned -/
  | returned

structure State (n : ℕ) where
  queue : List ℕ
  /-- the number of tasks submitted so far -/
  next : ℕ
  running : Bool
  worker : Fin n → WPc
  destructor : DPc n

/-- async.hpp:243-254: a new pool with `n` threads. -/
def State.initial (n : ℕ) : State n where
  queue := []
  next := 0
  running := true
  worker := fun _ => .loop
  destructor := .alive

def State.goto {n : ℕ} (s : State n) (w : Fin n) (p : WPc) : State n :=
  { s with worker := Function.update s.worker w p }

/-- What is observed. -/
inductive Label (n : ℕ) where
  | submit (i : ℕ)
  | start (w : Fin n) (i : ℕ)
  | finish (w : Fin n) (i : ℕ)
  /-- the destructor finds the queue empty -/
  | sawEmpty
  | destroyed
  | tau

inductive Step {n : ℕ} (s : State n) : Label n → State n → Prop where
  /-- async.hpp:271-279; submitting to a pool that is destroyed is undefined and does not occur -/
  | submit (h : s.destructor ≠ .returned) :
      Step s (.submit s.next) { s with queue := s.queue ++ [s.next], next := s.next + 1 }
  /-- 303 -/
  | running (w) (h : s.worker w = .loop) (hr : s.running = true) : Step s .tau (s.goto w .pop)
  /-- 303 -/
  | exit (w) (h : s.worker w = .loop) (hr : s.running = false) : Step s .tau (s.goto w .exited)
  /-- 305 -/
  | take (w i rest) (h : s.worker w = .pop) (hq : s.queue = i :: rest) :
      Step s (.start w i) ({ s with queue := rest }.goto w (.exec i))
  /-- 305, 308 -/
  | takeNone (w) (h : s.worker w = .pop) (hq : s.queue = []) : Step s .tau (s.goto w .loop)
  /-- 306 -/
  | finish (w i) (h : s.worker w = .exec i) : Step s (.finish w i) (s.goto w .loop)
  /-- 266 -/
  | destroy (h : s.destructor = .alive) : Step s .tau { s with destructor := .waitLoop }
  /-- 293 -/
  | waitRunning (h : s.destructor = .waitLoop) (hr : s.running = true) :
      Step s .tau { s with destructor := .waitEmpty }
  /-- 293 -/
  | waitStopped (h : s.destructor = .waitLoop) (hr : s.running = false) :
      Step s .tau { s with destructor := .stop }
  /-- 294-295 -/
  | sawEmpty (h : s.destructor = .waitEmpty) (hq : s.queue = []) :
      Step s .sawEmpty { s with destructor := .stop }
  /-- 294, 297 -/
  | notEmpty (h : s.destructor = .waitEmpty) (hq : s.queue ≠ []) :
      Step s .tau { s with destructor := .waitLoop }
  /-- 267 -/
  | stop (h : s.destructor = .stop) :
      Step s .tau { s with running := false, destructor := .join (List.finRange n) }
  /-- 269 -/
  | join (w ws) (h : s.destructor = .join (w :: ws)) (he : s.worker w = .exited) :
      Step s .tau { s with destructor := .join ws }
  /-- 271; the queue with what is left in it is destroyed -/
  | destroyed (h : s.destructor = .join []) : Step s .destroyed { s with destructor := .returned }

/-- A history that starts in `s`. -/
inductive Run {n : ℕ} : State n → List (Label n) → State n → Prop where
  | nil (s) : Run s [] s
  | step {s l s' tr s''} (h : Run s tr s') (hs : Step s' l s'') : Run s (tr ++ [l]) s''

def submitted {n : ℕ} (tr : List (Label n)) : List ℕ :=
  tr.filterMap fun | .submit i => some i | _ => none
def started {n : ℕ} (tr : List (Label n)) : List ℕ :=
  tr.filterMap fun | .start _ i => some i | _ => none
def finished {n : ℕ} (tr : List (Label n)) : List ℕ :=
  tr.filterMap fun | .finish _ i => some i | _ => none

/-! ## wait_all -/

/-- A `future<unique_ptr<T>>`: without state (moved from, or its result taken), or with its result, an
exception being `none`, and the time from which on it is ready. -/
structure Future (V : Type) where
  valid : Bool
  result : Option V
  readyAt : ℕ

/-- async.hpp:77-84 `isReady` at time `t`. -/
def Future.isReady {V : Type} (f : Future V) (t : ℕ) : Bool := f.valid && decide (f.readyAt ≤ t)

/-- What has happened. -/
inductive Wait (V : Type) where
  /-- the loop goes on -/
  | cont (tasks : List (Future V)) (results : List V) (t : ℕ)
  /-- `get` threw the exception of a task -/
  | threw

/-- async.hpp:91-95: one pass over the tasks that begins at time `t`; between two tasks any time may pass,
`delay` says how much.  `task.get()` leaves the future without state. -/
def waitPass {V : Type} (delay : ℕ → ℕ) : List (Future V) → List V → ℕ → Wait V
  | [], results, t => .cont [] results t
  | f :: fs, results, t =>
    let t' := t + delay t
    if f.isReady t' then
      match f.result with
      | none => .threw
      | some v =>
        match waitPass delay fs (results ++ [v]) (t' + 1) with
        | .threw => .threw
        | .cont fs' r u => .cont ({ f with valid := false } :: fs') r u
    else
      match waitPass delay fs results (t' + 1) with
      | .threw => .threw
      | .cont fs' r u => .cont (f :: fs') r u

/-- async.hpp:86-98 `wait_all`, at most `fuel` passes; `none` if the loop has not ended by then. -/
def waitAll {V : Type} (delay : ℕ → ℕ) : ℕ → List (Future V) → List V → ℕ → Option (Except Unit (List V))
  | 0, _, _, _ => none
  | fuel + 1, tasks, results, t =>
    match waitPass delay tasks results t with
    | .threw => some (.error ())
    | .cont tasks' results' t' =>
      if results'.length < tasks.length then waitAll delay fuel tasks' results' t'
      else some (.ok results')

end EG.Pool
