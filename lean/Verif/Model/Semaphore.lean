import Mathlib.Data.Nat.Notation
import Mathlib.Logic.Function.Basic

/-!
# AsyncSemaphore (src/electionguard/async.hpp:41-75)

Threads take steps in any order; a step is what happens between two points where another thread
may interfere.  A mutex has at most one owner.  `condition_variable::wait` releases the mutex and
blocks; it may wake up without a notification, and acquires the mutex again before it returns.
`notify_one` wakes one of the blocked threads, if there is any.  `_count` is a `size_t`.
-/

namespace EG.Sem

/-- Where a thread is.  `forWait` says that it runs `lock` on behalf of `wait()`, whose `scoped_lock`
calls `unlock` immediately afterwards. -/
inductive Pc where
  /-- outside, never called or after `unlock` -/
  | idle
  /-- async.hpp:58, before the mutex is acquired -/
  | lockEnter (forWait : Bool)
  /-- async.hpp:59, the mutex is held, the predicate is about to be evaluated -/
  | check (forWait : Bool)
  /-- blocked in `wait` -/
  | blocked (forWait : Bool)
  /-- woken up, before the mutex is acquired again -/
  | woken (forWait : Bool)
  /-- async.hpp:60, before the decrement -/
  | dec (forWait : Bool)
  /-- async.hpp:61, before the mutex is released -/
  | lockLeave (forWait : Bool)
  /-- `lock` has returned -/
  | holding
  /-- async.hpp:64, before the mutex is acquired -/
  | unlockEnter (forWait : Bool)
  /-- async.hpp:65, before the increment -/
  | inc (forWait : Bool)
  /-- async.hpp:66, before the notification -/
  | notify (forWait : Bool)
  /-- async.hpp:67, before the mutex is released -/
  | unlockLeave (forWait : Bool)
  /-- `wait` has returned -/
  | afterWait
  deriving DecidableEq

/-- The semaphore and the threads `0`, ..., `N-1`. -/
structure State (N : ℕ) where
  count : ℕ
  mutex : Option (Fin N)
  pc : Fin N → Pc

/-- async.hpp:44-48: a new semaphore. -/
def State.initial (N n : ℕ) : State N := { count := n, mutex := none, pc := fun _ => .idle }

def State.goto {N : ℕ} (s : State N) (t : Fin N) (p : Pc) : State N :=
  { s with pc := Function.update s.pc t p }

/-- The step of one thread.  Threads may call `lock` and `wait` at any time they are outside, and
`unlock` after `lock` has returned. -/
inductive Step {N : ℕ} (s : State N) : State N → Prop where
  | callLock (t) (h : s.pc t = .idle ∨ s.pc t = .afterWait) : Step s (s.goto t (.lockEnter false))
  | callWait (t) (h : s.pc t = .idle ∨ s.pc t = .afterWait) : Step s (s.goto t (.lockEnter true))
  | acquire (t w) (h : s.pc t = .lockEnter w) (hm : s.mutex = none) :
      Step s { s.goto t (.check w) with mutex := some t }
  | checkTrue (t w) (h : s.pc t = .check w) (hc : s.count ≠ 0) : Step s (s.goto t (.dec w))
  | checkFalse (t w) (h : s.pc t = .check w) (hc : s.count = 0) :
      Step s { s.goto t (.blocked w) with mutex := none }
  | spurious (t w) (h : s.pc t = .blocked w) : Step s (s.goto t (.woken w))
  | reacquire (t w) (h : s.pc t = .woken w) (hm : s.mutex = none) :
      Step s { s.goto t (.check w) with mutex := some t }
  | decrement (t w) (h : s.pc t = .dec w) :
      Step s { s.goto t (.lockLeave w) with count := (s.count + 2 ^ 64 - 1) % 2 ^ 64 }
  | lockReturn (t) (h : s.pc t = .lockLeave false) :
      Step s { s.goto t .holding with mutex := none }
  | lockReturnWait (t) (h : s.pc t = .lockLeave true) :
      Step s { s.goto t (.unlockEnter true) with mutex := none }
  | callUnlock (t) (h : s.pc t = .holding) : Step s (s.goto t (.unlockEnter false))
  | acquireUnlock (t w) (h : s.pc t = .unlockEnter w) (hm : s.mutex = none) :
      Step s { s.goto t (.inc w) with mutex := some t }
  | increment (t w) (h : s.pc t = .inc w) :
      Step s { s.goto t (.notify w) with count := (s.count + 1) % 2 ^ 64 }
  | notifyOne (t w u w') (h : s.pc t = .notify w) (hu : s.pc u = .blocked w') :
      Step s ((s.goto t (.unlockLeave w)).goto u (.woken w'))
  | notifyNone (t w) (h : s.pc t = .notify w) (hu : ∀ u w', s.pc u ≠ .blocked w') :
      Step s (s.goto t (.unlockLeave w))
  | unlockReturn (t) (h : s.pc t = .unlockLeave false) :
      Step s { s.goto t .idle with mutex := none }
  | unlockReturnWait (t) (h : s.pc t = .unlockLeave true) :
      Step s { s.goto t .afterWait with mutex := none }

/-- States reachable from a new semaphore with count `n` by any schedule. -/
inductive Reachable (N n : ℕ) : State N → Prop where
  | initial : Reachable N n (State.initial N n)
  | step {s s' : State N} (h : Reachable N n s) (hs : Step s s') : Reachable N n s'

end EG.Sem
