import Mathlib.Logic.Function.Basic

/-!
# The first messages logged, by concurrent calls (src/electionguard/log.cpp:88-106)

Threads of an arbitrary type `T` call functions of the library.  A message is logged by the call itself
(encrypt.cpp:591 is the first statement of `encryptBallot`), or by the `catch` clause of a function of the C
interface (facades/encrypt.cpp:330-338, and alike everywhere).  The object `_instance` is made by one of the
threads while the others wait, as the language demands; what follows is not synchronized, except that spdlog
keeps its table of loggers under a lock: `stdout_logger_mt("console")` (94) is atomic, and throws if there is a
logger with this name.  Only the pointer `_instance.logger` and the table are modelled, and of a call only
the messages up to the first one that succeeds.
-/

namespace EG.LogRace

/-- Who logs: the call, or the `catch` clause around it. -/
inductive Phase where
  | body | handler
  deriving DecidableEq

/-- Where a thread is. -/
inductive Pc where
  | idle
  /-- log.cpp:91, before `_instance.logger` is compared -/
  | check (p : Phase)
  /-- 94, after a null pointer was seen -/
  | make (p : Phase)
  /-- 105, before `_instance.logger` is assigned -/
  | publish (p : Phase)
  /-- 109-142, before `logger` is read -/
  | use (p : Phase)
  /-- an exception of spdlog has left the function that logs -/
  | thrown
  /-- an exception has left the `catch` clause, and the function of the C interface -/
  | escaped
  deriving DecidableEq

structure State (T : Type) where
  /-- spdlog has a logger with the name "console" -/
  registered : Bool
  /-- `_instance.logger` is not null -/
  logger : Bool
  pc : T → Pc

variable {T : Type} [DecidableEq T]

def State.goto (s : State T) (t : T) (p : Pc) : State T :=
  { s with pc := Function.update s.pc t p }

/-- No message was logged yet; `registered` tells whether the program has a logger "console" of its own. -/
def State.initial (registered : Bool) : State T := ⟨registered, false, fun _ => .idle⟩

/-- A step of the thread `t`. -/
inductive Step (s : State T) (t : T) : State T → Prop where
  /-- a call that logs -/
  | call (h : s.pc t = .idle) : Step s t (s.goto t (.check .body))
  /-- a call of the C interface that fails, for another reason, before it has logged anything -/
  | fail (h : s.pc t = .idle) : Step s t (s.goto t (.check .handler))
  /-- 91-92 -/
  | hit (p) (h : s.pc t = .check p) (hl : s.logger = true) : Step s t (s.goto t (.use p))
  | miss (p) (h : s.pc t = .check p) (hl : s.logger = false) : Step s t (s.goto t (.make p))
  /-- 94 -/
  | make (p) (h : s.pc t = .make p) (hr : s.registered = false) :
      Step s t ({ s with registered := true }.goto t (.publish p))
  | exists (p) (h : s.pc t = .make p) (hr : s.registered = true) :
      Step s t (s.goto t (match p with | .body => .thrown | .handler => .escaped))
  /-- 105 -/
  | publish (p) (h : s.pc t = .publish p) : Step s t ({ s with logger := true }.goto t (.use p))
  /-- The rest of the call, and its result. -/
  | use (p) (h : s.pc t = .use p) : Step s t (s.goto t .idle)
  /-- the `catch` clause of a function of the C interface -/
  | caught (h : s.pc t = .thrown) : Step s t (s.goto t (.check .handler))

/-- The states that can be reached. -/
inductive Reach (s : State T) : State T → Prop where
  | refl : Reach s s
  | step {s' s'' t} (h : Reach s s') (hs : Step s' t s'') : Reach s s''

/-- The next step assigns the pointer. -/
def Pc.writes : Pc → Prop
  | .publish _ => True
  | _ => False

/-- The next step reads or assigns the pointer. -/
def Pc.touches : Pc → Prop
  | .publish _ | .check _ | .use _ => True
  | _ => False

/-- A data race: undefined behaviour. -/
def Race (s : State T) : Prop := ∃ t u, t ≠ u ∧ (s.pc t).writes ∧ (s.pc u).touches

end EG.LogRace
