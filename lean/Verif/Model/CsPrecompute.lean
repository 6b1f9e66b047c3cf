import Verif.Model.Precompute

/-!
# The C# bindings: precomputation in the background

Source: `bindings/netstandard/ElectionGuard/ElectionGuard.Encryption/PrecomputeAPI.cs`, class
`Precompute`; `src/electionguard/facades/encrypt.cpp` (438-486).

One object of class `Precompute`, one thread that calls its methods (the user), one worker thread
for each call of `StartPrecomputeAsync`, and other threads that take values from the buffers or make
other objects of the class.  A step is what a thread does up to the next access to what is shared: the
buffers of the library (`PreState`), `currentStatus`, the fields set by `StartPrecomputeAsync`.  The
accesses are taken as atomic, in the order of the program; `StartPrecomputeAsync` up to `WaitOne` is
one step, and so are reading `queue_size` and the update of the status that follows.  An iteration of
`populate` that finds the flag set is one step, as it holds the lock.  The overflow of its counter after
2^31 iterations is not modelled, nor are `Percentage` and `ProgressEvent`, which is never raised.
-/

namespace EG.CsPre

/-- PrecomputeAPI.cs 15-33. -/
inductive PState
  | notStarted | running | userStopped | completed
  deriving DecidableEq, Repr

/-- `SendCompleted` (246-257) and `GetStatus` (164-175): where a thread is in it. -/
inductive Report
  /-- before `count` is read -/
  | count
  /-- before `queue_size` is read -/
  | size (count : ℕ)
  /-- before the event is raised or the status returned -/
  | tell
  deriving DecidableEq, Repr

/-- The user. -/
inductive User
  | idle
  /-- in `StartPrecomputeAsync`, `waitHandle.WaitOne()` (214) -/
  | waiting
  /-- in `StopPrecompute`, before `UserStopped` is set (224) -/
  | stopSet
  /-- in `StopPrecompute`, `SendCompleted()` (229) -/
  | stopReport (r : Report)
  /-- in `StopPrecompute`, before `NativePrecomputeBuffers.Stop()` (231) -/
  | stopping
  /-- in `GetStatus` -/
  | status (r : Report)
  deriving DecidableEq, Repr

/-- A worker, `WorkerMethod` (237-244). -/
inductive Worker
  /-- before `Init` -/
  | init
  /-- before `waitHandle.Set()` -/
  | set
  /-- before `elgamalPublicKey` is read -/
  | key
  /-- in `populate`, before the lock is taken -/
  | pop (pub it : ℕ)
  /-- in `populate`, before the condition of the loop -/
  | cond (pub it : ℕ)
  /-- in `SendCompleted` -/
  | send (r : Report)
  | done
  deriving DecidableEq, Repr

structure State where
  buf : PreState
  /-- `currentStatus.CurrentState` -/
  cur : PState
  /-- `max_buffers`, as it arrives in `PrecomputeBufferContext::init` -/
  maxBuffers : ℕ
  /-- `elgamalPublicKey` -/
  pub : ℕ
  user : User
  workers : List Worker
  /-- states in the events raised, in order -/
  events : List PState

/-- After the constructor (118-132). -/
def State.new (buf : PreState) : State :=
  { buf := buf.init 100, cur := .notStarted, maxBuffers := 100, pub := 0, user := .idle,
    workers := [], events := [] }

/-- What happens. -/
inductive Ev
  /-- the user calls `StartPrecomputeAsync(publicKey, buffers)` -/
  | start (pub buffers : ℕ)
  /-- … `StopPrecompute()` -/
  | stop
  /-- … `GetStatus()` -/
  | status
  /-- the user goes on in the method called -/
  | user
  /-- a worker goes on; `d` is what it draws if it comes to make values -/
  | worker (i : ℕ) (d : Draws)
  /-- another thread takes values -/
  | getQuad
  | getTriple
  /-- another object of the class is made -/
  | other

/-- `currentStatus` after `count` and `queue_size` have been read (169-170, 251-252). -/
def PState.seen (cur : PState) (count size : ℕ) : PState :=
  if count = size then .completed else cur

/-- One step of the user inside a method. -/
def State.userStep (s : State) : Option State :=
  match s.user with
  | .idle | .waiting => none
  | .stopSet => some { s with cur := .userStopped, user := .stopping }
  | .stopReport .count => some { s with user := .stopReport (.size s.buf.quads.length) }
  | .stopReport (.size c) =>
    some { s with cur := s.cur.seen c s.buf.max, user := .stopReport .tell }
  | .stopReport .tell => some { s with events := s.events ++ [s.cur], user := .stopping }
  | .stopping => some { s with buf := s.buf.stop, user := .idle }
  | .status .count => some { s with user := .status (.size s.buf.quads.length) }
  | .status (.size c) => some { s with cur := s.cur.seen c s.buf.max, user := .status .tell }
  | .status .tell => some { s with user := .idle }

/-- One step of a worker at `w`: the state without the change of the worker itself, and where the
worker is after it. -/
def State.workerStep (G : Params) (s : State) (d : Draws) : Worker → Option (State × Worker)
  | .init => some ({ s with buf := s.buf.init s.maxBuffers }, .set)
  | .set => some ({ s with user := if s.user = .waiting then .idle else s.user }, .key)
  | .key => some (s, .pop s.pub 0)
  | .pop pub it =>
    if s.buf.populateOk then some ({ s with buf := s.buf.iterate G pub it d }, .cond pub (it + 1))
    else some (s, .send .count)
  | .cond pub it =>
    if s.buf.quads.length < s.buf.max then some (s, .pop pub it) else some (s, .send .count)
  | .send .count => some (s, .send (.size s.buf.quads.length))
  | .send (.size c) => some ({ s with cur := s.cur.seen c s.buf.max }, .send .tell)
  | .send .tell => some ({ s with events := s.events ++ [s.cur] }, .done)
  | .done => none

/-- One step. -/
def State.step (G : Params) (s : State) : Ev → Option State
  | .start pub n =>
    if s.user = .idle then
      some { s with cur := .running, maxBuffers := n, pub := pub, user := .waiting,
                    workers := s.workers ++ [.init] }
    else none
  | .stop =>
    if s.user = .idle then
      if s.cur = .running then some { s with user := .stopSet }
      else some { s with user := .stopReport .count }
    else none
  | .status => if s.user = .idle then some { s with user := .status .count } else none
  | .user => s.userStep
  | .worker i d =>
    match s.workers[i]? with
    | none => none
    | some w =>
      match s.workerStep G d w with
      | none => none
      | some (s', w') => some { s' with workers := s.workers.set i w' }
  | .getQuad => some { s with buf := s.buf.getQuad.2 }
  | .getTriple => some { s with buf := s.buf.getTriple.2 }
  | .other => some { s with buf := s.buf.init 100 }

/-- A history. -/
def State.run (G : Params) : State → List Ev → Option State
  | s, [] => some s
  | s, e :: es => (s.step G e).bind fun s' => s'.run G es

end EG.CsPre
