import Verif.Spec.Precompute
import Mathlib.Logic.Function.Basic

/-!
# The precompute buffers under concurrent calls (src/electionguard/precompute_buffers.cpp:188-302)

Threads of an arbitrary type `T` call the functions of `PrecomputeBufferContext`.  A step is one access to
one member of the context, or taking or releasing `queue_lock`; members are read and written in program
order (sequential consistency).  Two threads about to access the same member, one of them to write it, are
a data race.  `iteration_count` is taken not to overflow; the sizes that `get_current_queue_size` and
`get_max_queue_size` return are not followed further.
-/

namespace EG.PreRace

/-- A call of a function of `PrecomputeBufferContext`. -/
inductive Call where
  | init (size : ℕ)
  | populate (pub : ℕ)
  | stop
  | status
  | getQuad
  | getTriple
  | empty

/-- Where a thread is. -/
inductive Pc where
  | idle
  /-- 190, before the lock -/
  | initLock (n : ℕ)
  /-- 191, before writing `populate_OK` -/
  | initOk (n : ℕ)
  /-- 194-198, before writing `max` -/
  | initMax (n : ℕ)
  /-- 214 -/
  | popLock (pub it : ℕ)
  /-- 215, before reading `populate_OK` -/
  | popOk (pub it : ℕ)
  /-- 226, before the push -/
  | popQuad (pub it : ℕ) (d : Draws)
  /-- 239, before the push -/
  | popT1 (pub it : ℕ) (d : Draws)
  /-- 241, before the push -/
  | popT2 (pub it : ℕ) (d : Draws)
  /-- 247, before reading the size of the queue; the lock is free -/
  | condSize (pub it : ℕ)
  /-- 247, before reading `max` -/
  | condMax (pub it size : ℕ)
  /-- 250, before writing `populate_OK` -/
  | stop
  /-- 256, before reading the size of the queue -/
  | size
  /-- 252, before reading `max` -/
  | maxSize
  /-- 264 -/
  | quadLock
  /-- 267, before reading whether the queue is empty -/
  | quadTest
  /-- 268-269, before taking the first entry -/
  | quadPop
  /-- 280 -/
  | tripleLock
  /-- 283 -/
  | tripleTest
  /-- 284-285 -/
  | triplePop
  /-- 293 -/
  | emptyLock
  /-- 294, before reading the size -/
  | emptyTripleSize
  /-- 295-297, with `n` entries left to remove -/
  | emptyTriples (n : ℕ)
  /-- 298, before reading the size -/
  | emptyQuadSize
  /-- 299-301, with `n` entries left to remove -/
  | emptyQuads (n : ℕ)
  /-- before releasing the lock; then the loop condition of `populate`, or the call returns `out` -/
  | unlock (loop : Option (ℕ × ℕ)) (out : PreOut)

/-- What a step does, as seen from outside. -/
inductive Lab where
  | call (c : Call)
  /-- the point at which an operation on the buffers counts as done, with what the thread got from it -/
  | commit (op : PreOp) (out : PreOut)
  | tau

def Call.start : Call → Pc
  | .init n => .initLock n
  | .populate pub => .popLock pub 0
  | .stop => .stop
  | .status => .size
  | .getQuad => .quadLock
  | .getTriple => .tripleLock
  | .empty => .emptyLock

/-- Where a thread that waits for the lock goes on. -/
def Pc.locked : Pc → Option Pc
  | .initLock n => some (.initOk n)
  | .popLock pub it => some (.popOk pub it)
  | .quadLock => some .quadTest
  | .tripleLock => some .tripleTest
  | .emptyLock => some .emptyTripleSize
  | _ => none

/-- One access: the members and where the thread goes on.  `d` are the exponents drawn by an iteration of
`populate`. -/
def Pc.act (G : Params) (d : Draws) (σ : PreState) : Pc → Option (Lab × PreState × Pc)
  | .initOk n => some (.commit (.init n) {}, { σ with populateOk := true }, .initMax n)
  | .initMax n =>
    some (.tau, { σ with max := if n ≠ 0 then n else defaultPrecomputeSize }, .unlock none {})
  | .popOk pub it =>
    if σ.populateOk then some (.commit (.iterate pub it d) {}, σ, .popQuad pub it d)
    else some (.commit (.iterate pub it d) {}, σ, .unlock none {})
  | .popQuad pub it d =>
    some (.tau, { σ with quads := σ.quads ++
      [⟨genTriple G pub d.t1, genTriple G pub d.t2, genQuadruple G pub d.q1 d.q2⟩] },
      if it % 3 = 0 then .popT1 pub it d else .unlock (some (pub, it + 1)) {})
  | .popT1 pub it d =>
    some (.tau, { σ with triples := σ.triples ++ [genTriple G pub d.c1] }, .popT2 pub it d)
  | .popT2 pub it d =>
    some (.tau, { σ with triples := σ.triples ++ [genTriple G pub d.c2] },
      .unlock (some (pub, it + 1)) {})
  | .condSize pub it => some (.tau, σ, .condMax pub it σ.quads.length)
  | .condMax pub it n => some (.tau, σ, if n < σ.max then .popLock pub it else .idle)
  | .stop => some (.commit .stop {}, { σ with populateOk := false }, .idle)
  | .size => some (.tau, σ, .maxSize)
  | .maxSize => some (.tau, σ, .idle)
  | .quadTest =>
    match σ.quads with
    | [] => some (.commit .getQuad {}, σ, .unlock none {})
    | _ :: _ => some (.tau, σ, .quadPop)
  | .quadPop =>
    match σ.quads with
    | [] => none
    | x :: xs => some (.commit .getQuad { quad := some x }, { σ with quads := xs },
        .unlock none { quad := some x })
  | .tripleTest =>
    match σ.triples with
    | [] => some (.commit .getTriple {}, σ, .unlock none {})
    | _ :: _ => some (.tau, σ, .triplePop)
  | .triplePop =>
    match σ.triples with
    | [] => none
    | x :: xs => some (.commit .getTriple { triple := some x }, { σ with triples := xs },
        .unlock none { triple := some x })
  | .emptyTripleSize => some (.commit .empty {}, σ, .emptyTriples (popCount σ.triples.length))
  | .emptyTriples 0 => some (.tau, σ, .emptyQuadSize)
  | .emptyTriples (n + 1) => some (.tau, { σ with triples := σ.triples.tail }, .emptyTriples n)
  | .emptyQuadSize => some (.tau, σ, .emptyQuads (popCount σ.quads.length))
  | .emptyQuads 0 => some (.tau, σ, .unlock none {})
  | .emptyQuads (n + 1) => some (.tau, { σ with quads := σ.quads.tail }, .emptyQuads n)
  | _ => none

/-- Where a thread goes on after releasing the lock. -/
def afterUnlock : Option (ℕ × ℕ) → Pc
  | none => .idle
  | some (pub, it) => .condSize pub it

/-- The members of the context. -/
inductive Loc where
  | max
  | populateOk
  | triples
  | quads
  deriving DecidableEq

/-- What a thread accesses next, and whether to write it. -/
def Pc.access : Pc → Option (Loc × Bool)
  | .initOk _ => some (.populateOk, true)
  | .initMax _ => some (.max, true)
  | .popOk _ _ => some (.populateOk, false)
  | .popQuad _ _ _ => some (.quads, true)
  | .popT1 _ _ _ => some (.triples, true)
  | .popT2 _ _ _ => some (.triples, true)
  | .condSize _ _ => some (.quads, false)
  | .condMax _ _ _ => some (.max, false)
  | .stop => some (.populateOk, true)
  | .size => some (.quads, false)
  | .maxSize => some (.max, false)
  | .quadTest => some (.quads, false)
  | .quadPop => some (.quads, true)
  | .tripleTest => some (.triples, false)
  | .triplePop => some (.triples, true)
  | .emptyTripleSize => some (.triples, false)
  | .emptyTriples (_ + 1) => some (.triples, true)
  | .emptyQuadSize => some (.quads, false)
  | .emptyQuads (_ + 1) => some (.quads, true)
  | _ => none

structure State (T : Type) where
  /-- who holds `queue_lock` -/
  owner : Option T
  mem : PreState
  pc : T → Pc

variable {T : Type} [DecidableEq T]

/-- No call in progress. -/
def State.start (σ : PreState) : State T := ⟨none, σ, fun _ => .idle⟩

def State.goto (s : State T) (t : T) (p : Pc) : State T := { s with pc := Function.update s.pc t p }

/-- A step of the thread `t`. -/
inductive Step (G : Params) (s : State T) : T → Lab → State T → Prop where
  | call (t c) (h : s.pc t = .idle) : Step G s t (.call c) (s.goto t c.start)
  | lock (t p) (h : (s.pc t).locked = some p) (ho : s.owner = none) :
      Step G s t .tau ({ s with owner := some t }.goto t p)
  | unlock (t loop out) (h : s.pc t = .unlock loop out) :
      Step G s t .tau ({ s with owner := none }.goto t (afterUnlock loop))
  | act (t d l σ p) (h : (s.pc t).act G d s.mem = some (l, σ, p)) :
      Step G s t l ({ s with mem := σ }.goto t p)

/-- The states that can be reached, with what happened, in order. -/
inductive Reach (G : Params) (s : State T) : List (T × Lab) → State T → Prop where
  | refl : Reach G s [] s
  | step {ls s' s'' t l} (h : Reach G s ls s') (hs : Step G s' t l s'') :
      Reach G s (ls ++ [(t, l)]) s''

/-- Two threads are about to access the same member, one of them to write it. -/
def Race (s : State T) : Prop :=
  ∃ t u x w, t ≠ u ∧ (s.pc t).access = some (x, true) ∧ (s.pc u).access = some (x, w)

end EG.PreRace
