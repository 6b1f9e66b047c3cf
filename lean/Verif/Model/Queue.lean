import Mathlib.Data.Nat.Notation
import Mathlib.Logic.Function.Basic

/-!
# AsyncQueue (src/electionguard/async.hpp:103-193)

Threads of an arbitrary type `T` take steps in any order.  A step is one access to the shared memory
or one operation on a mutex.  The only steps that do more are those between which no other thread
can interfere: `data` and the new node are made in one step (async.hpp:133-134), and `_pop` takes
`_head`, moves `next` out of it and stores it in one step (async.hpp:170-171).  Memory is sequentially
consistent; `C51_race_free` shows that there are no data races, so that this loses nothing.

A node lives at an address.  `new` returns any address that is not in use, so addresses are used
again after a node is deleted.  Allocation does not fail.  `_condition.notify_one` (async.hpp:142)
has no effect, as nobody waits on the condition.
-/

namespace EG.Queue

/-- A node's address. -/
abbrev Addr := ℕ

/-- The `shared_ptr<T>` of a node: empty, or with a value, or with a value that was moved from. -/
inductive Slot (V : Type) where
  | null
  | moved
  | val (v : V)

/-- async.hpp:146-149.  `alive` is false before `new` and after `delete`. -/
structure Node (V : Type) where
  alive : Bool
  data : Slot V
  next : Option Addr

/-- The public functions. -/
inductive Op (V : Type) where
  /-- async.hpp:131-143 -/
  | push (v : V)
  /-- async.hpp:119-123 -/
  | popPtr
  /-- async.hpp:125-129 -/
  | popRef
  /-- async.hpp:113-117 -/
  | empty

/-- What they return.  A `pop` gives the value, if any. -/
inductive Ret (V : Type) where
  | unit
  | popped (o : Option V)
  | isEmpty (b : Bool)

/-- The functions that look at the head. -/
inductive Mode where
  | ptr
  | ref
  | isEmpty
  deriving DecidableEq

def Mode.op {V : Type} : Mode → Op V
  | .ptr => .popPtr
  | .ref => .popRef
  | .isEmpty => .empty

/-- What the function returns when head and tail are equal. -/
def Mode.none {V : Type} : Mode → Ret V
  | .isEmpty => .isEmpty true
  | _ => .popped Option.none

/-- Where a thread is. -/
inductive Pc (V : Type) where
  | idle
  /-- async.hpp:133, before the allocations -/
  | pushAlloc (v : V)
  /-- async.hpp:136, before the tail mutex is acquired -/
  | pushLock (v : V) (a : Addr)
  /-- async.hpp:137 -/
  | pushData (v : V) (a : Addr)
  /-- async.hpp:139 -/
  | pushNext (v : V) (a : Addr)
  /-- async.hpp:140 -/
  | pushTail (v : V) (a : Addr)
  /-- async.hpp:141, before the tail mutex is released -/
  | pushUnlock
  /-- async.hpp:115, 177 or 186, before the head mutex is acquired -/
  | headLock (m : Mode)
  /-- async.hpp:161, called from 116, 178 or 187: before the tail mutex is acquired -/
  | tailLock1 (m : Mode)
  /-- async.hpp:162: before `_tail` is read -/
  | tailRead1 (m : Mode)
  /-- async.hpp:163: before the tail mutex is released -/
  | tailUnlock1 (m : Mode) (tl : Addr)
  /-- async.hpp:116, 178 or 187: before the comparison -/
  | compare1 (m : Mode) (tl : Addr)
  /-- async.hpp:190: before the value is moved out -/
  | move
  /-- async.hpp:161, called from 167; `o` is the value that was moved out -/
  | tailLock2 (o : Option V)
  | tailRead2 (o : Option V)
  | tailUnlock2 (o : Option V) (tl : Addr)
  /-- async.hpp:167: before the comparison -/
  | compare2 (o : Option V) (tl : Addr)
  /-- async.hpp:170-172 -/
  | unlink (o : Option V)
  /-- the end of `_tryPop`: before the head mutex is released -/
  | headUnlock (o : Option V) (old : Addr)
  /-- async.hpp:122 or 128: before `old` is used and deleted -/
  | finish (o : Option V) (old : Addr)
  /-- the result is known, the head mutex is not released yet -/
  | headUnlockNone (r : Ret V)
  /-- before the function returns -/
  | done (r : Ret V)

/-- The queue and the threads. -/
structure State (T V : Type) where
  node : Addr → Node V
  head : Option Addr
  tail : Addr
  headMutex : Option T
  tailMutex : Option T
  pc : T → Pc V

variable {T V : Type} [DecidableEq T]

/-- async.hpp:106: a new queue, whose first node is at `a`. -/
def State.initial (a : Addr) : State T V where
  node := fun b => { alive := b == a, data := .null, next := none }
  head := some a
  tail := a
  headMutex := none
  tailMutex := none
  pc := fun _ => .idle

def State.goto (s : State T V) (t : T) (p : Pc V) : State T V :=
  { s with pc := Function.update s.pc t p }

def State.set (s : State T V) (a : Addr) (n : Node V) : State T V :=
  { s with node := Function.update s.node a n }

/-- What an observer sees of a step. -/
inductive Label (T V : Type) where
  | call (t : T) (op : Op V)
  | ret (t : T) (r : Ret V)
  | tau

/-- One step of one thread.  Steps that would dereference a null pointer or a pointer to a deleted
node do not exist here, see `Crash`. -/
inductive Step (s : State T V) : Label T V → State T V → Prop where
  | callPush (t v) (h : s.pc t = .idle) : Step s (.call t (.push v)) (s.goto t (.pushAlloc v))
  | callHead (t) (m : Mode) (h : s.pc t = .idle) : Step s (.call t m.op) (s.goto t (.headLock m))
  | pushAlloc (t v a) (h : s.pc t = .pushAlloc v) (ha : (s.node a).alive = false) :
      Step s .tau ((s.set a ⟨true, .null, none⟩).goto t (.pushLock v a))
  | pushLock (t v a) (h : s.pc t = .pushLock v a) (hm : s.tailMutex = none) :
      Step s .tau { s.goto t (.pushData v a) with tailMutex := some t }
  | pushData (t v a) (h : s.pc t = .pushData v a) (hl : (s.node s.tail).alive = true) :
      Step s .tau ((s.set s.tail { s.node s.tail with data := .val v }).goto t (.pushNext v a))
  | pushNext (t v a) (h : s.pc t = .pushNext v a) (hl : (s.node s.tail).alive = true) :
      Step s .tau ((s.set s.tail { s.node s.tail with next := some a }).goto t (.pushTail v a))
  | pushTail (t v a) (h : s.pc t = .pushTail v a) :
      Step s .tau { s.goto t .pushUnlock with tail := a }
  | pushUnlock (t) (h : s.pc t = .pushUnlock) :
      Step s .tau { s.goto t (.done .unit) with tailMutex := none }
  | headLock (t m) (h : s.pc t = .headLock m) (hm : s.headMutex = none) :
      Step s .tau { s.goto t (.tailLock1 m) with headMutex := some t }
  | tailLock1 (t m) (h : s.pc t = .tailLock1 m) (hm : s.tailMutex = none) :
      Step s .tau { s.goto t (.tailRead1 m) with tailMutex := some t }
  | tailRead1 (t m) (h : s.pc t = .tailRead1 m) : Step s .tau (s.goto t (.tailUnlock1 m s.tail))
  | tailUnlock1 (t m tl) (h : s.pc t = .tailUnlock1 m tl) :
      Step s .tau { s.goto t (.compare1 m tl) with tailMutex := none }
  | compareEq1 (t m tl) (h : s.pc t = .compare1 m tl) (hc : s.head = some tl) :
      Step s .tau (s.goto t (.headUnlockNone m.none))
  | compareNeEmpty (t tl) (h : s.pc t = .compare1 .isEmpty tl) (hc : s.head ≠ some tl) :
      Step s .tau (s.goto t (.headUnlockNone (.isEmpty false)))
  | compareNePtr (t tl) (h : s.pc t = .compare1 .ptr tl) (hc : s.head ≠ some tl) :
      Step s .tau (s.goto t (.tailLock2 none))
  | compareNeRef (t tl) (h : s.pc t = .compare1 .ref tl) (hc : s.head ≠ some tl) :
      Step s .tau (s.goto t .move)
  | move (t a v) (h : s.pc t = .move) (hh : s.head = some a) (hl : (s.node a).alive = true)
      (hd : (s.node a).data = .val v) :
      Step s .tau ((s.set a { s.node a with data := .moved }).goto t (.tailLock2 (some v)))
  | tailLock2 (t o) (h : s.pc t = .tailLock2 o) (hm : s.tailMutex = none) :
      Step s .tau { s.goto t (.tailRead2 o) with tailMutex := some t }
  | tailRead2 (t o) (h : s.pc t = .tailRead2 o) : Step s .tau (s.goto t (.tailUnlock2 o s.tail))
  | tailUnlock2 (t o tl) (h : s.pc t = .tailUnlock2 o tl) :
      Step s .tau { s.goto t (.compare2 o tl) with tailMutex := none }
  | compareEq2 (t o tl) (h : s.pc t = .compare2 o tl) (hc : s.head = some tl) :
      Step s .tau (s.goto t (.headUnlockNone (.popped none)))
  | compareNe2 (t o tl) (h : s.pc t = .compare2 o tl) (hc : s.head ≠ some tl) :
      Step s .tau (s.goto t (.unlink o))
  | unlink (t o a) (h : s.pc t = .unlink o) (hh : s.head = some a) (hl : (s.node a).alive = true) :
      Step s .tau { (s.set a { s.node a with next := none }).goto t (.headUnlock o a) with
        head := (s.node a).next }
  | headUnlock (t o a) (h : s.pc t = .headUnlock o a) :
      Step s .tau { s.goto t (.finish o a) with headMutex := none }
  | finishPtr (t a v) (h : s.pc t = .finish none a) (hl : (s.node a).alive = true)
      (hd : (s.node a).data = .val v) :
      Step s .tau ((s.set a ⟨false, .null, none⟩).goto t (.done (.popped (some v))))
  | finishPtrNull (t a) (h : s.pc t = .finish none a) (hl : (s.node a).alive = true)
      (hd : (s.node a).data = .null) :
      Step s .tau ((s.set a ⟨false, .null, none⟩).goto t (.done (.popped none)))
  | finishRef (t a v) (h : s.pc t = .finish (some v) a) (hl : (s.node a).alive = true) :
      Step s .tau ((s.set a ⟨false, .null, none⟩).goto t (.done (.popped (some v))))
  | headUnlockNone (t r) (h : s.pc t = .headUnlockNone r) :
      Step s .tau { s.goto t (.done r) with headMutex := none }
  | ret (t r) (h : s.pc t = .done r) : Step s (.ret t r) (s.goto t .idle)

/-- Thread `t` is about to do something undefined or useless: to dereference a null pointer, to use
or delete a deleted node, or to take a value that was already taken. -/
def Crash (s : State T V) (t : T) : Prop :=
  match s.pc t with
  | .pushData _ _ | .pushNext _ _ => (s.node s.tail).alive = false
  | .move => ∀ a v, s.head = some a → (s.node a).alive = true → (s.node a).data ≠ .val v
  | .unlink _ => ∀ a, s.head = some a → (s.node a).alive = false
  | .finish none a => (s.node a).alive = false ∨ ∀ v, (s.node a).data ≠ .val v
  | .finish (some _) a => (s.node a).alive = false
  | _ => False

/-- A memory location. -/
inductive Loc where
  | head
  | tail
  | data (a : Addr)
  | next (a : Addr)
  deriving DecidableEq

/-- The locations that the next step of thread `t` accesses, with `true` for a write.  Moving a value
out and deleting a node are writes. -/
def accesses (s : State T V) (t : T) : List (Loc × Bool) :=
  match s.pc t with
  | .pushData _ _ => [(.tail, false), (.data s.tail, true)]
  | .pushNext _ _ => [(.tail, false), (.next s.tail, true)]
  | .pushTail _ _ => [(.tail, true)]
  | .tailRead1 _ | .tailRead2 _ => [(.tail, false)]
  | .compare1 _ _ | .compare2 _ _ => [(.head, false)]
  | .move => (.head, false) :: match s.head with
    | some a => [(.data a, true)]
    | none => []
  | .unlink _ => (.head, true) :: match s.head with
    | some a => [(.next a, true)]
    | none => []
  | .finish _ a => [(.data a, true), (.next a, true)]
  | _ => []

/-- Two threads are about to access the same location, one of them to write. -/
def Race (s : State T V) : Prop :=
  ∃ t u l b, t ≠ u ∧ (l, true) ∈ accesses s t ∧ (l, b) ∈ accesses s u

/-- The states of all executions, with what was observed, latest first. -/
inductive Reachable : List (Label T V) → State T V → Prop where
  | initial (a) : Reachable [] (State.initial a)
  | step {ls s l s'} (h : Reachable ls s) (hs : Step s l s') : Reachable (l :: ls) s'

end EG.Queue
