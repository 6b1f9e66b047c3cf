import Verif.Model.Queue

/-!
# An atomic queue

What the threads should see: every call takes effect at one instant between the call and the return,
on one list.
-/

namespace EG.Queue

/-- Where a thread is with respect to the atomic queue. -/
inductive APc (V : Type) where
  | idle
  /-- called, has not taken effect -/
  | called (op : Op V)
  /-- has taken effect -/
  | took (r : Ret V)

structure AState (T V : Type) where
  queue : List V
  pc : T → APc V

/-- The effect of a function on the list, and its result. -/
def Op.apply {V : Type} : Op V → List V → List V × Ret V
  | .push v, q => (q ++ [v], .unit)
  | .popPtr, [] => ([], .popped none)
  | .popPtr, v :: q => (q, .popped (some v))
  | .popRef, [] => ([], .popped none)
  | .popRef, v :: q => (q, .popped (some v))
  | .empty, q => (q, .isEmpty q.isEmpty)

/-- The atomic queue. -/
inductive AStep {T V : Type} [DecidableEq T] (s : AState T V) : Label T V → AState T V → Prop where
  | call (t op) (h : s.pc t = .idle) :
      AStep s (.call t op) { s with pc := Function.update s.pc t (.called op) }
  | effect (t op) (h : s.pc t = .called op) :
      AStep s .tau { queue := (op.apply s.queue).1, pc := Function.update s.pc t (.took (op.apply s.queue).2) }
  | ret (t r) (h : s.pc t = .took r) :
      AStep s (.ret t r) { s with pc := Function.update s.pc t .idle }

/-- Executions of the atomic queue that show the given calls and returns, latest first. -/
inductive AReachable {T V : Type} [DecidableEq T] : List (Label T V) → AState T V → Prop where
  | initial : AReachable [] { queue := [], pc := fun _ => .idle }
  | step {ls s l s'} (h : AReachable ls s) (hs : AStep s l s') : AReachable (l :: ls) s'

/-- Is this a call or a return? -/
def Label.visible {T V : Type} : Label T V → Bool
  | .tau => false
  | _ => true

end EG.Queue
