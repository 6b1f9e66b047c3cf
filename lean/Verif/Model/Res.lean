import Mathlib.Data.Nat.Notation

/-!
# Outcomes of C++ calls

A call returns a value, throws one of the standard exceptions, or leaves defined behaviour
(`ub`: out-of-bounds access, null dereference, use of an uninitialised value).
-/

namespace EG

/-- The exception classes thrown by the modelled code. -/
inductive Exn where
  | invalidArgument
  | outOfRange
  | runtimeError
  | badAlloc
  | badCast
  | json
  deriving DecidableEq, Repr

/-- Outcome of a modelled C++ call. -/
inductive Res (α : Type) where
  | ok (a : α)
  | throw (e : Exn)
  | ub
  deriving DecidableEq, Repr

namespace Res

/-- Sequencing of C++ statements: exceptions and undefined behaviour propagate. -/
def bind {α β : Type} (x : Res α) (f : α → Res β) : Res β :=
  match x with
  | ok a => f a
  | throw e => throw e
  | ub => ub

instance : Monad Res where
  pure := ok
  bind := bind

@[simp] theorem bind_ok {α β : Type} (a : α) (f : α → Res β) : (ok a >>= f) = f a := rfl
@[simp] theorem bind_throw {α β : Type} (e : Exn) (f : α → Res β) :
    ((throw e : Res α) >>= f) = throw e := rfl
@[simp] theorem bind_ub {α β : Type} (f : α → Res β) : ((ub : Res α) >>= f) = ub := rfl
@[simp] theorem pure_eq {α : Type} (a : α) : (pure a : Res α) = ok a := rfl

/-- The call returned normally. -/
def isOk {α : Type} : Res α → Bool
  | ok _ => true
  | _ => false

theorem bind_eq_ok {α β : Type} (x : Res α) (f : α → Res β) (b : β) :
    (x >>= f) = ok b ↔ ∃ a, x = ok a ∧ f a = ok b := by
  cases x <;> simp

end Res

end EG
