import Verif.Model.Precompute
import Mathlib.Data.List.Sort

/-!
# The C++ standard library and the mutable environment

Strings are sequences of Unicode scalar values (the code stores them in UTF-8; comparison and
ordering agree).  Strings that are not valid UTF-8 are not modelled.
-/

namespace EG

/-- `std::string`. -/
abbrev Str := List Char

/-- The bytes of a string (UTF-8). -/
def Str.bytes (s : Str) : List UInt8 := s.flatMap String.utf8EncodeChar

/-- `std::sort` with a comparison of keys.  Only what the C++ standard guarantees is assumed: the
result is a sorted permutation; nothing is said about the order of elements with equal keys. -/
structure StdSort where
  sort : ∀ {α : Type}, (α → ℕ) → List α → List α
  perm : ∀ {α : Type} (key : α → ℕ) (l : List α), (sort key l).Perm l
  sorted : ∀ {α : Type} (key : α → ℕ) (l : List α),
    (sort key l).Pairwise (fun a b => key a ≤ key b)

/-- `std::set::insert`, up to order. -/
def setInsert {α : Type} [DecidableEq α] (s : List α) (x : α) : List α := s.insert x

/-- A set filled with the elements of a sequence. -/
def setOf {α : Type} [DecidableEq α] (l : List α) : List α := l.foldl setInsert []

/-- What the library reads and changes besides its arguments: the precompute buffers, the values
`rand_q` will return and the values `getSystemTimestamp` will return. -/
structure World where
  pre : PreState
  rng : ℕ → ℕ
  clock : ℕ → ℕ

/-- A C++ call with effects on the environment, which survive exceptions. -/
def M (α : Type) : Type := World → Res α × World

namespace M

def ret {α : Type} (a : α) : M α := fun w => (.ok a, w)

/-- Sequencing: exceptions and undefined behaviour propagate. -/
def bind {α β : Type} (x : M α) (f : α → M β) : M β := fun w =>
  match x w with
  | (.ok a, w') => f a w'
  | (.throw e, w') => (.throw e, w')
  | (.ub, w') => (.ub, w')

instance : Monad M where
  pure := ret
  bind := bind

/-- A call without effects. -/
def lift {α : Type} (r : Res α) : M α := fun w => (r, w)

/-- `throw`. -/
def raise {α : Type} (e : Exn) : M α := fun w => (.throw e, w)

/-- `rand_q()` (group.cpp). -/
def rand : M ℕ := fun w => (.ok (w.rng 0), { w with rng := fun n => w.rng (n + 1) })

/-- utils.hpp `getSystemTimestamp()`. -/
def now : M ℕ := fun w => (.ok (w.clock 0), { w with clock := fun n => w.clock (n + 1) })

/-- `PrecomputeBufferContext::getTriple()`. -/
def getTriple : M (Option Triple) := fun w =>
  (.ok w.pre.getTriple.1, { w with pre := w.pre.getTriple.2 })

/-- `PrecomputeBufferContext::getTwoTriplesAndAQuadruple()`. -/
def getQuad : M (Option TwoTriplesQuad) := fun w =>
  (.ok w.pre.getQuad.1, { w with pre := w.pre.getQuad.2 })

/-- A loop over a vector, collecting the results. -/
def forEach {α β : Type} (f : α → M β) : List α → M (List β)
  | [] => ret []
  | x :: xs => do
    let y ← f x
    let ys ← forEach f xs
    ret (y :: ys)

end M

end EG
