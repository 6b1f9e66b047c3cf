import Verif.Model.CsHandle
import Verif.Model.Res
import Mathlib.Logic.Function.Basic

/-!
# The C# bindings: constructors that take an array of objects

`InternationalizedText` (Manifest.cs:274-288), `ContestDescription` (1421-1441 and three more),
`ContestDescriptionWithPlaceholders` (1791-1820 and three more), `Manifest` (2237-2293, 2309-2367),
`PlaintextBallotContest` (Ballot.cs:499-511), `PlaintextBallot` (863-876).  All have the same loop for each array.

An object of C# is known by a number; `wrap` is its field `Handle`, `none` for `null`.  `mem` is the memory of the
library, as in `Verif.Model.CApi`, with the value of each element.
-/

namespace EG.Cs

open EG.CApi

/-- An element in the memory of the library. -/
inductive Cell (V : Type) where
  | free
  /-- allocated, its `pimpl` was moved away -/
  | hollow
  | whole (v : V)
  deriving DecidableEq, Repr

structure World (V : Type) where
  mem : ℕ → Cell V
  /-- the next address of the library -/
  next : ℕ
  wrap : ℕ → Option Handle

variable {V : Type}

/-- `DisposeUnmanaged` of the classes (e.g. Manifest.cs:291-299): the handle is disposed, and released by the same thread
if no call is in progress; then the field is `null`. -/
def World.dispose (w : World V) (i : ℕ) : World V :=
  match w.wrap i with
  | none => w
  | some h =>
    if h.ptr.isNone then w
    else
      let x := h.acts [.dispose, .release]
      { w with
        mem := fun a => if a ∈ x.2 then .free else w.mem a
        wrap := Function.update w.wrap i none }

/-- The loop: the pointers are copied, and the objects are disposed.  `none`: a `NullReferenceException`, as
`Handle` is `null`. -/
def World.collect (w : World V) : List ℕ → World V × Option (List (Option ℕ))
  | [] => (w, some [])
  | i :: is =>
    match w.wrap i with
    | none => (w, none)
    | some h =>
      let r := (w.dispose i).collect is
      (r.1, r.2.map (h.ptr :: ·))

/-- The loop of the function of the library (e.g. facades/manifest.cpp:1643-1647, facades/ballot.cpp:350-355):
`new X(std::move(*element))`; the result is the list of the addresses of the new elements. -/
def World.nativeNew (w : World V) : List (Option ℕ) → Res (World V × List ℕ)
  | [] => .ok (w, [])
  | none :: _ => .ub
  | some p :: ps =>
    match w.mem p with
    | .free => .ub
    | c => do
      let r ← ({ w with
        mem := Function.update (Function.update w.mem w.next c) p .hollow
        next := w.next + 1 } : World V).nativeNew ps
      .ok (r.1, w.next :: r.2)

/-- What a constructor does with an array; the result is `none` after an exception of C#. -/
def World.construct (w : World V) (is : List ℕ) : Res (World V × Option (List ℕ)) :=
  match w.collect is with
  | (w', none) => .ok (w', none)
  | (w', some ps) => do
    let r ← w'.nativeNew ps
    .ok (r.1, some r.2)

/-- Reading all elements of an object, as for its hash; one without `pimpl` is undefined. -/
def World.readAll (w : World V) : List ℕ → Res (List V)
  | [] => .ok []
  | a :: as =>
    match w.mem a with
    | .whole v => do
      let r ← w.readAll as
      .ok (v :: r)
    | _ => .ub

/-- A new object of C# around a pointer: from a constructor (its own element), or from a getter like `GetSelectionAt`
(Ballot.cs:516-522), which gives the pointer to an element inside another object. -/
def World.wrapAt (w : World V) (i : ℕ) (k : Kind) (p : ℕ) : World V :=
  { w with wrap := Function.update w.wrap i (some { kind := k, ptr := some p }) }

/-- The classes of the elements of these arrays. -/
def collected : List Kind :=
  [.language, .selectionDescription, .geopoliticalUnit, .party, .candidate, .contestDescription, .ballotStyle,
    .plaintextBallotSelection, .plaintextBallotContest]

end EG.Cs
