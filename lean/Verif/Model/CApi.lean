import Mathlib.Data.List.Basic

/-!
# The C interface: handles, ownership and memory

Source: `src/electionguard/facades/*.cpp` and `collections.c` (344 `extern "C"` functions), the
headers `include/electionguard/*.h`, `src/electionguard/convert.hpp` (`dynamicCopy`, 268-311).

Every facade function has the same shape: optional null checks, casts of the opaque handles to C++
classes (`AS_TYPE`, a `reinterpret_cast`), a call into the library, and one output.  `Fn` records
for one function which handles it takes, the C type of each in the signature and the class it is
cast to, what happens to the object behind it, and what is returned; the table of all functions is
in `Verif.Model.CApiTable`.  `exec` gives the effect of a call on memory.

Objects.  A C++ object here is `class X { unique_ptr<Impl> pimpl; }`; the objects it contains hang
off its `Impl`.  A cell is such an object; `anc` lists the objects that own it, nearest first, so a
cell with `anc = []` that is not `static` belongs to the client.  `delete` of an object destroys
everything inside it.  `new X(std::move(*element))` steals the `Impl`: what was inside `element` is
then inside the new object, and `element` itself stays allocated with a null `pimpl` (`hollow`).
`EncryptionMediator` stores references to its arguments (encrypt.cpp 102-106): `keeps`.

What the library call does is left to an oracle (`Oc`): it may throw, a getter may return null, an
object seen before, or one not seen before.  A call may touch everything inside its arguments.

Undefined behaviour (`Outcome.ub`): a null or dangling handle is dereferenced; a handle is cast to
a class other than the one of the object; an object whose `pimpl` was stolen is used, directly or
inside another one; a destroyed object is used through a stored reference; an object is deleted, or
put into a `unique_ptr`, although something else owns it (the second `delete` then follows when the
owner goes; it is counted when the first happens).

Not modelled: plain values, the contents of strings and of caller-owned input arrays (taken to be
non-null and long enough), output pointers (non-null), failure of `malloc` in `dynamicCopy`, and
the pointers to internal storage from `eg_element_mod_[pq]_get_data` and the linked list getters.
-/

namespace EG.CApi

/-- The opaque handle types of the headers, and the two kinds of raw memory handed out. -/
inductive Kind
  | annotatedString
  | ballotStyle
  | candidate
  | ciphertextBallot
  | ciphertextBallotContest
  | ciphertextBallotSelection
  | ciphertextElectionContext
  | compactCiphertextBallot
  | compactPlaintextBallot
  | constantChaumPedersenProof
  | contactInformation
  | contestDescription
  | contestDescriptionWithPlaceholders
  | contextConfiguration
  | disjunctiveChaumPedersenProof
  | electionManifest
  | elementModP
  | elementModQ
  | elgamalCiphertext
  | elgamalKeypair
  | encryptionDevice
  | encryptionMediator
  | extendedData
  | geopoliticalUnit
  | internalManifest
  | internationalizedText
  | language
  | linkedList
  | party
  | plaintextBallot
  | plaintextBallotContest
  | plaintextBallotSelection
  | selectionDescription
  | submittedBallot
  /-- `malloc`ed text, convert.hpp 268-284 -/
  | text
  /-- bytes from `new[]`, convert.hpp 287-293 -/
  | bytes
  deriving DecidableEq, Repr

/-- What a function does with the object behind a handle. -/
inductive Use
  /-- uses it -/
  | read
  /-- constructs a new object from `std::move(*element)` and stores it in the result -/
  | move
  /-- puts it into a `unique_ptr` that ends up in the result -/
  | own
  /-- puts it into a `unique_ptr` that is destroyed before the function returns -/
  | sink
  /-- deletes it -/
  | free
  deriving DecidableEq, Repr

/-- What a function does with a null handle. -/
inductive NullArg
  | deref | reject | allow
  deriving DecidableEq, Repr

structure Param where
  /-- type in the signature -/
  decl : Kind
  /-- class used in the body -/
  cast : Kind
  use : Use := .read
  null : NullArg := .deref
  /-- array of handles -/
  many : Bool := false
  deriving DecidableEq, Repr

/-- What a function returns through its output parameter: type in the signature, class in the
body. -/
inductive Out
  | none
  | owned (decl actual : Kind)
  | ref (decl actual : Kind)
  | const (k : Kind) (addr : Nat)
  deriving DecidableEq, Repr

/-- What happens to an exception thrown by the library. -/
inductive Catch
  /-- nothing in the body can throw (C code, `delete`, address of a constant) -/
  | noexcept
  /-- there is no `try` block -/
  | escapes
  /-- `catch (const exception &)` returns `BAD_ALLOC` -/
  | badAlloc
  /-- `catch (const exception &)` returns `RUNTIME_ERROR` -/
  | runtimeError
  /-- separate clauses for `invalid_argument`, `runtime_error` and the rest -/
  | byClass
  /-- a value (`0`, `false`, …) is returned -/
  | value
  deriving DecidableEq, Repr

structure Fn where
  name : String
  file : String
  line : Nat
  params : List Param
  out : Out
  onExn : Catch
  /-- the result stores references to the arguments -/
  keeps : Bool := false
  deriving DecidableEq, Repr

structure Cell where
  kind : Kind
  anc : List Nat := []
  hollow : Bool := false
  keeps : List Nat := []
  static : Bool := false
  deriving DecidableEq, Repr

structure Heap where
  cell : Nat → Option Cell
  next : Nat

/-- Oracle for the library call. -/
inductive Oc
  /-- throws; of the objects to be moved these had been moved from -/
  | fail (consumed : List Nat)
  /-- returns; a getter returns null -/
  | null
  /-- returns; a getter returns this object, seen before -/
  | old (a : Nat)
  /-- returns; a getter returns an object not seen before -/
  | fresh
  deriving DecidableEq, Repr

inductive Outcome
  | ub
  /-- an exception leaves the function -/
  | escaped
  | ret (ok : Bool) (out : Option Nat) (h : Heap)

namespace Heap

/-- `b` is alive and is `a` or is inside `a`. -/
def within (h : Heap) (b a : Nat) : Bool :=
  match h.cell b with
  | none => false
  | some c => b == a || c.anc.contains a

/-- No object in `a` has lost its `pimpl`. -/
def intact (h : Heap) (a : Nat) : Bool :=
  (List.range h.next).all fun b =>
    match h.cell b with
    | none => true
    | some c => !(h.within b a && c.hollow)

/-- A function that casts handle `a` to class `k` can use it. -/
def usable (h : Heap) (k : Kind) (a : Nat) : Bool :=
  match h.cell a with
  | none => false
  | some c =>
    c.kind == k && h.intact a &&
      (List.range h.next).all fun b =>
        match h.cell b with
        | none => true
        | some x => !h.within b a || x.keeps.all fun d => (h.cell d).isSome && h.intact d

/-- The object belongs to the client: nothing owns it. -/
def isRoot (h : Heap) (a : Nat) : Bool :=
  match h.cell a with
  | none => false
  | some c => c.anc.isEmpty && !c.static

def hasKind (h : Heap) (k : Kind) (a : Nat) : Bool :=
  match h.cell a with
  | none => false
  | some c => c.kind == k

/-- `delete`. -/
def delete (h : Heap) (a : Nat) : Heap :=
  { h with cell := fun b => if h.within b a then none else h.cell b }

/-- `a` has been moved from and the object that took its contents destroyed. -/
def gut (h : Heap) (a : Nat) : Heap :=
  { h with cell := fun b =>
      if b = a then (h.cell a).map fun x => { x with hollow := true, keeps := [] }
      else if h.within b a then none
      else h.cell b }

/-- A new object inside `n` is constructed from `std::move(*a)`. -/
def graft (h : Heap) (a n : Nat) : Heap :=
  { next := h.next + 1
    cell := fun b =>
      if b = h.next then (h.cell a).map fun x => { x with anc := [n] }
      else if b = a then (h.cell a).map fun x => { x with hollow := true, keeps := [] }
      else (h.cell b).map fun x =>
        if x.anc.contains a then
          { x with anc := x.anc.takeWhile (fun y => y != a) ++ [h.next, n] }
        else x }

/-- The client-owned object `a` becomes part of `n`. -/
def adopt (h : Heap) (a n : Nat) : Heap :=
  { h with cell := fun b =>
      (h.cell b).map fun x =>
        if h.within b a then { x with anc := x.anc ++ [n] } else x }

def insert (h : Heap) (c : Cell) : Heap :=
  { next := h.next + 1
    cell := fun b => if b = h.next then some c else h.cell b }

end Heap

/-- The handles of a call, one list per parameter. -/
abbrev Args := List (List (Option Nat))

/-- The handles match the parameters. -/
def shaped : List Param → Args → Bool
  | [], [] => true
  | p :: ps, as :: r => (p.many || as.length == 1) && shaped ps r
  | _, _ => false

/-- Each handle with its parameter. -/
def pairs : List Param → Args → List (Param × Option Nat)
  | p :: ps, as :: r => as.map (fun a => (p, a)) ++ pairs ps r
  | _, _ => []

/-- The non-null handles. -/
def handles (ps : List Param) (as : Args) : List (Param × Nat) :=
  (pairs ps as).filterMap fun x => x.2.map fun a => (x.1, a)

/-- The handles passed for parameters that are used in the way `u`. -/
def usedAs (u : Use) (ps : List Param) (as : Args) : List Nat :=
  (handles ps as).filterMap fun x => if x.1.use = u then some x.2 else none

/-- The use a function makes of one handle is defined. -/
def defined (h : Heap) (p : Param) (a : Nat) : Bool :=
  match p.use with
  | .read => h.usable p.cast a
  | .move => h.hasKind p.cast a
  | .own | .sink => h.usable p.cast a && h.isRoot a
  | .free => h.hasKind p.cast a && h.isRoot a

/-- Memory after the library has thrown. -/
def afterFail (f : Fn) (as : Args) (consumed : List Nat) (h : Heap) : Heap :=
  let h := ((usedAs .move f.params as).filter consumed.contains).foldl Heap.gut h
  (usedAs .own f.params as ++ usedAs .sink f.params as).foldl Heap.delete h

/-- Memory after a new object of class `k` has been made; its address is `h.next`. -/
def afterMake (f : Fn) (as : Args) (k : Kind) (h : Heap) : Heap :=
  let n := h.next
  let h' := h.insert
    { kind := k
      keeps := if f.keeps then usedAs .read f.params as else [] }
  let h' := (usedAs .move f.params as).foldl (fun h a => h.graft a n) h'
  let h' := (usedAs .own f.params as).foldl (fun h a => h.adopt a n) h'
  (usedAs .sink f.params as).foldl Heap.delete h'

/-- The library call returns. -/
def returns (f : Fn) (as : Args) (oc : Oc) (h : Heap) : Outcome :=
  let h' := (usedAs .free f.params as).foldl Heap.delete h
  match f.out with
  | .none => .ret true none h'
  | .owned _ k => .ret true (some h'.next) (afterMake f as k h')
  | .const _ a => .ret true (some a) h'
  | .ref _ k =>
    match handles f.params as with
    | [] => .ub
    | (_, base) :: _ =>
      match h'.cell base with
      | none => .ub
      | some x =>
        let new := h'.insert { kind := k, anc := base :: x.anc }
        match oc with
        | .null => .ret true none h'
        | .old c =>
          match h'.cell c with
          | some y =>
            if y.kind = k ∧ y.anc = base :: x.anc then .ret true (some c) h'
            else .ret true (some h'.next) new
          | none => .ret true (some h'.next) new
        | _ => .ret true (some h'.next) new

/-- Effect of one call. -/
def exec (f : Fn) (as : Args) (oc : Oc) (h : Heap) : Outcome :=
  if !shaped f.params as then .ub
  else if (pairs f.params as).any fun x => x.1.null == .reject && x.2.isNone then
    .ret false none h
  else if (pairs f.params as).any fun x => x.1.null == .deref && x.2.isNone then .ub
  else if !(handles f.params as).all fun x => defined h x.1 x.2 then .ub
  else
    match oc with
    | .fail l =>
      match f.onExn with
      | .noexcept => returns f as oc h
      | .escapes => .escaped
      | _ => .ret false none (afterFail f as l h)
    | _ => returns f as oc h

/-- Memory before the first call: the ten constants of group.cpp. -/
def constKind (a : Nat) : Kind := if a < 6 then .elementModP else .elementModQ

def Heap.init : Heap :=
  { next := 10
    cell := fun a => if a < 10 then some { kind := constKind a, static := true } else none }

end EG.CApi
