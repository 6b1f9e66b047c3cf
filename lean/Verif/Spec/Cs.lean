import Verif.Model.CsImports
import Verif.Model.CsHandle
import Verif.Lemmas.CApiRun

/-!
# What a client of the C# bindings relies on
-/

namespace EG.Cs

open EG.CApi

/-! ## Calls -/

/-- A pointer to the first class can be used as one to the second: `SubmittedBallot` is derived from
`CiphertextBallot` (ballot.hpp 812), `ContestDescriptionWithPlaceholders` from `ContestDescription`
(manifest.hpp 752). -/
def isA (k k' : Kind) : Bool :=
  k == k' || (k == .submittedBallot && k' == .ciphertextBallot) ||
    (k == .contestDescriptionWithPlaceholders && k' == .contestDescription)

/-- An argument of the type in C# is what a parameter of the type in C takes.  `IntPtr` carries no
type, and is let pass for every pointer to text, bytes or handles except where a handle is returned
as one. -/
def passes : Ty → CTy → Bool
  | .bool, .val .bool => true
  | .int, .val .int => true
  | .ulong, .val .u64 => true
  | .enum b, .val b' => b == b'
  | .str, .p .char => true
  | .str, .p .cChar => true
  | .strs, .pp .char => true
  | .ptr, .p _ => true
  | .ptrs, .o _ => true
  | .bytes, .p .u8 => true
  | .ulongs, .p .cU64 => true
  | .ulongsPtr, .pp .u64 => true
  | .handle k, .h k' => isA k k'
  | .raw k, .h k' => isA k k'
  | .outHandle k, .o k' => k == k'
  | .outPtr, .pp _ => true
  | .outUlong, .p .u64 => true
  | .outInt, .p .int => true
  | .refBool, .p .bool => true
  | _, _ => false

/-- The library exports a function of this name.  A definition is exported under its plain name if
it has the types of the declaration in a header; see `Verif.Model.CApiSigs`. -/
def Exported (name : String) (ts : List CTy) : Prop :=
  ∃ s ∈ sigs, s.name = name ∧ s.declared = some ts ∧ s.defn = some ts

/-- Type of the result of a C function. -/
def resultOf (name : String) : Ret := ((returned.find? (·.1 == name)).map (·.2)).getD .status

/-- The import can be called: the function exists, takes the arguments passed, and returns what is
expected. -/
def Callable (i : Import) : Prop :=
  ∃ ts, Exported i.entry ts ∧ List.Forall₂ (fun t t' => passes t t' = true) i.params ts ∧
    i.ret = resultOf i.entry

/-! ## Handles -/

/-- A handle as the runtime makes it for an `out` parameter. -/
def Handle.new (k : Kind) (p : Option Nat) : Handle := { kind := k, ptr := p }

/-- Nothing is left to be done for the handle: it was disposed, and no call and no thread is using
it. -/
def Handle.finished (w : Handle) : Prop := w.refs = 0 ∧ w.releasing = 0

/-! ## Programs -/

/-- A program that uses the bindings: memory of the library, what the program was given by it, the
handles. -/
structure S where
  heap : Heap := Heap.init
  cl : Client := {}
  handles : List Handle := []

/-- Handle made for the result of a call. -/
def made (c : Call) (out : Option Nat) : List Handle :=
  match c.fn.outType with
  | none => []
  | some k => [Handle.new k out]

/-- The call that a handle makes to release its object. -/
def freeCall (k : Kind) (p : Nat) : Call := call ((freeName k).getD "") [[some p]]

/-- One step of a program that passes arguments as careful clients of the C interface do
(`EG.CApi.Careful`); the label is the function called, if it is the program that calls it. -/
inductive Step : S → Option Call → S → Prop
  /-- calls a function of the library, other than a `free` function -/
  | call {s c ok out h'} : Careful s.heap s.cl c → c.used .free = [] →
      c.exec s.heap = .ret ok out h' →
      Step s (some c) ⟨h', s.cl.after c out, s.handles ++ made c out⟩
  /-- does something with a handle that does not lead to a call of the library -/
  | act {s i a w w'} : s.handles[i]? = some w → w.act a = (w', none) →
      Step s none { s with handles := s.handles.set i w' }
  /-- … and that does -/
  | free {s i a w w' p ok out h'} : s.handles[i]? = some w → w.act a = (w', some p) →
      (freeCall w.kind p).exec s.heap = .ret ok out h' →
      Step s none ⟨h', s.cl.after (freeCall w.kind p) out, s.handles.set i w'⟩

/-- Sequences of steps in which all functions called by the program are as `ok` says. -/
inductive Steps (ok : Call → Prop) : S → S → Prop
  | refl {s} : Steps ok s s
  | step {s s' s'' l} : Steps ok s s' → Step s' l s'' → (∀ c, l = some c → ok c) →
      Steps ok s s''

/-- States of programs. -/
def Reachable (s : S) : Prop := Steps (fun _ => True) {} s

/-- Releasing the object would be undefined behaviour. -/
def badRelease (k : Kind) (p : Nat) (h : Heap) : Prop := (freeCall k p).exec h = .ub

/-! ## Results of type `bool` -/

/-- What a C function that returns `b` may leave in the 32-bit result register: the low byte is 0 or
1, the rest is not specified. -/
def CReturns (b : Bool) (r : UInt32) : Prop := r.toUInt8 = if b then 1 else 0

/-- What C# makes of it: a `bool` in an imported function, without `MarshalAs`, is a Windows `BOOL`,
32 bits, and true unless all are zero. -/
def csBool (r : UInt32) : Bool := r != 0

/-! ## Constants -/

/-- The constants of the group by their name in C#. -/
def wanted (g p r q : Nat) : List (String × Nat) :=
  [("G", g), ("P", p), ("R", r), ("ZERO_MOD_P", 0), ("ONE_MOD_P", 1), ("TWO_MOD_P", 2), ("Q", q),
    ("ZERO_MOD_Q", 0), ("ONE_MOD_Q", 1), ("TWO_MOD_Q", 2)]

end EG.Cs
