import Verif.Model.CApiTable

/-!
# Rules for clients of the C interface

The headers say of an output `out_handle` that the caller is responsible for its lifecycle, and of
an output `…_ref` that the value is a reference and is not owned by the caller.  `Documented` is
what follows from that: pass live handles of the type in the signature, free what you own.  The
headers say nothing about arguments.  `Careful` adds the rules the code needs on top.
-/

namespace EG.CApi

/-- What a client knows. -/
structure Client where
  /-- handles received as `out_handle` and not yet freed -/
  owned : List Nat := []
  /-- handles passed to a function that moves from them -/
  given : List Nat := []
  /-- handles received, with the C type they were received as -/
  types : List (Nat × Kind) := []
  /-- (object, argument its constructor keeps a reference to) -/
  uses : List (Nat × Nat) := []

/-- One call: function, handles, behaviour of the library. -/
structure Call where
  fn : Fn
  args : Args
  oc : Oc

def Call.handles (c : Call) : List (Param × Nat) := CApi.handles c.fn.params c.args

def Call.used (u : Use) (c : Call) : List Nat := usedAs u c.fn.params c.args

def Call.exec (c : Call) (h : Heap) : Outcome := CApi.exec c.fn c.args c.oc h

/-- The rules of the headers. -/
structure Documented (h : Heap) (cl : Client) (c : Call) : Prop where
  /-- a function of the interface is called -/
  mem : c.fn ∈ table
  /-- with the right number of arguments -/
  shape : shaped c.fn.params c.args = true
  /-- null is passed only where the function looks for it -/
  nonnull : ∀ p, (p, none) ∈ pairs c.fn.params c.args → p.null ≠ .deref
  /-- the handles are owned, or the objects behind them exist -/
  alive : ∀ p a, (p, a) ∈ c.handles → a ∈ cl.owned ∨ (h.cell a).isSome
  /-- each handle was received as the type required -/
  typed : ∀ p a, (p, a) ∈ c.handles → (a, p.decl) ∈ cl.types
  /-- only owned handles are freed -/
  freed : ∀ p a, (p, a) ∈ c.handles → p.use = .free → a ∈ cl.owned

/-- The signature and the body agree on the types. -/
def Fn.wellTyped (f : Fn) : Bool :=
  f.params.all (fun p => p.decl == p.cast) &&
    match f.out with
    | .owned d a => d == a
    | .ref d a => d == a
    | _ => true

/-- The rules of the headers and those the code needs besides. -/
structure Careful (h : Heap) (cl : Client) (c : Call) : Prop extends Documented h cl c where
  /-- functions whose signature and body disagree are not called -/
  wellTyped : c.fn.wellTyped = true
  /-- a handle that was moved from is only freed -/
  notGiven : ∀ p a, (p, a) ∈ c.handles → p.use ≠ .free → a ∉ cl.given
  /-- only owned handles are given away, … -/
  gave : ∀ p a, (p, a) ∈ c.handles → p.use ≠ .read → a ∈ cl.owned
  /-- … and none twice in a call -/
  once : (c.used .move ++ c.used .own ++ c.used .sink).Nodup
  /-- an object that keeps references is made from owned handles, … -/
  kept : c.fn.keeps = true → ∀ p a, (p, a) ∈ c.handles → a ∈ cl.owned
  /-- … which are neither freed nor given away as long as it exists -/
  inUse : ∀ p a, (p, a) ∈ c.handles → p.use ≠ .read → ∀ m, (m, a) ∈ cl.uses → m ∉ cl.owned

/-- Type in the signature of the output. -/
def Fn.outType (f : Fn) : Option Kind :=
  match f.out with
  | .none => none
  | .owned d _ => some d
  | .ref d _ => some d
  | .const k _ => some k

def Fn.outOwned (f : Fn) : Bool :=
  match f.out with
  | .owned _ _ => true
  | _ => false

/-- What a client that goes by the headers knows after a call. -/
def Client.afterDoc (cl : Client) (c : Call) (out : Option Nat) : Client :=
  { cl with
    owned := (match out with | some a => if c.fn.outOwned then [a] else [] | none => []) ++
      cl.owned.filter (fun a => !(c.used .free).contains a)
    types := (match out, c.fn.outType with | some a, some k => [(a, k)] | _, _ => []) ++
      cl.types }

/-- What a careful client knows after a call: it also takes note of what it gave away. -/
def Client.after (cl : Client) (c : Call) (out : Option Nat) : Client :=
  let cl' := cl.afterDoc c out
  { cl' with
    owned := cl'.owned.filter (fun a => !(c.used .own ++ c.used .sink).contains a)
    given := c.used .move ++ cl.given
    uses := (match out with
      | some m => if c.fn.keeps then (c.used .read).map (fun a => (m, a)) else []
      | none => []) ++ cl.uses }

/-- States reached by a client that follows `rule` and keeps track with `upd`. -/
inductive Reach (rule : Heap → Client → Call → Prop)
    (upd : Client → Call → Option Nat → Client) : Heap → Client → Prop
  | init : Reach rule upd Heap.init {}
  | step {h cl c ok out h'} : Reach rule upd h cl → rule h cl c →
      c.exec h = .ret ok out h' → Reach rule upd h' (upd cl c out)

end EG.CApi
