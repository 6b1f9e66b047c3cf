import Verif.Model.Precompute
import Verif.Model.Res

/-!
# Copies and moves of precomputed values (src/electionguard/precompute_buffers.cpp:22-186)

`Triple`, `Quadruple` and `TwoTriplesAndAQuadruple` are pointers to their parts; a null pointer is `none`, and calling
`clone` through it is undefined behaviour.  Memory is never short.  In Model/Precompute.lean, which has the queues, the
values have no pointers: there they are generated and moved only.
-/

namespace EG.PreObjects

/-- precompute_buffers.hpp:33-35: the members of `Triple`. -/
structure TObj where
  exp : Option ℕ
  gToExp : Option ℕ
  pubkeyToExp : Option ℕ
  deriving DecidableEq

/-- precompute_buffers.hpp:71-74: the members of `Quadruple`. -/
structure QObj where
  exp1 : Option ℕ
  exp2 : Option ℕ
  gToExp1 : Option ℕ
  gToExp2MulPubkeyToExp1 : Option ℕ
  deriving DecidableEq

/-- precompute_buffers.hpp:115-117: the members of `TwoTriplesAndAQuadruple`. -/
structure WObj where
  triple1 : Option TObj
  triple2 : Option TObj
  quad : Option QObj
  deriving DecidableEq

/-- `p->clone()` for a pointer. -/
def cloneP {α : Type} : Option α → Res α
  | some a => .ok a
  | none => .ub

/-- precompute_buffers.cpp:32-37, the copy constructor, 48-54, the assignment, and 72-75 `clone`. -/
def TObj.copy (t : TObj) : Res TObj := do
  let a ← cloneP t.exp
  let b ← cloneP t.gToExp
  let c ← cloneP t.pubkeyToExp
  .ok ⟨some a, some b, some c⟩

/-- precompute_buffers.cpp:87-94, 106-114 and 134-138. -/
def QObj.copy (q : QObj) : Res QObj := do
  let a ← cloneP q.exp1
  let b ← cloneP q.exp2
  let c ← cloneP q.gToExp1
  let d ← cloneP q.gToExp2MulPubkeyToExp1
  .ok ⟨some a, some b, some c, some d⟩

/-- `p->clone()` for a pointer to a triple, and so on: the object behind it is copied. -/
def copyP {α : Type} (copy : α → Res α) : Option α → Res (Option α)
  | some a => copy a >>= fun b => .ok (some b)
  | none => .ub

/-- precompute_buffers.cpp:149-154, 165-172 and 182-186. -/
def WObj.copy (w : WObj) : Res WObj := do
  let a ← copyP TObj.copy w.triple1
  let b ← copyP TObj.copy w.triple2
  let c ← copyP QObj.copy w.quad
  .ok ⟨a, b, c⟩

/-- An object of one of the three classes. -/
inductive Obj where
  | t (o : TObj)
  | q (o : QObj)
  | w (o : WObj)
  deriving DecidableEq

inductive Kind where
  | t | q | w
  deriving DecidableEq

def Obj.kind : Obj → Kind
  | .t _ => .t
  | .q _ => .q
  | .w _ => .w

def Obj.copy : Obj → Res Obj
  | .t o => o.copy >>= fun o => .ok (.t o)
  | .q o => o.copy >>= fun o => .ok (.q o)
  | .w o => o.copy >>= fun o => .ok (.w o)

/-- precompute_buffers.hpp:39, 78, 120, the constructors without arguments; it is also what a move leaves
(precompute_buffers.cpp:39-44, 96-102, 156-161, 56-62, 116-123, 174-180). -/
def Obj.empty : Kind → Obj
  | .t => .t ⟨none, none, none⟩
  | .q => .q ⟨none, none, none, none⟩
  | .w => .w ⟨none, none, none⟩

/-- precompute_buffers.cpp:64-70 `generateTriple`. -/
def TObj.gen (G : Params) (pub r : ℕ) : TObj := ⟨some r, some (gPowP G r), some (powModP G pub r)⟩

/-- precompute_buffers.cpp:125-132 `generateQuadruple`. -/
def QObj.gen (G : Params) (pub r s : ℕ) : QObj :=
  ⟨some r, some s, some (gPowP G r), some (mulModP G (gPowP G s) (powModP G pub r))⟩

/-- The objects of a program, by number, and how many exponents have been drawn. -/
structure Store where
  objs : ℕ → Option Obj
  drawn : ℕ

/-- What a program does.  A constructor makes the object number `x` anew. -/
inductive Op where
  /-- the constructor without arguments -/
  | new (x : ℕ) (k : Kind)
  /-- the constructor with a public key; for two triples and a quadruple as in precompute_buffers.cpp:216-221 -/
  | gen (x : ℕ) (k : Kind) (pub : ℕ)
  /-- precompute_buffers.cpp:24-30, the constructor of a triple from pointers -/
  | make (x : ℕ) (e g p : Option ℕ)
  /-- the copy constructor, or `clone` -/
  | copy (x y : ℕ)
  /-- the move constructor -/
  | move (x y : ℕ)
  | assign (x y : ℕ)
  | moveAssign (x y : ℕ)
  /-- `get_triple1` or `get_triple2` (precompute_buffers.hpp:130-132) -/
  | part (x y : ℕ) (second : Bool)
  /-- `get_quad` (precompute_buffers.hpp:134) -/
  | quad (x y : ℕ)
  /-- the destructor -/
  | drop (x : ℕ)
  deriving DecidableEq

def Store.set (s : Store) (x : ℕ) (o : Option Obj) : Store := { s with objs := fun y => if y = x then o else s.objs y }

def Store.skip (s : Store) (n : ℕ) : Store := { s with drawn := s.drawn + n }

/-- One step; `rng` gives the exponents that `rand_q` draws.  What has no object to work on, or objects of different
classes, is no program; it counts as undefined. -/
def step (G : Params) (rng : ℕ → ℕ) (s : Store) : Op → Res Store
  | .new x k => .ok (s.set x (some (.empty k)))
  | .gen x .t pub => .ok ((s.set x (some (.t (.gen G pub (rng s.drawn))))).skip 1)
  | .gen x .q pub => .ok ((s.set x (some (.q (.gen G pub (rng s.drawn) (rng (s.drawn + 1)))))).skip 2)
  | .gen x .w pub => .ok ((s.set x (some (.w ⟨some (.gen G pub (rng s.drawn)), some (.gen G pub (rng (s.drawn + 1))),
      some (.gen G pub (rng (s.drawn + 2)) (rng (s.drawn + 3)))⟩))).skip 4)
  | .make x e g p => .ok (s.set x (some (.t ⟨e, g, p⟩)))
  | .copy x y => match s.objs y with
    | some o => o.copy >>= fun o' => .ok (s.set x (some o'))
    | none => .ub
  | .move x y => match s.objs y with
    | some o => if x = y then .ub else .ok ((s.set y (some (.empty o.kind))).set x (some o))
    | none => .ub
  | .assign x y => match s.objs x, s.objs y with
    | some a, some o => if a.kind = o.kind then o.copy >>= fun o' => .ok (s.set x (some o')) else .ub
    | _, _ => .ub
  | .moveAssign x y => match s.objs x, s.objs y with
    | some a, some o => if a.kind = o.kind then .ok ((s.set y (some (.empty o.kind))).set x (some o)) else .ub
    | _, _ => .ub
  | .part x y second => match s.objs y with
    | some (.w o) => copyP TObj.copy (if second then o.triple2 else o.triple1) >>= fun t =>
        .ok (s.set x (t.map .t))
    | _ => .ub
  | .quad x y => match s.objs y with
    | some (.w o) => copyP QObj.copy o.quad >>= fun t => .ok (s.set x (t.map .q))
    | _ => .ub
  | .drop x => .ok (s.set x none)

def run (G : Params) (rng : ℕ → ℕ) (s : Store) : List Op → Res Store
  | [] => .ok s
  | o :: os => step G rng s o >>= fun s => run G rng s os

/-- precompute_buffers.hpp:50-54: the three getters of a triple. -/
def getters (o : TObj) : Res (ℕ × ℕ × ℕ) := do
  let a ← cloneP o.exp
  let b ← cloneP o.gToExp
  let c ← cloneP o.pubkeyToExp
  .ok (a, b, c)

/-- At the start there is nothing. -/
def Store.start : Store := ⟨fun _ => none, 0⟩

end EG.PreObjects
