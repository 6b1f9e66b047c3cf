import Verif.Model.Manifest

/-!
# Contests of the internal manifest as objects: copying, moving and assigning

A `ContestDescriptionWithPlaceholders` has two parts behind pointers of their own (manifest.hpp:743,
815): that of its base class and its own.  A pointer is empty after its content was
moved away.  Allocation does not fail.
-/

namespace EG

/-- The two pointers of the object. -/
structure ContestObj where
  base : Option ContestDesc
  own : Option (List SelectionDesc)
  deriving DecidableEq

namespace ContestObj

/-- The object that holds a contest. -/
def of (c : ContestDescP) : ContestObj := { base := some c.desc, own := some c.placeholders }

/-- Using what a pointer points to. -/
def deref {α : Type} : Option α → Res α
  | some a => .ok a
  | none => .ub

/-- manifest.cpp:1137-1140, the copy constructor of `ContestDescription`. -/
def copyBase (o : Option ContestDesc) : Res (Option ContestDesc) := do
  let d ← deref o
  let d' ← d.clone
  .ok (some d')

/-- manifest.cpp:1142, the move constructor of `ContestDescription`: the new pointer and that of the
source. -/
def moveBase (o : Option ContestDesc) : Option ContestDesc × Option ContestDesc := (o, none)

/-- manifest.cpp:1194-1198, `operator=` of `ContestDescription`: the argument is a copy, the pointers
are exchanged. -/
def assignBase (_a b : Option ContestDesc) : Res (Option ContestDesc) := copyBase b

/-- manifest.cpp:1319-1323, the copy constructor. The placeholders are copied (1305-1314). -/
def copy (o : ContestObj) : Res ContestObj := do
  let b ← copyBase o.base
  let p ← deref o.own
  .ok { base := b, own := some p }

/-- manifest.cpp:1325-1329, the move constructor: the base class gets the argument by its name, which
is the copy constructor.  The new object and the source afterwards. -/
def moveOut (o : ContestObj) : Res (ContestObj × ContestObj) := do
  let b ← copyBase o.base
  .ok ({ base := b, own := o.own }, { o with own := none })

/-- manifest.cpp:1392-1399, `operator=`: the argument is a copy, the pointers of the derived class are
exchanged. -/
def assign (a b : ContestObj) : Res ContestObj := do
  let t ← copy b
  .ok { a with own := t.own }

/-- manifest.cpp:1202-1234: what the getters of the base class read. -/
def description (o : ContestObj) : Res ContestDesc := deref o.base

/-- manifest.cpp:1403-1419 `getPlaceholders`. -/
def getPlaceholders (S : StdSort) (o : ContestObj) : Res (List SelectionDesc) := do
  let p ← deref o.own
  .ok (S.sort SelectionDesc.seq p)

/-- manifest.cpp:1433-1449 `selectionFor`. The placeholders are looked at only if no selection has the
id. -/
def selectionFor (S : StdSort) (o : ContestObj) (id : Str) : Res SelectionDesc := do
  let d ← deref o.base
  match (d.getSelections S).find? (fun s => id = s.objectId) with
  | some s => .ok s
  | none => do
    let p ← o.getPlaceholders S
    match p.find? (fun s => id = s.objectId) with
    | some s => .ok s
    | none => .throw .outOfRange

end ContestObj

end EG
