import Verif.Model.Res
import Mathlib.Logic.Function.Basic

/-!
# The linked list of the C interface (src/electionguard/facades/collections.c)

Pointers and the heap are explicit: an address is a number, `0` is `NULL`, and a heap maps addresses
to the objects living there.  Reading or freeing an address without a suitable object is undefined
behaviour.  `malloc` is an arbitrary function that either fails or returns an unused address; it may
fail at any call.  The list header is a value (its own allocation is left out, the handle is
taken to be non-null).
-/

namespace EG.CList

abbrev Addr := ℕ

/-- `eg_linked_list_node_t` (collections.c:3-8). -/
structure Node where
  key : Addr
  value : Addr
  previous : Addr
  next : Addr
  deriving DecidableEq

/-- The objects on the heap: uninitialised memory, strings and nodes. -/
inductive Cell where
  | raw
  | str (s : List Char)
  | node (n : Node)

abbrev Heap := Addr → Option Cell

/-- `malloc`: at its `t`-th call on heap `h` it fails (`0`) or returns an unused address. -/
structure Malloc where
  pick : ℕ → Heap → Addr
  fresh : ∀ t h, pick t h ≠ 0 → h (pick t h) = none
  bound : ∀ t h, pick t h < 2 ^ 64

/-- Memory: the heap and the number of calls of `malloc` so far. -/
structure Mem where
  heap : Heap
  time : ℕ

/-- A store to an address. -/
def Mem.set (m : Mem) (a : Addr) (c : Cell) : Mem :=
  { m with heap := Function.update m.heap a (some c) }

def malloc (A : Malloc) (m : Mem) (c : Cell) : Addr × Mem :=
  let a := A.pick m.time m.heap
  (a, { heap := if a = 0 then m.heap else Function.update m.heap a (some c), time := m.time + 1 })

/-- `strdup`. -/
def strdup (A : Malloc) (m : Mem) (s : List Char) : Addr × Mem := malloc A m (.str s)

/-- `free`. -/
def free (m : Mem) (a : Addr) : Res Mem :=
  if a = 0 then .ok m
  else match m.heap a with
    | none => .ub
    | some _ => .ok { m with heap := Function.update m.heap a none }

/-- `*node`. -/
def readNode (m : Mem) (a : Addr) : Res Node :=
  if a = 0 then .ub
  else match m.heap a with
    | some (.node n) => .ok n
    | _ => .ub

/-- `struct eg_linked_list_s` (collections.c:10-14). -/
structure LList where
  count : ℕ
  head : Addr
  tail : Addr

/-- `eg_electionguard_status_t`, the values used here. -/
inductive Status where
  | success | badAlloc | outOfRange | badAccess
  deriving DecidableEq

/-- collections.c:16-28 `eg_linked_list_new`. -/
def new : LList := { count := 0, head := 0, tail := 0 }

/-- collections.c:56-61: `node->previous = tail; tail->next = node`. -/
def link (m : Mem) (tail a : Addr) : Res Mem :=
  if tail ≠ 0 then do
    let n ← readNode m a
    let m := m.set a (.node { n with previous := tail })
    let t ← readNode m tail
    .ok (m.set tail (.node { t with next := a }))
  else .ok m

/-- collections.c:44-73 `eg_linked_list_append`. -/
def append (A : Malloc) (m : Mem) (l : LList) (key value : List Char) : Res (Status × LList × Mem) :=
  let r := malloc A m .raw
  let a := r.1
  let m := r.2
  if a = 0 then .ok (.badAlloc, l, m)
  else
    let k := strdup A m key
    let v := strdup A k.2 value
    let m := v.2.set a (.node { key := k.1, value := v.1, previous := 0, next := 0 })
    do
      let m ← link m l.tail a
      let head := if l.head = 0 then a else l.head
      .ok (.success, { count := (l.count + 1) % 2 ^ 64, head := head, tail := a }, m)

/-- collections.c:90-92: `tail->next = NULL`. -/
def unlink (m : Mem) (tail : Addr) : Res Mem :=
  if tail ≠ 0 then do
    let t ← readNode m tail
    .ok (m.set tail (.node { t with next := 0 }))
  else .ok m

/-- collections.c:75-100 `eg_linked_list_delete_last`. -/
def deleteLast (m : Mem) (l : LList) : Res (Status × LList × Mem) :=
  if l.tail = 0 then .ok (.success, l, m)
  else do
    let head := if l.head = l.tail then 0 else l.head
    let n ← readNode m l.tail
    let m ← unlink m n.previous
    let r ← readNode m l.tail
    let m ← free m r.key
    let m ← free m r.value
    let m ← free m l.tail
    .ok (.success, { count := (l.count + 2 ^ 64 - 1) % 2 ^ 64, head := head, tail := n.previous }, m)

/-- The loop of collections.c:112-114 and 136-138. -/
def walk (m : Mem) : Addr → ℕ → Res Addr
  | a, 0 => .ok a
  | a, i + 1 => do
    let n ← readNode m a
    walk m n.next i

/-- collections.c:102 `eg_linked_list_get_count`. -/
def getCount (l : LList) : ℕ := l.count

/-- collections.c:104-125 `eg_linked_list_get_element_at`: the pointers stored in the node. -/
def getElementAt (m : Mem) (l : LList) (position : ℕ) : Res (Status × Option (Addr × Addr)) :=
  if l.count = 0 ∨ position ≥ l.count then .ok (.outOfRange, none)
  else do
    let a ← walk m l.head position
    if a = 0 then .ok (.badAccess, none)
    else do
      let n ← readNode m a
      .ok (.success, some (n.key, n.value))

/-- collections.c:127-147 `eg_linked_list_get_value_at`. -/
def getValueAt (m : Mem) (l : LList) (position : ℕ) : Res (Status × Option Addr) :=
  if l.count = 0 ∨ position ≥ l.count then .ok (.outOfRange, none)
  else do
    let a ← walk m l.head position
    if a = 0 then .ok (.badAccess, none)
    else do
      let n ← readNode m a
      .ok (.success, some n.value)

/-- The loop of collections.c:36-38, with a bound on the number of iterations (`none` if it is
exceeded). -/
def freeLoop : ℕ → Mem → LList → Option (Res Mem)
  | 0, m, l => if l.count > 0 then none else some (.ok m)
  | n + 1, m, l =>
    if l.count > 0 then
      match deleteLast m l with
      | .ok (_, l', m') => freeLoop n m' l'
      | .throw e => some (.throw e)
      | .ub => some .ub
    else some (.ok m)

/-- Reading the string a pointer refers to. -/
def readStr (m : Mem) (a : Addr) : Res (List Char) :=
  if a = 0 then .ub
  else match m.heap a with
    | some (.str s) => .ok s
    | _ => .ub

/-! ## Histories of calls -/

/-- The calls that change a list. -/
inductive Op where
  | append (key value : List Char)
  | deleteLast

/-- One call: the status it returns and the new list and memory. -/
def Op.run (A : Malloc) (m : Mem) (l : LList) : Op → Res (Status × LList × Mem)
  | .append key value => CList.append A m l key value
  | .deleteLast => CList.deleteLast m l

/-- A sequence of calls: the statuses, and the list and memory at the end. -/
def runAll (A : Malloc) : List Op → Mem → LList → Res (List Status × LList × Mem)
  | [], m, l => .ok ([], l, m)
  | op :: ops, m, l => do
    let r ← op.run A m l
    let s ← runAll A ops r.2.2 r.2.1
    .ok (r.1 :: s.1, s.2)

end EG.CList
