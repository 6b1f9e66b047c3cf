import Verif.Model.Encrypt
import Verif.Model.Serialize
import Verif.Model.Collections

/-!
# Creating an election context (election.cpp, facades/election.cpp, Collections.cs)

The eight overloads of `CiphertextElectionContext::make`, the six functions of the C interface that call them, the
function that gives out the extended data as a linked list, and the indexer of the list in C#.

Lists are those of Model/Collections.lean, with pointers, the heap and an arbitrary `malloc`.  A `std::unordered_map` is
the list of its entries, in the order in which it iterates.  The handles of elements and configurations are taken to be
good (see Model/CApi.lean) and are replaced by their values.  `std::string` of a null pointer is undefined.
-/

namespace EG

open CList (Mem LList Malloc Status)

/-- The entries of an `unordered_map<string, string>`, with distinct keys. -/
abbrev Entries := List (Str × Str)

/-- `map[key] = value`. -/
def Entries.assign (d : Entries) (key value : Str) : Entries :=
  if d.any (fun e => e.1 == key) then d.map (fun e => if e.1 = key then (key, value) else e)
  else d ++ [(key, value)]

/-- `map.find(key)`. -/
def Entries.find (d : Entries) (key : Str) : Option Str := (List.find? (fun e => e.1 == key) d).map (·.2)

/-- `ContextConfiguration` (election.hpp:20-49). -/
structure Config where
  allowOvervotes : Bool
  maxBallots : ℕ
  deriving DecidableEq

/-- election.hpp:27: the constructor without arguments. -/
def Config.standard : Config := ⟨true, defaultMaxBallots⟩

/-- A context with its configuration and its extended data. -/
structure FullContext where
  context : Context
  config : Config
  extendedData : Entries

/-- What all ways of creating a context are given. -/
structure MakeArgs where
  guardians : ℕ
  quorum : ℕ
  pub : ℕ
  commitment : ℕ
  manifest : ℕ

/-- The same as texts. -/
structure HexArgs where
  guardians : ℕ
  quorum : ℕ
  pub : Str
  commitment : Str
  manifest : Str

section
variable (G : Params) (C : Crypto)

/-- election.cpp:206-222 with 45-56. -/
def makePlain (a : MakeArgs) : FullContext :=
  ⟨Context.make G C a.guardians a.quorum a.pub a.commitment a.manifest, .standard, []⟩

/-- election.cpp:224-241 with 58-71. -/
def makeConfig (a : MakeArgs) (c : Config) : FullContext :=
  ⟨Context.make G C a.guardians a.quorum a.pub a.commitment a.manifest, c, []⟩

/-- election.cpp:243-261 with 73-84. -/
def makeData (a : MakeArgs) (d : Entries) : FullContext :=
  ⟨Context.make G C a.guardians a.quorum a.pub a.commitment a.manifest, .standard, d⟩

/-- election.cpp:263-282 with 86-98. -/
def makeConfigData (a : MakeArgs) (c : Config) (d : Entries) : FullContext :=
  ⟨Context.make G C a.guardians a.quorum a.pub a.commitment a.manifest, c, d⟩

/-- election.cpp:288-290, 303-305, 319-321 and 336-338: the elements of the texts. -/
def HexArgs.read (a : HexArgs) : Res MakeArgs := do
  let pub ← fromHexP G false a.pub
  let commitment ← fromHexQ G false a.commitment
  let manifest ← fromHexQ G false a.manifest
  .ok ⟨a.guardians, a.quorum, pub, commitment, manifest⟩

/-- election.cpp:284-297. -/
def makeHexPlain (a : HexArgs) : Res FullContext := do
  let a ← a.read G
  .ok (makePlain G C a)

/-- election.cpp:299-313. -/
def makeHexData (a : HexArgs) (d : Entries) : Res FullContext := do
  let a ← a.read G
  .ok (makeData G C a d)

/-- election.cpp:315-329. -/
def makeHexConfig (a : HexArgs) (c : Config) : Res FullContext := do
  let a ← a.read G
  .ok (makeConfig G C a c)

/-- election.cpp:331-346. -/
def makeHexConfigData (a : HexArgs) (c : Config) (d : Entries) : Res FullContext := do
  let a ← a.read G
  .ok (makeConfigData G C a c d)

/-! ## The C interface -/

/-- facades/election.cpp:232-239, 268-275 and 321-328: reading the list, from `i` on; `none` if a call reports an error. -/
def readLoop (m : Mem) (l : LList) : ℕ → ℕ → Entries → Res (Option Entries)
  | 0, _, d => .ok (some d)
  | n + 1, i, d => do
    let r ← CList.getElementAt m l i
    match r.2 with
    | some (k, v) => do
      let key ← CList.readStr m k
      let value ← CList.readStr m v
      readLoop m l n (i + 1) (d.assign key value)
    | none => .ok none

def readList (m : Mem) (l : LList) : Res (Option Entries) := readLoop m l (CList.getCount l) 0 []

/-- `catch (const exception &e)` (facades/election.cpp:190-193 and the like), and the return of a context. -/
def caught (r : Res FullContext) : Res (Status × Option FullContext) :=
  match r with
  | .ok c => .ok (.success, some c)
  | .throw _ => .ok (.badAlloc, none)
  | .ub => .ub

/-- What follows the reading of the list: facades/election.cpp:236 and 241-250 and the like. -/
def withList (m : Mem) (l : LList) (f : Entries → Res FullContext) : Res (Status × Option FullContext) := do
  match ← readList m l with
  | some d => caught (f d)
  | none => .ok (.badAccess, none)

/-- facades/election.cpp:174-194 `eg_ciphertext_election_context_make`. -/
def egMake (a : MakeArgs) : Res (Status × Option FullContext) := caught (.ok (makePlain G C a))

/-- facades/election.cpp:196-219 `eg_ciphertext_election_context_make_with_configuration`. -/
def egMakeConfig (a : MakeArgs) (c : Config) : Res (Status × Option FullContext) :=
  caught (.ok (makeConfig G C a ⟨c.allowOvervotes, c.maxBallots⟩))

/-- facades/election.cpp:221-251 `eg_ciphertext_election_context_make_with_extended_data`. -/
def egMakeData (a : MakeArgs) (m : Mem) (l : LList) : Res (Status × Option FullContext) :=
  withList m l (fun d => .ok (makeData G C a d))

/-- facades/election.cpp:253-287 `eg_ciphertext_election_context_make_with_configuration_and_extended_data`. -/
def egMakeConfigData (a : MakeArgs) (c : Config) (m : Mem) (l : LList) : Res (Status × Option FullContext) :=
  withList m l (fun d => .ok (makeConfigData G C a ⟨c.allowOvervotes, c.maxBallots⟩ d))

/-- facades/election.cpp:289-308 `eg_ciphertext_election_context_make_from_hex`. -/
def egMakeHex (a : HexArgs) : Res (Status × Option FullContext) := caught (makeHexPlain G C a)

/-- facades/election.cpp:310-339 `eg_ciphertext_election_context_make_from_hex_with_extended_data`: the entries that
were read are not passed on. -/
def egMakeHexData (a : HexArgs) (m : Mem) (l : LList) : Res (Status × Option FullContext) :=
  withList m l (fun _ => makeHexPlain G C a)

end

/-- What a C string shows of a `std::string`. -/
def cText (s : Str) : Str := s.takeWhile (· ≠ Char.ofNat 0)

/-- facades/election.cpp:166-169: the loop over the entries; no status is looked at. -/
def appendAll (A : Malloc) : Entries → Mem → LList → Res (LList × Mem)
  | [], m, l => .ok (l, m)
  | e :: es, m, l => do
    let r ← CList.append A m l (cText e.1) (cText e.2)
    appendAll A es r.2.2 r.2.1

/-- facades/election.cpp:154-172 `eg_ciphertext_election_context_get_extended_data`. -/
def egGetExtendedData (A : Malloc) (m : Mem) (c : FullContext) : Res (Status × Option LList × Mem) :=
  let r := CList.malloc A m .raw
  if r.1 = 0 then .ok (.badAlloc, none, r.2)
  else do
    let s ← appendAll A c.extendedData r.2 CList.new
    .ok (.success, some s.1, s.2)

/-- `Marshal.PtrToStringAnsi` (Collections.cs:94-95): a pointer as a string of C#, null if it is null. -/
def csString (m : Mem) (a : CList.Addr) : Res (Option Str) :=
  if a = 0 then .ok none
  else do
    let s ← CList.readStr m a
    .ok (some s)

/-- Collections.cs:89-96: the loop, from `i` on. -/
def csFind (m : Mem) (l : LList) (key : Str) : ℕ → ℕ → Res (Option Str)
  | 0, _ => .ok none
  | n + 1, i => do
    let r ← CList.getElementAt m l i
    match r.2 with
    | some (k, v) => do
      let s ← csString m k
      if s = some key then csString m v else csFind m l key n (i + 1)
    | none => .throw .runtimeError

/-- Collections.cs:84-99: `list[key]`. -/
def csIndex (m : Mem) (l : LList) (key : Str) : Res (Option Str) := csFind m l key (CList.getCount l) 0

end EG
