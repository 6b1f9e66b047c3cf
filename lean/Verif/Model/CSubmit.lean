import Verif.Model.CJson

/-!
# Submitted ballots in C and C#

Source: `src/electionguard/facades/ballot.cpp` (838-850, 917-941, 1174-1213, 1245-1261);
`bindings/netstandard/ElectionGuard/ElectionGuard.Encryption/Ballot.cs` (1100-1157, 1410-1615) and `NativeInterface.cs`
(63-107, 2981-2985, 3136-3236).

The state is one of the three enumerators; C# could pass other numbers.  `Timestamp` calls a function that returns a
number of 64 bits through an import that says it returns a status and writes to a second argument: modelled as on the
platforms where a second argument in a register is ignored and a status is the low 32 bits of the result.
-/

namespace EG.CSubmit

open EG.CText (Status)
open EG.CGroup (Out Cs deref caught cText throwIfError call handle)
open EG.CProof (follow pass)
open EG.CJson (fromText toText)

/-! ## C -/

/-- facades/ballot.cpp:1184-1198 `eg_submitted_ballot_from`. -/
def submit (h : Option CBallot) (state : BallotBoxState) : Res (Out SBallot) :=
  caught .badAlloc (do
    let b ← deref h
    SBallot.from b state)

/-- facades/ballot.cpp:1174-1182 `eg_submitted_ballot_get_state`. -/
def getState (h : Option SBallot) : Res BallotBoxState := do
  let s ← deref h
  .ok s.state

/-- facades/ballot.cpp:1200-1213 `eg_submitted_ballot_from_json`. -/
def submittedFrom (G : Params) : Option Str → Res (Out SBallot) := fromText (SBallot.ofDoc G)

/-- facades/ballot.cpp:1245-1261 `eg_submitted_ballot_to_json`. -/
def submittedTo (S : StdSort) : Option SBallot → Res (Out Str) := toText (SBallot.toDoc S)

/-- facades/ballot.cpp:932-941 `eg_ciphertext_ballot_get_timestamp`. -/
def getTimestamp (h : Option CBallot) : Res ℕ := do
  let b ← deref h
  .ok b.timestamp

/-- facades/ballot.cpp:838-850 `eg_ciphertext_ballot_get_object_id`. -/
def getObjectId (h : Option CBallot) : Res (Out Str) :=
  caught .badAlloc (do
    let b ← deref h
    .ok (cText b.objectId))

/-- facades/ballot.cpp:917-930 `eg_ciphertext_ballot_get_ballot_code`. -/
def getCode (h : Option CBallot) : Res (Out ℕ) :=
  caught .badAlloc (do
    let b ← deref h
    .ok b.ballotCode)

/-! ## C# -/

/-- Ballot.cs:1543-1548 `new SubmittedBallot(ciphertext, state)`. -/
def newSubmitted (b : Option (Option CBallot)) (state : BallotBoxState) : Cs SBallot := do
  let v ← handle b
  call throwIfError (submit (some v) state)

/-- Ballot.cs:1554-1558 `new SubmittedBallot(json)`. -/
def newSubmittedJson (G : Params) (text : Option Str) : Cs SBallot := call throwIfError (submittedFrom G text)

/-- Ballot.cs:1607-1615 `ToJson` of a submitted ballot. -/
def submittedToJson (S : StdSort) (h : Option SBallot) : Cs Str := do
  let v ← pass h
  call throwIfError (submittedTo S (some v))

/-- Ballot.cs:1415-1421 `State`. -/
def state (h : Option SBallot) : Cs BallotBoxState := do
  let v ← pass h
  match getState (some v) with
  | .ok s => .ok s
  | _ => .ub

/-- NativeInterface.cs:10-57: a number as status; what is not in the list ends in the branch of `ThrowIfError` in which the
last of the list ends. -/
def statusOf : ℕ → Status
  | 0 => .success
  | 1 => .invalidArgument
  | 2 => .outOfRange
  | 3 => .ioError
  | 4 => .badAccess
  | 5 => .badAlloc
  | 6 => .alreadyExists
  | 7 => .runtimeError
  | _ => .unknown

/-- Ballot.cs:1148-1157 and 1520-1529 `Timestamp`, of an encrypted and of a submitted ballot: nothing is written to
`value`. -/
def timestamp (h : Option CBallot) : Cs ℕ := do
  let v ← pass h
  match getTimestamp (some v) with
  | .ok t =>
    match throwIfError (statusOf (t % 2 ^ 32)) with
    | some e => .throw e
    | none => .ok 0
  | _ => .ub

/-- Ballot.cs:1426-1437 `ObjectId` of a submitted ballot. -/
def objectId (h : Option SBallot) : Cs Str := do
  let v ← pass h
  call throwIfError (getObjectId (some v.ballot))

/-- Ballot.cs:1503-1512 `BallotCode` of a submitted ballot. -/
def code (h : Option SBallot) : Cs ℕ := do
  let v ← pass h
  call throwIfError (getCode (some v.ballot))

/-- Ballot.cs:1597-1602 `IsValidEncryption` of a submitted ballot. -/
def isValidEncryption (G : Params) (C : Crypto) (S : StdSort) (h : Option SBallot)
    (manifest pub ext : Option (Option ℕ)) : Cs Bool :=
  CJson.isValidEncryption G C S (h.map SBallot.ballot) manifest pub ext

end EG.CSubmit
