import Verif.Model.CJson

/-!
# The parts of an encrypted ballot in C and C#

Source: `src/electionguard/facades/ballot.cpp` (321-335, 493-514, 571-632, 894-915, 969-983);
`bindings/netstandard/ElectionGuard/ElectionGuard.Encryption/Ballot.cs` (300-312, 416-425, 606-627, 682-723, 743-752,
1118-1126, 1207-1213).

The parts that C# is given are those of the ballot, not copies; who frees them is the subject of C87 and C102.  Sizes fit
in 64 bits.
-/

namespace EG.CWalk

open EG.CText (Status)
open EG.CGroup (Out Cs deref caught throwIfError call handle)
open EG.CProof (follow pass callBool)

section
variable (G : Params) (C : Crypto) (S : StdSort)

/-! ## C -/

/-- `vector::at`. -/
def at' {α : Type} (l : List α) (i : ℕ) : Res α :=
  match l[i]? with
  | some a => .ok a
  | none => .throw .outOfRange

/-- facades/ballot.cpp:894-898 `eg_ciphertext_ballot_get_contests_size`. -/
def contestsSize (h : Option CBallot) : Res ℕ := do
  let b ← deref h
  .ok (b.getContests S).length

/-- facades/ballot.cpp:900-915 `eg_ciphertext_ballot_get_contest_at_index`. -/
def contestAt (h : Option CBallot) (i : UInt64) : Res (Out CContest) :=
  caught .badAlloc (do
    let b ← deref h
    at' (b.getContests S) i.toNat)

/-- facades/ballot.cpp:493-497 `eg_ciphertext_ballot_contest_get_selections_size`. -/
def selectionsSize (h : Option CContest) : Res ℕ := do
  let c ← deref h
  .ok (c.getSelections S).length

/-- facades/ballot.cpp:499-514 `eg_ciphertext_ballot_contest_get_selection_at_index`. -/
def selectionAt (h : Option CContest) (i : UInt64) : Res (Out CSelection) :=
  caught .badAlloc (do
    let c ← deref h
    at' (c.getSelections S) i.toNat)

/-- facades/ballot.cpp:614-628 `eg_ciphertext_ballot_contest_is_valid_encryption`. -/
def contestValid (h : Option CContest) (seed pub ext : Option ℕ) : Res Bool :=
  match (do
    let seed ← deref seed
    let pub ← deref pub
    let ext ← deref ext
    let c ← deref h
    c.isValid G C S seed pub ext : Res Bool) with
  | .throw _ => .ok false
  | r => r

/-- facades/ballot.cpp:321-335 `eg_ciphertext_ballot_selection_is_valid_encryption`. -/
def selectionValid (h : Option CSelection) (seed pub ext : Option ℕ) : Res Bool :=
  match (do
    let seed ← deref seed
    let pub ← deref pub
    let ext ← deref ext
    let s ← deref h
    .ok (s.isValid G C seed pub ext) : Res Bool) with
  | .throw _ => .ok false
  | r => r

/-- facades/ballot.cpp:969-983 `eg_ciphertext_ballot_crypto_hash_with`. -/
def ballotHashWith (h : Option CBallot) (manifest : Option ℕ) : Res (Out ℕ) :=
  caught .badAlloc (do
    let manifest ← deref manifest
    let b ← deref h
    ballotHash G C b.objectId (b.getContests S) manifest)

/-- facades/ballot.cpp:587-599 `eg_ciphertext_ballot_contest_aggregate_nonce`. -/
def nonceSum (h : Option CContest) : Res (Out ℕ) :=
  caught .badAlloc (do
    let c ← deref h
    aggregateNonce G (c.getSelections S))

/-! ## C# -/

/-- The end of a property that gives a number. -/
def number : Res ℕ → Cs ℕ
  | .ok n => .ok n
  | _ => .ub

/-- Ballot.cs:1118-1126 `ContestsSize`. -/
def csContestsSize (h : Option CBallot) : Cs ℕ := do
  let b ← pass h
  number (contestsSize S (some b))

/-- Ballot.cs:1207-1213 `GetContestAt`. -/
def csContestAt (h : Option CBallot) (i : UInt64) : Cs CContest := do
  let b ← pass h
  call throwIfError (contestAt S (some b) i)

/-- Ballot.cs:620-627 `SelectionsSize`. -/
def csSelectionsSize (h : Option CContest) : Cs ℕ := do
  let c ← pass h
  number (selectionsSize S (some c))

/-- Ballot.cs:682-688 `GetSelectionAt`. -/
def csSelectionAt (h : Option CContest) (i : UInt64) : Cs CSelection := do
  let c ← pass h
  call throwIfError (selectionAt S (some c) i)

/-- Ballot.cs:743-752 `IsValidEncryption` of a contest. -/
def csContestValid (h : Option CContest) (seed pub ext : Option (Option ℕ)) : Cs Bool := do
  let seed ← follow seed
  let pub ← follow pub
  let ext ← follow ext
  let c ← pass h
  let seed ← pass seed
  let pub ← pass pub
  let ext ← pass ext
  callBool (contestValid G C S (some c) (some seed) (some pub) (some ext))

/-- Ballot.cs:416-425 `IsValidEncryption` of a selection. -/
def csSelectionValid (h : Option CSelection) (seed pub ext : Option (Option ℕ)) : Cs Bool := do
  let seed ← follow seed
  let pub ← follow pub
  let ext ← follow ext
  let s ← pass h
  let seed ← pass seed
  let pub ← pass pub
  let ext ← pass ext
  callBool (selectionValid G C (some s) (some seed) (some pub) (some ext))

/-- Ballot.cs:712-718 `AggregateNonce`. -/
def csNonceSum (h : Option CContest) : Cs ℕ := do
  let c ← pass h
  call throwIfError (nonceSum G S (some c))

end

end EG.CWalk
