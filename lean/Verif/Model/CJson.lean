import Verif.Model.CEncrypt
import Verif.Model.CProof
import Verif.Model.Serialize

/-!
# The texts of devices and ballots in C and C#

Source: `src/electionguard/facades/encrypt.cpp` (83-111), `src/electionguard/facades/ballot.cpp` (724-737, 769-785,
985-1016, 1048-1084); `bindings/netstandard/ElectionGuard/ElectionGuard.Encryption/Encrypt.cs` and `Ballot.cs`.

Pointers, references and handles are as in `Model/CGroup`; strings of C# reach the library as the same characters up to
the first zero, and back, as in `Model/CContext`.
-/

namespace EG.CJson

open EG.CText (Status)
open EG.CGroup (Out Cs deref caught cText throwIfError call handle)
open EG.CProof (follow pass callBool)

/-! ## C -/

/-- The body of the functions that read a text. -/
def fromText {α : Type} (ofDoc : Json → Res α) (text : Option Str) : Res (Out α) :=
  caught .badAlloc (do
    let t ← deref text
    readText ofDoc (cText t))

/-- The body of the functions that write a text. -/
def toText {α : Type} (doc : α → Res Json) (h : Option α) : Res (Out Str) :=
  caught .badAlloc (do
    let a ← deref h
    let t ← writeText (doc a)
    .ok (cText t))

/-- facades/encrypt.cpp:83-95 `eg_encryption_device_from_json`. -/
def deviceFrom : Option Str → Res (Out Device) := fromText Device.ofDoc

/-- facades/encrypt.cpp:96-110 `eg_encryption_device_to_json`. -/
def deviceTo : Option Device → Res (Out Str) := toText (fun d => .ok d.toDoc)

/-- facades/ballot.cpp:724-737 `eg_plaintext_ballot_from_json`. -/
def plainFrom : Option Str → Res (Out PBallot) := fromText PBallot.ofDoc

/-- facades/ballot.cpp:769-785 `eg_plaintext_ballot_to_json`. -/
def plainTo : Option PBallot → Res (Out Str) := toText (fun b => .ok b.toDoc)

/-- facades/ballot.cpp:1003-1016 `eg_ciphertext_ballot_from_json`. -/
def cipherFrom (G : Params) : Option Str → Res (Out CBallot) := fromText (CBallot.ofDoc G)

/-- facades/ballot.cpp:1048-1064 `eg_ciphertext_ballot_to_json`. -/
def cipherTo (S : StdSort) : Option CBallot → Res (Out Str) := toText (CBallot.toDoc S false)

/-- facades/ballot.cpp:1066-1083 `eg_ciphertext_ballot_to_json_with_nonces`. -/
def cipherToNonces (S : StdSort) : Option CBallot → Res (Out Str) := toText (CBallot.toDoc S true)

/-- facades/ballot.cpp:985-1001 `eg_ciphertext_ballot_is_valid_encryption`. -/
def cipherValid (G : Params) (C : Crypto) (S : StdSort) (h : Option CBallot) (manifest pub ext : Option ℕ) : Res Bool :=
  match (do
    let b ← deref h
    let manifest ← deref manifest
    let pub ← deref pub
    let ext ← deref ext
    b.isValid G C S manifest pub ext : Res Bool) with
  | .throw _ => .ok false
  | r => r

/-! ## C# -/

/-- Encrypt.cs:59-63 `new EncryptionDevice(json)`. -/
def newDeviceJson (text : Option Str) : Cs Device := call throwIfError (deviceFrom text)

/-- Encrypt.cs:67-74 `ToJson` of a device. -/
def deviceToJson (d : Option (Option Device)) : Cs Str := do
  let v ← handle d
  call throwIfError (deviceTo (some v))

/-- Ballot.cs:835-839 `new PlaintextBallot(json)`. -/
def newPlainJson (text : Option Str) : Cs PBallot := call throwIfError (plainFrom text)

/-- Ballot.cs:907-915 `ToJson` of a plaintext ballot. -/
def plainToJson (b : Option (Option PBallot)) : Cs Str := do
  let v ← handle b
  call throwIfError (plainTo (some v))

section
variable (G : Params) (C : Crypto) (S : StdSort)

/-- Ballot.cs:1177-1181 `new CiphertextBallot(json)`. -/
def newCipherJson (text : Option Str) : Cs CBallot := call throwIfError (cipherFrom G text)

/-- Ballot.cs:1237-1248 `ToJson` of an encrypted ballot. -/
def cipherToJson (withNonces : Bool) (b : Option (Option CBallot)) : Cs Str := do
  let v ← handle b
  call throwIfError (if withNonces then cipherToNonces S (some v) else cipherTo S (some v))

/-- Ballot.cs:1225-1230 `IsValidEncryption` of an encrypted ballot. -/
def isValidEncryption (h : Option CBallot) (manifest pub ext : Option (Option ℕ)) : Cs Bool := do
  let manifest ← follow manifest
  let pub ← follow pub
  let ext ← follow ext
  let b ← pass h
  let manifest ← pass manifest
  let pub ← pass pub
  let ext ← pass ext
  callBool (cipherValid G C S (some b) (some manifest) (some pub) (some ext))

end

end EG.CJson
