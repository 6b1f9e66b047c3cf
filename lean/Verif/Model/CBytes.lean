import Verif.Model.CJson
import Verif.Model.Binary

/-!
# Encrypted ballots as bytes in C and C#

Source: `src/electionguard/facades/ballot.cpp` (1018-1046, 1085-1157);
`bindings/netstandard/ElectionGuard/ElectionGuard.Encryption/Ballot.cs` (25-37, 1188-1197, 1253-1299) and
`NativeInterface.cs` (3020-3028, 3040-3058).

Reading is `none` for bytes of which `Model/Binary` does not tell what the library makes of them.  The bytes that the
library allocated are copied and freed.
-/

namespace EG.CBytes

open EG.CText (Status)
open EG.CGroup (Out Cs deref caught throwIfError call handle)
open EG.CProof (pass)
open EG.Binary (writePack writeBson readPack readBson)

section
variable (G : Params) (S : StdSort)

/-! ## C -/

/-- facades/ballot.cpp:1018-1031 `eg_ciphertext_ballot_from_bson`. -/
def fromBson (data : List UInt8) : Option (Res (Out CBallot)) := (readBson (CBallot.ofDoc G) data).map (caught .badAlloc)

/-- facades/ballot.cpp:1033-1046 `eg_ciphertext_ballot_from_msgpack`. -/
def fromPack (data : List UInt8) : Option (Res (Out CBallot)) := (readPack (CBallot.ofDoc G) data).map (caught .badAlloc)

/-- The body of the functions that write bytes. -/
def toBytes (write : Res Json → Res (List UInt8)) (withNonces : Bool) (h : Option CBallot) : Res (Out (List UInt8)) :=
  caught .badAlloc (do
    let b ← deref h
    write (b.toDoc S withNonces))

/-- facades/ballot.cpp:1085-1101 `eg_ciphertext_ballot_to_bson`. -/
def toBson : Option CBallot → Res (Out (List UInt8)) := toBytes S writeBson false

/-- facades/ballot.cpp:1103-1120 `eg_ciphertext_ballot_to_bson_with_nonces`. -/
def toBsonNonces : Option CBallot → Res (Out (List UInt8)) := toBytes S writeBson true

/-- facades/ballot.cpp:1122-1138 `eg_ciphertext_ballot_to_msgpack`. -/
def toPack : Option CBallot → Res (Out (List UInt8)) := toBytes S writePack false

/-- facades/ballot.cpp:1140-1157 `eg_ciphertext_ballot_to_msgpack_with_nonces`. -/
def toPackNonces : Option CBallot → Res (Out (List UInt8)) := toBytes S writePack true

/-! ## C# -/

/-- Ballot.cs:25-37. -/
inductive Encoding
  | bson | msgPack
  deriving DecidableEq

/-- Ballot.cs:1188-1197 `new CiphertextBallot(data, encoding)`. -/
def newBytes (data : Option (List UInt8)) (encoding : Encoding) : Option (Cs CBallot) :=
  match data with
  | none => some (.throw .nullReference)
  | some d =>
    if encoding = .bson then (fromBson G d).map (call throwIfError) else (fromPack G d).map (call throwIfError)

/-- Ballot.cs:1264-1272, 1288-1296: an array of C# has less than 2^31 elements. -/
def array (data : List UInt8) : Cs (List UInt8) :=
  if data.length > 2 ^ 31 - 1 then .throw (.electionGuard .success) else .ok data

/-- Ballot.cs:1253-1273 `ToBson`. -/
def csToBson (withNonces : Bool) (h : Option CBallot) : Cs (List UInt8) := do
  let b ← pass h
  let data ← call throwIfError (if withNonces then toBsonNonces S (some b) else toBson S (some b))
  array data

/-- Ballot.cs:1278-1297 `ToMsgPack`: both branches call the function without nonces. -/
def csToMsgPack (withNonces : Bool) (h : Option CBallot) : Cs (List UInt8) := do
  let b ← pass h
  let data ← call throwIfError (if withNonces then toPack S (some b) else toPack S (some b))
  array data

end

end EG.CBytes
