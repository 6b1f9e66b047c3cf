import Verif.Model.CGroup
import Verif.Model.ContextMake

/-!
# Election contexts in C and C#

Source: `src/electionguard/facades/election.cpp` (34-219, 341-355, 372-389) and
`bindings/netstandard/ElectionGuard/ElectionGuard.Encryption/Election.cs`.

Pointers, references and handles are as in `Model/CGroup`.  The functions that take or give out a linked list are in
`Model/ContextMake`.  Strings of C# reach the library as the same characters up to the first zero, and back.
-/

namespace EG.CContext

open EG.CText (Status)
open EG.CGroup (Out Cs deref throwIfError call handle)

/-- The context and what `Model/Serialize` calls its extras. -/
def extras (c : FullContext) : ContextExtras := ⟨c.config.allowOvervotes, c.config.maxBallots, c.extendedData⟩

/-- What was read. -/
def ofRead (r : Context × ContextExtras) : FullContext :=
  ⟨r.1, ⟨r.2.allowOvervotes, r.2.maxBallots⟩, r.2.extendedData⟩

/-! ## C -/

/-- facades/election.cpp:34-44 `eg_ciphertext_election_context_config_get_allowed_overvotes`. -/
def getAllowed : Option Config → Out Bool
  | none => (.invalidArgument, none)
  | some c => (.success, some c.allowOvervotes)

/-- facades/election.cpp:46-56 `eg_ciphertext_election_context_config_get_max_ballots`. -/
def getMax : Option Config → Out ℕ
  | none => (.invalidArgument, none)
  | some c => (.success, some c.maxBallots)

/-- facades/election.cpp:70-83 `eg_ciphertext_election_context_config_make`. -/
def configMake (allow : Bool) (max : UInt64) : Res (Out Config) := CGroup.caught .badAlloc (.ok ⟨allow, max.toNat⟩)

/-- facades/election.cpp:101-107 `eg_ciphertext_election_context_get_elgamal_public_key`. -/
def getPublicKey (h : Option FullContext) : Res (Out ℕ) := do
  let c ← deref h
  .ok (.success, some c.context.pub)

/-- facades/election.cpp:109-116 `eg_ciphertext_election_context_get_configuration`. -/
def getConfiguration (h : Option FullContext) : Res (Out Config) := do
  let c ← deref h
  .ok (.success, some c.config)

/-- facades/election.cpp:118-125 `eg_ciphertext_election_context_get_commitment_hash`. -/
def getCommitmentHash (h : Option FullContext) : Res (Out ℕ) := do
  let c ← deref h
  .ok (.success, some c.context.commitmentHash)

/-- facades/election.cpp:127-134 `eg_ciphertext_election_context_get_manifest_hash`. -/
def getManifestHash (h : Option FullContext) : Res (Out ℕ) := do
  let c ← deref h
  .ok (.success, some c.context.manifestHash)

/-- facades/election.cpp:136-143 `eg_ciphertext_election_context_get_crypto_base_hash`. -/
def getBaseHash (h : Option FullContext) : Res (Out ℕ) := do
  let c ← deref h
  .ok (.success, some c.context.baseHash)

/-- facades/election.cpp:145-152 `eg_ciphertext_election_context_get_crypto_extended_base_hash`. -/
def getExtendedHash (h : Option FullContext) : Res (Out ℕ) := do
  let c ← deref h
  .ok (.success, some c.context.extHash)

section
variable (G : Params) (C : Crypto)

/-- facades/election.cpp:174-194 `eg_ciphertext_election_context_make`. -/
def make (n k : UInt64) (pub commitment manifest : Option ℕ) : Res (Out FullContext) :=
  CGroup.caught .badAlloc (do
    let pub ← deref pub
    let commitment ← deref commitment
    let manifest ← deref manifest
    .ok (makePlain G C ⟨n.toNat, k.toNat, pub, commitment, manifest⟩))

/-- facades/election.cpp:196-219 `eg_ciphertext_election_context_make_with_configuration`. -/
def makeWith (n k : UInt64) (pub commitment manifest : Option ℕ) (config : Option Config) : Res (Out FullContext) :=
  CGroup.caught .badAlloc (do
    let config ← deref config
    let pub ← deref pub
    let commitment ← deref commitment
    let manifest ← deref manifest
    .ok (makeConfig G C ⟨n.toNat, k.toNat, pub, commitment, manifest⟩ ⟨config.allowOvervotes, config.maxBallots⟩))

/-- facades/election.cpp:341-355 `eg_ciphertext_election_context_from_json`. -/
def fromJson (text : Option Str) : Res (Out FullContext) :=
  CGroup.caught .badAlloc (do
    let t ← deref text
    let r ← readText (Context.ofDoc G) (CGroup.cText t)
    .ok (ofRead r))

end

/-- facades/election.cpp:372-389 `eg_ciphertext_election_context_to_json`: what the text shows. -/
def toJson (h : Option FullContext) : Res (Out Str) :=
  CGroup.caught .badAlloc (do
    let c ← deref h
    .ok (CGroup.cText (c.context.toDoc (extras c)).dump))

/-! ## C# -/

/-- Election.cs:58-63 `new ContextConfiguration`. -/
def newConfig (allow : Bool) (max : UInt64) : Cs Config := call throwIfError (configMake allow max)

/-- Election.cs:27-37 `AllowedOverVotes`. -/
def allowedOverVotes (c : Option (Option Config)) : Cs Bool := do
  let v ← handle c
  call throwIfError (.ok (getAllowed (some v)))

/-- Election.cs:41-51 `MaxBallots`. -/
def maxBallots (c : Option (Option Config)) : Cs ℕ := do
  let v ← handle c
  call throwIfError (.ok (getMax (some v)))

/-- Election.cs:93-102 `ElGamalPublicKey`. -/
def elGamalPublicKey (c : Option (Option FullContext)) : Cs ℕ := do
  let v ← handle c
  call throwIfError (getPublicKey (some v))

/-- Election.cs:108-117 `CommitmentHash`. -/
def commitmentHash (c : Option (Option FullContext)) : Cs ℕ := do
  let v ← handle c
  call throwIfError (getCommitmentHash (some v))

/-- Election.cs:122-131 `ManifestHash`. -/
def manifestHash (c : Option (Option FullContext)) : Cs ℕ := do
  let v ← handle c
  call throwIfError (getManifestHash (some v))

/-- Election.cs:136-145 `CryptoBaseHash`. -/
def cryptoBaseHash (c : Option (Option FullContext)) : Cs ℕ := do
  let v ← handle c
  call throwIfError (getBaseHash (some v))

/-- Election.cs:150-159 `CryptoExtendedBaseHash`. -/
def cryptoExtendedBaseHash (c : Option (Option FullContext)) : Cs ℕ := do
  let v ← handle c
  call throwIfError (getExtendedHash (some v))

/-- Election.cs:178-187 `Configuration`. -/
def configuration (c : Option (Option FullContext)) : Cs Config := do
  let v ← handle c
  call throwIfError (getConfiguration (some v))

section
variable (G : Params) (C : Crypto)

/-- Election.cs:211-221: the references are followed in order, then the handles are passed. -/
def newContext (n k : UInt64) (pub commitment manifest : Option (Option ℕ)) : Cs FullContext :=
  match pub, commitment, manifest with
  | some pub, some commitment, some manifest => do
    let pub ← handle (some pub)
    let commitment ← handle (some commitment)
    let manifest ← handle (some manifest)
    call throwIfError (make G C n k (some pub) (some commitment) (some manifest))
  | _, _, _ => .throw .nullReference

/-- Election.cs:233-244. -/
def newContextWith (n k : UInt64) (pub commitment manifest : Option (Option ℕ)) (config : Option (Option Config)) :
    Cs FullContext :=
  match pub, commitment, manifest, config with
  | some pub, some commitment, some manifest, some config => do
    let pub ← handle (some pub)
    let commitment ← handle (some commitment)
    let manifest ← handle (some manifest)
    let config ← handle (some config)
    call throwIfError (makeWith G C n k (some pub) (some commitment) (some manifest) (some config))
  | _, _, _, _ => .throw .nullReference

/-- Election.cs:196-200: a null string is passed as a null pointer. -/
def newContextJson (text : Option Str) : Cs FullContext := call throwIfError (fromJson G text)

end

/-- Election.cs:314-322 `ToJson`. -/
def csToJson (c : Option (Option FullContext)) : Cs Str := do
  let v ← handle c
  call throwIfError (toJson (some v))

end EG.CContext
