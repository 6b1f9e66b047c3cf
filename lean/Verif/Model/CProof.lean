import Verif.Model.CGroup
import Verif.Model.ChaumPedersen

/-!
# Chaum-Pedersen proofs through C and C#

Source: `src/electionguard/facades/chaum_pedersen.cpp` (33-176, 194-265);
`bindings/netstandard/ElectionGuard/ElectionGuard.Encryption/ChaumPedersen.cs`.

Pointers, references and handles are as in `Model/CGroup`, random exponents and the precomputed triple are parameters as
in `Model/ChaumPedersen`.  What the runtime of C# makes of the `bool` of a C function is the subject of C86: here it is
taken as it is.  The freeing functions are the subject of C82.
-/

namespace EG.CProof

open EG.CText (Status)
open EG.CGroup (Out caught deref Cs throwIfError call)

section
variable (G : Params) (C : Crypto)

/-! ## C -/

/-- facades/chaum_pedersen.cpp:113-136 `eg_disjunctive_chaum_pedersen_proof_make`. -/
def disjNew (message : Option Ciphertext) (r k q : Option ℕ) (plaintext : UInt64) (u v w : ℕ) : Res (Out DisjProof) :=
  match message, r, k, q with
  | some message, some r, some k, some q => caught .badAlloc (disjMake G C message r k q plaintext.toNat u v w)
  | _, _, _, _ => .ok (.invalidArgument, none)

/-- facades/chaum_pedersen.cpp:138-162 `eg_disjunctive_chaum_pedersen_proof_make_deterministic`. -/
def disjNewSeeded (message : Option Ciphertext) (r k q seed : Option ℕ) (plaintext : UInt64) : Res (Out DisjProof) :=
  match message, r, k, q, seed with
  | some message, some r, some k, some q, some seed =>
    caught .badAlloc (disjMakeSeeded G C message r k q seed plaintext.toNat)
  | _, _, _, _, _ => .ok (.invalidArgument, none)

/-- facades/chaum_pedersen.cpp:164-176 `eg_disjunctive_chaum_pedersen_proof_is_valid`. -/
def disjValid (h : Option DisjProof) (ciphertext : Option Ciphertext) (k q : Option ℕ) : Res Bool :=
  match h, ciphertext, k, q with
  | some π, some ciphertext, some k, some q => .ok (π.isValid G C ciphertext k q)
  | _, _, _, _ => .ok false

/-- facades/chaum_pedersen.cpp:226-252 `eg_constant_chaum_pedersen_proof_make`. -/
def constNew (triple : Option Triple) (message : Option Ciphertext) (r k seed hashHeader : Option ℕ)
    (constant : UInt64) : Res (Out ConstProof) :=
  match message, r, k, seed, hashHeader with
  | some message, some r, some k, some seed, some hashHeader =>
    caught .badAlloc (constMake G C triple message r k seed hashHeader constant.toNat)
  | _, _, _, _, _ => .ok (.invalidArgument, none)

/-- facades/chaum_pedersen.cpp:254-265 `eg_constant_chaum_pedersen_proof_is_valid`; nothing is caught. -/
def constValid (h : Option ConstProof) (ciphertext : Option Ciphertext) (k q : Option ℕ) : Res Bool :=
  match h, ciphertext, k, q with
  | some π, some ciphertext, some k, some q => π.isValid G C ciphertext k q
  | _, _, _, _ => .ok false

end

/-- The body of a function that gives out a part of a proof; the handle is not checked. -/
def get {α : Type} (part : α → ℕ) (h : Option α) : Res (Out ℕ) := do
  let π ← deref h
  .ok (.success, some (part π))

/-- facades/chaum_pedersen.cpp:33-40. -/
def getZeroPad : Option DisjProof → Res (Out ℕ) := get (·.zeroPad)
/-- facades/chaum_pedersen.cpp:42-49. -/
def getZeroData : Option DisjProof → Res (Out ℕ) := get (·.zeroData)
/-- facades/chaum_pedersen.cpp:51-58. -/
def getOnePad : Option DisjProof → Res (Out ℕ) := get (·.onePad)
/-- facades/chaum_pedersen.cpp:60-67. -/
def getOneData : Option DisjProof → Res (Out ℕ) := get (·.oneData)
/-- facades/chaum_pedersen.cpp:69-75. -/
def getZeroChallenge : Option DisjProof → Res (Out ℕ) := get (·.zeroChallenge)
/-- facades/chaum_pedersen.cpp:77-84. -/
def getOneChallenge : Option DisjProof → Res (Out ℕ) := get (·.oneChallenge)
/-- facades/chaum_pedersen.cpp:86-93. -/
def getChallenge : Option DisjProof → Res (Out ℕ) := get (·.challenge)
/-- facades/chaum_pedersen.cpp:95-102. -/
def getZeroResponse : Option DisjProof → Res (Out ℕ) := get (·.zeroResponse)
/-- facades/chaum_pedersen.cpp:104-111. -/
def getOneResponse : Option DisjProof → Res (Out ℕ) := get (·.oneResponse)
/-- facades/chaum_pedersen.cpp:194-200. -/
def getPad : Option ConstProof → Res (Out ℕ) := get (·.pad)
/-- facades/chaum_pedersen.cpp:202-208. -/
def getData : Option ConstProof → Res (Out ℕ) := get (·.data)
/-- facades/chaum_pedersen.cpp:210-216. -/
def getConstChallenge : Option ConstProof → Res (Out ℕ) := get (·.challenge)
/-- facades/chaum_pedersen.cpp:218-224. -/
def getResponse : Option ConstProof → Res (Out ℕ) := get (·.response)

/-! ## C# -/

/-- `x.Handle`. -/
def follow {α : Type} : Option (Option α) → Cs (Option α)
  | none => .throw .nullReference
  | some h => .ok h

/-- A handle passed to the library. -/
def pass {α : Type} : Option α → Cs α
  | none => .throw .argumentNull
  | some a => .ok a

/-- The getters of the properties (ChaumPedersen.cs:26-147, 251-302): the handle of the object is null once it has been
disposed. -/
def property {α : Type} (f : Option α → Res (Out ℕ)) (h : Option α) : Cs ℕ := do
  let π ← pass h
  call throwIfError (f (some π))

section
variable (G : Params) (C : Crypto)

/-- ChaumPedersen.cs:169-179: the constructor without a seed. -/
def csDisjNew (message : Option (Option Ciphertext)) (r k q : Option (Option ℕ)) (plaintext : UInt64) (u v w : ℕ) :
    Cs DisjProof := do
  let message ← follow message
  let r ← follow r
  let k ← follow k
  let q ← follow q
  let message ← pass message
  let r ← pass r
  let k ← pass k
  let q ← pass q
  call throwIfError (disjNew G C (some message) (some r) (some k) (some q) plaintext u v w)

/-- ChaumPedersen.cs:195-206: the constructor with a seed. -/
def csDisjNewSeeded (message : Option (Option Ciphertext)) (r k q seed : Option (Option ℕ)) (plaintext : UInt64) :
    Cs DisjProof := do
  let message ← follow message
  let r ← follow r
  let k ← follow k
  let q ← follow q
  let seed ← follow seed
  let message ← pass message
  let r ← pass r
  let k ← pass k
  let q ← pass q
  let seed ← pass seed
  call throwIfError (disjNewSeeded G C (some message) (some r) (some k) (some q) (some seed) plaintext)

/-- The value of an imported function that returns `bool`; an exception leaving it is undefined. -/
def callBool : Res Bool → Cs Bool
  | .ok b => .ok b
  | .throw _ => .ub
  | .ub => .ub

/-- ChaumPedersen.cs:216-221 `DisjunctiveChaumPedersenProof.IsValid`. -/
def csDisjValid (h : Option DisjProof) (message : Option (Option Ciphertext)) (k q : Option (Option ℕ)) : Cs Bool := do
  let message ← follow message
  let k ← follow k
  let q ← follow q
  let π ← pass h
  let message ← pass message
  let k ← pass k
  let q ← pass q
  callBool (disjValid G C (some π) (some message) (some k) (some q))

/-- ChaumPedersen.cs:323-334: the constructor of `ConstantChaumPedersenProof`. -/
def csConstNew (triple : Option Triple) (message : Option (Option Ciphertext)) (r k seed hashHeader : Option (Option ℕ))
    (constant : UInt64) : Cs ConstProof := do
  let message ← follow message
  let r ← follow r
  let k ← follow k
  let seed ← follow seed
  let hashHeader ← follow hashHeader
  let message ← pass message
  let r ← pass r
  let k ← pass k
  let seed ← pass seed
  let hashHeader ← pass hashHeader
  call throwIfError (constNew G C triple (some message) (some r) (some k) (some seed) (some hashHeader) constant)

/-- ChaumPedersen.cs:344-349 `ConstantChaumPedersenProof.IsValid`. -/
def csConstValid (h : Option ConstProof) (message : Option (Option Ciphertext)) (k q : Option (Option ℕ)) : Cs Bool := do
  let message ← follow message
  let k ← follow k
  let q ← follow q
  let π ← pass h
  let message ← pass message
  let k ← pass k
  let q ← pass q
  callBool (constValid G C (some π) (some message) (some k) (some q))

end

end EG.CProof
