import Verif.Model.CText
import Verif.Model.ElGamal

/-!
# Elements, key pairs and ciphertexts through C and C#

Source: `src/electionguard/facades/group.cpp` (38-213), `src/electionguard/facades/elgamal.cpp`;
`bindings/netstandard/ElectionGuard/ElectionGuard.Encryption/Group.cs` (11-242), `ElGamal.cs`,
`ElectionGuardException.cs`, `NativeInterface.cs` (61-88).

A pointer of C is null (`none`) or leads to a live object of the right type (`some`); lifetimes and types are
the subject of C82 and C83.  A reference of C# is null (`none`) or leads to an object, whose handle is null
once it has been disposed (`some none`).  The runtime refuses to pass a null handle
(`ArgumentNullException`).  A string of C# is passed as its characters, a byte each: for characters above 127
that depends on the code page, and is not modelled.  `new` and `malloc` do not fail.
-/

namespace EG.CGroup

open EG.CText (Status)

/-! ## C -/

/-- What a function gives: its status, and what it stored through its output pointer, if anything. -/
abbrev Out (α : Type) := Status × Option α

/-- `try { … } catch (const exception &e) { return s; }`. -/
def caught {α : Type} (s : Status) : Res α → Res (Out α)
  | .ok a => .ok (.success, some a)
  | .throw _ => .ok (s, none)
  | .ub => .ub

/-- Access through a pointer that is not checked. -/
def deref {α : Type} : Option α → Res α
  | some a => .ok a
  | none => .ub

/-- `memcpy` of `n` numbers from the caller's array (group.cpp facade 43, 60, 119, 136). -/
def copyIn (n : ℕ) (a : List UInt64) : Res ℕ :=
  if a.length < n then .ub else .ok (ofLimbs ((a.take n).map UInt64.toNat))

/-- The `n` numbers an element consists of, least significant first. -/
def toLimbs : ℕ → ℕ → List UInt64
  | 0, _ => []
  | n + 1, v => UInt64.ofNat (v % 2 ^ 64) :: toLimbs n (v / 2 ^ 64)

/-- What C sees of a string: the characters before the first zero. -/
def cText (s : List Char) : List Char := s.takeWhile (· ≠ Char.ofNat 0)

/-- group.cpp facade 38-70 `eg_element_mod_p_new`, `eg_element_mod_p_new_unchecked`. -/
def pNew (G : Params) (un : Bool) (data : Option (List UInt64)) : Res (Out ℕ) :=
  caught .badAlloc (do
    let a ← deref data
    let v ← copyIn 64 a
    mkP G un v)

/-- group.cpp facade 114-146 `eg_element_mod_q_new`, `eg_element_mod_q_new_unchecked`. -/
def qNew (G : Params) (un : Bool) (data : Option (List UInt64)) : Res (Out ℕ) :=
  caught .badAlloc (do
    let a ← deref data
    let v ← copyIn 4 a
    mkQ G un v)

/-- group.cpp facade 83-95 and 159-171 `eg_element_mod_p_get_data`, `eg_element_mod_q_get_data`: the numbers
at the address given back, and the count. -/
def getData (n : ℕ) : Option ℕ → Out (List UInt64 × ℕ)
  | none => (.invalidArgument, none)
  | some v => (.success, some (toLimbs n v, n))

/-- group.cpp facade 97-108 `eg_element_mod_p_to_hex`. -/
def pToHex (h : Option ℕ) : Res (Out (List Char)) :=
  caught .badAlloc (do
    let v ← deref h
    .ok (cText (toHexP v)))

/-- group.cpp facade 173-184 `eg_element_mod_q_to_hex`. -/
def qToHex (h : Option ℕ) : Res (Out (List Char)) :=
  caught .badAlloc (do
    let v ← deref h
    .ok (cText (toHexQ v)))

/-- group.cpp facade 186-213 `eg_element_mod_q_from_hex`, `eg_element_mod_q_from_hex_unchecked`; `string` of a
null pointer is undefined. -/
def qFromHex (G : Params) (un : Bool) (hex : Option (List Char)) : Res (Out ℕ) :=
  caught .badAlloc (do
    let s ← deref hex
    fromHexQ G un (cText s))

/-- elgamal.cpp facade 20-37 `eg_elgamal_keypair_from_secret_new`. -/
def keypairNew (G : Params) : Option ℕ → Res (Out KeyPair)
  | none => .ok (.invalidArgument, none)
  | some s => caught .badAlloc (keyFromSecret G s)

/-- elgamal.cpp facade 50-59 `eg_elgamal_keypair_get_secret_key`. -/
def getSecret : Option KeyPair → Out ℕ
  | none => (.invalidArgument, none)
  | some k => (.success, some k.secret)

/-- elgamal.cpp facade 61-70 `eg_elgamal_keypair_get_public_key`. -/
def getPublic : Option KeyPair → Out ℕ
  | none => (.invalidArgument, none)
  | some k => (.success, some k.pub)

/-- elgamal.cpp facade 87-93 `eg_elgamal_ciphertext_get_pad`. -/
def getPad (h : Option Ciphertext) : Res (Out ℕ) := do
  let c ← deref h
  .ok (.success, some c.pad)

/-- elgamal.cpp facade 95-101 `eg_elgamal_ciphertext_get_data`. -/
def getCData (h : Option Ciphertext) : Res (Out ℕ) := do
  let c ← deref h
  .ok (.success, some c.data)

/-- elgamal.cpp facade 116-127 `eg_elgamal_ciphertext_decrypt_with_secret`. -/
def decryptWith (G : Params) (h : Option Ciphertext) (secret : Option ℕ) : Res (Out ℕ) :=
  caught .runtimeError (do
    let s ← deref secret
    let c ← deref h
    .ok (decrypt G c s))

/-- elgamal.cpp facade 133-147 `eg_elgamal_encrypt`. -/
def encrypt (G : Params) (m : ℕ) (nonce pub : Option ℕ) : Res (Out Ciphertext) :=
  caught .runtimeError (do
    let n ← deref nonce
    let k ← deref pub
    elgamalEncrypt G m n k)

/-! ## C# -/

/-- Exceptions.  `electionGuard` and `wrapped` are `ElectionGuardException` with its property `Status`, without and
with an exception inside. -/
inductive Exn
  | argument | argumentOutOfRange | system | accessViolation | outOfMemory | typeLoad | aggregate | plain
  | nullReference | indexOutOfRange | argumentNull
  | electionGuard (status : Status)
  | wrapped (status : Status) (inner : Exn)
  deriving DecidableEq

/-- How a method ends. -/
inductive Cs (α : Type)
  | ok (a : α)
  | throw (e : Exn)
  /-- undefined behaviour in the library -/
  | ub
  deriving DecidableEq

instance : Monad Cs where
  pure := .ok
  bind
    | .ok a, f => f a
    | .throw e, _ => .throw e
    | .ub, _ => .ub

/-- NativeInterface.cs 63-87 `ThrowIfError`. -/
def throwIfError : Status → Option Exn
  | .success => none
  | .invalidArgument => some .argument
  | .outOfRange => some .argumentOutOfRange
  | .ioError => some .system
  | .badAccess => some .accessViolation
  | .badAlloc => some .outOfMemory
  | .alreadyExists => some .typeLoad
  | .runtimeError => some .aggregate
  | .unknown => some .plain

/-- A call whose status is given to `fail`; if it succeeded, the output. -/
def call {α : Type} (fail : Status → Option Exn) : Res (Out α) → Cs α
  | .ok (s, out) =>
    match fail s, out with
    | some e, _ => .throw e
    | none, some a => .ok a
    | none, none => .ub
  | .throw _ => .ub
  | .ub => .ub

/-- `if (status != SUCCESS) throw new ElectionGuardException("…")` (Group.cs 63-66, 81-84 and the like);
ElectionGuardException.cs 13, 25: `Status` is left at its default, 0. -/
def failElectionGuard (s : Status) : Option Exn :=
  if s = .success then none else some (.electionGuard .success)

/-- Use of a member of an object: the reference, and then the handle passed to the library. -/
def handle {α : Type} : Option (Option α) → Cs α
  | none => .throw .nullReference
  | some none => .throw .argumentNull
  | some (some a) => .ok a

/-- The loop of `NewNative` (Group.cs 76-79, 200-203): the first `n` numbers of the caller's array. -/
def fill (n : ℕ) : Option (List UInt64) → Cs (List UInt64)
  | none => .throw .nullReference
  | some a => if a.length < n then .throw .indexOutOfRange else .ok (a.take n)

/-- `catch (Exception ex) { throw new ElectionGuardException("construction error", ex); }` (Group.cs 35-38,
146-149). -/
def wrap {α : Type} : Cs α → Cs α
  | .throw e => .throw (.wrapped .success e)
  | r => r

/-- Group.cs 29-39 `new ElementModP(data)`. -/
def newP (G : Params) (data : Option (List UInt64)) : Cs ℕ :=
  wrap (do
    let a ← fill 64 data
    call failElectionGuard (pNew G false (some a)))

/-- Group.cs 140-150 `new ElementModQ(data)`. -/
def newQ (G : Params) (data : Option (List UInt64)) : Cs ℕ :=
  wrap (do
    let a ← fill 4 data
    call failElectionGuard (qNew G false (some a)))

/-- Group.cs 89-117 and 213-241 `Data`; `n` is `MAX_SIZE`. -/
def data (n : ℕ) : Option (Option ℕ) → Cs (Option (List UInt64))
  | none => .throw .nullReference
  | some none => .ok none
  | some (some v) =>
    match (getData n (some v)).2 with
    | some (a, size) =>
      if size ≠ n then .throw (.electionGuard .success)
      else if a.length < n then .ub else .ok (some (a.take n))
    | none => .ub

/-- Group.cs 157-163 `new ElementModQ(hex, uncheckedInput)`. -/
def newQHex (G : Params) (un : Bool) (hex : Option (List Char)) : Cs ℕ := call throwIfError (qFromHex G un hex)

/-- Group.cs 60-70 `ElementModP.ToHex`. -/
def toHexPCs (h : Option (Option ℕ)) : Cs (List Char) := do
  let v ← handle h
  call failElectionGuard (pToHex (some v))

/-- Group.cs 173-183 `ElementModQ.ToHex`. -/
def toHexQCs (h : Option (Option ℕ)) : Cs (List Char) := do
  let v ← handle h
  call failElectionGuard (qToHex (some v))

/-- ElGamal.cs 50-63 `ElGamalKeyPair.FromSecret`. -/
def fromSecret (G : Params) (s : Option (Option ℕ)) : Cs KeyPair := do
  let v ← handle s
  call throwIfError (keypairNew G (some v))

/-- ElGamal.cs 18-27 `PublicKey`. -/
def publicKey (k : Option (Option KeyPair)) : Cs ℕ := do
  let v ← handle k
  call throwIfError (.ok (getPublic (some v)))

/-- ElGamal.cs 32-41 `SecretKey`. -/
def secretKey (k : Option (Option KeyPair)) : Cs ℕ := do
  let v ← handle k
  call throwIfError (.ok (getSecret (some v)))

/-- ElGamal.cs 87-96 `Pad`. -/
def pad (c : Option (Option Ciphertext)) : Cs ℕ := do
  let v ← handle c
  call throwIfError (getPad (some v))

/-- ElGamal.cs 101-110 `Data` of a ciphertext. -/
def cData (c : Option (Option Ciphertext)) : Cs ℕ := do
  let v ← handle c
  call throwIfError (getCData (some v))

/-- ElGamal.cs 139-146 `Decrypt`: the arguments are evaluated in order, then the handles are passed. -/
def decryptCs (G : Params) (c : Option (Option Ciphertext)) (s : Option (Option ℕ)) : Cs ℕ :=
  match c, s with
  | none, _ => .throw .nullReference
  | _, none => .throw .nullReference
  | some c, some s => do
    let c ← handle (some c)
    let s ← handle (some s)
    call throwIfError (decryptWith G (some c) (some s))

/-- ElGamal.cs 173-181 `Elgamal.Encrypt`. -/
def encryptCs (G : Params) (m : ℕ) (n k : Option (Option ℕ)) : Cs Ciphertext :=
  match n, k with
  | none, _ => .throw .nullReference
  | _, none => .throw .nullReference
  | some n, some k => do
    let n ← handle (some n)
    let k ← handle (some k)
    call throwIfError (encrypt G m (some n) (some k))

end EG.CGroup
