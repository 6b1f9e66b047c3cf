import Verif.Model.HashedElGamal

/-!
# What is left in memory (Lib_Memzero0.c, group.cpp, hmac.cpp, elgamal.cpp)

The functions of Model/HashedElGamal.lean once more, with the blocks of heap memory they give back to the allocator and
what is in each block at that moment.  `Lib_Memzero0_memzero` takes a number of bytes.

Left out: the stack, the strings and hash states inside `hash_elems`, the cached hexadecimal text of an `ElementModP`,
and blocks with nothing but parts of the result (ciphertext, code, pad) after they are copied into it.
-/

namespace EG.Wipe

/-- Which variable or object a block belonged to. -/
inductive Var
  /-- `ElementModP::Impl::data` -/
  | elementP
  /-- `ElementModQ::Impl::data` -/
  | elementQ
  /-- `message` of `hashedElgamalEncrypt` -/
  | message
  /-- `plaintext_on_boundary`, `plaintext_with_padding` -/
  | plaintext
  /-- `ciphertext` -/
  | ciphertext
  /-- `temp_plaintext`, `temp_ciphertext` -/
  | temp
  | xorKey
  | macKey
  /-- `data_to_hmac` -/
  | hmacData
  /-- `key` of `get_hmac` -/
  | hmacKey
  /-- `message` of `get_hmac` -/
  | hmacMessage
  /-- an earlier block of a vector that has grown since -/
  | outgrown
  /-- `array` of `getRandomBytes` -/
  | osBytes
  /-- `entropy`, `nonce`, `input` of `Random::getBytes`, and the copies `cleanup` gets -/
  | entropy
  | nonce
  | input
  /-- `state.k`, `state.v` -/
  | drbgKey
  | drbgValue
  /-- `array` of `Random::getBytes`, `bytes` of `rand_q` -/
  | random
  /-- `bigNum` of `rand_q` -/
  | bigNum
  deriving DecidableEq, Repr

/-- A block of heap memory and what is in it when it is given back. -/
structure Freed where
  var : Var
  bytes : List UInt8
  deriving DecidableEq, Repr

/-- What a function gives back to the allocator, and its outcome. -/
structure Run (α : Type) where
  freed : List Freed
  res : Res α

namespace Run

def bind {α β : Type} (x : Run α) (f : α → Run β) : Run β :=
  match x.res with
  | .ok a => { freed := x.freed ++ (f a).freed, res := (f a).res }
  | .throw e => { freed := x.freed, res := .throw e }
  | .ub => { freed := x.freed, res := .ub }

instance : Monad Run where
  pure a := { freed := [], res := .ok a }
  bind := bind

def lift {α : Type} (r : Res α) : Run α := { freed := [], res := r }

/-- A local variable goes out of scope. -/
def free (v : Var) (b : List UInt8) : Run Unit := { freed := [⟨v, b⟩], res := .ok () }

/-- Variables that are destroyed however the rest of the function ends. -/
def after {α : Type} (x : Run α) (l : List Freed) : Run α := { x with freed := x.freed ++ l }

end Run

/-- Lib_Memzero0.c:31-55: zeros in the first `len` bytes. -/
def memzero (dst : List UInt8) (len : ℕ) : Res (List UInt8) :=
  if len ≤ dst.length then .ok (List.replicate len 0 ++ dst.drop len) else .ub

/-- `MAX_P_LEN`, `MAX_Q_LEN` (include/electionguard/constants.h): numbers of limbs. -/
def maxPLen : ℕ := 64
def maxQLen : ℕ := 4

/-- group.cpp:296 `ElementModQ::Impl::~Impl`: the limbs in memory, least significant byte first. -/
def destroyQ (x : ℕ) : Res (List UInt8) := memzero (toBytesLE 32 x) maxQLen

/-- group.cpp:137 `ElementModP::Impl::~Impl`. -/
def destroyP (x : ℕ) : Res (List UInt8) := memzero (toBytesLE 512 x) maxPLen

/-- `std::vector<uint8_t>` -/
structure Vec where
  cap : ℕ
  bytes : List UInt8

def Vec.empty : Vec := ⟨0, []⟩

/-- `v.insert(v.end(), …)`.  If the capacity does not suffice the vector moves to a larger block, whose size `grow`
(the policy of the standard library) tells, and gives back the old one. -/
def Vec.insert (grow : ℕ → ℕ → ℕ) (v : Vec) (xs : List UInt8) : Run Vec :=
  let n := v.bytes.length + xs.length
  if n ≤ v.cap then { freed := [], res := .ok { v with bytes := v.bytes ++ xs } }
  else
    { freed := if v.cap = 0 then [] else [⟨.outgrown, v.bytes⟩]
      res := .ok { cap := max n (grow v.cap n), bytes := v.bytes ++ xs } }

/-- hmac.cpp:26-36: `data_to_hmac`. -/
def hmacDataF (grow : ℕ → ℕ → ℕ) (message : List UInt8) (length start : ℕ) : Run Vec :=
  if 0 < length then do
    let v ← Vec.empty.insert grow (le32 start)
    let v ← v.insert grow message
    v.insert grow (le32 length)
  else pure ⟨message.length, message⟩

/-- hmac.cpp:22-44 `get_hmac`. -/
def getHmacF (C : Crypto) (grow : ℕ → ℕ → ℕ) (key message : List UInt8) (length start : ℕ) : Run (List UInt8) :=
  Run.after (do
    let v ← hmacDataF grow message length start
    let hmac := C.hmac key v.bytes
    let wiped ← Run.lift (memzero v.bytes v.bytes.length)
    Run.free .hmacData wiped
    pure hmac) [⟨.hmacKey, key⟩, ⟨.hmacMessage, message⟩]

/-- elgamal.cpp:389-407 and 517-534: blocks `i`, `i+1`, …, `n` of them, appended to `out`. -/
def blocksF (C : Crypto) (grow : ℕ → ℕ → ℕ) (session seed nb : ℕ) (data : List UInt8) : ℕ → ℕ → Vec → Run Vec
  | _, 0, out => pure out
  | i, n + 1, out => do
    let xorKey ← getHmacF C grow (toBytesQ session) (toBytesQ seed) (lengthBits nb) ((i + 1) % 2 ^ 32)
    let temp ← Run.lift (xorAt xorKey data (32 * i) 0 32)
    let xorKey' ← Run.lift (memzero xorKey xorKey.length)
    let out ← out.insert grow temp
    let temp' ← Run.lift (memzero temp temp.length)
    Run.free .xorKey xorKey'
    Run.free .temp temp'
    blocksF C grow session seed nb data (i + 1) n out

/-- elgamal.cpp:374-380 and 543-549: the code of pad and data; the key is wiped. -/
def macF (C : Crypto) (grow : ℕ → ℕ → ℕ) (session seed nb pad : ℕ) (data : List UInt8) : Run (List UInt8) := do
  let macKey ← getHmacF C grow (toBytesQ session) (toBytesQ seed) (lengthBits nb) 0
  let mac ← getHmacF C grow macKey (toBytesP pad ++ data) 0 0
  let macKey' ← Run.lift (memzero macKey macKey.length)
  Run.free .macKey macKey'
  pure mac

/-- elgamal.cpp:451-506: `plaintext_on_boundary`. -/
def padF (grow : ℕ → ℕ → ℕ) (message : List UInt8) (maxLen : ℕ) (allowTruncation : Bool) : Run Vec :=
  if maxLen ≠ noPadding then
    if allowTruncation ∧ message.length > maxLen then do
      let v ← Vec.empty.insert grow (be16 0)
      v.insert grow (message.take maxLen)
    else if message.length > maxLen then Run.lift (.throw .invalidArgument)
    else do
      let padLen := (maxLen - message.length) % 2 ^ 16
      let v ← Vec.empty.insert grow (be16 padLen)
      let v ← v.insert grow message
      if 0 < padLen then v.insert grow (List.replicate padLen 0) else pure v
  else if message.length % 32 ≠ 0 then Run.lift (.throw .invalidArgument)
  else Vec.empty.insert grow message

/-- The objects `session_key` and `publicKey_to_r` are destroyed. -/
def dropKeys {α : Type} (session pkR : ℕ) (x : Run α) : Run α :=
  match destroyQ session, destroyP pkR with
  | .ok q, .ok p => x.after [⟨.elementQ, q⟩, ⟨.elementP, p⟩]
  | _, _ => { x with res := .ub }

/-- elgamal.cpp:446-553 `hashedElgamalEncrypt`. -/
def encryptF (G : Params) (C : Crypto) (grow : ℕ → ℕ → ℕ) (triple : Option (ℕ × ℕ)) (message : List UInt8)
    (nonce pub seed maxLen : ℕ) (allowTruncation : Bool) : Run HashedCiphertext :=
  Run.after (do
    let pt ← padF grow message maxLen allowTruncation
    Run.after (do
      let nb := pt.bytes.length % 2 ^ 32 / 32
      let gR := match triple with
        | some t => t.1
        | none => gPowP G nonce
      let pkR := match triple with
        | some t => t.2
        | none => powModP G pub nonce
      let session := hashElems G C [.p gR, .p pkR]
      dropKeys session pkR (do
        let data ← blocksF C grow session seed nb pt.bytes 0 nb Vec.empty
        let mac ← macF C grow session seed nb gR data.bytes
        pure { pad := gR, data := data.bytes, mac := mac })) [⟨.plaintext, pt.bytes⟩]) [⟨.message, message⟩]

/-- elgamal.cpp:354-437 `HashedElGamalCiphertext::decrypt`. -/
def decryptF (G : Params) (C : Crypto) (grow : ℕ → ℕ → ℕ) (c : HashedCiphertext) (secret seed : ℕ)
    (lookForPadding : Bool) : Run (List UInt8) :=
  let len := c.data.length % 2 ^ 32
  let nb := len / 32
  if len % 32 ≠ 0 ∨ len = 0 then Run.lift (.throw .invalidArgument)
  else
    let pkR := powModP G c.pad secret
    let session := hashElems G C [.p c.pad, .p pkR]
    dropKeys session pkR (do
      let ourMac ← macF C grow session seed nb c.pad c.data
      if c.mac ≠ ourMac then Run.lift (.throw .runtimeError)
      else do
        let pt ← blocksF C grow session seed nb c.data 0 nb Vec.empty
        Run.after (if lookForPadding then Run.lift (removePadding pt.bytes) else pure pt.bytes)
          [⟨.plaintext, pt.bytes⟩])

end EG.Wipe
