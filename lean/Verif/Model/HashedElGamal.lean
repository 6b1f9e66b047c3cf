import Verif.Model.ElGamal

/-!
# Hashed ElGamal (src/electionguard/elgamal.cpp, hmac.cpp)

`Lib_Memzero0_memzero` calls on temporaries and the sign of the `int8_t` temporaries in
elgamal.cpp:390-404 (converted back to `uint8_t` unchanged) are left out.
-/

namespace EG

/-- A `uint32_t` laid out in memory on a little-endian machine (hmac.cpp:29-33). -/
def le32 (n : ℕ) : List UInt8 := toBytesLE 4 n

/-- hmac.cpp:22-44 `get_hmac`. -/
def getHmac (C : Crypto) (key message : List UInt8) (length start : ℕ) : List UInt8 :=
  if 0 < length then C.hmac key (le32 start ++ message ++ le32 length) else C.hmac key message

/-- `HashedElGamalCiphertext`. -/
structure HashedCiphertext where
  pad : ℕ
  data : List UInt8
  mac : List UInt8
  deriving DecidableEq

/-- elgamal.cpp:292-295 `crypto_hash`. -/
def HashedCiphertext.hash (G : Params) (C : Crypto) (c : HashedCiphertext) : ℕ :=
  hashElems G C [.p c.pad, .bytes c.data, .bytes c.mac]

/-- The inner loop of elgamal.cpp:398-402 and 526-530: `n` bytes of the data from index `idx` on,
xored with the key from index `j` on; out-of-range indices are undefined behaviour. -/
def xorAt (key data : List UInt8) : ℕ → ℕ → ℕ → Res (List UInt8)
  | _, _, 0 => .ok []
  | idx, j, n + 1 =>
    match data[idx]?, key[j]? with
    | some a, some b => do
      let rest ← xorAt key data (idx + 1) (j + 1) n
      .ok ((a ^^^ b) :: rest)
    | _, _ => .ub

/-- The outer loops of elgamal.cpp:389-407 and 517-534: blocks `i`, `i+1`, ..., `n` of them. -/
def xorBlocks (keyOf : ℕ → List UInt8) (data : List UInt8) : ℕ → ℕ → Res (List UInt8)
  | _, 0 => .ok []
  | i, n + 1 => do
    let b ← xorAt (keyOf i) data (32 * i) 0 32
    let rest ← xorBlocks keyOf data (i + 1) n
    .ok (b ++ rest)

/-- `number_of_blocks * HASHED_BLOCK_LENGTH_IN_BITS`, a `uint32_t`. -/
def lengthBits (nb : ℕ) : ℕ := nb * 256 % 2 ^ 32

/-- The key of block `i` (elgamal.cpp:392-394, 520-522). -/
def blockKey (C : Crypto) (session seed nb i : ℕ) : List UInt8 :=
  getHmac C (toBytesQ session) (toBytesQ seed) (lengthBits nb) ((i + 1) % 2 ^ 32)

/-- elgamal.cpp:374-380 and 543-549: the message authentication code of pad and data. -/
def macOf (C : Crypto) (session seed nb pad : ℕ) (data : List UInt8) : List UInt8 :=
  getHmac C (getHmac C (toBytesQ session) (toBytesQ seed) (lengthBits nb) 0)
    (toBytesP pad ++ data) 0 0

/-- elgamal.cpp:409-435: removal of the padding.  The last bytes are read by index, and a range whose end
comes before its begin must not be inserted. -/
def removePadding (pt : List UInt8) : Res (List UInt8) :=
  match pt[0]?, pt[1]? with
  | some hi, some lo =>
    let padLen := hi.toNat * 256 + lo.toNat
    if padLen > pt.length - 2 then .throw .runtimeError
    else if padLen > pt.length then .ub
    else if (pt.drop (pt.length - padLen)).any (· ≠ 0) then .throw .runtimeError
    else if pt.length - padLen < 2 then .ub
    else .ok ((pt.take (pt.length - padLen)).drop 2)
  | _, _ => .ub

/-- elgamal.cpp:354-437 `HashedElGamalCiphertext::decrypt`. -/
def hashedDecrypt (G : Params) (C : Crypto) (c : HashedCiphertext) (secret seed : ℕ)
    (lookForPadding : Bool) : Res (List UInt8) :=
  let len := c.data.length % 2 ^ 32
  let nb := len / 32
  if len % 32 ≠ 0 ∨ len = 0 then .throw .invalidArgument
  else
    let pkR := powModP G c.pad secret
    let session := hashElems G C [.p c.pad, .p pkR]
    if c.mac ≠ macOf C session seed nb c.pad c.data then .throw .runtimeError
    else do
      let pt ← xorBlocks (blockKey C session seed nb) c.data 0 nb
      if lookForPadding then removePadding pt else .ok pt

/-- `htobe16` written to memory (elgamal.cpp:476-482). -/
def be16 (n : ℕ) : List UInt8 := [UInt8.ofNat (n / 256 % 256), UInt8.ofNat (n % 256)]

/-- `padded_data_size_t`: `NO_PADDING` (elgamal.hpp:146-149). -/
def noPadding : ℕ := 0

/-- `padded_data_size_t`: `BYTES_512` (elgamal.hpp:146-149). -/
def bytes512 : ℕ := 510

/-- elgamal.cpp:451-506: the plaintext with padding. -/
def padMessage (message : List UInt8) (maxLen : ℕ) (allowTruncation : Bool) : Res (List UInt8) :=
  if maxLen ≠ noPadding then
    if allowTruncation ∧ message.length > maxLen then .ok (be16 0 ++ message.take maxLen)
    else if message.length > maxLen then .throw .invalidArgument
    else
      let padLen := (maxLen - message.length) % 2 ^ 16
      .ok (be16 padLen ++ message ++ List.replicate padLen 0)
  else if message.length % 32 ≠ 0 then .throw .invalidArgument
  else .ok message

/-- elgamal.cpp:446-553 `hashedElgamalEncrypt`; `triple` is what `PrecomputeBufferContext::getTriple`
returns, as the pair of powers it carries. -/
def hashedEncrypt (G : Params) (C : Crypto) (triple : Option (ℕ × ℕ)) (message : List UInt8)
    (nonce pub seed maxLen : ℕ) (allowTruncation : Bool) : Res HashedCiphertext := do
  let pt ← padMessage message maxLen allowTruncation
  let nb := pt.length % 2 ^ 32 / 32
  let gR := match triple with
    | some t => t.1
    | none => gPowP G nonce
  let pkR := match triple with
    | some t => t.2
    | none => powModP G pub nonce
  let session := hashElems G C [.p gR, .p pkR]
  let data ← xorBlocks (blockKey C session seed nb) pt 0 nb
  .ok { pad := gR, data := data, mac := macOf C session seed nb gR data }

end EG
