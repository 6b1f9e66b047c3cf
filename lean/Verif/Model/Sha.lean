import Verif.Model.Hash
import Verif.Model.Std

/-!
# SHA-256, HMAC and the random generator of HACL* (src/karamel)

Hacl_Hash.c, Hacl_Streaming_SHA2.c, Hacl_HMAC.c, Hacl_HMAC_DRBG.c, for SHA-256.

An array is the list of its entries; a pointer into an array is the list from there on.  Reading or
writing beyond the end is undefined behaviour (`Res.ub`).  Lengths are natural numbers with the
conversions to `uint32_t` and `uint64_t` written out where a value can leave the range.
The array `computed_ws` grows while it is filled (reading an entry before it is written would be
`Res.ub`, which does not happen).  Output arrays of 32 bytes are results.  Allocation does not fail.
-/

namespace EG.Sha

abbrev Bytes := List UInt8

/-- `len` bytes from `off` on. -/
def slice (b : Bytes) (off len : ℕ) : Res Bytes :=
  if off + len ≤ b.length then .ok ((b.drop off).take len) else .ub

/-- `memcpy(dst + off, src, size of src)`. -/
def blit (dst : Bytes) (off : ℕ) (src : Bytes) : Res Bytes :=
  if off + src.length ≤ dst.length then .ok (dst.take off ++ src ++ dst.drop (off + src.length))
  else .ub

/-- `array[i]`. -/
def entry (a : List UInt32) (i : ℕ) : Res UInt32 :=
  match a[i]? with
  | some x => .ok x
  | none => .ub

/-- include/karamel/lowstar_endianness.h `load32_be`. -/
def load32be (b : Bytes) (off : ℕ) : Res UInt32 := do
  match ← slice b off 4 with
  | [x, y, z, w] =>
    .ok (x.toUInt32 <<< 24 ||| y.toUInt32 <<< 16 ||| z.toUInt32 <<< 8 ||| w.toUInt32)
  | _ => .ub

/-- `store32_be`. -/
def store32be (x : UInt32) : Bytes :=
  [(x >>> 24).toUInt8, (x >>> 16).toUInt8, (x >>> 8).toUInt8, x.toUInt8]

/-- `store64_be`. -/
def store64be (x : UInt64) : Bytes :=
  [(x >>> 56).toUInt8, (x >>> 48).toUInt8, (x >>> 40).toUInt8, (x >>> 32).toUInt8,
    (x >>> 24).toUInt8, (x >>> 16).toUInt8, (x >>> 8).toUInt8, x.toUInt8]

/-- The array `hash` of eight words. -/
structure H8 where
  a : UInt32
  b : UInt32
  c : UInt32
  d : UInt32
  e : UInt32
  f : UInt32
  g : UInt32
  h : UInt32
  deriving DecidableEq

/-- Hacl_Hash.c:36-41 `h256`, 121-128 `Hacl_Hash_Core_SHA2_init_256`. -/
def h256 : H8 :=
  ⟨0x6a09e667, 0xbb67ae85, 0x3c6ef372, 0xa54ff53a, 0x510e527f, 0x9b05688c, 0x1f83d9ab, 0x5be0cd19⟩

/-- Hacl_Hash.c:59-78 `k224_256`. -/
def k256 : List UInt32 :=
  [0x428a2f98, 0x71374491, 0xb5c0fbcf, 0xe9b5dba5,
   0x3956c25b, 0x59f111f1, 0x923f82a4, 0xab1c5ed5,
   0xd807aa98, 0x12835b01, 0x243185be, 0x550c7dc3,
   0x72be5d74, 0x80deb1fe, 0x9bdc06a7, 0xc19bf174,
   0xe49b69c1, 0xefbe4786, 0x0fc19dc6, 0x240ca1cc,
   0x2de92c6f, 0x4a7484aa, 0x5cb0a9dc, 0x76f988da,
   0x983e5152, 0xa831c66d, 0xb00327c8, 0xbf597fc7,
   0xc6e00bf3, 0xd5a79147, 0x06ca6351, 0x14292967,
   0x27b70a85, 0x2e1b2138, 0x4d2c6dfc, 0x53380d13,
   0x650a7354, 0x766a0abb, 0x81c2c92e, 0x92722c85,
   0xa2bfe8a1, 0xa81a664b, 0xc24b8b70, 0xc76c51a3,
   0xd192e819, 0xd6990624, 0xf40e3585, 0x106aa070,
   0x19a4c116, 0x1e376c08, 0x2748774c, 0x34b0bcb5,
   0x391c0cb3, 0x4ed8aa4a, 0x5b9cca4f, 0x682e6ff3,
   0x748f82ee, 0x78a5636f, 0x84c87814, 0x8cc70208,
   0x90befffa, 0xa4506ceb, 0xbef9a3f7, 0xc67178f2]

/-- Hacl_Hash.c:239-264, one iteration of the first loop of `update_256`. -/
def wsStep (block : Bytes) (ws : List UInt32) (i : ℕ) : Res (List UInt32) :=
  if i < 16 then do
    let u ← load32be block (i * 4)
    .ok (ws ++ [u])
  else do
    let t16 ← entry ws (i - 16)
    let t15 ← entry ws (i - 15)
    let t7 ← entry ws (i - 7)
    let t2 ← entry ws (i - 2)
    let s1 := (t2 >>> 17 ||| t2 <<< 15) ^^^ ((t2 >>> 19 ||| t2 <<< 13) ^^^ t2 >>> 10)
    let s0 := (t15 >>> 7 ||| t15 <<< 25) ^^^ ((t15 >>> 18 ||| t15 <<< 14) ^^^ t15 >>> 3)
    let w := s1 + t7 + s0 + t16
    .ok (ws ++ [w])

/-- Hacl_Hash.c:267-309, one iteration of the second loop. -/
def roundStep (ws : List UInt32) (x : H8) (i : ℕ) : Res H8 := do
  let w ← entry ws i
  let k ← entry k256 i
  let t1 := x.h
    + ((x.e >>> 6 ||| x.e <<< 26) ^^^ ((x.e >>> 11 ||| x.e <<< 21) ^^^ (x.e >>> 25 ||| x.e <<< 7)))
    + ((x.e &&& x.f) ^^^ (~~~x.e &&& x.g)) + k + w
  let t2 :=
    ((x.a >>> 2 ||| x.a <<< 30) ^^^ ((x.a >>> 13 ||| x.a <<< 19) ^^^ (x.a >>> 22 ||| x.a <<< 10)))
    + ((x.a &&& x.b) ^^^ ((x.a &&& x.c) ^^^ (x.b &&& x.c)))
  .ok ⟨t1 + t2, x.a, x.b, x.c, x.d + t1, x.e, x.f, x.g⟩

/-- Hacl_Hash.c:234-318 `update_256`. -/
def update256 (s : H8) (block : Bytes) : Res H8 := do
  let ws ← (List.range 64).foldlM (wsStep block) []
  let y ← (List.range 64).foldlM (roundStep ws) s
  .ok ⟨s.a + y.a, s.b + y.b, s.c + y.c, s.d + y.d, s.e + y.e, s.f + y.f, s.g + y.g, s.h + y.h⟩

/-- Hacl_Hash.c:683-692 `Hacl_Hash_SHA2_update_multi_256`. -/
def updateMulti (s : H8) (blocks : Bytes) (n : ℕ) : Res H8 :=
  (List.range n).foldlM (fun s i => do
    let block ← slice blocks (64 * i) 64
    update256 s block) s

/-- The number of zeros in the padding, Hacl_Hash.c:535-537. -/
def padZeros (len : ℕ) : ℕ := (128 - (9 + len % 64)) % 64

/-- Hacl_Hash.c:523-552 `pad_256`, at offset `off` of the buffer. -/
def pad256 (len : ℕ) (dst : Bytes) (off : ℕ) : Res Bytes := do
  let dst ← blit dst off [0x80]
  let dst ← blit dst (off + 1) (List.replicate (padZeros len) 0)
  blit dst (off + 1 + padZeros len) (store64be (UInt64.ofNat len <<< 3))

/-- Hacl_Hash.c:752-786 `Hacl_Hash_SHA2_update_last_256`. -/
def updateLast (s : H8) (prevLen : ℕ) (input : Bytes) (inputLen : ℕ) : Res H8 := do
  let blocksN := inputLen / 64
  let blocksLen := blocksN * 64
  let restLen := inputLen - blocksLen
  let s ← updateMulti s input blocksN
  let total := (prevLen + inputLen) % 2 ^ 64
  let padLen := 1 + padZeros total + 8
  let tmpLen := restLen + padLen
  let rest ← slice input blocksLen restLen
  let tmp ← blit (List.replicate 128 0) 0 rest
  let tmp ← pad256 total tmp restLen
  updateMulti s tmp (tmpLen / 64)

/-- Hacl_Hash.c:642-650 `Hacl_Hash_Core_SHA2_finish_256`. -/
def finishWords (s : H8) : Bytes :=
  store32be s.a ++ store32be s.b ++ store32be s.c ++ store32be s.d ++
    store32be s.e ++ store32be s.f ++ store32be s.g ++ store32be s.h

/-- Hacl_Hash.c:872-905 `Hacl_Hash_SHA2_hash_256`. -/
def hash256 (input : Bytes) (inputLen : ℕ) : Res Bytes := do
  let n0 := inputLen / 64
  let n1 := if inputLen % 64 = 0 ∧ n0 > 0 then n0 - 1 else n0
  let blocksLen := n1 * 64
  let s ← updateMulti h256 input n1
  let s ← updateLast s blocksLen (input.drop blocksLen) (inputLen - blocksLen)
  .ok (finishWords s)

/-! ## Streaming -/

/-- Hacl_Streaming_SHA2.h `Hacl_Streaming_SHA2_state_sha2_224`. -/
structure Stream where
  blockState : H8
  buf : Bytes
  totalLen : ℕ

/-- Hacl_Streaming_SHA2.c:306-325 `Hacl_Streaming_SHA2_create_in_256`. -/
def create : Stream := ⟨h256, List.replicate 64 0, 0⟩

/-- Hacl_Streaming_SHA2.c:327-340 `Hacl_Streaming_SHA2_init_256`. -/
def Stream.init (s : Stream) : Stream := ⟨h256, s.buf, 0⟩

/-- The number of bytes in the buffer, for example Hacl_Streaming_SHA2.c:351-359; the same expression
gives the size of the remainder of the data, 417-424. -/
def partialLen (total : ℕ) : ℕ := if total % 64 = 0 ∧ total > 0 then 64 else total % 64

/-- Hacl_Streaming_SHA2.c:360-390: the data fit into the buffer. -/
def updateSmall (s : Stream) (data : Bytes) (len : ℕ) : Res Stream := do
  let d ← slice data 0 len
  let buf ← blit s.buf (partialLen s.totalLen) d
  .ok ⟨s.blockState, buf, (s.totalLen + len) % 2 ^ 64⟩

/-- Hacl_Streaming_SHA2.c:413-416, 495-498: a full buffer goes into the state. -/
def flush (s : Stream) : Res H8 :=
  if partialLen s.totalLen = 0 then .ok s.blockState else updateMulti s.blockState s.buf 1

/-- Hacl_Streaming_SHA2.c:391-443 and 487-529: the buffer is empty or full. -/
def updateBlocks (s : Stream) (data : Bytes) (len : ℕ) : Res Stream := do
  let h ← flush s
  let nBlocks := (len - partialLen len) / 64
  let data1Len := nBlocks * 64
  let h ← updateMulti h data (data1Len / 64)
  let d ← slice data data1Len (len - data1Len)
  let buf ← blit s.buf 0 d
  .ok ⟨h, buf, (s.totalLen + len) % 2 ^ 64⟩

/-- Hacl_Streaming_SHA2.c:342-531 `Hacl_Streaming_SHA2_update_256`. -/
def Stream.update (s : Stream) (data : Bytes) (len : ℕ) : Res Stream :=
  let sz := partialLen s.totalLen
  if len ≤ 64 - sz then updateSmall s data len
  else if sz = 0 then updateBlocks s data len
  else do
    let diff := 64 - sz
    let s ← updateSmall s data diff
    updateBlocks s (data.drop diff) (len - diff)

/-- Hacl_Streaming_SHA2.c:533-571 `Hacl_Streaming_SHA2_finish_256`; the state is not changed. -/
def Stream.finish (s : Stream) : Res Bytes := do
  let r := partialLen s.totalLen
  let ite := if r % 64 = 0 ∧ r > 0 then 64 else r % 64
  let h ← updateMulti s.blockState s.buf 0
  let h ← updateLast h (s.totalLen - r) (s.buf.drop (r - ite)) r
  .ok (finishWords h)

/-! ## HMAC -/

/-- Hacl_HMAC.c:148-166: the key, or its hash if it is longer than a block. -/
def hmacKey (key : Bytes) (keyLen : ℕ) : Res Bytes :=
  if keyLen ≤ 64 then slice key 0 keyLen else hash256 key keyLen

/-- Hacl_HMAC.c:206-215. -/
def hmacInner (ipad : Bytes) (data : Bytes) (dataLen : ℕ) : Res H8 :=
  if dataLen = 0 then updateLast h256 0 ipad 64
  else do
    let s ← updateMulti h256 ipad 1
    updateLast s 64 data dataLen

/-- Hacl_HMAC.c:132-236 `Hacl_HMAC_compute_sha2_256`. -/
def hmac256 (key : Bytes) (keyLen : ℕ) (data : Bytes) (dataLen : ℕ) : Res Bytes := do
  let nkey ← hmacKey key keyLen
  let keyBlock ← blit (List.replicate 64 0) 0 nkey
  let ipad := List.zipWith (· ^^^ ·) (List.replicate 64 (0x36 : UInt8)) keyBlock
  let opad := List.zipWith (· ^^^ ·) (List.replicate 64 (0x5c : UInt8)) keyBlock
  let s ← hmacInner ipad data dataLen
  let hash1 ← blit ipad 0 (finishWords s)
  let s ← updateMulti h256 opad 1
  let s ← updateLast s 64 hash1 32
  .ok (finishWords s)

/-- hmac.cpp:22-44 `get_hmac`, with the conversion of the sizes to `uint32_t`; `front()` of an empty
vector is undefined. -/
def getHmacImpl (key message : Bytes) (length start : ℕ) : Res Bytes :=
  let data := if length > 0 then toBytesLE 4 start ++ message ++ toBytesLE 4 length else message
  if key.isEmpty || data.isEmpty then .ub
  else hmac256 key (key.length % 2 ^ 32) data (data.length % 2 ^ 32)

/-! ## hash.cpp on top of the streaming functions -/

/-- hash.cpp:82-87 `hash_open`. -/
def hashOpen : Res Stream := create.update [124] 1

/-- hash.cpp:250-256 `push_hash_update` of a string; the size is converted to `uint32_t`. -/
def pushString (p : Stream) (s : Str) : Res Stream := do
  let p ← p.update s.bytes (s.bytes.length % 2 ^ 32)
  p.update [124] 1

/-- hash.cpp:89-115 `hash_close`. -/
def hashClose (G : Params) (p : Stream) : Res ℕ := do
  let output ← p.finish
  .ok (addModQ G (ofBytesBE output) 0)

/-- hash.cpp:60-73, 75-80: open, push, close. -/
def hashStrings (G : Params) (ss : List Str) : Res ℕ := do
  let p ← hashOpen
  let p ← ss.foldlM pushString p
  hashClose G p

/-- hash.cpp:117-124, 126-248 `get_hash_string`. -/
def renderImpl (G : Params) : HElem → Res Str
  | .nul => .ok nullString
  | .atom a => .ok a.render
  | .vec l =>
    if l.isEmpty then .ok nullString
    else do
      let q ← hashStrings G (l.map HAtom.render)
      .ok (toHexQ q)
  | .bytes b => .ok (bytesToHex b)

/-- The loop of hash.cpp:68-70. -/
def pushAll (G : Params) (p : Stream) : List HElem → Res Stream
  | [] => .ok p
  | x :: xs => do
    let s ← renderImpl G x
    let p ← pushString p s
    pushAll G p xs

/-- hash.cpp:60-73 `hash_elems`. -/
def hashElemsImpl (G : Params) (xs : List HElem) : Res ℕ := do
  let p ← hashOpen
  let p ← pushAll G p (if xs.isEmpty then [.nul] else xs)
  hashClose G p

end EG.Sha
