import Mathlib.Data.Nat.Prime.Nth
import Mathlib.Data.Nat.Digits.Defs

/-!
# SHA-256 (FIPS 180-4), HMAC (RFC 2104, FIPS 198-1), HMAC_DRBG (NIST SP 800-90A, 10.1.2)

Written after the standards, for messages that consist of bytes.
-/

namespace EG.Fips

abbrev Word := UInt32

/-- FIPS 180-4, 3.2. -/
def rotr (n : ℕ) (x : Word) : Word := UInt32.ofBitVec (x.toBitVec.rotateRight n)
def shr (n : ℕ) (x : Word) : Word := UInt32.ofBitVec (x.toBitVec >>> n)

/-- FIPS 180-4, 4.1.2. -/
def ch (x y z : Word) : Word := (x &&& y) ^^^ (~~~x &&& z)
def maj (x y z : Word) : Word := (x &&& y) ^^^ (x &&& z) ^^^ (y &&& z)
def bigSigma0 (x : Word) : Word := rotr 2 x ^^^ rotr 13 x ^^^ rotr 22 x
def bigSigma1 (x : Word) : Word := rotr 6 x ^^^ rotr 11 x ^^^ rotr 25 x
def sigma0 (x : Word) : Word := rotr 7 x ^^^ rotr 18 x ^^^ shr 3 x
def sigma1 (x : Word) : Word := rotr 17 x ^^^ rotr 19 x ^^^ shr 10 x

/-- The first 32 bits of the fractional part of the `d`-th root of `p`: the greatest `x` with
`x ≤ 2^32 p^(1/d)`, modulo `2^32`. -/
def fracRoot (d p : ℕ) : Word :=
  UInt32.ofNat (Nat.findGreatest (fun x => x ^ d ≤ p * 2 ^ (32 * d)) (p * 2 ^ (32 * d)))

/-- FIPS 180-4, 4.2.2: from the cube roots of the first 64 primes. -/
noncomputable def kConst (t : ℕ) : Word := fracRoot 3 (Nat.nth Nat.Prime t)

/-- The hash value or the working variables. -/
structure St where
  a : Word
  b : Word
  c : Word
  d : Word
  e : Word
  f : Word
  g : Word
  h : Word

/-- FIPS 180-4, 5.3.3: from the square roots of the first eight primes. -/
noncomputable def initial : St :=
  let r (i : ℕ) : Word := fracRoot 2 (Nat.nth Nat.Prime i)
  ⟨r 0, r 1, r 2, r 3, r 4, r 5, r 6, r 7⟩

/-- The number denoted by bytes, most significant first. -/
def beNat (b : List UInt8) : ℕ := Nat.ofDigits 256 (b.reverse.map UInt8.toNat)

/-- `k` bytes denoting a number, most significant first. -/
def beBytes : ℕ → ℕ → List UInt8
  | 0, _ => []
  | k + 1, n => beBytes k (n / 256) ++ [UInt8.ofNat n]

/-- FIPS 180-4, 5.1.1: as many zero bytes as make the length a multiple of 64 bytes. -/
def pad (m : List UInt8) : List UInt8 :=
  m ++ [0x80] ++ List.replicate ((55 + 64 - m.length % 64) % 64) 0 ++ beBytes 8 (8 * m.length)

/-- FIPS 180-4, 5.2.1: the word `t` of the block `i`. -/
def blockWord (z : List UInt8) (i t : ℕ) : Word :=
  UInt32.ofNat (beNat ((z.drop (64 * i + 4 * t)).take 4))

/-- FIPS 180-4, 6.2.2, step 1. -/
def sched (m : ℕ → Word) (t : ℕ) : Word :=
  if t < 16 then m t
  else sigma1 (sched m (t - 2)) + sched m (t - 7) + sigma0 (sched m (t - 15)) + sched m (t - 16)
termination_by t

/-- FIPS 180-4, 6.2.2, step 3. -/
noncomputable def round (w : ℕ → Word) (t : ℕ) (s : St) : St :=
  let t1 := s.h + bigSigma1 s.e + ch s.e s.f s.g + kConst t + w t
  let t2 := bigSigma0 s.a + maj s.a s.b s.c
  ⟨t1 + t2, s.a, s.b, s.c, s.d + t1, s.e, s.f, s.g⟩

/-- The first `n` rounds. -/
noncomputable def rounds (w : ℕ → Word) (s : St) : ℕ → St
  | 0 => s
  | n + 1 => round w n (rounds w s n)

/-- FIPS 180-4, 6.2.2: the next hash value. -/
noncomputable def compress (s : St) (m : ℕ → Word) : St :=
  let r := rounds (sched m) s 64
  ⟨r.a + s.a, r.b + s.b, r.c + s.c, r.d + s.d, r.e + s.e, r.f + s.f, r.g + s.g, r.h + s.h⟩

/-- The hash value after the first `n` blocks of a message. -/
noncomputable def absorb (s : St) (z : List UInt8) : ℕ → St
  | 0 => s
  | n + 1 => compress (absorb s z n) (blockWord z n)

/-- The digest. -/
def digest (s : St) : List UInt8 :=
  [s.a, s.b, s.c, s.d, s.e, s.f, s.g, s.h].flatMap (fun w => beBytes 4 w.toNat)

/-- SHA-256 of a string of bytes. -/
noncomputable def sha256 (m : List UInt8) : List UInt8 :=
  digest (absorb initial (pad m) ((pad m).length / 64))

/-- RFC 2104. -/
noncomputable def hmac (key text : List UInt8) : List UInt8 :=
  let k := if key.length ≤ 64 then key else sha256 key
  let k0 := k ++ List.replicate (64 - k.length) 0
  let inner := sha256 (k0.map (· ^^^ 0x36) ++ text)
  sha256 (k0.map (· ^^^ 0x5c) ++ inner)

/-- NIST SP 800-90A, 10.1.2.2 (`HMAC_DRBG_Update`), on the pair `(Key, V)`. -/
noncomputable def drbgUpdate (data : List UInt8) (kv : List UInt8 × List UInt8) : List UInt8 × List UInt8 :=
  let k := hmac kv.1 (kv.2 ++ [0] ++ data)
  let v := hmac k kv.2
  if data = [] then (k, v)
  else
    let k' := hmac k (v ++ [1] ++ data)
    (k', hmac k' v)

/-- 10.1.2.3 (`HMAC_DRBG_Instantiate`), the reseed counter being 1 afterwards. -/
noncomputable def drbgInstantiate (entropy nonce pers : List UInt8) : List UInt8 × List UInt8 :=
  drbgUpdate (entropy ++ nonce ++ pers) (List.replicate 32 0, List.replicate 32 1)

/-- 10.1.2.5, step 3 and 4: `n` blocks of output. -/
noncomputable def drbgBlocks (k v : List UInt8) : ℕ → List UInt8 × List UInt8
  | 0 => ([], v)
  | n + 1 =>
    let r := drbgBlocks k v n
    let v' := hmac k r.2
    (r.1 ++ v', v')

/-- 10.1.2.5 (`HMAC_DRBG_Generate`) of `n` bytes: output and new state. -/
noncomputable def drbgGenerate (n : ℕ) (add : List UInt8) (kv : List UInt8 × List UInt8) :
    List UInt8 × (List UInt8 × List UInt8) :=
  let kv := if add = [] then kv else drbgUpdate add kv
  let r := drbgBlocks kv.1 kv.2 ((n + 31) / 32)
  (r.1.take n, drbgUpdate add (kv.1, r.2))

end EG.Fips
