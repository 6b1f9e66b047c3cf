import Verif.Model.Sha

/-!
# The random generator (src/karamel/Hacl_HMAC_DRBG.c for SHA-256, src/electionguard/random.hpp)

What the operating system returns (`Lib_RandomBuffer_System_randombytes`, the clock) is a parameter.
`alloca` does not fail.
-/

namespace EG.Sha

/-- Hacl_HMAC_DRBG.h `Hacl_HMAC_DRBG_state`. -/
structure Drbg where
  k : Bytes
  v : Bytes
  ctr : ℕ

/-- Hacl_HMAC_DRBG.c:29 `Hacl_HMAC_DRBG_reseed_interval`. -/
def reseedInterval : ℕ := 1024

/-- Hacl_HMAC_DRBG.c:73-154 `Hacl_HMAC_DRBG_create_in`. -/
def drbgCreate : Drbg := ⟨List.replicate 32 0, List.replicate 32 0, 0⟩

/-- `if (n != 0) memcpy(input + 33, data, n)`, for example Hacl_HMAC_DRBG.c:290-296. -/
def copyData (input data : Bytes) (n : ℕ) : Res Bytes :=
  if n ≠ 0 then do
    let d ← slice data 0 n
    blit input 33 d
  else .ok input

/-- Hacl_HMAC_DRBG.c:281-300 (and 305-331, with 1 for `tag`): one half of an update of `k` and `v` with
`n` bytes of data. -/
def drbgHalf (tag : UInt8) (k v data : Bytes) (n : ℕ) : Res (Bytes × Bytes) := do
  let inputLen := (33 + n) % 2 ^ 32
  let input ← blit (List.replicate inputLen 0) 0 v
  let input ← copyData input data n
  let input ← blit input 32 [tag]
  let k' ← hmac256 k 32 input inputLen
  let v' ← hmac256 k' 32 v 32
  .ok (k', v')

/-- Hacl_HMAC_DRBG.c:281-331; the same code is in `reseed` (618-660) and twice in `generate`
(976-1022, 1041-1084). -/
def drbgUpdate (k v data : Bytes) (n : ℕ) : Res (Bytes × Bytes) := do
  let (k, v) ← drbgHalf 0 k v data n
  if n ≠ 0 then drbgHalf 1 k v data n else .ok (k, v)

/-- Hacl_HMAC_DRBG.c:156-164, 253-336 `Hacl_HMAC_DRBG_instantiate`. -/
def drbgInstantiate (entropy nonce pers : Bytes) (el nl pl : ℕ) : Res Drbg := do
  let n := (el + nl + pl) % 2 ^ 32
  let e ← slice entropy 0 el
  let seed ← blit (List.replicate n 0) 0 e
  let x ← slice nonce 0 nl
  let seed ← blit seed el x
  let p ← slice pers 0 pl
  let seed ← blit seed (el + nl) p
  let (k, v) ← drbgUpdate (List.replicate 32 0) (List.replicate 32 1) seed n
  .ok ⟨k, v, 1⟩

/-- Hacl_HMAC_DRBG.c:510-517, 596-668 `Hacl_HMAC_DRBG_reseed`. -/
def Drbg.reseed (st : Drbg) (entropy add : Bytes) (el al : ℕ) : Res Drbg := do
  let n := (el + al) % 2 ^ 32
  let e ← slice entropy 0 el
  let seed ← blit (List.replicate n 0) 0 e
  let x ← slice add 0 al
  let seed ← blit seed el x
  let (k, v) ← drbgUpdate st.k st.v seed n
  .ok ⟨k, v, 1⟩

/-- Hacl_HMAC_DRBG.c:1028-1032, one iteration; `v` and the output. -/
def outStep (k : Bytes) (s : Bytes × Bytes) (i : ℕ) : Res (Bytes × Bytes) := do
  let v ← hmac256 k 32 s.1 32
  let out ← blit s.2 (i * 32) v
  .ok (v, out)

/-- Hacl_HMAC_DRBG.c:1034-1039: the last, incomplete block. -/
def outLast (k : Bytes) (n : ℕ) (s : Bytes × Bytes) : Res (Bytes × Bytes) :=
  if n / 32 * 32 < n then do
    let v ← hmac256 k 32 s.1 32
    let d ← slice v 0 (n - n / 32 * 32)
    let out ← blit s.2 (n / 32 * 32) d
    .ok (v, out)
  else .ok s

/-- Hacl_HMAC_DRBG.c:976-1022. -/
def preUpdate (st : Drbg) (add : Bytes) (al : ℕ) : Res (Bytes × Bytes) :=
  if al > 0 then drbgUpdate st.k st.v add al else .ok (st.k, st.v)

/-- Hacl_HMAC_DRBG.c:826-834, 966-1094 `Hacl_HMAC_DRBG_generate` of `n` bytes into `output`; `none` if
it returns `false`. -/
def Drbg.generate (st : Drbg) (output : Bytes) (n : ℕ) (add : Bytes) (al : ℕ) :
    Res (Option (Bytes × Drbg)) :=
  if st.ctr > reseedInterval then .ok none
  else do
    let (k, v) ← preUpdate st add al
    let s ← (List.range (n / 32)).foldlM (outStep k) (v, output)
    let s ← outLast k n s
    let (k, v) ← drbgUpdate k s.1 add al
    .ok (some (s.2, ⟨k, v, (st.ctr + 1) % 2 ^ 32⟩))

/-- What the operating system supplies to one call of `Random::getBytes`: `none` where
`Lib_RandomBuffer_System_randombytes` fails. -/
structure Os where
  entropy : Option Bytes
  nonce : Option Bytes
  time : Bytes
  input : Option Bytes

/-- random.hpp:107-120 `getRandomBytes`. -/
def getRandomBytes (b : Option Bytes) : Res Bytes :=
  match b with
  | some b => .ok b
  | none => .throw .badAlloc

/-- convert.hpp:48-54 `convert`. -/
def convertSize (n : ℕ) : Res ℕ := if n > 4294967295 then .throw .badCast else .ok n

/-- random.hpp:54-89 `Random::getBytes`. -/
def getBytes (os : Os) (size : ℕ) : Res Bytes := do
  let entropy ← getRandomBytes os.entropy
  let nonce ← getRandomBytes os.nonce
  let el ← convertSize entropy.length
  let nl ← convertSize nonce.length
  let pl ← convertSize os.time.length
  let st ← drbgInstantiate entropy nonce os.time el nl pl
  let input ← getRandomBytes os.input
  let al ← convertSize input.length
  match ← st.generate (List.replicate size 0) size input al with
  | some (out, _) => .ok out
  | none => .throw .badAlloc

end EG.Sha
