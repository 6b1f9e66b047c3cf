import Verif.Model.Limbs

/-!
# Exponentiation, checks and byte conversions of the vendored HACL* bignums, on arrays of limbs

The line numbers are those of Hacl_Bignum4096.c.  Hacl_Bignum256.c has the same functions for four limbs;
its inlined multiplications are the loops of `mul` and `sqr`, which is what `karatsubaMul` and
`karatsubaSqr` do for fewer than 32 limbs.
-/

namespace EG.Limbs

/-- One iteration of the loop in Hacl_Bignum.c:1470-1480. -/
def modInvLimbStep (n0 : UInt64) (uv : UInt64 × UInt64) : UInt64 × UInt64 :=
  let us := uv.1
  let vs := uv.2
  let uIsOdd := 0 - (us &&& 1)
  let betaIf := n0 &&& uIsOdd
  let alphaIf := 9223372036854775808 &&& uIsOdd
  (((us ^^^ betaIf) >>> 1) + (us &&& betaIf), (vs >>> 1) + alphaIf)

/-- Hacl_Bignum.c:1460-1483 `mod_inv_uint64`. -/
def modInvLimb (n0 : UInt64) : UInt64 :=
  ((List.range 64).foldl (fun uv _ => modInvLimbStep n0 uv) (1, 0)).2

/-- `bn_mont_ctx_u64` -/
structure Ctx where
  n : Arr
  mu : UInt64
  r2 : Arr

/-- 1478-1507 `mont_ctx_init`. -/
def ctxInit (n : Arr) : Ctx :=
  { n := n, mu := modInvLimb (n.getD 0 0), r2 := precompR2 n (64 * (topIndex n).toNat) }

/-- 383-387 `Hacl_Bignum4096_mul`, Hacl_Bignum256.c:379-425. -/
def mulFull (a b : Arr) : Arr := karatsubaMul a.length a b

/-- 395-399 `Hacl_Bignum4096_sqr`, Hacl_Bignum256.c:433-502. -/
def sqrFull (a : Arr) : Arr := karatsubaSqr a.length a

/-- 599-606 `amont_mul`. -/
def amontMul (c : Ctx) (a b : Arr) : Arr := areduction c.n c.mu (mulFull a b)

/-- 608-614 `amont_sqr`. -/
def amontSqr (c : Ctx) (a : Arr) : Arr := areduction c.n c.mu (sqrFull a)

/-- `a * r2` reduced, 860-861 and 893-894: into Montgomery form (also Hacl_Bignum.c:1865-1880). -/
def toMont (c : Ctx) (a : Arr) : Arr := reduction c.n c.mu (mulFull a c.r2)

/-- An array padded with as many zero limbs, and reduced, 864-866, 883-885: out of Montgomery form. -/
def fromMont (c : Ctx) (a : Arr) : Arr := reduction c.n c.mu (a ++ List.replicate c.n.length 0)

/-- 616-695 `bn_slow_precomp`, 1533-1542 `mod_precomp`: `a` has twice as many limbs. -/
def modPrecomp (c : Ctx) (a : Arr) : Arr := toMont c (areduction c.n c.mu a)

/-- 871-874: bit `i` of the exponent. -/
def getBit (b : Arr) (i : ℕ) : UInt64 := (b.getD (i / 64) 0 >>> UInt64.ofNat (i % 64)) &&& 1

/-- 898-905: the number of limbs of an exponent of `bBits` bits. -/
def bLen (bBits : ℕ) : ℕ := if bBits = 0 then 1 else (bBits - 1) / 64 + 1

/-- 927-941, 960-974: four bits of the exponent, from bit `pos` on. -/
def getWindow (b : Arr) (len pos : ℕ) : UInt64 :=
  let i := pos / 64
  let j := pos % 64
  let p1 := b.getD i 0 >>> UInt64.ofNat j
  let ite := if i + 1 < len ∧ 0 < j then p1 ||| b.getD (i + 1) 0 <<< UInt64.ofNat (64 - j) else p1
  ite &&& 15

/-- 911-924: sixteen powers, entry after entry. -/
def expTable (c : Ctx) (aM one : Arr) : List Arr :=
  let t := one :: aM :: List.replicate 14 (List.replicate c.n.length 0)
  (List.range 15).foldl (fun t i => t.set (i + 1) (amontMul c aM (t.getD i []))) t

/-- 950-982, one iteration; `look` reads an entry of the table. -/
def expStep (c : Ctx) (look : UInt64 → Arr) (b : Arr) (len bk : ℕ) (resM : Arr) (i : ℕ) : Arr :=
  let resM := (List.range 4).foldl (fun r _ => amontSqr c r) resM
  amontMul c resM (look (getWindow b len (bk - 4 * i - 4)))

/-- 890-992, 1062-1194: the fixed window method, for `bBits ≥ 200`. -/
def expWindow (c : Ctx) (look : List Arr → UInt64 → Arr) (a : Arr) (bBits : ℕ) (b : Arr) : Arr :=
  let aM := toMont c a
  let len := bLen bBits
  let one := fromMont c c.r2
  let table := expTable c aM one
  let resM := if bBits % 4 ≠ 0 then look table (getWindow b len (bBits / 4 * 4)) else one
  let bk := bBits - bBits % 4
  fromMont c ((List.range (bBits / 4)).foldl (expStep c (look table) b len bk) resM)

/-- 942-944, 976-978: the entry is read directly. -/
def lookVartime (table : List Arr) (bits : UInt64) : Arr := table.getD bits.toNat []

/-- 1114-1131, 1163-1180: all entries are read, and the one wanted is kept with a mask. -/
def lookConsttime (table : List Arr) (bits : UInt64) : Arr :=
  (List.range 15).foldl
    (fun r i => selectArr (eqMask1 bits (UInt64.ofNat (i + 1))) (table.getD (i + 1) []) r)
    (table.getD 0 [])

/-- 857-889: binary method, for short exponents. -/
def expBinary (c : Ctx) (a : Arr) (bBits : ℕ) (b : Arr) : Arr :=
  let st := (List.range bBits).foldl
    (fun (st : Arr × Arr) i =>
      let resM := if getBit b i = 0 then st.1 else amontMul c st.1 st.2
      (resM, amontSqr c st.2))
    (fromMont c c.r2, toMont c a)
  fromMont c st.1

/-- 1029-1037, 1044-1052: the two arrays are exchanged if `sw` is 1. -/
def cswap (sw : UInt64) (x y : Arr) : Arr × Arr :=
  (List.zipWith (fun a b => a ^^^ ((0 - sw) &&& (a ^^^ b))) x y,
    List.zipWith (fun a b => b ^^^ ((0 - sw) &&& (a ^^^ b))) x y)

/-- 1023-1041, one iteration of the Montgomery ladder; the state is `resM`, `aM`, `sw`. -/
def ladderStep (c : Ctx) (bBits : ℕ) (b : Arr) (st : (Arr × Arr) × UInt64) (i : ℕ) :
    (Arr × Arr) × UInt64 :=
  let bit := getBit b (bBits - i - 1)
  let x := cswap (bit ^^^ st.2) st.1.1 st.1.2
  ((amontSqr c x.1, amontMul c x.2 x.1), bit)

/-- 1007-1061: for short exponents, in constant time. -/
def expLadder (c : Ctx) (a : Arr) (bBits : ℕ) (b : Arr) : Arr :=
  let st := (List.range bBits).foldl (ladderStep c bBits b) ((fromMont c c.r2, toMont c a), 0)
  fromMont c (cswap st.2 st.1.1 st.1.2).1

/-- 845-993 `exp_vartime_precomp`, 1563-1573 `mod_exp_vartime_precomp`. -/
def modExpVartime (c : Ctx) (a : Arr) (bBits : ℕ) (b : Arr) : Arr :=
  if bBits < 200 then expBinary c a bBits b else expWindow c lookVartime a bBits b

/-- 995-1195 `exp_consttime_precomp`, 1594-1605 `mod_exp_consttime_precomp`. -/
def modExpConsttime (c : Ctx) (a : Arr) (bBits : ℕ) (b : Arr) : Arr :=
  if bBits < 200 then expLadder c a bBits b else expWindow c lookConsttime a bBits b

/-! ## The functions that check their arguments -/

/-- The array that holds `1`, 711-714. -/
def oneArr (k : ℕ) : Arr := 1 :: List.replicate (k - 1) 0

/-- 711-733: all ones if `n` is odd and greater than one. -/
def modCheck (n : Arr) : UInt64 := (0 - (n.getD 0 0 &&& 1)) &&& ltMask (oneArr n.length) n

/-- 752-844 `exp_check`. -/
def expCheck (n a : Arr) (bBits : ℕ) (b : Arr) : UInt64 :=
  let m0 := modCheck n
  let len := bLen bBits
  let m1 :=
    if bBits < 64 * len then
      let b2 := splice (List.replicate len 0) (bBits / 64) [(0 : UInt64) ||| 1 <<< UInt64.ofNat (bBits % 64)]
      ltMask b b2
    else 0xFFFFFFFFFFFFFFFF
  m0 &&& (m1 &&& ltMask a n)

/-- The functions return `false` and write zeros unless the check gives all ones. -/
def checked (m : UInt64) (k : ℕ) (r : Arr) : Bool × Arr :=
  if m = 0xFFFFFFFFFFFFFFFF then (true, r) else (false, List.replicate k 0)

/-- 709-750 `Hacl_Bignum4096_mod`. -/
def mod (n a : Arr) : Bool × Arr := checked (modCheck n) n.length (modPrecomp (ctxInit n) a)

/-- 1252-1272 `Hacl_Bignum4096_mod_exp_vartime`. -/
def modExpVartimeChecked (n a : Arr) (bBits : ℕ) (b : Arr) : Bool × Arr :=
  checked (expCheck n a bBits b) n.length (modExpVartime (ctxInit n) a bBits b)

/-- 1295-1315 `Hacl_Bignum4096_mod_exp_consttime`. -/
def modExpConsttimeChecked (n a : Arr) (bBits : ℕ) (b : Arr) : Bool × Arr :=
  checked (expCheck n a bBits b) n.length (modExpConsttime (ctxInit n) a bBits b)

/-- 1332-1457 `Hacl_Bignum4096_mod_inv_prime_vartime`. -/
def modInvPrime (n a : Arr) : Bool × Arr :=
  let m0 := modCheck n
  let m1 := eqMask a (List.replicate n.length 0)
  let m2 := ltMask a n
  let n2 := (sub n (2 :: List.replicate (n.length - 1) 0)).1
  checked ((m0 &&& ~~~m1) &&& m2) n.length (modExpVartime (ctxInit n) a (64 * n.length) n2)

/-! ## Bytes -/

/-- `load64_be` -/
def load64be (bs : List UInt8) : UInt64 := bs.foldl (fun acc b => acc <<< 8 ||| b.toUInt64) 0

/-- `store64_be` -/
def store64be (x : UInt64) : List UInt8 :=
  [(x >>> 56).toUInt8, (x >>> 48).toUInt8, (x >>> 40).toUInt8, (x >>> 32).toUInt8,
    (x >>> 24).toUInt8, (x >>> 16).toUInt8, (x >>> 8).toUInt8, x.toUInt8]

/-- 1698-1743 `new_bn_from_bytes_be`; `none` is `NULL`.  Allocation succeeds. -/
def fromBytesBE (b : List UInt8) : Option Arr :=
  let len := b.length
  if len = 0 ∨ ¬((len - 1) / 8 + 1 ≤ 536870911) then none
  else
    let bnLen := (len - 1) / 8 + 1
    let tmp := List.replicate (8 * bnLen - len) 0 ++ b
    some ((List.range bnLen).map fun i => load64be ((tmp.drop ((bnLen - i - 1) * 8)).take 8))

/-- 1811-1831 `bn_to_bytes_be`; all limbs are written. -/
def toBytesBE (b : Arr) : List UInt8 :=
  (List.range b.length).flatMap fun i => store64be (b.getD (b.length - i - 1) 0)

end EG.Limbs
