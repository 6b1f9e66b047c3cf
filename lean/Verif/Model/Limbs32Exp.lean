import Verif.Model.Limbs32

/-!
# Exponentiation and checks of the vendored HACL* bignums with 32-bit limbs

The line numbers are those of Hacl_Bignum4096_32.c.  This is Model/LimbsExp.lean once more.  Conversions
from and to bytes are always those of the 64-bit code, and are not repeated.
-/

namespace EG.Limbs32

/-- One iteration of the loop in Hacl_Bignum.c:1445-1455. -/
def modInvLimbStep (n0 : UInt32) (uv : UInt32 × UInt32) : UInt32 × UInt32 :=
  let us := uv.1
  let vs := uv.2
  let uIsOdd := 0 - (us &&& 1)
  let betaIf := n0 &&& uIsOdd
  let alphaIf := 2147483648 &&& uIsOdd
  (((us ^^^ betaIf) >>> 1) + (us &&& betaIf), (vs >>> 1) + alphaIf)

/-- Hacl_Bignum.c:1435-1458 `mod_inv_uint32`. -/
def modInvLimb (n0 : UInt32) : UInt32 :=
  ((List.range 32).foldl (fun uv _ => modInvLimbStep n0 uv) (1, 0)).2

/-- `bn_mont_ctx_u32` -/
structure Ctx where
  n : Arr
  mu : UInt32
  r2 : Arr

/-- 1467-1496 `mont_ctx_init`. -/
def ctxInit (n : Arr) : Ctx :=
  { n := n, mu := modInvLimb (n.getD 0 0), r2 := precompR2 n (32 * (topIndex n).toNat) }

/-- 383-387 `Hacl_Bignum4096_32_mul`. -/
def mulFull (a b : Arr) : Arr := karatsubaMul a.length a b

/-- 395-399 `Hacl_Bignum4096_32_sqr`. -/
def sqrFull (a : Arr) : Arr := karatsubaSqr a.length a

/-- 599-606 `amont_mul`. -/
def amontMul (c : Ctx) (a b : Arr) : Arr := areduction c.n c.mu (mulFull a b)

/-- 608-614 `amont_sqr`. -/
def amontSqr (c : Ctx) (a : Arr) : Arr := areduction c.n c.mu (sqrFull a)

/-- `a * r2` reduced, 855-856 and 889-890: into Montgomery form (also Hacl_Bignum.c:1643-1658). -/
def toMont (c : Ctx) (a : Arr) : Arr := reduction c.n c.mu (mulFull a c.r2)

/-- An array padded with as many zero limbs, and reduced, 875-877, 904-906: out of Montgomery form. -/
def fromMont (c : Ctx) (a : Arr) : Arr := reduction c.n c.mu (a ++ List.replicate c.n.length 0)

/-- 616-695 `bn_slow_precomp`, 1521-1530 `mod_precomp`: `a` has twice as many limbs. -/
def modPrecomp (c : Ctx) (a : Arr) : Arr := toMont c (areduction c.n c.mu a)

/-- 864-867: bit `i` of the exponent. -/
def getBit (b : Arr) (i : ℕ) : UInt32 := (b.getD (i / 32) 0 >>> UInt32.ofNat (i % 32)) &&& 1

/-- 895-902: the number of limbs of an exponent of `bBits` bits. -/
def bLen (bBits : ℕ) : ℕ := if bBits = 0 then 1 else (bBits - 1) / 32 + 1

/-- 928-941, 956-971: four bits of the exponent, from bit `pos` on. -/
def getWindow (b : Arr) (len pos : ℕ) : UInt32 :=
  let i := pos / 32
  let j := pos % 32
  let p1 := b.getD i 0 >>> UInt32.ofNat j
  let ite := if i + 1 < len ∧ 0 < j then p1 ||| b.getD (i + 1) 0 <<< UInt32.ofNat (32 - j) else p1
  ite &&& 15

/-- 908-925: sixteen powers, entry after entry. -/
def expTable (c : Ctx) (aM one : Arr) : List Arr :=
  let t := one :: aM :: List.replicate 14 (List.replicate c.n.length 0)
  (List.range 15).foldl (fun t i => t.set (i + 1) (amontMul c aM (t.getD i []))) t

/-- 945-982, one iteration; `look` reads an entry of the table. -/
def expStep (c : Ctx) (look : UInt32 → Arr) (b : Arr) (len bk : ℕ) (resM : Arr) (i : ℕ) : Arr :=
  let resM := (List.range 4).foldl (fun r _ => amontSqr c r) resM
  amontMul c resM (look (getWindow b len (bk - 4 * i - 4)))

/-- 886-988, 1061-1187: the fixed window method, for `bBits ≥ 200`. -/
def expWindow (c : Ctx) (look : List Arr → UInt32 → Arr) (a : Arr) (bBits : ℕ) (b : Arr) : Arr :=
  let aM := toMont c a
  let len := bLen bBits
  let one := fromMont c c.r2
  let table := expTable c aM one
  let resM := if bBits % 4 ≠ 0 then look table (getWindow b len (bBits / 4 * 4)) else one
  let bk := bBits - bBits % 4
  fromMont c ((List.range (bBits / 4)).foldl (expStep c (look table) b len bk) resM)

/-- 937-940, 973-977: the entry is read directly. -/
def lookVartime (table : List Arr) (bits : UInt32) : Arr := table.getD bits.toNat []

/-- 1109-1127, 1156-1174: all entries are read, and the one wanted is kept with a mask. -/
def lookConsttime (table : List Arr) (bits : UInt32) : Arr :=
  (List.range 15).foldl
    (fun r i => selectArr (eqMask1 bits (UInt32.ofNat (i + 1))) (table.getD (i + 1) []) r)
    (table.getD 0 [])

/-- 849-882: binary method, for short exponents. -/
def expBinary (c : Ctx) (a : Arr) (bBits : ℕ) (b : Arr) : Arr :=
  let st := (List.range bBits).foldl
    (fun (st : Arr × Arr) i =>
      let resM := if getBit b i = 0 then st.1 else amontMul c st.1 st.2
      (resM, amontSqr c st.2))
    (fromMont c c.r2, toMont c a)
  fromMont c st.1

/-- 1027-1035, 1043-1050: the two arrays are exchanged if `sw` is 1. -/
def cswap (sw : UInt32) (x y : Arr) : Arr × Arr :=
  (List.zipWith (fun a b => a ^^^ ((0 - sw) &&& (a ^^^ b))) x y,
    List.zipWith (fun a b => b ^^^ ((0 - sw) &&& (a ^^^ b))) x y)

/-- 1017-1040, one iteration of the Montgomery ladder; the state is `resM`, `aM`, `sw`. -/
def ladderStep (c : Ctx) (bBits : ℕ) (b : Arr) (st : (Arr × Arr) × UInt32) (i : ℕ) :
    (Arr × Arr) × UInt32 :=
  let bit := getBit b (bBits - i - 1)
  let x := cswap (bit ^^^ st.2) st.1.1 st.1.2
  ((amontSqr c x.1, amontMul c x.2 x.1), bit)

/-- 1001-1059: for short exponents, in constant time. -/
def expLadder (c : Ctx) (a : Arr) (bBits : ℕ) (b : Arr) : Arr :=
  let st := (List.range bBits).foldl (ladderStep c bBits b) ((fromMont c c.r2, toMont c a), 0)
  fromMont c (cswap st.2 st.1.1 st.1.2).1

/-- 840-988 `exp_vartime_precomp`, 1551-1561 `mod_exp_vartime_precomp`. -/
def modExpVartime (c : Ctx) (a : Arr) (bBits : ℕ) (b : Arr) : Arr :=
  if bBits < 200 then expBinary c a bBits b else expWindow c lookVartime a bBits b

/-- 990-1189 `exp_consttime_precomp`, 1583-1593 `mod_exp_consttime_precomp`. -/
def modExpConsttime (c : Ctx) (a : Arr) (bBits : ℕ) (b : Arr) : Arr :=
  if bBits < 200 then expLadder c a bBits b else expWindow c lookConsttime a bBits b

/-! ## The functions that check their arguments -/

/-- The array that holds `1`, 711-714. -/
def oneArr (k : ℕ) : Arr := 1 :: List.replicate (k - 1) 0

/-- 711-733: all ones if `n` is odd and greater than one. -/
def modCheck (n : Arr) : UInt32 := (0 - (n.getD 0 0 &&& 1)) &&& ltMask (oneArr n.length) n

/-- 752-837 `exp_check`. -/
def expCheck (n a : Arr) (bBits : ℕ) (b : Arr) : UInt32 :=
  let m0 := modCheck n
  let len := bLen bBits
  let m1 :=
    if bBits < 32 * len then
      let b2 := splice (List.replicate len 0) (bBits / 32) [(0 : UInt32) ||| 1 <<< UInt32.ofNat (bBits % 32)]
      ltMask b b2
    else 0xFFFFFFFF
  m0 &&& (m1 &&& ltMask a n)

/-- The functions return `false` and write zeros unless the check gives all ones. -/
def checked (m : UInt32) (k : ℕ) (r : Arr) : Bool × Arr :=
  if m = 0xFFFFFFFF then (true, r) else (false, List.replicate k 0)

/-- 709-750 `Hacl_Bignum4096_32_mod`. -/
def mod (n a : Arr) : Bool × Arr := checked (modCheck n) n.length (modPrecomp (ctxInit n) a)

/-- 1246-1265 `Hacl_Bignum4096_32_mod_exp_vartime`. -/
def modExpVartimeChecked (n a : Arr) (bBits : ℕ) (b : Arr) : Bool × Arr :=
  checked (expCheck n a bBits b) n.length (modExpVartime (ctxInit n) a bBits b)

/-- 1288-1307 `Hacl_Bignum4096_32_mod_exp_consttime`. -/
def modExpConsttimeChecked (n a : Arr) (bBits : ℕ) (b : Arr) : Bool × Arr :=
  checked (expCheck n a bBits b) n.length (modExpConsttime (ctxInit n) a bBits b)

/-- 1324-1446 `Hacl_Bignum4096_32_mod_inv_prime_vartime`. -/
def modInvPrime (n a : Arr) : Bool × Arr :=
  let m0 := modCheck n
  let m1 := eqMask a (List.replicate n.length 0)
  let m2 := ltMask a n
  let n2 := (sub n (2 :: List.replicate (n.length - 1) 0)).1
  checked ((m0 &&& ~~~m1) &&& m2) n.length (modExpVartime (ctxInit n) a (32 * n.length) n2)

end EG.Limbs32
