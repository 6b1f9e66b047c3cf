import Mathlib.Data.Nat.Notation

/-!
# The vendored HACL* bignum routines with 32-bit limbs, on natural numbers

This is Model/Hacl.lean once more, for `k` limbs of 32 bits; it stands between the loops over limbs
(Model/Limbs32.lean) and the properties.  The simplifications of Model/Hacl.lean apply.
-/

namespace EG.Hacl32

/-- One more than the largest value a `k`-limb bignum can hold. -/
def R (k : ℕ) : ℕ := 2 ^ (32 * k)

/-- Hacl_Bignum4096_32.c:62-111 `add`: `(a + b mod 2^(32k), carry)`. -/
def add (k a b : ℕ) : ℕ × ℕ := ((a + b) % R k, (a + b) / R k)

/-- Hacl_Bignum4096_32.c:113-153 `sub`: `(a - b mod 2^(32k), borrow)`. -/
def sub (k a b : ℕ) : ℕ × ℕ := ((a + R k - b) % R k, if a < b then 1 else 0)

/-- Hacl_Bignum4096_32.c:1857-1870, `lt_mask`: all ones if `a < b`, else `0`. -/
def ltMask (a b : ℕ) : ℕ := if a < b then 2 ^ 32 - 1 else 0

/-- One iteration of the loop in Hacl_Bignum.c:1445-1455. -/
def modInvLimbStep (n0 : ℕ) (uv : ℕ × ℕ) : ℕ × ℕ :=
  let us := uv.1
  let vs := uv.2
  -- `u_is_odd` is the mask `0 - (us & 1)`
  let betaIf := if us % 2 = 1 then n0 else 0
  let alphaIf := if us % 2 = 1 then 2147483648 else 0
  ((((us ^^^ betaIf) >>> 1) + (us &&& betaIf)) % 2 ^ 32, ((vs >>> 1) + alphaIf) % 2 ^ 32)

/-- Iterate `f` `n` times. -/
def iter {α : Type} (f : α → α) : ℕ → α → α
  | 0, x => x
  | n + 1, x => iter f n (f x)

/-- Hacl_Bignum.c:1435-1458 `Hacl_Bignum_ModInvLimb_mod_inv_uint32`. -/
def modInvLimb (n0 : ℕ) : ℕ := (iter (modInvLimbStep n0) 32 (1, 0)).2

/-- One iteration (index `i0`) of the outer loop of `reduction`, Hacl_Bignum4096_32.c:422-466:
`qj = nInv * c[i0]`, then `c += qj * n * 2^(32*i0)`, which clears limb `i0`.
Here the cleared low limbs are dropped as we go. -/
def redcStep (n mu c : ℕ) : ℕ := (c + (mu * (c % 2 ^ 32) % 2 ^ 32) * n) / 2 ^ 32

/-- The value `c0 * 2^(32k) + res` after the loop and the copy of the upper half,
Hacl_Bignum4096_32.c:418-470 (also 530-581, 618-677 and Hacl_Bignum.c:1535-1579). -/
def redcLoop (k n mu c : ℕ) : ℕ := iter (redcStep n mu) k c

/-- The final selection of `reduction` and `add_mod`:
`c2 = c0 - borrow(res - n)`; `res = (c2 & res) | (~c2 & (res - n))`, Hacl_Bignum4096_32.c:471-525
and 205-265.  `t = c0 * 2^(32k) + res`.  When `c2` is neither `0` nor all ones (i.e.
`t ≥ n + 2^(32k)`) the C code mixes bits of both values; that case is not modelled further and
returns `0`.  No caller reaches it (`reduction_lt`, `addMod_eq`). -/
def condSub (k n t : ℕ) : ℕ :=
  let res := t % R k
  let c0 := t / R k
  let s := sub k res n
  if c0 = s.2 then s.1 else if c0 = 0 ∧ s.2 = 1 then res else 0

/-- Hacl_Bignum4096_32.c:416-526 `reduction`, Hacl_Bignum.c:1532-1641 `bn_mont_reduction_u32`. -/
def reduction (k n mu c : ℕ) : ℕ := condSub k n (redcLoop k n mu c)

/-- Hacl_Bignum4096_32.c:528-597 `areduction`: subtract `n` only when the upper half carried. -/
def areduction (k n mu c : ℕ) : ℕ :=
  let t := redcLoop k n mu c
  let res := t % R k
  let c0 := t / R k
  if c0 = 0 then res else (sub k res n).1

/-- Hacl_Bignum4096_32.c:167-275 `add_mod`. -/
def addMod (k n a b : ℕ) : ℕ := condSub k n (a + b)

/-- Hacl_Bignum.c:44-55 `bn_get_top_index_u32`: index of the highest non-zero limb. -/
def topIndex (b : ℕ) : ℕ → ℕ
  | 0 => 0
  | i + 1 => if b / 2 ^ (32 * i) % 2 ^ 32 = 0 then topIndex b i else i

/-- Hacl_Bignum4096_32.c:401-414 `precompr2`. -/
def precompR2 (k nBits n : ℕ) : ℕ := iter (fun r => addMod k n r r) (64 * k - nBits) (2 ^ nBits)

/-- A Montgomery context (`bn_mont_ctx_u32`). -/
structure Ctx where
  k : ℕ
  n : ℕ
  mu : ℕ
  r2 : ℕ

/-- Hacl_Bignum4096_32.c:1467-1496 `mont_ctx_init`. -/
def ctxInit (k n : ℕ) : Ctx :=
  { k := k, n := n, mu := modInvLimb (n % 2 ^ 32), r2 := precompR2 k (32 * topIndex n k) n }

/-- Hacl_Bignum4096_32.c:616-696 `bn_slow_precomp`, 1521-1530 `mod_precomp`.  `a` has `2k` limbs. -/
def modPrecomp (c : Ctx) (a : ℕ) : ℕ :=
  reduction c.k c.n c.mu (areduction c.k c.n c.mu a * c.r2)

/-- Hacl_Bignum.c:1643-1658 `bn_to_mont_u32`, Hacl_GenericField32.c:140-146. -/
def toField (c : Ctx) (a : ℕ) : ℕ := reduction c.k c.n c.mu (a * c.r2)

/-- Hacl_Bignum.c:1660-1670 `bn_from_mont_u32`, Hacl_GenericField32.c:157-163. -/
def fromField (c : Ctx) (aM : ℕ) : ℕ := reduction c.k c.n c.mu aM

/-- Hacl_Bignum.c:1672-1686 `bn_mont_mul_u32`, used by `Hacl_GenericField32_mul`. -/
def fieldMul (c : Ctx) (aM bM : ℕ) : ℕ := reduction c.k c.n c.mu (aM * bM)

/-- Hacl_Bignum4096_32.c:599-606 `amont_mul` (`amont_sqr` 608-614 is `amontMul a a`). -/
def amontMul (c : Ctx) (aM bM : ℕ) : ℕ := areduction c.k c.n c.mu (aM * bM)

/-- The table of `exp_vartime_precomp`, Hacl_Bignum4096_32.c:908-925:
`table[0] = 1` and `table[i+1] = amont_mul(aM, table[i])` for `i < 15`. -/
def expTable (c : Ctx) (aM one : ℕ) : ℕ → ℕ
  | 0 => one
  | i + 1 => amontMul c aM (expTable c aM one i)

/-- The four bits of `b` at bit position `pos` (a multiple of 4), Hacl_Bignum4096_32.c:956-972.
`b[i1] >> j` masked by 15; a window of 4 never straddles two 32-bit limbs. -/
def window4 (b pos : ℕ) : ℕ := (b >>> pos) &&& 15

/-- Iteration `i` of the main loop, Hacl_Bignum4096_32.c:945-982. -/
def expStep (c : Ctx) (aM one b bk : ℕ) (acc : ℕ) (i : ℕ) : ℕ :=
  let sq := iter (fun r => amontMul c r r) 4 acc
  amontMul c sq (expTable c aM one (window4 b (bk - 4 * i - 4)))

/-- Hacl_Bignum4096_32.c:840-987 `exp_vartime_precomp`, the branch `bBits ≥ 200`.
`exp_consttime_precomp` (990-1189) performs the same multiplications, only the table entry is
selected with masks; both are modelled by this function. -/
def expWindow (c : Ctx) (a bBits b : ℕ) : ℕ :=
  let aM := reduction c.k c.n c.mu (a * c.r2)
  let one := reduction c.k c.n c.mu c.r2
  let start := if bBits % 4 ≠ 0 then expTable c aM one (window4 b (bBits / 4 * 4)) else one
  let bk := bBits - bBits % 4
  let resM := (List.range (bBits / 4)).foldl (expStep c aM one b bk) start
  reduction c.k c.n c.mu resM

/-- Iteration `i` of the loop for short exponents, Hacl_Bignum4096_32.c:863-874. -/
def expBinStep (c : Ctx) (b : ℕ) (st : ℕ × ℕ) (i : ℕ) : ℕ × ℕ :=
  let resM := if (b >>> i) &&& 1 = 0 then st.1 else amontMul c st.1 st.2
  (resM, amontMul c st.2 st.2)

/-- Hacl_Bignum4096_32.c:849-882, the branch `bBits < 200` of `exp_vartime_precomp`.
(The Montgomery ladder for short exponents of `exp_consttime_precomp` is not modelled, no
caller in the library uses `bBits < 200`.) -/
def expBinary (c : Ctx) (a bBits b : ℕ) : ℕ :=
  let aM := reduction c.k c.n c.mu (a * c.r2)
  let one := reduction c.k c.n c.mu c.r2
  reduction c.k c.n c.mu ((List.range bBits).foldl (expBinStep c b) (one, aM)).1

/-- Hacl_Bignum4096_32.c:1551-1561 `mod_exp_vartime_precomp`. -/
def modExpPrecomp (c : Ctx) (a bBits b : ℕ) : ℕ :=
  if bBits < 200 then expBinary c a bBits b else expWindow c a bBits b

end EG.Hacl32
