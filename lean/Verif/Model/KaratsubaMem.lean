import Verif.Model.LimbsMem
import Verif.Model.LimbsExp

/-!
# Karatsuba multiplication and Montgomery multiplication in memory

As in `Verif.Model.LimbsMem`, arrays are addresses.  The scratch array `tmp` of Karatsuba multiplication
is used for several intermediate results, one after the other, and its end is the scratch array of the
recursive calls.  Montgomery multiplication is called with its result over its arguments.  Local arrays
are at an address that is passed in (`loc`, `stack`).  As before, bounds are not modelled: the theorems
say which words change and on which words the results depend.
-/

namespace EG.Limbs

/-- Hacl_Bignum.c:647-648 with 683-690, and 692-701: `|x - y|` in `t`, with the scratch array `s`, and
the sign. -/
def absDiffAt (k x y t s : ℕ) (m : Mem) : Mem × UInt64 :=
  let d := subAt k 0 x y s m
  let e := subAt k 0 y x t d.1
  (selectAt (0 - d.2) k t s t e.1, d.2)

/-- The loop of Hacl_Bignum.c:744-777: the carry is added to `n` limbs. -/
def carryAt : ℕ → UInt64 → ℕ → Mem → Mem
  | 0, _, _, m => m
  | n + 1, c, r, m =>
    let s := addCarry c (m r) 0
    carryAt n s.2 (r + 1) (m.set r s.1)

/-- Hacl_Bignum.c:738-784: the limb `c` is added to the array of `n` limbs (there is at least one). -/
def addLimbAt (n : ℕ) (c : UInt64) (r : ℕ) (m : Mem) : Mem :=
  match n with
  | 0 => m
  | n + 1 =>
    let s := addCarry 0 (m r) c
    carryAt n s.2 (r + 1) (m.set r s.1)

/-- Hacl_Bignum.c:732-784: the middle part is added. -/
def combineAt (k h res t45 : ℕ) (c5 : UInt64) (m : Mem) : Mem :=
  let s := addAt k 0 (res + h) t45 (res + h) m
  addLimbAt h (c5 + s.2) (res + k + h) s.1

/-- Hacl_Bignum.c:631-789 `bn_karatsuba_mul_uint64`, for `k` limbs.  `fuel` bounds the depth. -/
def karatsubaMulAt : ℕ → ℕ → ℕ → ℕ → ℕ → ℕ → Mem → Mem
  | 0, k, a, b, _, res, m => mulAt k k a b res m
  | fuel + 1, k, a, b, tmp, res, m =>
    if k < 32 ∨ k % 2 = 1 then mulAt k k a b res m
    else
      let h := k / 2
      let d := absDiffAt h a (a + h) tmp (tmp + k) m
      let e := absDiffAt h b (b + h) (tmp + h) (tmp + k) d.1
      let m := karatsubaMulAt fuel h tmp (tmp + h) (tmp + k + k) (tmp + k) e.1
      let m := karatsubaMulAt fuel h a b (tmp + k + k) res m
      let m := karatsubaMulAt fuel h (a + h) (b + h) (tmp + k + k) (res + k) m
      let s := addAt k 0 res (res + k) tmp m
      let t67 := subAt k 0 tmp (tmp + k) (tmp + 3 * k) s.1
      let t45 := addAt k 0 tmp (tmp + k) (tmp + 2 * k) t67.1
      let mask := 0 - (d.2 ^^^ e.2)
      let m := selectAt mask k (tmp + 2 * k) (tmp + 3 * k) (tmp + 2 * k) t45.1
      combineAt k h res (tmp + 2 * k) (select mask (s.2 + t45.2) (s.2 - t67.2)) m

/-- One iteration of the first loop of Hacl_Bignum.c:405-446. -/
def sqrStepAt (a res : ℕ) (m : Mem) (i : ℕ) : Mem :=
  let row := rowAt (m (a + i)) i 0 a (res + i) m
  row.1.set (res + (i + i)) row.2

/-- Hacl_Bignum.c:456-464: the squares of the limbs. -/
def diagAt : ℕ → ℕ → ℕ → Mem → Mem
  | 0, _, _, m => m
  | n + 1, a, t, m =>
    let res := (m a).toNat * (m a).toNat % 2 ^ 128
    diagAt n (a + 1) (t + 2)
      ((m.set t (UInt64.ofNat (res % 2 ^ 64))).set (t + 1) (UInt64.ofNat (res >>> 64)))

/-- Hacl_Bignum.c:400-469 `bn_sqr_u64`; `loc` is the local array. -/
def sqrAt (k a res loc : ℕ) (m : Mem) : Mem :=
  let m := (List.range k).foldl (sqrStepAt a res) (zeroAt (k + k) res m)
  let m := (addAt (k + k) 0 res res res m).1
  let m := diagAt k a loc (zeroAt (k + k) loc m)
  (addAt (k + k) 0 res loc res m).1

/-- Hacl_Bignum.c:913-1033 `bn_karatsuba_sqr_uint64`. -/
def karatsubaSqrAt (loc : ℕ) : ℕ → ℕ → ℕ → ℕ → ℕ → Mem → Mem
  | 0, k, a, _, res, m => sqrAt k a res loc m
  | fuel + 1, k, a, tmp, res, m =>
    if k < 32 ∨ k % 2 = 1 then sqrAt k a res loc m
    else
      let h := k / 2
      let d := absDiffAt h a (a + h) tmp (tmp + k) m
      let m := karatsubaSqrAt loc fuel h tmp (tmp + k + k) (tmp + k) d.1
      let m := karatsubaSqrAt loc fuel h a (tmp + k + k) res m
      let m := karatsubaSqrAt loc fuel h (a + h) (tmp + k + k) (res + k) m
      let s := addAt k 0 res (res + k) tmp m
      let t45 := subAt k 0 tmp (tmp + k) (tmp + 2 * k) s.1
      combineAt k h res (tmp + 2 * k) (s.2 - t45.2) t45.1

/-- Hacl_Bignum4096.c:528-597 `areduction`. -/
def areductionAt (k n : ℕ) (nInv : UInt64) (c res tmp : ℕ) (m : Mem) : Mem :=
  let st := (List.range k).foldl (redcStepAt k n nInv c) (m, 0)
  let m := copyAt k res (c + k) st.1
  let t := subAt k 0 res n tmp (zeroAt k tmp m)
  selectAt (0 - st.2) k tmp res res t.1

/-- Hacl_Bignum4096.c:599-606 `amont_mul`.  The local arrays are `c` (`2 k` limbs) and `tmp` (`4 k`), and
the one of `areduction` (`k`). -/
def amontMulAt (k n : ℕ) (nInv : UInt64) (aM bM resM stack : ℕ) (m : Mem) : Mem :=
  let c := stack
  let tmp := stack + 2 * k
  let m := zeroAt (4 * k) tmp (zeroAt (2 * k) c m)
  let m := karatsubaMulAt k k aM bM tmp c m
  areductionAt k n nInv c resM (stack + 6 * k) m

/-- Hacl_Bignum4096.c:608-614 `amont_sqr`; the local array of `bn_sqr_u64` has up to `2 k` limbs. -/
def amontSqrAt (k n : ℕ) (nInv : UInt64) (aM resM stack : ℕ) (m : Mem) : Mem :=
  let c := stack
  let tmp := stack + 2 * k
  let m := zeroAt (4 * k) tmp (zeroAt (2 * k) c m)
  let m := karatsubaSqrAt (stack + 7 * k) k k aM tmp c m
  areductionAt k n nInv c resM (stack + 6 * k) m

/-! ## Exponentiation -/

/-- Hacl_Bignum4096.c:383-387 `Hacl_Bignum4096_mul`, with its local array. -/
def mulFullAt (k a b res stack : ℕ) (m : Mem) : Mem :=
  karatsubaMulAt k k a b stack res (zeroAt (4 * k) stack m)

/-- Hacl_Bignum4096.c:858-861, 891-894: into Montgomery form, with the local arrays `aM` and `c`. -/
def toMontAt (k n : ℕ) (mu : UInt64) (r2 a aM c stack : ℕ) (m : Mem) : Mem :=
  let m := zeroAt (2 * k) c (zeroAt k aM m)
  let m := mulFullAt k a r2 c stack m
  reductionAt k n mu c aM stack m

/-- Hacl_Bignum4096.c:864-866, 883-885: `x` is copied to the lower half of the local array `tmp`, and
reduced. -/
def fromMontAt (k n : ℕ) (mu : UInt64) (x tmp res stack : ℕ) (m : Mem) : Mem :=
  let m := copyAt k tmp x (zeroAt (2 * k) tmp m)
  reductionAt k n mu tmp res stack m

/-- Hacl_Bignum4096.c:871-874. -/
def getBitAt (m : Mem) (b i : ℕ) : UInt64 := (m (b + i / 64) >>> UInt64.ofNat (i % 64)) &&& 1

/-- Hacl_Bignum4096.c:927-941, 960-974. -/
def getWindowAt (m : Mem) (b len pos : ℕ) : UInt64 :=
  let i := pos / 64
  let j := pos % 64
  let p1 := m (b + i) >>> UInt64.ofNat j
  let ite := if i + 1 < len ∧ 0 < j then p1 ||| m (b + (i + 1)) <<< UInt64.ofNat (64 - j) else p1
  ite &&& 15

/-! The local arrays of the two functions for exponentiation, from the address `st` on: `aM` (`k` limbs),
`c` (`2 k`), `resM` (`k`), `tmp0` and the like (`2 k`), `table` (`16 k`), `a_bits_l` (`k`), and then the
local arrays of the functions that are called (`9 k`). -/

/-- Hacl_Bignum4096.c:858-866, 891-909: `aM` and `resM`. -/
def expInitAt (k n : ℕ) (mu : UInt64) (r2 a st : ℕ) (m : Mem) : Mem :=
  let m := toMontAt k n mu r2 a st (st + k) (st + 23 * k) m
  let m := zeroAt k (st + 3 * k) m
  fromMontAt k n mu r2 (st + 4 * k) (st + 3 * k) (st + 23 * k) m

/-- Hacl_Bignum4096.c:870-880, one iteration. -/
def binStepAt (k n : ℕ) (mu : UInt64) (b st : ℕ) (m : Mem) (i : ℕ) : Mem :=
  let m := if getBitAt m b i = 0 then m
    else amontMulAt k n mu (st + 3 * k) st (st + 3 * k) (st + 23 * k) m
  amontSqrAt k n mu st st (st + 23 * k) m

/-- Hacl_Bignum4096.c:857-889: for short exponents. -/
def expBinaryAt (k n : ℕ) (mu : UInt64) (r2 a bBits b res st : ℕ) (m : Mem) : Mem :=
  let m := expInitAt k n mu r2 a st m
  let m := (List.range bBits).foldl (binStepAt k n mu b st) m
  fromMontAt k n mu (st + 3 * k) (st + 4 * k) res (st + 23 * k) m

/-- Hacl_Bignum4096.c:1029-1037, 1044-1052: the arrays are exchanged if `sw` is 1. -/
def cswapAt (sw : UInt64) : ℕ → ℕ → ℕ → Mem → Mem
  | 0, _, _, m => m
  | n + 1, x, y, m =>
    let dummy := (0 - sw) &&& (m x ^^^ m y)
    let m := m.set x (m x ^^^ dummy)
    cswapAt sw n (x + 1) (y + 1) (m.set y (m y ^^^ dummy))

/-- Hacl_Bignum4096.c:1023-1041, one iteration; the state has the variable `sw`. -/
def ladderStepAt (k n : ℕ) (mu : UInt64) (bBits b st : ℕ) (s : Mem × UInt64) (i : ℕ) : Mem × UInt64 :=
  let bit := getBitAt s.1 b (bBits - i - 1)
  let m := cswapAt (bit ^^^ s.2) k (st + 3 * k) st s.1
  let m := amontMulAt k n mu st (st + 3 * k) st (st + 23 * k) m
  (amontSqrAt k n mu (st + 3 * k) (st + 3 * k) (st + 23 * k) m, bit)

/-- Hacl_Bignum4096.c:1007-1061: for short exponents, in constant time. -/
def expLadderAt (k n : ℕ) (mu : UInt64) (r2 a bBits b res st : ℕ) (m : Mem) : Mem :=
  let m := expInitAt k n mu r2 a st m
  let s := (List.range bBits).foldl (ladderStepAt k n mu bBits b st) (m, 0)
  let m := cswapAt s.2 k (st + 3 * k) st s.1
  fromMontAt k n mu (st + 3 * k) (st + 4 * k) res (st + 23 * k) m

/-- Hacl_Bignum4096.c:911-924: the table of sixteen powers. -/
def expTableAt (k n : ℕ) (mu : UInt64) (st : ℕ) (m : Mem) : Mem :=
  let table := st + 6 * k
  let m := zeroAt (16 * k) table m
  let m := copyAt k table (st + 3 * k) m
  let m := copyAt k (table + k) st m
  (List.range 15).foldl
    (fun m i => amontMulAt k n mu st (table + i * k) (table + i * k + k) (st + 23 * k) m) m

/-- Hacl_Bignum4096.c:942-944, 976-978: the entry is read directly. -/
def lookVartimeAt (k table : ℕ) (bits : UInt64) (dst : ℕ) (m : Mem) : Mem :=
  copyAt k dst (table + bits.toNat * k) m

/-- Hacl_Bignum4096.c:1114-1131, 1163-1180: all entries are read. -/
def lookConsttimeAt (k table : ℕ) (bits : UInt64) (dst : ℕ) (m : Mem) : Mem :=
  (List.range 15).foldl
    (fun m i => selectAt (eqMask1 bits (UInt64.ofNat (i + 1))) k (table + (i + 1) * k) dst dst m)
    (copyAt k dst table m)

/-- Hacl_Bignum4096.c:950-982, 1137-1184, one iteration. -/
def expStepAt (k n : ℕ) (mu : UInt64) (look : UInt64 → ℕ → Mem → Mem) (b len bk st : ℕ) (m : Mem)
    (i : ℕ) : Mem :=
  let m := (List.range 4).foldl
    (fun m _ => amontSqrAt k n mu (st + 3 * k) (st + 3 * k) (st + 23 * k) m) m
  let bits := getWindowAt m b len (bk - 4 * i - 4)
  let m := look bits (st + 22 * k) (zeroAt k (st + 22 * k) m)
  amontMulAt k n mu (st + 3 * k) (st + 22 * k) (st + 3 * k) (st + 23 * k) m

/-- Hacl_Bignum4096.c:890-992, 1062-1194: the fixed window method. -/
def expWindowAt (look : ℕ → ℕ → UInt64 → ℕ → Mem → Mem) (k n : ℕ) (mu : UInt64) (r2 a bBits b res st : ℕ)
    (m : Mem) : Mem :=
  let m := expInitAt k n mu r2 a st m
  let m := expTableAt k n mu st m
  let look := look k (st + 6 * k)
  let m := if bBits % 4 ≠ 0 then look (getWindowAt m b (bLen bBits) (bBits / 4 * 4)) (st + 3 * k) m else m
  let m := (List.range (bBits / 4)).foldl
    (expStepAt k n mu look b (bLen bBits) (bBits - bBits % 4) st) m
  fromMontAt k n mu (st + 3 * k) (st + 4 * k) res (st + 23 * k) m

/-- Hacl_Bignum4096.c:845-993 `exp_vartime_precomp`. -/
def expVartimeAt (k n : ℕ) (mu : UInt64) (r2 a bBits b res st : ℕ) (m : Mem) : Mem :=
  if bBits < 200 then expBinaryAt k n mu r2 a bBits b res st m
  else expWindowAt lookVartimeAt k n mu r2 a bBits b res st m

/-- Hacl_Bignum4096.c:995-1195 `exp_consttime_precomp`. -/
def expConsttimeAt (k n : ℕ) (mu : UInt64) (r2 a bBits b res st : ℕ) (m : Mem) : Mem :=
  if bBits < 200 then expLadderAt k n mu r2 a bBits b res st m
  else expWindowAt lookConsttimeAt k n mu r2 a bBits b res st m

end EG.Limbs
