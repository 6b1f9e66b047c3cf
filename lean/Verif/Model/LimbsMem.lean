import Verif.Model.Limbs

/-!
# The limb functions in memory (src/karamel/Hacl_Bignum.c, Hacl_Bignum4096.c)

In `Verif.Model.Limbs` arrays are values.  Here they are addresses in one memory of 64-bit words, so
that the result of a function may be written over one of its arguments: group.cpp:527-549 and 664-686
add in place, and HACL* does so in many places (Hacl_Bignum.c:448 even passes the same array three
times).  Each loop reads and writes the limbs in the order of the C code.  Bounds of the arrays are not
modelled here: an address is a number, and the theorems say which words change.
-/

namespace EG.Limbs

/-- The words of the memory. -/
abbrev Mem := ℕ → UInt64

/-- The `n` words from the address `p` on. -/
def Mem.read (m : Mem) (p n : ℕ) : Arr := (List.range n).map (fun i => m (p + i))

/-- `*p = x` -/
def Mem.set (m : Mem) (p : ℕ) (x : UInt64) : Mem := fun q => if q = p then x else m q

/-- Hacl_Bignum.c:197-238 `bn_add_eq_len_u64`, Hacl_Bignum4096.c:62-104 `add`: each limb of the result is
stored before the next ones of the arguments are read. -/
def addAt : ℕ → UInt64 → ℕ → ℕ → ℕ → Mem → Mem × UInt64
  | 0, c, _, _, _, m => (m, c)
  | n + 1, c, a, b, res, m =>
    let s := addCarry c (m a) (m b)
    addAt n s.2 (a + 1) (b + 1) (res + 1) (m.set res s.1)

/-- Hacl_Bignum.c:112-152 `bn_sub_eq_len_u64`, Hacl_Bignum4096.c:113-155 `sub`. -/
def subAt : ℕ → UInt64 → ℕ → ℕ → ℕ → Mem → Mem × UInt64
  | 0, c, _, _, _, m => (m, c)
  | n + 1, c, a, b, res, m =>
    let s := subBorrow c (m a) (m b)
    subAt n s.2 (a + 1) (b + 1) (res + 1) (m.set res s.1)

/-- Hacl_Bignum4096.c:255-263, 365-373, 516-524, 587-595: `res[i] = (mask & x[i]) | (~mask & y[i])`. -/
def selectAt (mask : UInt64) : ℕ → ℕ → ℕ → ℕ → Mem → Mem
  | 0, _, _, _, m => m
  | n + 1, x, y, res, m => selectAt mask n (x + 1) (y + 1) (res + 1) (m.set res (select mask (m x) (m y)))

/-- The inner loop of Hacl_Bignum.c:285-328: `res[i] += a[i] * l`, with the carry. -/
def rowAt (l : UInt64) : ℕ → UInt64 → ℕ → ℕ → Mem → Mem × UInt64
  | 0, c, _, _, m => (m, c)
  | n + 1, c, a, res, m =>
    let s := mulWideAdd2 (m a) l c (m res)
    rowAt l n s.2 (a + 1) (res + 1) (m.set res s.1)

/-- `memset(res, 0, n)` -/
def zeroAt : ℕ → ℕ → Mem → Mem
  | 0, _, m => m
  | n + 1, res, m => zeroAt n (res + 1) (m.set res 0)

/-- `memcpy(dst, src, n)` -/
def copyAt : ℕ → ℕ → ℕ → Mem → Mem
  | 0, _, _, m => m
  | n + 1, dst, src, m => copyAt n (dst + 1) (src + 1) (m.set dst (m src))

/-- The outer loop of Hacl_Bignum.c:285-328, one iteration. -/
def mulStepAt (na a b res : ℕ) (m : Mem) (i : ℕ) : Mem :=
  let row := rowAt (m (b + i)) na 0 a (res + i) m
  row.1.set (res + (na + i)) row.2

/-- Hacl_Bignum.c:285-328 `bn_mul_u64`. -/
def mulAt (na nb a b res : ℕ) (m : Mem) : Mem :=
  (List.range nb).foldl (mulStepAt na a b res) (zeroAt (na + nb) res m)

/-- Hacl_Bignum4096.c:167-265 `add_mod`, for `k` limbs; `tmp` is a local array. -/
def addModAt (k n a b res tmp : ℕ) (m : Mem) : Mem :=
  let s := addAt k 0 a b res m
  let t := subAt k 0 res n tmp s.1
  selectAt (s.2 - t.2) k res tmp res t.1

/-- Hacl_Bignum4096.c:277-375 `sub_mod`. -/
def subModAt (k n a b res tmp : ℕ) (m : Mem) : Mem :=
  let s := subAt k 0 a b res m
  let t := addAt k 0 res n tmp s.1
  selectAt (0 - s.2) k tmp res res t.1

/-- Hacl_Bignum4096.c:401-414 `precompr2`: the loop of doublings in place. -/
def doublingsAt (k n res tmp : ℕ) : ℕ → Mem → Mem
  | 0, m => m
  | i + 1, m => doublingsAt k n res tmp i (addModAt k n res res res tmp m)

/-- One iteration of the loop of Hacl_Bignum4096.c:421-470. -/
def redcStepAt (k n : ℕ) (nInv : UInt64) (c : ℕ) (st : Mem × UInt64) (i : ℕ) : Mem × UInt64 :=
  let m := st.1
  let qj := nInv * m (c + i)
  let row := rowAt qj k 0 n (c + i) m
  let s := addCarry st.2 row.2 (row.1 (c + (k + i)))
  (row.1.set (c + (k + i)) s.1, s.2)

/-- Hacl_Bignum4096.c:416-526 `reduction`, for `k` limbs; `c` has `2 * k` limbs and is overwritten. -/
def reductionAt (k n : ℕ) (nInv : UInt64) (c res tmp : ℕ) (m : Mem) : Mem :=
  let st := (List.range k).foldl (redcStepAt k n nInv c) (m, 0)
  let m := copyAt k res (c + k) st.1
  let t := subAt k 0 res n tmp m
  selectAt (st.2 - t.2) k res tmp res t.1

end EG.Limbs
