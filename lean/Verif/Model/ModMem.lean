import Verif.Model.KaratsubaMem

/-!
# The functions of `Bignum256` and `Bignum4096` in memory, and their unrolled loops

The loops over the limbs are written four limbs at a time in C, with a second loop for the rest; the
functions of Hacl_Bignum256.c are the same code with a single pass of the first loop.  The functions that
take a modulus compute the constants for it in a local array.  `k` is the number of limbs: 4 in
Hacl_Bignum256.c, 64 in Hacl_Bignum4096.c.  Local arrays begin at `st`.
-/

namespace EG.Limbs

/-! ## Unrolled loops -/

/-- `for (i = 0; i < len / 4; i++) { f(4 * i); f(4 * i + 1); f(4 * i + 2); f(4 * i + 3); }` and
`for (i = len / 4 * 4; i < len; i++) f(i);`, e.g. Hacl_Bignum.c:197-238, Hacl_Bignum256.c:58-100. -/
def unrolled {σ : Type} (f : σ → ℕ → σ) (len : ℕ) (s : σ) : σ :=
  let s := (List.range (len / 4)).foldl
    (fun s i => f (f (f (f s (4 * i)) (4 * i + 1)) (4 * i + 2)) (4 * i + 3)) s
  (List.range' (len / 4 * 4) (len - len / 4 * 4)).foldl f s

/-- `c = add_carry(c, a[i], b[i], res + i)`, Hacl_Bignum256.c:61-100, Hacl_Bignum.c:206-237. -/
def addStep (a b res : ℕ) (s : Mem × UInt64) (i : ℕ) : Mem × UInt64 :=
  let r := addCarry s.2 (s.1 (a + i)) (s.1 (b + i))
  (s.1.set (res + i) r.1, r.2)

/-- Hacl_Bignum256.c:58-100 `Hacl_Bignum256_add`, Hacl_Bignum4096.c:62-104, Hacl_Bignum.c:197-238. -/
def addUnrolled (k a b res : ℕ) (m : Mem) : Mem × UInt64 := unrolled (addStep a b res) k (m, 0)

/-- `c = sub_borrow(c, a[i], b[i], res + i)`, Hacl_Bignum256.c:112-150. -/
def subStep (a b res : ℕ) (s : Mem × UInt64) (i : ℕ) : Mem × UInt64 :=
  let r := subBorrow s.2 (s.1 (a + i)) (s.1 (b + i))
  (s.1.set (res + i) r.1, r.2)

/-- Hacl_Bignum256.c:109-151 `Hacl_Bignum256_sub`, Hacl_Bignum4096.c:113-155, Hacl_Bignum.c:112-152. -/
def subUnrolled (k a b res : ℕ) (m : Mem) : Mem × UInt64 := unrolled (subStep a b res) k (m, 0)

/-- `c = mul_wide_add2(a[i], l, c, res + i)`, Hacl_Bignum256.c:388-420. -/
def rowStep (l : UInt64) (a res : ℕ) (s : Mem × UInt64) (i : ℕ) : Mem × UInt64 :=
  let r := mulWideAdd2 (s.1 (a + i)) l s.2 (s.1 (res + i))
  (s.1.set (res + i) r.1, r.2)

/-- The loops of Hacl_Bignum256.c:388-420, 527-561, 639-673, 714-748, 842-876: `len` limbs of `a`, times
`l`, are added to `res`. -/
def rowUnrolled (l : UInt64) (len a res : ℕ) (m : Mem) : Mem × UInt64 := unrolled (rowStep l a res) len (m, 0)

/-- Hacl_Bignum256.c:379-425 `Hacl_Bignum256_mul`. -/
def mulUnrolled (k a b res : ℕ) (m : Mem) : Mem :=
  (List.range k).foldl
    (fun m i =>
      let row := rowUnrolled (m (b + i)) k a (res + i) m
      row.1.set (res + (k + i)) row.2)
    (zeroAt (k + k) res m)

/-- Hacl_Bignum256.c:433-502 `Hacl_Bignum256_sqr`: the limbs before limb `i`, times limb `i`, then doubled,
then the squares of the limbs. -/
def sqrUnrolled (k a res loc : ℕ) (m : Mem) : Mem :=
  let m := (List.range k).foldl
    (fun m i =>
      let row := rowUnrolled (m (a + i)) i a (res + i) m
      row.1.set (res + (i + i)) row.2)
    (zeroAt (k + k) res m)
  let m := (addUnrolled (k + k) res res res m).1
  let m := diagAt k a loc (zeroAt (k + k) loc m)
  (addUnrolled (k + k) res loc res m).1

/-- Hacl_Bignum256.c:163-261 `Hacl_Bignum256_add_mod`. -/
def addModUnrolled (k n a b res tmp : ℕ) (m : Mem) : Mem :=
  let s := addUnrolled k a b res m
  let t := subUnrolled k res n tmp s.1
  selectAt (s.2 - t.2) k res tmp res t.1

/-- Hacl_Bignum256.c:273-371 `Hacl_Bignum256_sub_mod`. -/
def subModUnrolled (k n a b res tmp : ℕ) (m : Mem) : Mem :=
  let s := subUnrolled k a b res m
  let t := addUnrolled k res n tmp s.1
  selectAt (0 - s.2) k tmp res res t.1

/-- Hacl_Bignum256.c:522-573, 634-685, 837-888: the loop of Montgomery reduction. -/
def redcUnrolled (k n : ℕ) (nInv : UInt64) (c : ℕ) (m : Mem) : Mem × UInt64 :=
  (List.range k).foldl
    (fun s i =>
      let row := rowUnrolled (nInv * s.1 (c + i)) k n (c + i) s.1
      let r := addCarry s.2 row.2 (row.1 (c + (k + i)))
      (row.1.set (c + (k + i)) r.1, r.2))
    (m, 0)

/-- Hacl_Bignum256.c:519-629 `reduction`. -/
def reductionUnrolled (k n : ℕ) (nInv : UInt64) (c res tmp : ℕ) (m : Mem) : Mem :=
  let s := redcUnrolled k n nInv c m
  let t := subUnrolled k res n tmp (copyAt k res (c + k) s.1)
  selectAt (s.2 - t.2) k res tmp res t.1

/-- Hacl_Bignum256.c:631-700 `areduction`. -/
def areductionUnrolled (k n : ℕ) (nInv : UInt64) (c res tmp : ℕ) (m : Mem) : Mem :=
  let s := redcUnrolled k n nInv c m
  let t := subUnrolled k res n tmp (zeroAt k tmp (copyAt k res (c + k) s.1))
  selectAt (0 - s.2) k tmp res res t.1

/-- Hacl_Bignum256.c:702-754 `amont_mul`: the product is computed in the local array `c` (at `st`). -/
def amontMulUnrolled (k n : ℕ) (nInv : UInt64) (aM bM resM st : ℕ) (m : Mem) : Mem :=
  areductionUnrolled k n nInv st resM (st + 2 * k) (mulUnrolled k aM bM st m)

/-- Hacl_Bignum256.c:756-827 `amont_sqr`. -/
def amontSqrUnrolled (k n : ℕ) (nInv : UInt64) (aM resM st : ℕ) (m : Mem) : Mem :=
  areductionUnrolled k n nInv st resM (st + 2 * k) (sqrUnrolled k aM st (st + 3 * k) m)

/-! ## Functions that compute the constants of the modulus -/

/-- Hacl_Bignum4096.c:401-414, Hacl_Bignum256.c:504-517 `precompr2`; `tmp` is the local array of
`add_mod`. -/
def precompR2At (k n nBits res tmp : ℕ) (m : Mem) : Mem :=
  let m := zeroAt k res m
  let i0 := nBits / 64
  let m := m.set (res + i0) (m (res + i0) ||| (1 : UInt64) <<< UInt64.ofNat (nBits % 64))
  doublingsAt k n res tmp (128 * k - nBits) m

/-- Hacl_Bignum4096.c:738, 1262-1263, 1488, Hacl_Bignum256.c:941: `64 * bn_get_top_index_u64(k, n)`. -/
def nBitsAt (k n : ℕ) (m : Mem) : ℕ := 64 * (topIndex (m.read n k)).toNat

/-- Hacl_Bignum4096.c:616-695, Hacl_Bignum256.c:829-909 `bn_slow_precomp`.  The local arrays are `a_mod`
(`k`), `a1` (`2 k`), `tmp` (`k`), `c` (`2 k`), and those of `mul` (`4 k`) and `reduction` (`k`). -/
def slowPrecompAt (k n : ℕ) (mu : UInt64) (r2 a res st : ℕ) (m : Mem) : Mem :=
  let m := zeroAt (2 * k) (st + k) (zeroAt k st m)
  let m := copyAt (2 * k) (st + k) a m
  let m := areductionAt k n mu (st + k) st (st + 3 * k) m
  let m := zeroAt (2 * k) (st + 4 * k) m
  let m := mulFullAt k st r2 (st + 4 * k) (st + 6 * k) m
  reductionAt k n mu (st + 4 * k) res (st + 10 * k) m

/-- Hacl_Bignum4096.c:709-750 `Hacl_Bignum4096_mod`, Hacl_Bignum256.c:922-963 `Hacl_Bignum256_mod`.  The
check is the one of `modCheck`; the array `one` is not placed in memory. -/
def modAt (k n a res st : ℕ) (m : Mem) : Bool × Mem :=
  if modCheck (m.read n k) = 0xFFFFFFFFFFFFFFFF then
    let mu := modInvLimb (m n)
    let m := precompR2At k n (nBitsAt k n m) st (st + k) (zeroAt k st m)
    (true, slowPrecompAt k n mu st a res (st + 2 * k) m)
  else (false, zeroAt k res m)

/-- Hacl_Bignum4096.c:1252-1272 `Hacl_Bignum4096_mod_exp_vartime` with 1197-1211, Hacl_Bignum256.c:1464-1485. -/
def modExpVartimeAt (k n a bBits b res st : ℕ) (m : Mem) : Bool × Mem :=
  if expCheck (m.read n k) (m.read a k) bBits (m.read b (bLen bBits)) = 0xFFFFFFFFFFFFFFFF then
    let mu := modInvLimb (m n)
    let m := precompR2At k n (nBitsAt k n m) st (st + k) (zeroAt k st m)
    (true, expVartimeAt k n mu st a bBits b res (st + 2 * k) m)
  else (false, zeroAt k res m)

/-- Hacl_Bignum4096.c:1295-1315 `Hacl_Bignum4096_mod_exp_consttime` with 1214-1228,
Hacl_Bignum256.c:1507-1528. -/
def modExpConsttimeAt (k n a bBits b res st : ℕ) (m : Mem) : Bool × Mem :=
  if expCheck (m.read n k) (m.read a k) bBits (m.read b (bLen bBits)) = 0xFFFFFFFFFFFFFFFF then
    let mu := modInvLimb (m n)
    let m := precompR2At k n (nBitsAt k n m) st (st + k) (zeroAt k st m)
    (true, expConsttimeAt k n mu st a bBits b res (st + 2 * k) m)
  else (false, zeroAt k res m)

/-- Hacl_Bignum4096.c:1478-1507, Hacl_Bignum256.c:1692-1720 `mont_ctx_init`: the modulus is copied to `n1`
and the constant computed in `r2`; both arrays are new.  The result is the limb `mu`. -/
def ctxInitAt (k n n1 r2 st : ℕ) (m : Mem) : UInt64 × Mem :=
  let m := copyAt k n1 n (zeroAt k n1 (zeroAt k r2 m))
  (modInvLimb (m n), precompR2At k n (nBitsAt k n m) r2 st m)

end EG.Limbs
