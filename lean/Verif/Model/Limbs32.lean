import Mathlib.Data.Nat.Notation

/-!
# The limb loops of the vendored HACL* bignum routines with 32-bit limbs (src/karamel)

On Windows (`#ifdef _WIN32`, src/electionguard/facades/Hacl_Bignum4096.cpp) the library calls
`Hacl_Bignum4096_32_*` and `Hacl_GenericField32_*` on the same memory, by way of
`reinterpret_cast<uint32_t *>`.  Here a bignum is an array of `uint32_t`, least significant limb first.
This is Model/Limbs.lean once more, for the other source files: the loops are the same, except for the
carries (`addCarry`, `subBorrow`, `mulWideAdd2`), the width of a limb and the number of limbs.
The conventions of Model/Limbs.lean apply.
-/

namespace EG.Limbs32

/-- `uint32_t[n]` -/
abbrev Arr := List UInt32

/-! ## Single limbs -/

/-- include/karamel/FStar_UInt_8_16_32_64.h:85-92 `FStar_UInt32_eq_mask`. -/
def eqMask1 (a b : UInt32) : UInt32 :=
  let x := a ^^^ b
  let minusX := ~~~x + 1
  let xOrMinusX := x ||| minusX
  let xnx := xOrMinusX >>> 31
  xnx - 1

/-- include/karamel/FStar_UInt_8_16_32_64.h:94-105 `FStar_UInt32_gte_mask`. -/
def gteMask1 (a b : UInt32) : UInt32 :=
  let x := a
  let y := b
  let xXorY := x ^^^ y
  let xSubY := x - y
  let xSubYXorY := xSubY ^^^ y
  let q := xXorY ||| xSubYXorY
  let xXorQ := x ^^^ q
  let xXorQ' := xXorQ >>> 31
  xXorQ' - 1

/-- Hacl_IntTypes_Intrinsics.h:37-44 `add_carry_u32`: a sum of 64 bits, and its two halves.  (With compiler
intrinsics `_addcarry_u32` is used, which is documented to do the same.) -/
def addCarry (cin x y : UInt32) : UInt32 × UInt32 :=
  let res := x.toUInt64 + cin.toUInt64 + y.toUInt64
  let c := (res >>> 32).toUInt32
  (res.toUInt32, c)

/-- Hacl_IntTypes_Intrinsics.h:46-53 `sub_borrow_u32`. -/
def subBorrow (cin x y : UInt32) : UInt32 × UInt32 :=
  let res := x.toUInt64 - y.toUInt64 - cin.toUInt64
  let c := (res >>> 32).toUInt32 &&& 1
  (res.toUInt32, c)

/-- Hacl_Bignum.c:26-32 `mul_wide_add2_u32`: `(uint64_t)a * (uint64_t)b + (uint64_t)c_in + (uint64_t)out0`,
and the two halves of the result. -/
def mulWideAdd2 (a b cin out0 : UInt32) : UInt32 × UInt32 :=
  let res := ((a.toNat * b.toNat + cin.toNat) % 2 ^ 64 + out0.toNat) % 2 ^ 64
  (UInt32.ofNat (res % 2 ^ 32), UInt32.ofNat (res >>> 32))

/-- `(mask & x) | (~mask & y)` -/
def select (mask x y : UInt32) : UInt32 := (mask &&& x) ||| (~~~mask &&& y)

/-! ## Addition, subtraction, comparison -/

/-- The loop of Hacl_Bignum4096_32.c:62-104 `add`,
Hacl_Bignum.c:154-195 `bn_add_eq_len_u32`. -/
def addLoop (c : UInt32) : Arr → Arr → Arr × UInt32
  | x :: a, y :: b =>
    let s := addCarry c x y
    let r := addLoop s.2 a b
    (s.1 :: r.1, r.2)
  | _, _ => ([], c)

def add (a b : Arr) : Arr × UInt32 := addLoop 0 a b

/-- The loop of Hacl_Bignum4096_32.c:113-155 `sub`,
Hacl_Bignum.c:70-110 `bn_sub_eq_len_u32`. -/
def subLoop (c : UInt32) : Arr → Arr → Arr × UInt32
  | x :: a, y :: b =>
    let s := subBorrow c x y
    let r := subLoop s.2 a b
    (s.1 :: r.1, r.2)
  | _, _ => ([], c)

def sub (a b : Arr) : Arr × UInt32 := subLoop 0 a b

/-- The loop of Hacl_Bignum4096_32.c:1857-1870 `lt_mask`. -/
def ltLoop (acc : UInt32) : Arr → Arr → UInt32
  | x :: a, y :: b =>
    let beq := eqMask1 x y
    let blt := ~~~(gteMask1 x y)
    ltLoop ((beq &&& acc) ||| (~~~beq &&& ((blt &&& 0xFFFFFFFF) ||| (~~~blt &&& 0)))) a b
  | _, _ => acc

def ltMask (a b : Arr) : UInt32 := ltLoop 0 a b

/-- The loop of Hacl_Bignum4096_32.c:1877-1891 `eq_mask`. -/
def eqLoop (mask : UInt32) : Arr → Arr → UInt32
  | x :: a, y :: b => eqLoop (eqMask1 x y &&& mask) a b
  | _, _ => mask

def eqMask (a b : Arr) : UInt32 := eqLoop 0xFFFFFFFF a b

/-- The loop of Hacl_Bignum.c:44-55 `bn_get_top_index_u32`; `i` is the index of the first limb. -/
def topLoop (priv : UInt32) (i : ℕ) : Arr → UInt32
  | x :: b =>
    let mask := eqMask1 x 0
    topLoop ((mask &&& priv) ||| (~~~mask &&& UInt32.ofNat i)) (i + 1) b
  | [] => priv

def topIndex (b : Arr) : UInt32 := topLoop 0 0 b

/-- The loops that choose between two arrays limb by limb, e.g. Hacl_Bignum4096_32.c:516-524. -/
def selectArr (mask : UInt32) (x y : Arr) : Arr := List.zipWith (select mask) x y

/-! ## Multiplication -/

/-- The inner loop of Hacl_Bignum.c:240-283 `bn_mul_u32` (also Hacl_Bignum4096_32.c:426-457):
`out += a * l`, with the carry. -/
def mulRow (l c : UInt32) : Arr → Arr → Arr × UInt32
  | x :: a, o :: out =>
    let s := mulWideAdd2 x l c o
    let r := mulRow l s.2 a out
    (s.1 :: r.1, r.2)
  | _, _ => ([], c)

/-- Overwrite `xs.length` limbs of `res` from index `i` on. -/
def splice (res : Arr) (i : ℕ) (xs : Arr) : Arr := res.take i ++ xs ++ res.drop (i + xs.length)

/-- One iteration of the outer loop of Hacl_Bignum.c:240-283. -/
def mulStep (a b : Arr) (res : Arr) (i : ℕ) : Arr :=
  let row := mulRow (b.getD i 0) 0 a ((res.drop i).take a.length)
  splice (splice res i row.1) (a.length + i) [row.2]

/-- Hacl_Bignum.c:240-283 `bn_mul_u32`. -/
def mul (a b : Arr) : Arr :=
  (List.range b.length).foldl (mulStep a b) (List.replicate (a.length + b.length) 0)

/-- One iteration of the first loop of Hacl_Bignum.c:330-376: only the limbs below `i`. -/
def sqrStep (a : Arr) (res : Arr) (i : ℕ) : Arr :=
  let row := mulRow (a.getD i 0) 0 (a.take i) ((res.drop i).take i)
  splice (splice res i row.1) (i + i) [row.2]

/-- Hacl_Bignum.c:382-393: the squares of the limbs. -/
def sqrDiag : Arr → Arr
  | x :: a =>
    let res := x.toNat * x.toNat % 2 ^ 64
    UInt32.ofNat (res % 2 ^ 32) :: UInt32.ofNat (res >>> 32) :: sqrDiag a
  | [] => []

/-- Hacl_Bignum.c:330-398 `bn_sqr_u32`. -/
def sqr (a : Arr) : Arr :=
  let res := (List.range a.length).foldl (sqrStep a) (List.replicate (a.length + a.length) 0)
  let res := (add res res).1
  (add res (sqrDiag a)).1

/-- `|x - y|` as Hacl_Bignum.c:486-530 computes it, and the sign. -/
def absDiff (x y : Arr) : Arr × UInt32 :=
  let d := sub x y
  let e := sub y x
  (selectArr (0 - d.2) e.1 d.1, d.2)

/-- Hacl_Bignum.c:578-623: add the single limb `c` to the array. -/
def addLimb (r : Arr) (c : UInt32) : Arr :=
  match r with
  | [] => []
  | x :: r' =>
    let s := addCarry 0 x c
    s.1 :: (addLoop s.2 r' (List.replicate r'.length 0)).1

/-- Hacl_Bignum.c:549-623: the middle part `t45` with its upper limb `c5` is added to the array of the two
outer products, `h` limbs from its beginning. -/
def combine (h : ℕ) (res t45 : Arr) (c5 : UInt32) : Arr :=
  let s := add ((res.drop h).take t45.length) t45
  let res := splice res h s.1
  let k := h + t45.length
  splice res k (addLimb (res.drop k) (c5 + s.2))

/-- Hacl_Bignum.c:471-629 `bn_karatsuba_mul_uint32`.  `fuel` bounds the depth of the recursion; the
length is halved by every call, so that the length of `a` suffices (`C97_mul`). -/
def karatsubaMul : ℕ → Arr → Arr → Arr
  | 0, a, b => mul a b
  | fuel + 1, a, b =>
    if a.length < 32 ∨ a.length % 2 = 1 then mul a b
    else
      let len2 := a.length / 2
      let a0 := a.take len2
      let a1 := a.drop len2
      let b0 := b.take len2
      let b1 := b.drop len2
      let t0 := absDiff a0 a1
      let t1 := absDiff b0 b1
      let t23 := karatsubaMul fuel t0.1 t1.1
      let r01 := karatsubaMul fuel a0 b0
      let r23 := karatsubaMul fuel a1 b1
      let t01 := add r01 r23
      let sign := t0.2 ^^^ t1.2
      let t67 := sub t01.1 t23
      let c31 := t01.2 - t67.2
      let t45 := add t01.1 t23
      let c41 := t01.2 + t45.2
      let mask := 0 - sign
      combine len2 (r01 ++ r23) (selectArr mask t45.1 t67.1) (select mask c41 c31)

/-- Hacl_Bignum.c:791-911 `bn_karatsuba_sqr_uint32`. -/
def karatsubaSqr : ℕ → Arr → Arr
  | 0, a => sqr a
  | fuel + 1, a =>
    if a.length < 32 ∨ a.length % 2 = 1 then sqr a
    else
      let len2 := a.length / 2
      let a0 := a.take len2
      let a1 := a.drop len2
      let t0 := absDiff a0 a1
      let t23 := karatsubaSqr fuel t0.1
      let r01 := karatsubaSqr fuel a0
      let r23 := karatsubaSqr fuel a1
      let t01 := add r01 r23
      let t45 := sub t01.1 t23
      combine len2 (r01 ++ r23) t45.1 (t01.2 - t45.2)

/-! ## Montgomery reduction -/

/-- One iteration of the outer loop of Hacl_Bignum4096_32.c:422-466: `c` has twice as many limbs as `n`,
`c00` is the carry kept between the iterations. -/
def redcStep (n : Arr) (nInv : UInt32) (st : Arr × UInt32) (i : ℕ) : Arr × UInt32 :=
  let c := st.1
  let qj := nInv * c.getD i 0
  let row := mulRow qj 0 n ((c.drop i).take n.length)
  let c := splice c i row.1
  let s := addCarry st.2 row.2 (c.getD (n.length + i) 0)
  (splice c (n.length + i) [s.1], s.2)

/-- Hacl_Bignum4096_32.c:418-470: the upper half after the loop, and the last carry. -/
def redcLoop (n : Arr) (nInv : UInt32) (c : Arr) : Arr × UInt32 :=
  let st := (List.range n.length).foldl (redcStep n nInv) (c, 0)
  (st.1.drop n.length, st.2)

/-- Hacl_Bignum4096_32.c:416-526 `reduction`. -/
def reduction (n : Arr) (nInv : UInt32) (c : Arr) : Arr :=
  let r := redcLoop n nInv c
  let tmp := sub r.1 n
  selectArr (r.2 - tmp.2) r.1 tmp.1

/-- Hacl_Bignum4096_32.c:528-597 `areduction`. -/
def areduction (n : Arr) (nInv : UInt32) (c : Arr) : Arr :=
  let r := redcLoop n nInv c
  let tmp := sub r.1 n
  selectArr (0 - r.2) tmp.1 r.1

/-- Hacl_Bignum4096_32.c:167-265 `add_mod`. -/
def addMod (n a b : Arr) : Arr :=
  let r := add a b
  let tmp := sub r.1 n
  selectArr (r.2 - tmp.2) r.1 tmp.1

/-- Hacl_Bignum4096_32.c:277-369 `sub_mod`. -/
def subMod (n a b : Arr) : Arr :=
  let r := sub a b
  let tmp := add r.1 n
  selectArr (0 - r.2) tmp.1 r.1

/-- Hacl_Bignum4096_32.c:401-414 `precompr2`: the array `2^nBits`, and the doublings. -/
def precompR2 (n : Arr) (nBits : ℕ) : Arr :=
  let res := List.replicate n.length 0
  let i0 := nBits / 32
  let j := nBits % 32
  let res := splice res i0 [res.getD i0 0 ||| (1 : UInt32) <<< UInt32.ofNat j]
  (List.range (64 * n.length - nBits)).foldl (fun r _ => addMod n r r) res

end EG.Limbs32
