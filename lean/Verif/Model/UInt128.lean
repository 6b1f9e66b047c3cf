import Mathlib.Data.Nat.Notation

/-!
# 128-bit integers and byte order (include/karamel)

The three implementations of `FStar_UInt128_uint128` between which krml/internal/types.h (69-99)
chooses: a struct of two words (`FStar_UInt128_Verified.h`), the type of the compiler
(`fstar_uint128_gcc64.h`), the vector type of MSVC (`fstar_uint128_msvc.h`, with `HAS_OPTIMIZED`); and the
loads and stores of krml/lowstar_endianness.h.

Machine words are `BitVec`; `none` is undefined behaviour (a shift by the width or more).  The
intrinsics of MSVC are not in the repository: they are defined here as in their documentation.
-/

namespace EG.U128

/-- The struct (types.h 75-78), and `__m128i` as two words (msvc.h 33-38). -/
structure W2 where
  low : BitVec 64
  high : BitVec 64
  deriving DecidableEq

/-! ## Words -/

/-- FStar_UInt_8_16_32_64.h 37-44. -/
def eqMask64 (a b : BitVec 64) : BitVec 64 :=
  let x := a ^^^ b
  let minusX := ~~~x + 1
  let xOrMinusX := x ||| minusX
  let xnx := xOrMinusX >>> 63
  xnx - 1

/-- FStar_UInt_8_16_32_64.h 46-57. -/
def gteMask64 (a b : BitVec 64) : BitVec 64 :=
  let xXorY := a ^^^ b
  let xSubY := a - b
  let xSubYXorY := xSubY ^^^ b
  let q := xXorY ||| xSubYXorY
  let xXorQ := a ^^^ q
  let xXorQ' := xXorQ >>> 63
  xXorQ' - 1

/-- `x << s` on `uint64_t`. -/
def shl (x : BitVec 64) (s : ℕ) : Option (BitVec 64) := if s < 64 then some (x <<< s) else none

/-- `x >> s` on `uint64_t`. -/
def shr (x : BitVec 64) (s : ℕ) : Option (BitVec 64) := if s < 64 then some (x >>> s) else none

/-- FStar_UInt128_Verified.h 17-20, fstar_uint128_msvc.h 75-77. -/
def carry (a b : BitVec 64) : BitVec 64 := (a ^^^ ((a ^^^ b) ||| ((a - b) ^^^ b))) >>> 63

/-- Verified.h 282-285. -/
def mod32 (a : BitVec 64) : BitVec 64 := a &&& 0xffffffff#64

/-- Verified.h 289-292, 310-313. -/
def combine (hi lo : BitVec 64) : BitVec 64 := lo + hi <<< 32

/-- The functions on a type `T` of 128-bit integers. -/
structure Impl (T : Type) where
  add : T → T → T
  addUnderspec : T → T → T
  addMod : T → T → T
  sub : T → T → T
  subUnderspec : T → T → T
  subMod : T → T → T
  logand : T → T → T
  logxor : T → T → T
  logor : T → T → T
  lognot : T → T
  shiftLeft : T → ℕ → Option T
  shiftRight : T → ℕ → Option T
  eq : T → T → Bool
  gt : T → T → Bool
  lt : T → T → Bool
  gte : T → T → Bool
  lte : T → T → Bool
  eqMask : T → T → T
  gteMask : T → T → T
  ofU64 : BitVec 64 → T
  toU64 : T → BitVec 64
  mul32 : BitVec 64 → BitVec 32 → T
  mulWide : BitVec 64 → BitVec 64 → T

/-! ## FStar_UInt128_Verified.h -/

/-- 27-52 `add`, `add_underspec`, `add_mod`. -/
def addW (a b : W2) : W2 :=
  { low := a.low + b.low, high := a.high + b.high + carry (a.low + b.low) b.low }

/-- 54-85 `sub`, `sub_underspec`, `sub_mod_impl`, `sub_mod`. -/
def subW (a b : W2) : W2 :=
  { low := a.low - b.low, high := a.high - b.high - carry a.low (a.low - b.low) }

/-- 124-149. -/
def shiftLeftSmall (a : W2) (s : ℕ) : Option W2 :=
  if s = 0 then some a
  else do
    let l ← shl a.low s
    let h ← shl a.high s
    let c ← shr a.low (64 - s)
    return { low := l, high := h + c }

/-- 151-158. -/
def shiftLeftLarge (a : W2) (s : ℕ) : Option W2 := do
  let h ← shl a.low (s - 64)
  return { low := 0, high := h }

/-- 160-171. -/
def shiftLeftW (a : W2) (s : ℕ) : Option W2 :=
  if s < 64 then shiftLeftSmall a s else shiftLeftLarge a s

/-- 173-198. -/
def shiftRightSmall (a : W2) (s : ℕ) : Option W2 :=
  if s = 0 then some a
  else do
    let l ← shr a.low s
    let c ← shl a.high (64 - s)
    let h ← shr a.high s
    return { low := l + c, high := h }

/-- 200-207. -/
def shiftRightLarge (a : W2) (s : ℕ) : Option W2 := do
  let l ← shr a.high (s - 64)
  return { low := l, high := 0 }

/-- 209-220. -/
def shiftRightW (a : W2) (s : ℕ) : Option W2 :=
  if s < 64 then shiftRightSmall a s else shiftRightLarge a s

/-- 222-225. -/
def eqW (a b : W2) : Bool := a.low == b.low && a.high == b.high

/-- 227-230. -/
def gtW (a b : W2) : Bool := b.high.ult a.high || (a.high == b.high && b.low.ult a.low)

/-- 232-235. -/
def ltW (a b : W2) : Bool := a.high.ult b.high || (a.high == b.high && a.low.ult b.low)

/-- 237-240. -/
def gteW (a b : W2) : Bool := b.high.ult a.high || (a.high == b.high && b.low.ule a.low)

/-- 242-245. -/
def lteW (a b : W2) : Bool := a.high.ult b.high || (a.high == b.high && a.low.ule b.low)

/-- 247-254. -/
def eqMaskW (a b : W2) : W2 :=
  { low := eqMask64 a.low b.low &&& eqMask64 a.high b.high
    high := eqMask64 a.low b.low &&& eqMask64 a.high b.high }

/-- 256-267, msvc.h 360-403 (the code that is compiled is the same). -/
def gteMaskW (a b : W2) : W2 :=
  { low := (gteMask64 a.high b.high &&& ~~~eqMask64 a.high b.high) |||
      (eqMask64 a.high b.high &&& gteMask64 a.low b.low)
    high := (gteMask64 a.high b.high &&& ~~~eqMask64 a.high b.high) |||
      (eqMask64 a.high b.high &&& gteMask64 a.low b.low) }

/-- 294-308. -/
def mul32W (x : BitVec 64) (y : BitVec 32) : W2 :=
  let y' := y.setWidth 64
  { low := combine ((x >>> 32) * y' + (mod32 x * y') >>> 32) (mod32 (mod32 x * y'))
    high := ((x >>> 32) * y' + (mod32 x * y') >>> 32) >>> 32 }

/-- 315-343. -/
def mulWideW (x y : BitVec 64) : W2 :=
  { low := combine
      (mod32 x * (y >>> 32) + mod32 ((x >>> 32) * mod32 y + (mod32 x * mod32 y) >>> 32))
      (mod32 (mod32 x * mod32 y))
    high := (x >>> 32) * (y >>> 32) + ((x >>> 32) * mod32 y + (mod32 x * mod32 y) >>> 32) >>> 32 +
      (mod32 x * (y >>> 32) + mod32 ((x >>> 32) * mod32 y + (mod32 x * mod32 y) >>> 32)) >>> 32 }

/-- FStar_UInt128_Verified.h. -/
def verified : Impl W2 where
  add := addW
  addUnderspec := addW
  addMod := addW
  sub := subW
  subUnderspec := subW
  subMod := subW
  logand a b := { low := a.low &&& b.low, high := a.high &&& b.high }
  logxor a b := { low := a.low ^^^ b.low, high := a.high ^^^ b.high }
  logor a b := { low := a.low ||| b.low, high := a.high ||| b.high }
  lognot a := { low := ~~~a.low, high := ~~~a.high }
  shiftLeft := shiftLeftW
  shiftRight := shiftRightW
  eq := eqW
  gt := gtW
  lt := ltW
  gte := gteW
  lte := lteW
  eqMask := eqMaskW
  gteMask := gteMaskW
  ofU64 a := { low := a, high := 0 }
  toU64 a := a.low
  mul32 := mul32W
  mulWide := mulWideW

/-! ## fstar_uint128_gcc64.h -/

/-- `(uint64_t)(x >> 64)`. -/
def hi (x : BitVec 128) : BitVec 64 := (x >>> 64).setWidth 64

/-- `(uint64_t)x`. -/
def lo (x : BitVec 128) : BitVec 64 := x.setWidth 64

/-- `((uint128_t)mask) << 64 | mask`. -/
def both (m : BitVec 64) : BitVec 128 := (m.setWidth 128) <<< 64 ||| m.setWidth 128

/-- fstar_uint128_gcc64.h 54-163. -/
def gcc : Impl (BitVec 128) where
  add x y := x + y
  addUnderspec x y := x + y
  addMod x y := x + y
  sub x y := x - y
  subUnderspec x y := x - y
  subMod x y := x - y
  logand x y := x &&& y
  logxor x y := x ^^^ y
  logor x y := x ||| y
  lognot x := ~~~x
  shiftLeft x s := if s < 128 then some (x <<< s) else none
  shiftRight x s := if s < 128 then some (x >>> s) else none
  eq x y := x == y
  gt x y := y.ult x
  lt x y := x.ult y
  gte x y := y.ule x
  lte x y := x.ule y
  eqMask x y := both (eqMask64 (hi x) (hi y) &&& eqMask64 (lo x) (lo y))
  gteMask x y := both ((gteMask64 (hi x) (hi y) &&& ~~~eqMask64 (hi x) (hi y)) |||
    (eqMask64 (hi x) (hi y) &&& gteMask64 (lo x) (lo y)))
  ofU64 x := x.setWidth 128
  toU64 x := lo x
  mul32 x y := x.setWidth 128 * y.setWidth 128
  mulWide x y := x.setWidth 128 * y.setWidth 128

/-! ## fstar_uint128_msvc.h with `HAS_OPTIMIZED` -/

/-- `_addcarry_u64`: carry out and sum. -/
def addcarry (c : Bool) (a b : BitVec 64) : Bool × BitVec 64 :=
  (decide (2 ^ 64 ≤ a.toNat + b.toNat + c.toNat), a + b + (BitVec.ofBool c).setWidth 64)

/-- `_subborrow_u64`: borrow out and difference. -/
def subborrow (c : Bool) (a b : BitVec 64) : Bool × BitVec 64 :=
  (decide (a.toNat < b.toNat + c.toNat), a - b - (BitVec.ofBool c).setWidth 64)

/-- `__shiftleft128(low, high, s)`: the high word of the 128 bits shifted. -/
def shiftleft128 (low high : BitVec 64) (s : ℕ) : BitVec 64 := hi ((high ++ low) <<< (s % 64))

/-- `__shiftright128(low, high, s)`: the low word. -/
def shiftright128 (low high : BitVec 64) (s : ℕ) : BitVec 64 := lo ((high ++ low) >>> (s % 64))

/-- `_umul128`: low and high word of the product. -/
def umul128 (x y : BitVec 64) : BitVec 64 × BitVec 64 :=
  (lo (x.setWidth 128 * y.setWidth 128), hi (x.setWidth 128 * y.setWidth 128))

/-- `_mm_set_epi64x(high, low)`. -/
def setEpi64x (high low : BitVec 64) : W2 := { low, high }

def mmAnd (a b : W2) : W2 := { low := a.low &&& b.low, high := a.high &&& b.high }
def mmOr (a b : W2) : W2 := { low := a.low ||| b.low, high := a.high ||| b.high }
def mmXor (a b : W2) : W2 := { low := a.low ^^^ b.low, high := a.high ^^^ b.high }

/-- `_mm_andnot_si128(a, b)`: `~a & b`. -/
def mmAndnot (a b : W2) : W2 := { low := ~~~a.low &&& b.low, high := ~~~a.high &&& b.high }

/-- Lane `i` of four of 32 bits. -/
def lane (a : W2) : Fin 4 → BitVec 32
  | 0 => a.low.setWidth 32
  | 1 => (a.low >>> 32).setWidth 32
  | 2 => a.high.setWidth 32
  | 3 => (a.high >>> 32).setWidth 32

def ofLanes (f : Fin 4 → BitVec 32) : W2 := { low := f 1 ++ f 0, high := f 3 ++ f 2 }

/-- `_mm_cmpeq_epi32`. -/
def cmpeq32 (a b : W2) : W2 := ofLanes fun i => if lane a i = lane b i then BitVec.allOnes 32 else 0

/-- `_mm_shuffle_epi32(a, _MM_SHUFFLE(z, y, x, w))`. -/
def shuffle32 (a : W2) (z y x w : Fin 4) : W2 :=
  ofLanes fun | 0 => lane a w | 1 => lane a x | 2 => lane a y | 3 => lane a z

/-- fstar_uint128_msvc.h 83-122 `add`, `add_underspec`, `add_mod`. -/
def addM (a b : W2) : W2 :=
  let r := addcarry false a.low b.low
  let r' := addcarry r.1 a.high b.high
  setEpi64x r'.2 r.2

/-- 124-167 `sub`, `sub_underspec`, `sub_mod`. -/
def subM (a b : W2) : W2 :=
  let r := subborrow false a.low b.low
  let r' := subborrow r.1 a.high b.high
  setEpi64x r'.2 r.2

/-- 248-266. -/
def shiftLeftM (a : W2) (s : ℕ) : Option W2 :=
  if s = 0 then some a
  else if s < 64 then do
    let l ← shl a.low s
    return setEpi64x (shiftleft128 a.low a.high (s % 256)) l
  else do
    let h ← shl a.low (s - 64)
    return setEpi64x h 0

/-- 298-316. -/
def shiftRightM (a : W2) (s : ℕ) : Option W2 :=
  if s = 0 then some a
  else if s < 64 then do
    let h ← shr a.high s
    return setEpi64x h (shiftright128 a.low a.high (s % 256))
  else do
    let l ← shr a.high (s - 64)
    return setEpi64x 0 l

/-- 338-358. -/
def eqMaskM (a b : W2) : W2 :=
  let r32 := cmpeq32 a b
  let s32 := shuffle32 r32 2 3 0 1
  let ret64 := mmAnd r32 s32
  let s64 := shuffle32 ret64 1 0 3 2
  mmAnd ret64 s64

/-- fstar_uint128_msvc.h. -/
def msvc : Impl W2 where
  add := addM
  addUnderspec := addM
  addMod := addM
  sub := subM
  subUnderspec := subM
  subMod := subM
  logand := mmAnd
  logxor := mmXor
  logor := mmOr
  lognot a := mmAndnot a a
  shiftLeft := shiftLeftM
  shiftRight := shiftRightM
  eq := eqW
  gt := gtW
  lt := ltW
  gte := gteW
  lte := lteW
  eqMask := eqMaskM
  gteMask := gteMaskW
  ofU64 a := setEpi64x 0 a
  toU64 a := a.low
  mul32 x y := setEpi64x (umul128 x (y.setWidth 64)).2 (umul128 x (y.setWidth 64)).1
  mulWide x y := setEpi64x (umul128 x y).2 (umul128 x y).1

/-! ## Byte order -/

/-- Byte `i` of a word, from the least significant. -/
def byte {n : ℕ} (x : BitVec n) (i : ℕ) : BitVec 8 := (x >>> (8 * i)).setWidth 8

/-- The bytes of a word of `n` bytes in memory (`memcpy`, lowstar_endianness.h 159-187) on a machine
that is little endian or not. -/
def toMem (little : Bool) (n : ℕ) (x : BitVec (8 * n)) : List (BitVec 8) :=
  let l := (List.range n).map fun i => byte x i
  if little then l else l.reverse

/-- The number whose bytes are `l`, most significant last. -/
def leNum : List (BitVec 8) → ℕ
  | [] => 0
  | b :: l => b.toNat + 256 * leNum l

/-- The word read by `memcpy` from `n` bytes. -/
def fromMem (little : Bool) (n : ℕ) (l : List (BitVec 8)) : BitVec (8 * n) :=
  BitVec.ofNat _ (leNum (if little then l else l.reverse))

/-- The macro of lines 107-112 and 131-136. -/
def swap32 (t : BitVec 32) : BitVec 32 :=
  ((t >>> 24) &&& 0x000000FF#32) ||| ((t >>> 8) &&& 0x0000FF00#32) |||
    ((t <<< 8) &&& 0x00FF0000#32) ||| ((t <<< 24) &&& 0xFF000000#32)

/-- The macro of lines 117-123 and 141-147, with what `htobe32` is on the machine. -/
def swap64 (htobe32 : BitVec 32 → BitVec 32) (t : BitVec 64) : BitVec 64 :=
  let low := htobe32 (t.setWidth 32)
  let high := htobe32 ((t >>> 32).setWidth 32)
  (low.setWidth 64) <<< 32 ||| high.setWidth 64

/-- The conversions of a machine. -/
structure Order where
  little : Bool
  be32 : BitVec 32 → BitVec 32
  le32 : BitVec 32 → BitVec 32
  be64 : BitVec 64 → BitVec 64
  le64 : BitVec 64 → BitVec 64

/-- The generic code for little endian (126-148). -/
def genericLittle : Order where
  little := true
  be32 := swap32
  le32 x := x
  be64 := swap64 swap32
  le64 x := x

/-- The generic code for big endian (98-124); `htobe32` is the identity there. -/
def genericBig : Order where
  little := false
  be32 x := x
  le32 := swap32
  be64 x := x
  le64 := swap64 fun x => x

/-- The intrinsics that reverse bytes (`_byteswap_ulong`, `__builtin_bswap32`, …). -/
def bswap (n : ℕ) (x : BitVec (8 * n)) : BitVec (8 * n) := fromMem true n (toMem false n x)

/-- Windows (60-96). -/
def windows : Order where
  little := true
  be32 := bswap 4
  le32 x := x
  be64 := bswap 8
  le64 x := x

/-- 191-209. -/
def Order.load32be (o : Order) (l : List (BitVec 8)) : BitVec 32 := o.be32 (fromMem o.little 4 l)
def Order.load32le (o : Order) (l : List (BitVec 8)) : BitVec 32 := o.le32 (fromMem o.little 4 l)
def Order.load64be (o : Order) (l : List (BitVec 8)) : BitVec 64 := o.be64 (fromMem o.little 8 l)
def Order.load64le (o : Order) (l : List (BitVec 8)) : BitVec 64 := o.le64 (fromMem o.little 8 l)
def Order.store32be (o : Order) (x : BitVec 32) : List (BitVec 8) := toMem o.little 4 (o.be32 x)
def Order.store32le (o : Order) (x : BitVec 32) : List (BitVec 8) := toMem o.little 4 (o.le32 x)
def Order.store64be (o : Order) (x : BitVec 64) : List (BitVec 8) := toMem o.little 8 (o.be64 x)
def Order.store64le (o : Order) (x : BitVec 64) : List (BitVec 8) := toMem o.little 8 (o.le64 x)

/-- `load128_be` on two words (fstar_uint128_struct_endianness.h 26-29, msvc.h 57-68). -/
def Order.load128be (o : Order) (l : List (BitVec 8)) : W2 :=
  { high := o.load64be (l.take 8), low := o.load64be ((l.drop 8).take 8) }

/-- `store128_be` on two words (struct_endianness.h 31-34, msvc.h 70-73). -/
def Order.store128be (o : Order) (n : W2) : List (BitVec 8) := o.store64be n.high ++ o.store64be n.low

/-- `load128_le` (struct_endianness.h 16-19). -/
def Order.load128le (o : Order) (l : List (BitVec 8)) : W2 :=
  { low := o.load64le (l.take 8), high := o.load64le ((l.drop 8).take 8) }

/-- `store128_le` (struct_endianness.h 21-24, msvc.h 52-55). -/
def Order.store128le (o : Order) (n : W2) : List (BitVec 8) := o.store64le n.low ++ o.store64le n.high

end EG.U128
