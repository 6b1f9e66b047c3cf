import Verif.Model.LimbsGroup

/-!
# What exponentiation shows to an observer of branches and memory accesses

The functions of Model/LimbsExp.lean and Model/LimbsGroup.lean once more, each with the sequence of the
branches it takes and the array elements it accesses.  (C93 states that the results are the same.)

An access is given by the name of the array or of the loop and the index.  The accesses to operands and
result in one iteration of a loop have the same index and are one event.  Loops with a fixed number of
iterations have no events for the test of the counter; copying of a whole array of fixed size and filling with
zeros have none either.  Arithmetic of single limbs is taken to need the same time for all operands, as the
code has no branches there (the functions of Hacl_IntTypes_Intrinsics.h and FStar_UInt_8_16_32_64.h; the
128-bit product is that of the compiler or of Model/UInt128.lean).
-/

namespace EG.Leak

open Limbs

/-- What can be observed. -/
inductive Event
  | mem (what : String) (index : ℕ)
  | branch (taken : Bool)
  deriving DecidableEq

/-- A result with what was observed meanwhile. -/
structure L (α : Type) where
  trace : List Event
  val : α

instance : Monad L where
  pure x := ⟨[], x⟩
  bind x f := ⟨x.trace ++ (f x.val).trace, (f x.val).val⟩

def mem (what : String) (i : ℕ) : L Unit := ⟨[.mem what i], ()⟩

/-- The condition of an `if`. -/
def cond (b : Bool) : L Bool := ⟨[.branch b], b⟩

/-- A loop over given indices. -/
def loop {σ : Type} (f : σ → ℕ → L σ) : List ℕ → σ → L σ
  | [], s => pure s
  | i :: is, s => do
    let s ← f s i
    loop f is s

/-- A loop over the limbs of two arrays that makes a new array, with a value kept between the iterations. -/
def zipLoop {σ : Type} (what : String) (f : σ → UInt64 → UInt64 → UInt64 × σ) :
    ℕ → σ → Arr → Arr → L (Arr × σ)
  | i, s, x :: a, y :: b => do
    mem what i
    let r ← zipLoop what f (i + 1) (f s x y).2 a b
    pure ((f s x y).1 :: r.1, r.2)
  | _, s, _, _ => pure ([], s)

/-- The same without a new array. -/
def scanLoop (what : String) (f : UInt64 → UInt64 → UInt64 → UInt64) : ℕ → UInt64 → Arr → Arr → L UInt64
  | i, s, x :: a, y :: b => do
    mem what i
    scanLoop what f (i + 1) (f s x y) a b
  | _, s, _, _ => pure s

/-! ## Addition, subtraction, comparison -/

/-- Hacl_Bignum4096.c:62-111 `add`. -/
def add (a b : Arr) : L (Arr × UInt64) := zipLoop "add" (fun c x y => addCarry c x y) 0 0 a b

/-- Hacl_Bignum4096.c:113-153 `sub`. -/
def sub (a b : Arr) : L (Arr × UInt64) := zipLoop "sub" (fun c x y => subBorrow c x y) 0 0 a b

/-- Hacl_Bignum4096.c:1869-1882 `lt_mask`. -/
def ltMask (a b : Arr) : L UInt64 :=
  scanLoop "lt" (fun acc x y =>
    let beq := eqMask1 x y
    let blt := ~~~(gteMask1 x y)
    (beq &&& acc) ||| (~~~beq &&& ((blt &&& 0xFFFFFFFFFFFFFFFF) ||| (~~~blt &&& 0)))) 0 0 a b

/-- Hacl_Bignum4096.c:1889-1904 `eq_mask`. -/
def eqMask (a b : Arr) : L UInt64 :=
  scanLoop "eq" (fun mask x y => eqMask1 x y &&& mask) 0 0xFFFFFFFFFFFFFFFF a b

/-- Hacl_Bignum.c:57-68 `bn_get_top_index_u64`. -/
def topLoop (priv : UInt64) : ℕ → Arr → L UInt64
  | i, x :: b => do
    mem "top" i
    let mask := eqMask1 x 0
    topLoop ((mask &&& priv) ||| (~~~mask &&& UInt64.ofNat i)) (i + 1) b
  | _, [] => pure priv

def topIndex (b : Arr) : L UInt64 := topLoop 0 0 b

/-- The loops that choose between two arrays limb by limb, e.g. Hacl_Bignum4096.c:516-524. -/
def selectArr (mask : UInt64) (x y : Arr) : L Arr := do
  let r ← zipLoop "select" (fun (_ : Unit) x y => (select mask x y, ())) 0 () x y
  pure r.1

/-! ## Multiplication -/

/-- The inner loop of Hacl_Bignum.c:285-328 `bn_mul_u64`. -/
def mulRow (l : UInt64) (a out : Arr) : L (Arr × UInt64) :=
  zipLoop "row" (fun c x o => mulWideAdd2 x l c o) 0 0 a out

/-- One iteration of the outer loop of Hacl_Bignum.c:285-328. -/
def mulStep (a b : Arr) (res : Arr) (i : ℕ) : L Arr := do
  mem "multiplier" i
  let row ← mulRow (b.getD i 0) a ((res.drop i).take a.length)
  mem "product" (a.length + i)
  pure (splice (splice res i row.1) (a.length + i) [row.2])

/-- Hacl_Bignum.c:285-328 `bn_mul_u64`. -/
def mul (a b : Arr) : L Arr :=
  loop (mulStep a b) (List.range b.length) (List.replicate (a.length + b.length) 0)

/-- One iteration of the first loop of Hacl_Bignum.c:400-446. -/
def sqrStep (a : Arr) (res : Arr) (i : ℕ) : L Arr := do
  mem "multiplier" i
  let row ← mulRow (a.getD i 0) (a.take i) ((res.drop i).take i)
  mem "product" (i + i)
  pure (splice (splice res i row.1) (i + i) [row.2])

/-- Hacl_Bignum.c:452-464. -/
def sqrDiag : ℕ → Arr → L Arr
  | i, x :: a => do
    mem "square" i
    let res := x.toNat * x.toNat % 2 ^ 128
    let r ← sqrDiag (i + 1) a
    pure (UInt64.ofNat (res % 2 ^ 64) :: UInt64.ofNat (res >>> 64) :: r)
  | _, [] => pure []

/-- Hacl_Bignum.c:400-469 `bn_sqr_u64`. -/
def sqr (a : Arr) : L Arr := do
  let res ← loop (sqrStep a) (List.range a.length) (List.replicate (a.length + a.length) 0)
  let res ← add res res
  let d ← sqrDiag 0 a
  let r ← add res.1 d
  pure r.1

/-- Hacl_Bignum.c:646-690. -/
def absDiff (x y : Arr) : L (Arr × UInt64) := do
  let d ← sub x y
  let e ← sub y x
  let r ← selectArr (0 - d.2) e.1 d.1
  pure (r, d.2)

/-- Hacl_Bignum.c:738-783. -/
def addLimb (r : Arr) (c : UInt64) : L Arr :=
  match r with
  | [] => pure []
  | x :: r' => do
    mem "limb" 0
    let s := addCarry 0 x c
    let t ← zipLoop "carry" (fun c x y => addCarry c x y) 1 s.2 r' (List.replicate r'.length 0)
    pure (s.1 :: t.1)

/-- Hacl_Bignum.c:709-783. -/
def combine (h : ℕ) (res t45 : Arr) (c5 : UInt64) : L Arr := do
  let s ← add ((res.drop h).take t45.length) t45
  let res := splice res h s.1
  let k := h + t45.length
  let r ← addLimb (res.drop k) (c5 + s.2)
  pure (splice res k r)

/-- Hacl_Bignum.c:631-789 `bn_karatsuba_mul_uint64`. -/
def karatsubaMul : ℕ → Arr → Arr → L Arr
  | 0, a, b => mul a b
  | fuel + 1, a, b => do
    if ← cond (a.length < 32 ∨ a.length % 2 = 1) then mul a b
    else
      let len2 := a.length / 2
      let a0 := a.take len2
      let a1 := a.drop len2
      let b0 := b.take len2
      let b1 := b.drop len2
      let t0 ← absDiff a0 a1
      let t1 ← absDiff b0 b1
      let t23 ← karatsubaMul fuel t0.1 t1.1
      let r01 ← karatsubaMul fuel a0 b0
      let r23 ← karatsubaMul fuel a1 b1
      let t01 ← add r01 r23
      let sign := t0.2 ^^^ t1.2
      let t67 ← sub t01.1 t23
      let c31 := t01.2 - t67.2
      let t45 ← add t01.1 t23
      let c41 := t01.2 + t45.2
      let mask := 0 - sign
      let m ← selectArr mask t45.1 t67.1
      combine len2 (r01 ++ r23) m (select mask c41 c31)

/-- Hacl_Bignum.c:913-1033 `bn_karatsuba_sqr_uint64`. -/
def karatsubaSqr : ℕ → Arr → L Arr
  | 0, a => sqr a
  | fuel + 1, a => do
    if ← cond (a.length < 32 ∨ a.length % 2 = 1) then sqr a
    else
      let len2 := a.length / 2
      let a0 := a.take len2
      let a1 := a.drop len2
      let t0 ← absDiff a0 a1
      let t23 ← karatsubaSqr fuel t0.1
      let r01 ← karatsubaSqr fuel a0
      let r23 ← karatsubaSqr fuel a1
      let t01 ← add r01 r23
      let t45 ← sub t01.1 t23
      combine len2 (r01 ++ r23) t45.1 (t01.2 - t45.2)

/-! ## Montgomery reduction -/

/-- One iteration of the outer loop of Hacl_Bignum4096.c:422-466. -/
def redcStep (n : Arr) (nInv : UInt64) (st : Arr × UInt64) (i : ℕ) : L (Arr × UInt64) := do
  let c := st.1
  mem "reduced" i
  let qj := nInv * c.getD i 0
  let row ← mulRow qj n ((c.drop i).take n.length)
  let c := splice c i row.1
  mem "reduced" (n.length + i)
  let s := addCarry st.2 row.2 (c.getD (n.length + i) 0)
  pure (splice c (n.length + i) [s.1], s.2)

/-- Hacl_Bignum4096.c:418-470. -/
def redcLoop (n : Arr) (nInv : UInt64) (c : Arr) : L (Arr × UInt64) := do
  let st ← loop (redcStep n nInv) (List.range n.length) (c, 0)
  pure (st.1.drop n.length, st.2)

/-- Hacl_Bignum4096.c:416-526 `reduction`. -/
def reduction (n : Arr) (nInv : UInt64) (c : Arr) : L Arr := do
  let r ← redcLoop n nInv c
  let tmp ← sub r.1 n
  selectArr (r.2 - tmp.2) r.1 tmp.1

/-- Hacl_Bignum4096.c:528-597 `areduction`. -/
def areduction (n : Arr) (nInv : UInt64) (c : Arr) : L Arr := do
  let r ← redcLoop n nInv c
  let tmp ← sub r.1 n
  selectArr (0 - r.2) tmp.1 r.1

/-- Hacl_Bignum4096.c:167-265 `add_mod`. -/
def addMod (n a b : Arr) : L Arr := do
  let r ← add a b
  let tmp ← sub r.1 n
  selectArr (r.2 - tmp.2) r.1 tmp.1

/-- Hacl_Bignum4096.c:401-414 `precompr2`. -/
def precompR2 (n : Arr) (nBits : ℕ) : L Arr := do
  let res := List.replicate n.length 0
  let i0 := nBits / 64
  let j := nBits % 64
  mem "r2" i0
  let res := splice res i0 [res.getD i0 0 ||| (1 : UInt64) <<< UInt64.ofNat j]
  loop (fun r _ => addMod n r r) (List.range (128 * n.length - nBits)) res

/-- Hacl_Bignum4096.c:1205-1210, 1222-1227, 1478-1507: the context; the inverse of the lowest limb
(Hacl_Bignum.c:1460-1483) uses no array. -/
def ctxInit (n : Arr) : L Ctx := do
  let top ← topIndex n
  let r2 ← precompR2 n (64 * top.toNat)
  mem "modulus" 0
  pure { n := n, mu := modInvLimb (n.getD 0 0), r2 := r2 }

/-! ## Exponentiation (line numbers of Hacl_Bignum4096.c) -/

/-- 383-387 `Hacl_Bignum4096_mul`. -/
def mulFull (a b : Arr) : L Arr := karatsubaMul a.length a b

/-- 395-399 `Hacl_Bignum4096_sqr`. -/
def sqrFull (a : Arr) : L Arr := karatsubaSqr a.length a

/-- 599-606 `amont_mul`. -/
def amontMul (c : Ctx) (a b : Arr) : L Arr := do
  let m ← mulFull a b
  areduction c.n c.mu m

/-- 608-614 `amont_sqr`. -/
def amontSqr (c : Ctx) (a : Arr) : L Arr := do
  let m ← sqrFull a
  areduction c.n c.mu m

/-- 861-862, 895-896. -/
def toMont (c : Ctx) (a : Arr) : L Arr := do
  let m ← mulFull a c.r2
  reduction c.n c.mu m

/-- 881-883, 910-912. -/
def fromMont (c : Ctx) (a : Arr) : L Arr := reduction c.n c.mu (a ++ List.replicate c.n.length 0)

/-- 616-695 `bn_slow_precomp`, 1533-1542 `mod_precomp`. -/
def modPrecomp (c : Ctx) (a : Arr) : L Arr := do
  let r ← areduction c.n c.mu a
  toMont c r

/-- 870-873. -/
def getBit (b : Arr) (i : ℕ) : L UInt64 := do
  mem "exponent" (i / 64)
  pure ((b.getD (i / 64) 0 >>> UInt64.ofNat (i % 64)) &&& 1)

/-- 934-947, 962-977. -/
def getWindow (b : Arr) (len pos : ℕ) : L UInt64 := do
  let i := pos / 64
  let j := pos % 64
  mem "exponent" i
  let p1 := b.getD i 0 >>> UInt64.ofNat j
  if ← cond (i + 1 < len ∧ 0 < j) then
    mem "exponent" (i + 1)
    pure ((p1 ||| b.getD (i + 1) 0 <<< UInt64.ofNat (64 - j)) &&& 15)
  else pure (p1 &&& 15)

/-- One iteration of 922-931. -/
def tableStep (c : Ctx) (aM : Arr) (t : List Arr) (i : ℕ) : L (List Arr) := do
  mem "table" i
  let x ← amontMul c aM (t.getD i [])
  mem "table" (i + 1)
  pure (t.set (i + 1) x)

/-- 914-931. -/
def expTable (c : Ctx) (aM one : Arr) : L (List Arr) := do
  mem "table" 0
  mem "table" 1
  loop (tableStep c aM) (List.range 15) (one :: aM :: List.replicate 14 (List.replicate c.n.length 0))

/-- 951-988, one iteration. -/
def expStep (c : Ctx) (look : UInt64 → L Arr) (b : Arr) (len bk : ℕ) (resM : Arr) (i : ℕ) : L Arr := do
  let resM ← loop (fun r _ => amontSqr c r) (List.range 4) resM
  let w ← getWindow b len (bk - 4 * i - 4)
  let x ← look w
  amontMul c resM x

/-- The four bits with which the fixed window method starts if the number of bits is no multiple of four,
932-949. -/
def expStart (look : UInt64 → L Arr) (one : Arr) (bBits : ℕ) (b : Arr) : L Arr := do
  if ← cond (bBits % 4 ≠ 0) then
    let w ← getWindow b (bLen bBits) (bBits / 4 * 4)
    look w
  else pure one

/-- 892-994, 1067-1193: the fixed window method. -/
def expWindow (c : Ctx) (look : List Arr → UInt64 → L Arr) (a : Arr) (bBits : ℕ) (b : Arr) : L Arr := do
  let aM ← toMont c a
  let _ ← cond (bBits = 0)
  let one ← fromMont c c.r2
  let table ← expTable c aM one
  let resM ← expStart (look table) one bBits b
  let bk := bBits - bBits % 4
  let r ← loop (expStep c (look table) b (bLen bBits) bk) (List.range (bBits / 4)) resM
  fromMont c r

/-- 943-946, 979-983: one entry is read. -/
def lookVartime (table : List Arr) (bits : UInt64) : L Arr := do
  mem "table" bits.toNat
  pure (table.getD bits.toNat [])

/-- 1115-1133, 1162-1180: all entries are read. -/
def lookConsttime (table : List Arr) (bits : UInt64) : L Arr := do
  mem "table" 0
  loop (fun r i => do
    mem "table" (i + 1)
    selectArr (eqMask1 bits (UInt64.ofNat (i + 1))) (table.getD (i + 1) []) r)
    (List.range 15) (table.getD 0 [])

/-- One iteration of 864-879. -/
def binaryStep (c : Ctx) (b : Arr) (st : Arr × Arr) (i : ℕ) : L (Arr × Arr) := do
  let bit ← getBit b i
  let resM ← (do if ← cond (bit = 0) then pure st.1 else amontMul c st.1 st.2)
  let aM ← amontSqr c st.2
  pure (resM, aM)

/-- 855-888: binary method, for short exponents. -/
def expBinary (c : Ctx) (a : Arr) (bBits : ℕ) (b : Arr) : L Arr := do
  let aM ← toMont c a
  let one ← fromMont c c.r2
  let st ← loop (binaryStep c b) (List.range bBits) (one, aM)
  fromMont c st.1

/-- 1033-1041, 1049-1056; one loop writes both arrays. -/
def cswap (sw : UInt64) (x y : Arr) : L (Arr × Arr) := do
  let a ← zipLoop "swap" (fun (_ : Unit) a b => (a ^^^ ((0 - sw) &&& (a ^^^ b)), ())) 0 () x y
  pure (a.1, List.zipWith (fun a b => b ^^^ ((0 - sw) &&& (a ^^^ b))) x y)

/-- 1023-1046, one iteration of the Montgomery ladder. -/
def ladderStep (c : Ctx) (bBits : ℕ) (b : Arr) (st : (Arr × Arr) × UInt64) (i : ℕ) :
    L ((Arr × Arr) × UInt64) := do
  let bit ← getBit b (bBits - i - 1)
  let x ← cswap (bit ^^^ st.2) st.1.1 st.1.2
  let m ← amontMul c x.2 x.1
  let s ← amontSqr c x.1
  pure ((s, m), bit)

/-- 1007-1065. -/
def expLadder (c : Ctx) (a : Arr) (bBits : ℕ) (b : Arr) : L Arr := do
  let aM ← toMont c a
  let one ← fromMont c c.r2
  let st ← loop (ladderStep c bBits b) (List.range bBits) ((one, aM), 0)
  let x ← cswap st.2 st.1.1 st.1.2
  fromMont c x.1

/-- 846-994 `exp_vartime_precomp`. -/
def modExpVartime (c : Ctx) (a : Arr) (bBits : ℕ) (b : Arr) : L Arr := do
  if ← cond (bBits < 200) then expBinary c a bBits b else expWindow c lookVartime a bBits b

/-- 996-1195 `exp_consttime_precomp`. -/
def modExpConsttime (c : Ctx) (a : Arr) (bBits : ℕ) (b : Arr) : L Arr := do
  if ← cond (bBits < 200) then expLadder c a bBits b else expWindow c lookConsttime a bBits b

/-! ## The functions that check their arguments -/

/-- 711-733. -/
def modCheck (n : Arr) : L UInt64 := do
  mem "modulus" 0
  let m ← ltMask (oneArr n.length) n
  pure ((0 - (n.getD 0 0 &&& 1)) &&& m)

/-- 752-844 `exp_check`. -/
def expCheck (n a : Arr) (bBits : ℕ) (b : Arr) : L UInt64 := do
  let m0 ← modCheck n
  let _ ← cond (bBits = 0)
  let len := bLen bBits
  let m1 ← (do
    if ← cond (bBits < 64 * len) then
      mem "b2" (bBits / 64)
      ltMask b (splice (List.replicate len 0) (bBits / 64) [(0 : UInt64) ||| 1 <<< UInt64.ofNat (bBits % 64)])
    else pure 0xFFFFFFFFFFFFFFFF)
  let m2 ← ltMask a n
  pure (m0 &&& (m1 &&& m2))

/-- The computation is done if the check gave all ones. -/
def checked (m : UInt64) (k : ℕ) (r : L Arr) : L (Bool × Arr) := do
  if ← cond (m = 0xFFFFFFFFFFFFFFFF) then
    let x ← r
    pure (true, x)
  else pure (false, List.replicate k 0)

/-- 709-750 `Hacl_Bignum4096_mod`. -/
def mod (n a : Arr) : L (Bool × Arr) := do
  let m ← modCheck n
  checked m n.length (do
    let c ← ctxInit n
    modPrecomp c a)

/-- 1295-1315 `Hacl_Bignum4096_mod_exp_consttime`. -/
def modExpConsttimeChecked (n a : Arr) (bBits : ℕ) (b : Arr) : L (Bool × Arr) := do
  let m ← expCheck n a bBits b
  checked m n.length (do
    let c ← ctxInit n
    modExpConsttime c a bBits b)

/-- 1332-1457 `Hacl_Bignum4096_mod_inv_prime_vartime`. -/
def modInvPrime (n a : Arr) : L (Bool × Arr) := do
  let m0 ← modCheck n
  let m1 ← eqMask a (List.replicate n.length 0)
  let m2 ← ltMask a n
  checked ((m0 &&& ~~~m1) &&& m2) n.length (do
    let n2 ← sub n (2 :: List.replicate (n.length - 1) 0)
    let c ← ctxInit n
    modExpVartime c a (64 * n.length) n2.1)

/-! ## src/electionguard/group.cpp, lookup_table.hpp, elgamal.cpp -/

/-- group.cpp:143-154, 302-313 `operator==`. -/
def elemEq : ℕ → Arr → Arr → L Bool
  | i, x :: a, y :: b => do
    mem "operand" i
    if ← cond (x != y) then pure false else elemEq (i + 1) a b
  | _, _, _ => pure true

/-- group.cpp:597-607 `pow_mod_p(ElementModP, ElementModP)`.  The context of `P` is made once and for all. -/
def powModPP (P : PArrs) (base e : Arr) : L Arr := do
  if ← (do cond (← elemEq 0 e (zeros 64))) then pure (oneArr 64)
  else modExpVartime (Limbs.ctxInit P.p) base 512 e

/-- Hacl_Bignum.c:1894-1909 `bn_mont_mul_u64`. -/
def fieldMul (c : Ctx) (a b : Arr) : L Arr := do
  let m ← mulFull a b
  reduction c.n c.mu m

/-- lookup_table.hpp:73-83; `i` is the number of the row.  An access beyond the table ends the loop. -/
def lutLoop (c : Ctx) : ℕ → List (List Arr) → List UInt8 → Arr → L (Res Arr)
  | _, [], _, acc => pure (.ok acc)
  | _, _ :: _, [], _ => pure .ub
  | i, row :: rows, slice :: bytes, acc => do
    mem "exponent" i
    if ← cond (slice = 0) then lutLoop c (i + 1) rows bytes acc
    else
      mem "table" (256 * i + slice.toNat)
      match row[slice.toNat]? with
      | none => pure .ub
      | some x => do
        let r ← fieldMul c acc x
        lutLoop c (i + 1) rows bytes r

/-- lookup_table.hpp:54-91 `LookupTable::pow_mod_p`; Hacl_Bignum256.c `bn_to_bytes_be` reads the limbs in
order. -/
def lutPow (c : Ctx) (t : List (List Arr) × Arr) (e : Arr) : L (Res Arr) := do
  let _ ← loop (fun _ i => mem "exponent" (e.length - i - 1)) (List.range e.length) ()
  let r ← lutLoop c 0 t.1 (toBytesBE e).reverse t.2
  match r with
  | .ok r => do
    let x ← fromMont c r
    pure (.ok x)
  | .throw e => pure (.throw e)
  | .ub => pure .ub

/-- group.cpp:609-628 `pow_mod_p(ElementModP, ElementModQ)`.  The hexadecimal form of the base and the cache
of the tables, which depend on the base only, are left out. -/
def powModP (P : PArrs) (fixed : Bool) (base e : Arr) : L (Res Arr) := do
  if ← (do cond (← elemEq 0 e (zeros 4))) then pure (.ok (oneArr 64))
  else
    if ← cond fixed then lutPow (Limbs.ctxInit P.p) (genLut (Limbs.ctxInit P.p) base) e
    else do
      let r ← powModPP P base (e ++ zeros 60)
      pure (.ok r)

/-- group.cpp:567-576. -/
def mulModP (P : PArrs) (a b : Arr) : L Arr := do
  let m ← mulFull a b
  modPrecomp (Limbs.ctxInit P.p) m

/-- elgamal.cpp:214-236 `elgamalEncrypt`, without the messages to the log; `fg` and `fk` tell whether `G` and
the key are marked as fixed bases. -/
def encrypt (P : PArrs) (fg fk : Bool) (m : UInt64) (nonce pub : Arr) : L (Res (Arr × Arr)) := do
  if ← (do cond (← elemEq 0 nonce (zeros 4))) then pure (.throw .invalidArgument)
  else
    let pad ← powModP P fg P.g nonce
    let k ← powModP P fk pub nonce
    match pad, k with
    | .ok pad, .ok k => do
      if ← cond (m = 1) then
        let data ← mulModP P P.g k
        pure (.ok (pad, data))
      else pure (.ok (pad, k))
    | _, _ => pure .ub

/-- elgamal.cpp:158-205 `ElGamalCiphertext::decrypt`: the quotient; `none` after a warning.  The results of
`mod_inv_prime_vartime` is not looked at. -/
def quotient (P : PArrs) (pad data secret : Arr) : L (Option Arr) := do
  let d ← modExpConsttimeChecked P.p pad 512 (secret ++ zeros 60)
  if ← cond (!d.1) then pure none
  else
    let i ← modInvPrime P.p d.2
    let m ← mulFull data i.2
    let r ← mod P.p m
    if ← cond (!r.1) then pure none else pure (some r.2)

/-- The comparisons at the end of `decrypt`, elgamal.cpp:192-204.  (The constructor of an element compares
with `P` and throws for greater values; a value reduced modulo `P` passes.) -/
def outcome (P : PArrs) (r : Arr) : L UInt64 := do
  let m ← ltMask P.p r
  let _ ← cond (m > 0)
  if ← (do cond (← elemEq 0 r (oneArr 64))) then pure 0
  else if ← (do cond (← elemEq 0 r P.g)) then pure 1
  else pure 0xFFFFFFFFFFFFFFFF

def decrypt (P : PArrs) (pad data secret : Arr) : L UInt64 := do
  match ← quotient P pad data secret with
  | none => pure 0
  | some r => outcome P r

end EG.Leak
