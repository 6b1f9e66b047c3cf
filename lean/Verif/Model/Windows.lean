import Verif.Model.Limbs32Exp
import Verif.Model.LimbsGroup

/-!
# The facade for 4096-bit bignums, on Windows and elsewhere
(src/electionguard/facades/Hacl_Bignum4096.cpp)

The class `Bignum4096` calls the HACL* functions with 64-bit limbs or, `#ifdef _WIN32`, the ones with
32-bit limbs on the same memory.  A context (`Bignum4096::context`) is given by its modulus.  The test
`bBits <= 0` comes before the choice and is not repeated here.  Conversions from and to bytes and
comparisons (lines 101-114), and the class `Bignum256`, use 64-bit limbs everywhere.

`split` is what `reinterpret_cast<uint32_t *>` does on a little-endian machine, which every machine that
runs Windows is.
-/

namespace EG.Win

open Limbs (Arr)

/-- The two `uint32_t` in the memory of a `uint64_t`. -/
def halves (x : UInt64) : List UInt32 := [x.toUInt32, (x >>> 32).toUInt32]

/-- `reinterpret_cast<uint32_t *>(a)` -/
def split (a : Arr) : Limbs32.Arr := a.flatMap halves

/-- The same memory seen as `uint64_t` again. -/
def join : Limbs32.Arr → Arr
  | lo :: hi :: r => (lo.toUInt64 ||| hi.toUInt64 <<< 32) :: join r
  | _ => []

/-- The functions of `Bignum4096` whose code depends on the platform. -/
structure Facade where
  /-- Hacl_Bignum4096.cpp:29-38 -/
  add : Arr → Arr → Arr × UInt64
  /-- Hacl_Bignum4096.cpp:40-49 -/
  sub : Arr → Arr → Arr × UInt64
  /-- Hacl_Bignum4096.cpp:51-60 -/
  mul : Arr → Arr → Arr
  /-- Hacl_Bignum4096.cpp:62-72, with the modulus as argument -/
  mod : Arr → Arr → Bool × Arr
  /-- Hacl_Bignum4096.cpp:73-99: `useConstTime`, modulus, base, `bBits`, exponent -/
  modExp : Bool → Arr → Arr → ℕ → Arr → Bool × Arr
  /-- Hacl_Bignum4096.cpp:117-125, with a context -/
  modCtx : Arr → Arr → Arr
  /-- Hacl_Bignum4096.cpp:126-150: `useConstTime`, context, base, `bBits`, exponent -/
  modExpCtx : Bool → Arr → Arr → ℕ → Arr → Arr
  /-- Hacl_Bignum4096.cpp:153-161 `to_montgomery_form` -/
  toMont : Arr → Arr → Arr
  /-- Hacl_Bignum4096.cpp:163-171 `from_montgomery_form` -/
  fromMont : Arr → Arr → Arr
  /-- Hacl_Bignum4096.cpp:173-181 `montgomery_mod_mul_stay_in_mont_form` -/
  montMul : Arr → Arr → Arr → Arr

/-- The code without `_WIN32`.  The functions read `bLen bBits` limbs of the exponent. -/
def unix : Facade where
  add := Limbs.add
  sub := Limbs.sub
  mul := Limbs.mulFull
  mod := Limbs.mod
  modExp ct n a bBits b :=
    if ct then Limbs.modExpConsttimeChecked n a bBits (b.take (Limbs.bLen bBits))
    else Limbs.modExpVartimeChecked n a bBits (b.take (Limbs.bLen bBits))
  modCtx n a := Limbs.modPrecomp (Limbs.ctxInit n) a
  modExpCtx ct n a bBits b :=
    if ct then Limbs.modExpConsttime (Limbs.ctxInit n) a bBits b
    else Limbs.modExpVartime (Limbs.ctxInit n) a bBits b
  toMont n a := Limbs.toMont (Limbs.ctxInit n) a
  fromMont n a := Limbs.fromMont (Limbs.ctxInit n) a
  montMul n a b := Limbs.fieldMul (Limbs.ctxInit n) a b

/-- Hacl_GenericField32.c:199-205 `mul`, Hacl_Bignum.c:1672-1687 `bn_mont_mul_u32`. -/
def fieldMul32 (c : Limbs32.Ctx) (a b : Limbs32.Arr) : Limbs32.Arr :=
  Limbs32.reduction c.n c.mu (Limbs32.mulFull a b)

/-- The code with `_WIN32`.  Carries are converted from `uint32_t` to `uint64_t`. -/
def windows : Facade where
  add a b :=
    let r := Limbs32.add (split a) (split b)
    (join r.1, r.2.toUInt64)
  sub a b :=
    let r := Limbs32.sub (split a) (split b)
    (join r.1, r.2.toUInt64)
  mul a b := join (Limbs32.mulFull (split a) (split b))
  mod n a :=
    let r := Limbs32.mod (split n) (split a)
    (r.1, join r.2)
  modExp ct n a bBits b :=
    let e := (split b).take (Limbs32.bLen bBits)
    let r :=
      if ct then Limbs32.modExpConsttimeChecked (split n) (split a) bBits e
      else Limbs32.modExpVartimeChecked (split n) (split a) bBits e
    (r.1, join r.2)
  modCtx n a := join (Limbs32.modPrecomp (Limbs32.ctxInit (split n)) (split a))
  modExpCtx ct n a bBits b :=
    join
      (if ct then Limbs32.modExpConsttime (Limbs32.ctxInit (split n)) (split a) bBits (split b)
      else Limbs32.modExpVartime (Limbs32.ctxInit (split n)) (split a) bBits (split b))
  toMont n a := join (Limbs32.toMont (Limbs32.ctxInit (split n)) (split a))
  fromMont n a := join (Limbs32.fromMont (Limbs32.ctxInit (split n)) (split a))
  montMul n a b := join (fieldMul32 (Limbs32.ctxInit (split n)) (split a) (split b))

/-! ## The functions of the library that use the facade

These are the functions of Model/LimbsGroup.lean with the facade as a parameter. -/

open Limbs (PArrs zeros elemLt elemEq isMax oneArr toBytesBE)

/-- group.cpp:536-541, with the facade. -/
def addOffset (F : Facade) (off inv : Arr) : Arr := (F.add (F.add off inv).1 (oneArr off.length)).1

/-- group.cpp:507-558 `add_mod_p`. -/
def addModP (F : Facade) (P : PArrs) (a b : Arr) : Res Arr :=
  let s := F.add a b
  if s.2 > 0 || isMax s.1 then
    let bigA := elemLt P.p a
    let bigB := elemLt P.p b
    if bigA || bigB then
      let off := zeros 64
      let off := if bigA then addOffset F off P.pOff else off
      let off := if bigB then addOffset F off P.pOff else off
      .ok (F.modCtx P.p ((F.add s.1 off).1 ++ zeros 64))
    else .ub
  else .ok (F.modCtx P.p (s.1 ++ zeros 64))

/-- group.cpp:567-576 `mul_mod_p`. -/
def mulModP (F : Facade) (P : PArrs) (a b : Arr) : Arr := F.modCtx P.p (F.mul a b)

/-- group.cpp:597-607 `pow_mod_p(ElementModP, ElementModP)`. -/
def powModPP (F : Facade) (P : PArrs) (base e : Arr) : Arr :=
  if elemEq e (zeros 64) then oneArr 64 else F.modExpCtx false P.p base 512 e

/-- lookup_table.hpp:115-118. -/
def genRow (F : Facade) (n rowBase : Arr) : ℕ → Arr → List Arr × Arr
  | 0, running => ([], running)
  | k + 1, running =>
    let rest := genRow F n rowBase k (F.montMul n running rowBase)
    (running :: rest.1, rest.2)

/-- lookup_table.hpp:113-120. -/
def genRows (F : Facade) (n : Arr) : ℕ → Arr → Arr → List (List Arr)
  | 0, _, _ => []
  | k + 1, rowBase, running =>
    let row := genRow F n rowBase 255 running
    (zeros n.length :: row.1) :: genRows F n k row.2 row.2

/-- lookup_table.hpp:94-126 `generateTable`. -/
def genLut (F : Facade) (n base : Arr) : List (List Arr) × Arr :=
  let b := F.toMont n base
  (genRows F n 32 b b, F.toMont n (oneArr n.length))

/-- lookup_table.hpp:73-83. -/
def lutLoop (F : Facade) (n : Arr) : List (List Arr) → List UInt8 → Arr → Res Arr
  | [], _, acc => .ok acc
  | _ :: _, [], _ => .ub
  | row :: rows, slice :: bytes, acc =>
    if slice = 0 then lutLoop F n rows bytes acc
    else match row[slice.toNat]? with
      | none => .ub
      | some x => lutLoop F n rows bytes (F.montMul n acc x)

/-- lookup_table.hpp:54-91 `LookupTable::pow_mod_p`. -/
def lutPow (F : Facade) (n : Arr) (t : List (List Arr) × Arr) (e : Arr) : Res Arr := do
  let r ← lutLoop F n t.1 (toBytesBE e).reverse t.2
  pure (F.fromMont n r)

/-- group.cpp:609-628 `pow_mod_p(ElementModP, ElementModQ)`. -/
def powModP (F : Facade) (P : PArrs) (fixed : Bool) (base e : Arr) : Res Arr :=
  if elemEq e (zeros 4) then .ok (oneArr 64)
  else if fixed then lutPow F P.p (genLut F P.p base) e
  else .ok (powModPP F P base (e ++ zeros 60))

end EG.Win
