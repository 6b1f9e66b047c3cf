import Verif.Model.Res
import Verif.Model.Hacl
import Verif.Model.Constants
import Verif.Model.Convert

/-!
# Group arithmetic (src/electionguard/group.cpp)

An `ElementModQ` is its 4-limb value (`< 2^256`), an `ElementModP` its 64-limb value (`< 2^4096`).
The `isFixedBase` flag of `ElementModP` only matters for `pow_mod_p`, where it is an explicit
argument.  The cached hex string (group.cpp:113, 226-239) is not modelled; a model element
is immutable.
-/

namespace EG

/-- `CONTEXT_P()`, facades/Hacl_Bignum4096.cpp:183-191. -/
def ctxP (G : Params) : Hacl.Ctx := Hacl.ctxInit 64 G.p

/-- `CONTEXT_Q()`, facades/Hacl_Bignum256.cpp. -/
def ctxQ (G : Params) : Hacl.Ctx := Hacl.ctxInit 4 G.q

/-- group.cpp:156-161, 315-320 `operator<` (`lessThan(...) > 0`). -/
def elemLt (a b : ℕ) : Bool := decide (Hacl.ltMask a b > 0)

/-- group.cpp:115-135 constructor of `ElementModP` from 64 limbs. -/
def mkP (G : Params) (unchecked : Bool) (v : ℕ) : Res ℕ :=
  if !unchecked && decide (Hacl.ltMask G.p v > 0) then .throw .outOfRange else .ok v

/-- group.cpp:276-294 constructor of `ElementModQ` from 4 limbs. -/
def mkQ (G : Params) (unchecked : Bool) (v : ℕ) : Res ℕ :=
  if !unchecked && decide (Hacl.ltMask G.q v > 0) then .throw .outOfRange else .ok v

/-- group.cpp:115-124 constructor of `ElementModP` from a vector of limbs, which is copied into
a 64-limb array without a length check. -/
def mkPVec (G : Params) (unchecked : Bool) (limbs : List ℕ) : Res ℕ :=
  if limbs.length > 64 then .ub else mkP G unchecked (ofLimbs limbs)

/-- group.cpp:276-285 constructor of `ElementModQ` from a vector of limbs. -/
def mkQVec (G : Params) (unchecked : Bool) (limbs : List ℕ) : Res ℕ :=
  if limbs.length > 4 then .ub else mkQ G unchecked (ofLimbs limbs)

/-- group.cpp:206-210 `ElementModP::isInBounds`. -/
def isInBoundsP (G : Params) (v : ℕ) : Bool := elemLt 0 v && elemLt v G.p

/-- group.cpp:360-364 `ElementModQ::isInBounds`. -/
def isInBoundsQ (G : Params) (v : ℕ) : Bool := elemLt 0 v && elemLt v G.q

/-- group.cpp:217-224 `ElementModP::toBytes`. -/
def toBytesP (v : ℕ) : List UInt8 := toBytesBE 512 v

/-- group.cpp:366-373 `ElementModQ::toBytes`. -/
def toBytesQ (v : ℕ) : List UInt8 := toBytesBE 32 v

/-- group.cpp:226-239 `ElementModP::toHex`. -/
def toHexP (v : ℕ) : List Char := bytesToHex (toBytesP v)

/-- group.cpp:375-383 `ElementModQ::toHex`. -/
def toHexQ (v : ℕ) : List Char := bytesToHex (toBytesQ v)

/-- group.cpp:427-463 `bytes_to_p`.  HACL returns NULL for length 0 (`bad_alloc`). -/
def bytesToP (G : Params) (unchecked : Bool) (bs : List UInt8) : Res ℕ :=
  if bs.length > 512 then .throw .outOfRange
  else if bs.length = 0 then .throw .badAlloc
  -- memcpy of `size` bytes of the little endian limbs: the low `size` bytes of the value
  else mkP G unchecked (ofBytesBE bs % 2 ^ (8 * bs.length))

/-- group.cpp:469-501 `bytes_to_q`. -/
def bytesToQ (G : Params) (unchecked : Bool) (bs : List UInt8) : Res ℕ :=
  if bs.length > 32 then .throw .outOfRange
  else if bs.length = 0 then .throw .badAlloc
  else mkQ G unchecked (ofBytesBE bs % 2 ^ (8 * bs.length))

/-- group.cpp:250-258 `ElementModP::fromHex`. -/
def fromHexP (G : Params) (unchecked : Bool) (s : List Char) : Res ℕ := do
  let t ← sanitizeHex s
  let bs ← hexToBytes t
  bytesToP G unchecked bs

/-- group.cpp:387-395 `ElementModQ::fromHex`. -/
def fromHexQ (G : Params) (unchecked : Bool) (s : List Char) : Res ℕ := do
  let t ← sanitizeHex s
  let bs ← hexToBytes t
  bytesToQ G unchecked bs

/-- group.cpp:260-266 `ElementModP::fromUint64`. -/
def fromUint64P (G : Params) (unchecked : Bool) (v : ℕ) : Res ℕ :=
  bytesToP G unchecked (toBytesBE 8 v)

/-- group.cpp:397-403 `ElementModQ::fromUint64`. -/
def fromUint64Q (G : Params) (unchecked : Bool) (v : ℕ) : Res ℕ :=
  bytesToQ G unchecked (toBytesBE 8 v)

/-- group.cpp:414-417 `ElementModQ::clone` (uses the checked constructor). -/
def cloneQ (G : Params) (v : ℕ) : Res ℕ := mkQ G false v

/-- utils.hpp:39-48 `isMax` on the low four limbs. -/
def isMax256 (v : ℕ) : Bool := v % 2 ^ 256 = 2 ^ 256 - 1

/-- utils.hpp:50-59 `isMax` on the low 64 limbs. -/
def isMax4096 (v : ℕ) : Bool := v % 2 ^ 4096 = 2 ^ 4096 - 1

/-- group.cpp:644-695 `add_mod_q`. -/
def addModQ (G : Params) (a b : ℕ) : ℕ :=
  let s := Hacl.add 4 a b
  let sum :=
    if s.2 > 0 || isMax256 s.1 then
      let bigA := elemLt G.q a
      let bigB := elemLt G.q b
      if bigA || bigB then
        let off := 0
        let off := if bigA then (Hacl.add 4 (Hacl.add 4 off G.qOff).1 1).1 else off
        let off := if bigB then (Hacl.add 4 (Hacl.add 4 off G.qOff).1 1).1 else off
        (Hacl.add 4 s.1 off).1
      else (Hacl.add 4 s.1 G.qOff).1
    else s.1
  Hacl.modPrecomp (ctxQ G) sum

/-- group.cpp:697-709 `add_mod_q` on a vector. -/
def addModQVec (G : Params) (xs : List ℕ) : Res ℕ :=
  if xs.isEmpty then .throw .invalidArgument else .ok (xs.foldl (addModQ G) 0)

/-- group.cpp:711-753 `sub_mod_q`. -/
def subModQ (G : Params) (a b : ℕ) : ℕ :=
  let s := Hacl.sub 4 a b
  let d :=
    if s.2 > 0 then
      if elemLt G.q a || elemLt G.q b then
        let off := (Hacl.add 4 (Hacl.add 4 0 G.qOff).1 1).1
        (Hacl.sub 4 s.1 off).1
      else (Hacl.sub 4 s.1 G.qOff).1
    else s.1
  Hacl.modPrecomp (ctxQ G) d

/-- Hacl_Bignum256.c:922-963 `Hacl_Bignum256_mod`: `none` models the return value `false`. -/
def modChecked (k n a : ℕ) : Option ℕ :=
  if n % 2 = 1 ∧ 1 < n then some (Hacl.modPrecomp (Hacl.ctxInit k n) a) else none

/-- group.cpp:755-783 `a_plus_bc_mod_q`. -/
def aPlusBcModQ (G : Params) (a b c : ℕ) : Res ℕ :=
  match modChecked 4 G.q (b * c) with
  | none => .throw .runtimeError
  | some bc =>
    let s := Hacl.add 4 a bc
    -- the carry is stored in limb 4
    match modChecked 4 G.q (s.1 + s.2 * 2 ^ 256) with
    | none => .throw .runtimeError
    | some r => .ok r

/-- group.cpp:785-793 `sub_from_q`. -/
def subFromQ (G : Params) (a : ℕ) : ℕ := (Hacl.sub 4 G.q a).1

/-- group.cpp:507-558 `add_mod_p`.  The last branch passes the 4-limb array
`Q_ARRAY_INVERSE_OFFSET` to an addition that reads 64 limbs. -/
def addModP (G : Params) (a b : ℕ) : Res ℕ :=
  let s := Hacl.add 64 a b
  if s.2 > 0 || isMax4096 s.1 then
    let bigA := elemLt G.p a
    let bigB := elemLt G.p b
    if bigA || bigB then
      let off := 0
      let off := if bigA then (Hacl.add 64 (Hacl.add 64 off G.pOff).1 1).1 else off
      let off := if bigB then (Hacl.add 64 (Hacl.add 64 off G.pOff).1 1).1 else off
      .ok (Hacl.modPrecomp (ctxP G) (Hacl.add 64 s.1 off).1)
    else .ub
  else .ok (Hacl.modPrecomp (ctxP G) s.1)

/-- The array of `k` limbs that holds a number. -/
def toLimbs : ℕ → ℕ → List ℕ
  | 0, _ => []
  | k + 1, n => n % 2 ^ 64 :: toLimbs k (n / 2 ^ 64)

/-- facades/Hacl_Bignum4096.cpp:117-125 `Bignum4096::mod`, which reads twice as many limbs as the
modulus has (Hacl_Bignum4096.c:1532-1541). -/
def modArr (c : Hacl.Ctx) (limbs : List ℕ) : Res ℕ :=
  if limbs.length < 2 * c.k then .ub else .ok (Hacl.modPrecomp c (ofLimbs (limbs.take (2 * c.k))))

/-- group.cpp:560-565 `mod_p`: passes the array of the element. -/
def modP (G : Params) (a : ℕ) : Res ℕ := modArr (ctxP G) (toLimbs 64 a)

/-- group.cpp:567-576 `mul_mod_p`. -/
def mulModP (G : Params) (a b : ℕ) : ℕ := Hacl.modPrecomp (ctxP G) (a * b)

/-- An operand of the vector overload of `mul_mod_p`. -/
inductive ElemPQ where
  | p (v : ℕ)
  | q (v : ℕ)

/-- group.cpp:407-412 `toElementModP` widens a q-element. -/
def ElemPQ.val : ElemPQ → ℕ
  | .p v => v
  | .q v => v

/-- group.cpp:578-595 `mul_mod_p` on a vector (the start value `fromUint64(1)` is 1). -/
def mulModPVec (G : Params) (xs : List ElemPQ) : ℕ :=
  xs.foldl (fun acc x => mulModP G acc x.val) 1

/-- group.cpp:597-607 `pow_mod_p(ElementModP, ElementModP)`: `MAX_P_SIZE` (512) is passed as the
number of exponent bits. -/
def powModPP (G : Params) (base e : ℕ) : ℕ :=
  if e = 0 then 1 else Hacl.modExpPrecomp (ctxP G) base 512 e

/-- group.cpp:795-810 `rand_p` on the bytes delivered by the random source, of which it reads 512
(`Random::getBytes` returns 256). -/
def randP (G : Params) (bytes : List UInt8) : Res ℕ :=
  if bytes.length < 512 then .ub else addModP G (ofBytesBE (bytes.take 512)) 0

/-- group.cpp:812-830 `rand_q` on the bytes delivered by the random source. -/
def randQ (G : Params) (bytes : List UInt8) : Res ℕ :=
  if bytes.length < 32 then .ub
  else
    let v := ofBytesBE (bytes.take 32)
    -- `bigNum[0] & 0xFFFFFFFFFFFFFF43`: only the low limb is masked
    let masked := (v / 2 ^ 64) * 2 ^ 64 + ((v % 2 ^ 64) &&& 0xFFFFFFFFFFFFFF43)
    .ok (addModQ G masked 0)

end EG
