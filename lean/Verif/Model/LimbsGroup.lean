import Verif.Model.LimbsExp
import Verif.Model.Constants
import Verif.Model.Res

/-!
# Group arithmetic on limbs (src/electionguard/group.cpp, lookup_table.hpp)

The functions of Model/Group.lean and Model/LookupTable.lean once more, with elements as what they are in
C++: arrays of 4 or 64 `uint64_t`.
-/

namespace EG.Limbs

/-- The arrays of include/electionguard/constants.h. -/
structure PArrs where
  p : Arr
  q : Arr
  g : Arr
  qOff : Arr
  pOff : Arr

/-- The standard arrays. -/
def PArrs.std : PArrs where
  p := STD_P_ARRAY_REVERSE.map UInt64.ofNat
  q := STD_Q_ARRAY_REVERSE.map UInt64.ofNat
  g := STD_G_ARRAY_REVERSE.map UInt64.ofNat
  qOff := STD_Q_ARRAY_INVERSE_OFFSET.map UInt64.ofNat
  pOff := STD_P_ARRAY_INVERSE_OFFSET.map UInt64.ofNat

/-- `{}`: an array of zeros. -/
def zeros (k : ℕ) : Arr := List.replicate k 0

/-- group.cpp:156-161, 315-320 `operator<`. -/
def elemLt (a b : Arr) : Bool := decide (ltMask a b > 0)

/-- group.cpp:143-154, 302-313 `operator==`: the loop over the limbs. -/
def elemEq : Arr → Arr → Bool
  | x :: a, y :: b => if x != y then false else elemEq a b
  | _, _ => true

/-- utils.hpp:39-59 `isMax`. -/
def isMax : Arr → Bool
  | [] => true
  | x :: a => if x != 0xFFFFFFFFFFFFFFFF then false else isMax a

/-- `offset` plus the inverse offset plus one, group.cpp:664-669, 527-532. -/
def addOffset (off inv : Arr) : Arr := (add (add off inv).1 (oneArr off.length)).1

/-- group.cpp:644-695 `add_mod_q`.  `addResult` has eight limbs, of which `Bignum256::add` writes four. -/
def addModQ (P : PArrs) (a b : Arr) : Arr :=
  let s := add a b
  let sum :=
    if s.2 > 0 || isMax s.1 then
      let bigA := elemLt P.q a
      let bigB := elemLt P.q b
      if bigA || bigB then
        let off := zeros 4
        let off := if bigA then addOffset off P.qOff else off
        let off := if bigB then addOffset off P.qOff else off
        (add s.1 off).1
      else (add s.1 P.qOff).1
    else s.1
  modPrecomp (ctxInit P.q) (sum ++ zeros 4)

/-- group.cpp:711-753 `sub_mod_q`. -/
def subModQ (P : PArrs) (a b : Arr) : Arr :=
  let s := sub a b
  let d :=
    if s.2 > 0 then
      if elemLt P.q a || elemLt P.q b then (sub s.1 (addOffset (zeros 4) P.qOff)).1
      else (sub s.1 P.qOff).1
    else s.1
  modPrecomp (ctxInit P.q) (d ++ zeros 4)

/-- group.cpp:755-783 `a_plus_bc_mod_q`. -/
def aPlusBcModQ (P : PArrs) (a b c : Arr) : Res Arr :=
  let m := mod P.q (mulFull b c)
  if !m.1 then .throw .runtimeError
  else
    let s := add a m.2
    -- the carry is put into limb 4
    let r := mod P.q (s.1 ++ s.2 :: zeros 3)
    if !r.1 then .throw .runtimeError else .ok r.2

/-- group.cpp:785-793 `sub_from_q`. -/
def subFromQ (P : PArrs) (a : Arr) : Arr := (sub P.q a).1

/-- group.cpp:507-558 `add_mod_p`; the last branch reads beyond the end of a four-limb array. -/
def addModP (P : PArrs) (a b : Arr) : Res Arr :=
  let s := add a b
  if s.2 > 0 || isMax s.1 then
    let bigA := elemLt P.p a
    let bigB := elemLt P.p b
    if bigA || bigB then
      let off := zeros 64
      let off := if bigA then addOffset off P.pOff else off
      let off := if bigB then addOffset off P.pOff else off
      .ok (modPrecomp (ctxInit P.p) ((add s.1 off).1 ++ zeros 64))
    else .ub
  else .ok (modPrecomp (ctxInit P.p) (s.1 ++ zeros 64))

/-- group.cpp:567-576 `mul_mod_p`. -/
def mulModP (P : PArrs) (a b : Arr) : Arr := modPrecomp (ctxInit P.p) (mulFull a b)

/-- group.cpp:597-607 `pow_mod_p(ElementModP, ElementModP)`; facades/Hacl_Bignum4096.cpp:126-150 with the
default argument of the declaration, `useConstTime = false` (facades/Hacl_Bignum4096.hpp:61-62; the
comment in the definition says `true`). -/
def powModPP (P : PArrs) (base e : Arr) : Arr :=
  if elemEq e (zeros 64) then oneArr 64 else modExpVartime (ctxInit P.p) base 512 e

/-! ## Fixed-base tables -/

/-- Hacl_GenericField64.c:199-205 `mul`, Hacl_Bignum.c:1894-1909 `bn_mont_mul_u64`. -/
def fieldMul (c : Ctx) (a b : Arr) : Arr := reduction c.n c.mu (mulFull a b)

/-- lookup_table.hpp:115-118. -/
def genRow (c : Ctx) (rowBase : Arr) : ℕ → Arr → List Arr × Arr
  | 0, running => ([], running)
  | n + 1, running =>
    let rest := genRow c rowBase n (fieldMul c running rowBase)
    (running :: rest.1, rest.2)

/-- lookup_table.hpp:113-120. -/
def genRows (c : Ctx) : ℕ → Arr → Arr → List (List Arr)
  | 0, _, _ => []
  | n + 1, rowBase, running =>
    let row := genRow c rowBase 255 running
    (zeros c.n.length :: row.1) :: genRows c n row.2 row.2

/-- lookup_table.hpp:94-126 `generateTable`: the table and the one in Montgomery form. -/
def genLut (c : Ctx) (base : Arr) : List (List Arr) × Arr :=
  let b := toMont c base
  (genRows c 32 b b, toMont c (oneArr c.n.length))

/-- lookup_table.hpp:73-83. -/
def lutLoop (c : Ctx) : List (List Arr) → List UInt8 → Arr → Res Arr
  | [], _, acc => .ok acc
  | _ :: _, [], _ => .ub
  | row :: rows, slice :: bytes, acc =>
    if slice = 0 then lutLoop c rows bytes acc
    else match row[slice.toNat]? with
      | none => .ub
      | some x => lutLoop c rows bytes (fieldMul c acc x)

/-- lookup_table.hpp:54-91 `LookupTable::pow_mod_p`. -/
def lutPow (c : Ctx) (t : List (List Arr) × Arr) (e : Arr) : Res Arr := do
  let r ← lutLoop c t.1 (toBytesBE e).reverse t.2
  pure (fromMont c r)

/-- group.cpp:609-628 `pow_mod_p(ElementModP, ElementModQ)`; `fixed` is `base.isFixedBase()`, and the table
is the one made for the base (that the cache returns it is part of C05).  The exponent is widened by
`toElementModP`, group.cpp:407-412. -/
def powModP (P : PArrs) (fixed : Bool) (base e : Arr) : Res Arr :=
  if elemEq e (zeros 4) then .ok (oneArr 64)
  else if fixed then lutPow (ctxInit P.p) (genLut (ctxInit P.p) base) e
  else .ok (powModPP P base (e ++ zeros 60))

end EG.Limbs
