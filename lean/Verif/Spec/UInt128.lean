import Verif.Model.UInt128

/-!
# 128-bit integers: what the functions of an implementation compute
-/

namespace EG.U128

/-- All functions but `lognot` are arithmetic modulo `2^128`; `val` says which number a value is.
Shifts are defined for less than 128 places. -/
structure Arith {T : Type} (I : Impl T) (val : T → BitVec 128) : Prop where
  add : ∀ a b, val (I.add a b) = val a + val b
  addUnderspec : ∀ a b, val (I.addUnderspec a b) = val a + val b
  addMod : ∀ a b, val (I.addMod a b) = val a + val b
  sub : ∀ a b, val (I.sub a b) = val a - val b
  subUnderspec : ∀ a b, val (I.subUnderspec a b) = val a - val b
  subMod : ∀ a b, val (I.subMod a b) = val a - val b
  logand : ∀ a b, val (I.logand a b) = val a &&& val b
  logxor : ∀ a b, val (I.logxor a b) = val a ^^^ val b
  logor : ∀ a b, val (I.logor a b) = val a ||| val b
  shiftLeft : ∀ a s, s < 128 → (I.shiftLeft a s).map val = some (val a <<< s)
  shiftLeft_undef : ∀ a s, 128 ≤ s → I.shiftLeft a s = none
  shiftRight : ∀ a s, s < 128 → (I.shiftRight a s).map val = some (val a >>> s)
  shiftRight_undef : ∀ a s, 128 ≤ s → I.shiftRight a s = none
  eq : ∀ a b, I.eq a b = decide ((val a).toNat = (val b).toNat)
  gt : ∀ a b, I.gt a b = decide ((val a).toNat > (val b).toNat)
  lt : ∀ a b, I.lt a b = decide ((val a).toNat < (val b).toNat)
  gte : ∀ a b, I.gte a b = decide ((val a).toNat ≥ (val b).toNat)
  lte : ∀ a b, I.lte a b = decide ((val a).toNat ≤ (val b).toNat)
  eqMask : ∀ a b, (val (I.eqMask a b)).toNat =
    if (val a).toNat = (val b).toNat then 2 ^ 128 - 1 else 0
  gteMask : ∀ a b, (val (I.gteMask a b)).toNat =
    if (val a).toNat ≥ (val b).toNat then 2 ^ 128 - 1 else 0
  ofU64 : ∀ x, (val (I.ofU64 x)).toNat = x.toNat
  toU64 : ∀ a, (I.toU64 a).toNat = (val a).toNat % 2 ^ 64
  mul32 : ∀ x y, (val (I.mul32 x y)).toNat = x.toNat * y.toNat
  mulWide : ∀ x y, (val (I.mulWide x y)).toNat = x.toNat * y.toNat

/-- `lognot` is the complement. -/
def NotOk {T : Type} (I : Impl T) (val : T → BitVec 128) : Prop := ∀ a, val (I.lognot a) = ~~~val a

/-- The number in two words. -/
def W2.val (a : W2) : BitVec 128 := a.high ++ a.low

/-- The number whose bytes are `l`, most significant first. -/
def beNum (l : List (BitVec 8)) : ℕ := l.foldl (fun n b => 256 * n + b.toNat) 0

/-- Big-endian loads and stores are what they should be. -/
structure BigOk (o : Order) : Prop where
  load32 : ∀ l, l.length = 4 → (o.load32be l).toNat = beNum l
  load64 : ∀ l, l.length = 8 → (o.load64be l).toNat = beNum l
  store32 : ∀ x, (o.store32be x).length = 4 ∧ beNum (o.store32be x) = x.toNat
  store64 : ∀ x, (o.store64be x).length = 8 ∧ beNum (o.store64be x) = x.toNat
  load128 : ∀ l, l.length = 16 → (o.load128be l).val.toNat = beNum l
  store128 : ∀ x, (o.store128be x).length = 16 ∧ beNum (o.store128be x) = x.val.toNat

/-- Little-endian loads and stores are what they should be. -/
structure LittleOk (o : Order) : Prop where
  load32 : ∀ l, l.length = 4 → (o.load32le l).toNat = beNum l.reverse
  load64 : ∀ l, l.length = 8 → (o.load64le l).toNat = beNum l.reverse
  store32 : ∀ x, (o.store32le x).length = 4 ∧ beNum (o.store32le x).reverse = x.toNat
  store64 : ∀ x, (o.store64le x).length = 8 ∧ beNum (o.store64le x).reverse = x.toNat
  load128 : ∀ l, l.length = 16 → (o.load128le l).val.toNat = beNum l.reverse
  store128 : ∀ x, (o.store128le x).length = 16 ∧ beNum (o.store128le x).reverse = x.val.toNat

end EG.U128
