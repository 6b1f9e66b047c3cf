import Verif.Lemmas.UInt128

/-!
# C90: 128-bit integers and byte order
-/

namespace EG.U128

/-! ## Arithmetic -/

theorem logic_val (a b : W2) :
    (⟨a.low &&& b.low, a.high &&& b.high⟩ : W2).val = a.val &&& b.val ∧
    (⟨a.low ^^^ b.low, a.high ^^^ b.high⟩ : W2).val = a.val ^^^ b.val ∧
    (⟨a.low ||| b.low, a.high ||| b.high⟩ : W2).val = a.val ||| b.val ∧
    (⟨~~~a.low, ~~~a.high⟩ : W2).val = ~~~a.val :=
  ⟨BitVec.and_append.symm, BitVec.xor_append.symm, BitVec.or_append.symm, BitVec.not_append.symm⟩

theorem map_none {f : W2 → BitVec 128} {o : Option W2} (h : o.map f = none) : o = none := by
  cases o with
  | none => rfl
  | some x => cases h

/-- The struct computes modulo `2^128`. -/
theorem C90_verified : Arith verified W2.val ∧ NotOk verified W2.val := by
  refine ⟨{
    add := addW_val, addUnderspec := addW_val, addMod := addW_val
    sub := subW_val, subUnderspec := subW_val, subMod := subW_val
    logand := fun a b => (logic_val a b).1
    logxor := fun a b => (logic_val a b).2.1
    logor := fun a b => (logic_val a b).2.2.1
    shiftLeft := fun a s h => (shiftLeftW_ok a s).trans (if_pos h)
    shiftLeft_undef := fun a s h => map_none ((shiftLeftW_ok a s).trans (if_neg (by omega)))
    shiftRight := fun a s h => (shiftRightW_ok a s).trans (if_pos h)
    shiftRight_undef := fun a s h => map_none ((shiftRightW_ok a s).trans (if_neg (by omega)))
    eq := eqW_ok, gt := gtW_ok, lt := ltW_ok, gte := gteW_ok, lte := lteW_ok
    eqMask := eqMaskW_ok, gteMask := gteMaskW_ok
    ofU64 := fun x => ?_, toU64 := fun a => ?_
    mul32 := mul32W_val, mulWide := mulWideW_val }, fun a => (logic_val a a).2.2.2⟩
  · rw [val_toNat]; simp [verified]
  · rw [val_toNat]
    have := a.low.isLt
    simp only [verified]
    omega

/-- The type of the compiler, with the masks made of two words. -/
theorem C90_gcc : Arith gcc id ∧ NotOk gcc id := by
  have num : ∀ x : BitVec 128, x = (⟨lo x, hi x⟩ : W2).val := fun x => (hi_lo x).symm
  refine ⟨{
    add := fun _ _ => rfl, addUnderspec := fun _ _ => rfl, addMod := fun _ _ => rfl
    sub := fun _ _ => rfl, subUnderspec := fun _ _ => rfl, subMod := fun _ _ => rfl
    logand := fun _ _ => rfl, logxor := fun _ _ => rfl, logor := fun _ _ => rfl
    shiftLeft := fun a s h => ?_
    shiftLeft_undef := fun a s h => if_neg (by omega)
    shiftRight := fun a s h => ?_
    shiftRight_undef := fun a s h => if_neg (by omega)
    eq := fun a b => ?_, gt := fun _ _ => rfl, lt := fun _ _ => rfl
    gte := fun _ _ => rfl, lte := fun _ _ => rfl
    eqMask := fun a b => ?_, gteMask := fun a b => ?_
    ofU64 := fun x => ?_, toU64 := fun a => lo_toNat a
    mul32 := fun x y => ?_, mulWide := fun x y => ?_ }, fun _ => rfl⟩
  · simp only [gcc, if_pos h]; rfl
  · simp only [gcc, if_pos h]; rfl
  · rw [Bool.eq_iff_iff]
    simp [gcc, ← BitVec.toNat_inj]
  · have := eqMaskW_ok ⟨lo a, hi a⟩ ⟨lo b, hi b⟩
    rw [hi_lo, hi_lo] at this
    simp only [gcc, id, both_eq]
    rw [BitVec.and_comm]
    exact this
  · have := gteMaskW_ok ⟨lo a, hi a⟩ ⟨lo b, hi b⟩
    rw [hi_lo, hi_lo] at this
    simp only [gcc, id, both_eq]
    exact this
  · have := x.isLt
    simp only [gcc, id, BitVec.toNat_setWidth]
    omega
  · simp only [gcc, id, BitVec.toNat_mul, BitVec.toNat_setWidth]
    have h1 := x.isLt
    have h2 := y.isLt
    have : x.toNat * y.toNat < 2 ^ 64 * 2 ^ 32 := Nat.mul_lt_mul'' h1 h2
    rw [Nat.mod_eq_of_lt (show x.toNat < 2 ^ 128 by omega),
      Nat.mod_eq_of_lt (show y.toNat < 2 ^ 128 by omega)]
    exact Nat.mod_eq_of_lt (by omega)
  · simp only [gcc, id, BitVec.toNat_mul, BitVec.toNat_setWidth]
    have h1 := x.isLt
    have h2 := y.isLt
    have : x.toNat * y.toNat < 2 ^ 64 * 2 ^ 64 := Nat.mul_lt_mul'' h1 h2
    rw [Nat.mod_eq_of_lt (show x.toNat < 2 ^ 128 by omega),
      Nat.mod_eq_of_lt (show y.toNat < 2 ^ 128 by omega)]
    exact Nat.mod_eq_of_lt (by omega)

theorem umul_val (x y : BitVec 64) :
    (setEpi64x (umul128 x y).2 (umul128 x y).1).val.toNat = x.toNat * y.toNat := by
  have : (setEpi64x (umul128 x y).2 (umul128 x y).1).val = x.setWidth 128 * y.setWidth 128 := hi_lo _
  rw [this]
  exact C90_gcc.1.mulWide x y

/-- The vector type of MSVC: all but `lognot`. -/
theorem C90_msvc_partial : Arith msvc W2.val := by
  have hadd : ∀ a b, (addM a b).val = a.val + b.val := fun a b => by rw [addM_eq, addW_val]
  have hsub : ∀ a b, (subM a b).val = a.val - b.val := fun a b => by rw [subM_eq, subW_val]
  exact {
    add := hadd, addUnderspec := hadd, addMod := hadd
    sub := hsub, subUnderspec := hsub, subMod := hsub
    logand := fun a b => (logic_val a b).1
    logxor := fun a b => (logic_val a b).2.1
    logor := fun a b => (logic_val a b).2.2.1
    shiftLeft := fun a s h => by
      have := C90_verified.1.shiftLeft a s h
      simp only [msvc, shiftLeftM_eq]; exact this
    shiftLeft_undef := fun a s h => by
      have := C90_verified.1.shiftLeft_undef a s h
      simp only [msvc, shiftLeftM_eq]; exact this
    shiftRight := fun a s h => by
      have := C90_verified.1.shiftRight a s h
      simp only [msvc, shiftRightM_eq]; exact this
    shiftRight_undef := fun a s h => by
      have := C90_verified.1.shiftRight_undef a s h
      simp only [msvc, shiftRightM_eq]; exact this
    eq := eqW_ok, gt := gtW_ok, lt := ltW_ok, gte := gteW_ok, lte := lteW_ok
    eqMask := fun a b => by
      simp only [msvc, eqMaskM_eq]
      by_cases h : a = b
      · rw [if_pos h, if_pos (val_inj.2 h)]; exact ones_val
      · rw [if_neg h, if_neg (fun e => h (val_inj.1 e))]; exact zero_val
    gteMask := gteMaskW_ok
    ofU64 := C90_verified.1.ofU64
    toU64 := C90_verified.1.toU64
    mul32 := fun x y => by
      have := umul_val x (y.setWidth 64)
      rw [BitVec.toNat_setWidth, Nat.mod_eq_of_lt (a := y.toNat)
        (by have := y.isLt; omega)] at this
      exact this
    mulWide := umul_val }

/-- `lognot` of MSVC is zero for every argument, and so is wrong for all but one. -/
theorem C90_lognot_violated (a : W2) : (msvc.lognot a).val = 0 ∧
    ((msvc.lognot a).val = ~~~a.val ↔ a.val = BitVec.allOnes 128) := by
  have h : (msvc.lognot a).val = 0 := by
    simp only [msvc, mmAndnot, BitVec.and_comm, BitVec.and_not_self]
    rfl
  refine ⟨h, ?_⟩
  rw [h]
  constructor
  · intro e
    rw [← BitVec.not_not (b := a.val), ← e]
    rfl
  · intro e
    rw [e]; rfl

/-- A product and a sum as in the multiplication of limbs. -/
example : (verified.add (verified.mulWide 0xffffffffffffffff#64 0xfffffffffffffffe#64)
    (verified.ofU64 7#64)).val.toNat = 0xffffffffffffffff * 0xfffffffffffffffe + 7 := by decide +kernel

/-! ## Byte order -/

/-- From 4 and 8 bytes to 16. -/
theorem big_of {o : Order} (l32 : ∀ l, l.length = 4 → (o.load32be l).toNat = beNum l)
    (l64 : ∀ l, l.length = 8 → (o.load64be l).toNat = beNum l)
    (s32 : ∀ x, (o.store32be x).length = 4 ∧ beNum (o.store32be x) = x.toNat)
    (s64 : ∀ x, (o.store64be x).length = 8 ∧ beNum (o.store64be x) = x.toNat) : BigOk o := by
  refine ⟨l32, l64, s32, s64, fun l h => ?_, fun x => ⟨?_, ?_⟩⟩
  · have h1 : (l.take 8).length = 8 := by simp [h]
    have h2 : ((l.drop 8).take 8).length = 8 := by simp [h]
    have e : (l.drop 8).take 8 = l.drop 8 := List.take_of_length_le (by simp [h])
    rw [val_toNat]
    simp only [Order.load128be]
    rw [l64 _ h1, l64 _ h2, e]
    conv_rhs => rw [← List.take_append_drop 8 l]
    rw [beNum_eq, beNum_eq, beNum_eq, List.reverse_append, leNum_append]
    have : (l.drop 8).reverse.length = 8 := by simp [h]
    rw [this]
    omega
  · simp [Order.store128be, (s64 x.high).1, (s64 x.low).1]
  · have h1 := (s64 x.low).1
    have e1 := (s64 x.low).2
    have e2 := (s64 x.high).2
    rw [beNum_eq] at e1 e2
    rw [beNum_eq, val_toNat, Order.store128be, List.reverse_append, leNum_append, List.length_reverse,
      h1, e1, e2]
    omega

theorem little_of {o : Order} (l32 : ∀ l, l.length = 4 → (o.load32le l).toNat = leNum l)
    (l64 : ∀ l, l.length = 8 → (o.load64le l).toNat = leNum l)
    (s32 : ∀ x, (o.store32le x).length = 4 ∧ leNum (o.store32le x) = x.toNat)
    (s64 : ∀ x, (o.store64le x).length = 8 ∧ leNum (o.store64le x) = x.toNat) : LittleOk o := by
  refine ⟨?_, ?_, ?_, ?_, fun l h => ?_, fun x => ⟨?_, ?_⟩⟩
  · intro l h; rw [beNum_eq, List.reverse_reverse]; exact l32 l h
  · intro l h; rw [beNum_eq, List.reverse_reverse]; exact l64 l h
  · intro x; rw [beNum_eq, List.reverse_reverse]; exact s32 x
  · intro x; rw [beNum_eq, List.reverse_reverse]; exact s64 x
  · have h1 : (l.take 8).length = 8 := by simp [h]
    have h2 : ((l.drop 8).take 8).length = 8 := by simp [h]
    have e : (l.drop 8).take 8 = l.drop 8 := List.take_of_length_le (by simp [h])
    rw [val_toNat, beNum_eq, List.reverse_reverse]
    simp only [Order.load128le]
    rw [l64 _ h1, l64 _ h2, e]
    conv_rhs => rw [← List.take_append_drop 8 l]
    rw [leNum_append, h1]
    omega
  · simp [Order.store128le, (s64 x.high).1, (s64 x.low).1]
  · rw [beNum_eq, List.reverse_reverse, val_toNat, Order.store128le, leNum_append, (s64 x.low).1,
      (s64 x.low).2, (s64 x.high).2]
    omega

/-- Little-endian machines: Windows, and the generic code. -/
theorem C90_little : BigOk windows ∧ LittleOk windows ∧ BigOk genericLittle ∧
    LittleOk genericLittle := by
  have le : ∀ {o : Order}, o.little = true → (∀ x, o.le32 x = x) → (∀ x, o.le64 x = x) →
      LittleOk o := by
    intro o h h32 h64
    refine little_of ?_ ?_ ?_ ?_
    · intro l hl; simp only [Order.load32le, h32, h]; exact fromMem_true (n := 4) hl
    · intro l hl; simp only [Order.load64le, h64, h]; exact fromMem_true (n := 8) hl
    · intro x; simp only [Order.store32le, h32, h]
      exact ⟨toMem_length (n := 4) _ _, toMem_true (n := 4) x⟩
    · intro x; simp only [Order.store64le, h64, h]
      exact ⟨toMem_length (n := 8) _ _, toMem_true (n := 8) x⟩
  have be : ∀ {o : Order}, o.little = true → (∀ x, o.be32 x = bswap 4 x) →
      (∀ x, o.be64 x = bswap 8 x) → BigOk o := by
    intro o h h32 h64
    refine big_of ?_ ?_ ?_ ?_
    · intro l hl; simp only [Order.load32be, h32, h]; exact bswap_load (n := 4) hl
    · intro l hl; simp only [Order.load64be, h64, h]; exact bswap_load (n := 8) hl
    · intro x; simp only [Order.store32be, h32, h]
      exact ⟨toMem_length (n := 4) _ _, bswap_store (n := 4) x⟩
    · intro x; simp only [Order.store64be, h64, h]
      exact ⟨toMem_length (n := 8) _ _, bswap_store (n := 8) x⟩
  exact ⟨be rfl (fun _ => rfl) (fun _ => rfl), le rfl (fun _ => rfl) (fun _ => rfl),
    be rfl swap32_eq swap64_eq, le rfl (fun _ => rfl) (fun _ => rfl)⟩

/-- Big-endian machines with the generic code: big-endian loads and stores, and little-endian ones of
32 bits. -/
theorem C90_big_partial : BigOk genericBig ∧
    (∀ l, l.length = 4 → (genericBig.load32le l).toNat = beNum l.reverse) ∧
    (∀ x, (genericBig.store32le x).length = 4 ∧
      beNum (genericBig.store32le x).reverse = x.toNat) := by
  refine ⟨big_of ?_ ?_ ?_ ?_, ?_, ?_⟩
  · intro l hl; exact fromMem_false (n := 4) hl
  · intro l hl; exact fromMem_false (n := 8) hl
  · intro x
    refine ⟨toMem_length (n := 4) _ _, ?_⟩
    show beNum (toMem false 4 x) = _
    rw [beNum_eq, toMem_false, List.reverse_reverse]
    exact toMem_true (n := 4) x
  · intro x
    refine ⟨toMem_length (n := 8) _ _, ?_⟩
    show beNum (toMem false 8 x) = _
    rw [beNum_eq, toMem_false, List.reverse_reverse]
    exact toMem_true (n := 8) x
  · intro l hl
    show (swap32 (fromMem true 4 l.reverse)).toNat = _
    rw [swap32_eq]
    exact bswap_load (n := 4) (by simp [hl])
  · intro x
    refine ⟨toMem_length (n := 4) _ _, ?_⟩
    show beNum (toMem false 4 (swap32 x)).reverse = _
    rw [swap32_eq, toMem_false, List.reverse_reverse]
    exact bswap_store (n := 4) x

/-- On a big-endian machine the generic `load64_le` only exchanges the halves of the big-endian number,
and so is wrong whenever this is not the same, as for the bytes 1, 0, …. -/
theorem C90_load64_le_violated :
    (∀ l, l.length = 8 → (genericBig.load64le l).toNat =
      beNum l % 2 ^ 32 * 2 ^ 32 + beNum l / 2 ^ 32) ∧
    ∃ l, l.length = 8 ∧ (genericBig.load64le l).toNat ≠ beNum l.reverse ∧ beNum l.reverse = 1 ∧
      (genericBig.load64le l).toNat = 2 ^ 24 := by
  constructor
  · intro l hl
    have e : (fromMem false 8 l).toNat = beNum l := fromMem_false (n := 8) hl
    have hlt : beNum l < 2 ^ 64 := by
      rw [← e]; exact (fromMem false 8 l).isLt
    show (swap64 (fun x => x) (fromMem false 8 l)).toNat = _
    rw [swap64_toNat]
    rw [BitVec.toNat_setWidth, BitVec.toNat_setWidth, BitVec.toNat_ushiftRight,
      Nat.shiftRight_eq_div_pow]
    have e' : BitVec.toNat (w := 64) (fromMem false 8 l) = beNum l := e
    rw [e']
    omega
  · exact ⟨[1, 0, 0, 0, 0, 0, 0, 0], rfl, by decide +kernel, by decide +kernel, by decide +kernel⟩

example : genericLittle.store64be 0x0102030405060708#64 = [1, 2, 3, 4, 5, 6, 7, 8] ∧
    windows.store64be 0x0102030405060708#64 = [1, 2, 3, 4, 5, 6, 7, 8] ∧
    genericBig.store64be 0x0102030405060708#64 = [1, 2, 3, 4, 5, 6, 7, 8] ∧
    genericBig.store64le 0x0102030405060708#64 = [5, 6, 7, 8, 1, 2, 3, 4] := by decide +kernel

end EG.U128
