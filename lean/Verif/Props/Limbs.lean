import Verif.Lemmas.LimbsCheck
import Mathlib.FieldTheory.Finite.Basic
import Mathlib.Tactic.NormNum.Prime

/-!
# C67, C68, C69: the bignum library on arrays of 64-bit limbs

All statements are about arrays of any length.  The library uses 4 and 64 limbs.
-/

namespace EG.Limbs

/-! ## C67: addition, subtraction, comparison, multiplication -/

/-- `add` returns the sum and the carry. -/
theorem C67_add (a b : Arr) (h : a.length = b.length) :
    (add a b).1.length = a.length ∧ (add a b).2.toNat ≤ 1 ∧
      val (add a b).1 + 2 ^ (64 * a.length) * (add a b).2.toNat = val a + val b := add_spec a b h

/-- `sub` returns the difference modulo `2^(64 len)`, and the borrow tells which number is smaller. -/
theorem C67_sub (a b : Arr) (h : a.length = b.length) :
    (sub a b).1.length = a.length ∧
      ((val b ≤ val a ∧ (sub a b).2 = 0 ∧ val (sub a b).1 = val a - val b) ∨
        (val a < val b ∧ (sub a b).2 = 1 ∧ val (sub a b).1 = 2 ^ (64 * a.length) - (val b - val a))) := by
  obtain ⟨h1, h2, h3⟩ := sub_spec a b h
  have ha := val_lt a
  have hb := val_lt b
  have hs := val_lt (sub a b).1
  rw [h1] at hs
  rw [← h] at hb
  refine ⟨h1, ?_⟩
  generalize 2 ^ (64 * a.length) = P at *
  rcases bit_cases _ h2 with h' | h' <;> rw [h'] at h3 ⊢
  · rw [show (0 : UInt64).toNat = 0 from rfl] at h3
    left
    refine ⟨by omega, rfl, by omega⟩
  · rw [show (1 : UInt64).toNat = 1 from rfl] at h3
    right
    refine ⟨by omega, rfl, by omega⟩

/-- `lt_mask` and `eq_mask` are all ones or zero, and decide the order and the equality of the numbers. -/
theorem C67_compare (a b : Arr) (h : a.length = b.length) :
    ltMask a b = (if val a < val b then 0xFFFFFFFFFFFFFFFF else 0) ∧
      eqMask a b = (if val a = val b then 0xFFFFFFFFFFFFFFFF else 0) := by
  refine ⟨ltMask_eq a b h, ?_⟩
  rw [eqMask_eq a b h, maskOf]
  have : a = b ↔ val a = val b := ⟨fun e => by rw [e], val_inj a b h⟩
  simp only [this]

/-- `mul` of numbers of the same length is the exact product, by Karatsuba's method or not. -/
theorem C67_mul (a b : Arr) (h : a.length = b.length) :
    (mulFull a b).length = a.length + b.length ∧ val (mulFull a b) = val a * val b := mulFull_spec a b h

/-- `sqr` is the exact square, and thus the same array as `mul` gives. -/
theorem C67_sqr (a : Arr) :
    val (sqrFull a) = val a * val a ∧ sqrFull a = mulFull a a := by
  obtain ⟨h1, h2⟩ := sqrFull_spec a
  obtain ⟨h3, h4⟩ := mulFull_spec a a rfl
  exact ⟨h2, val_inj _ _ (by rw [h1, h3]) (by rw [h2, h4])⟩

/-- `add_mod` and `sub_mod` of reduced numbers. -/
theorem C67_add_sub_mod (n a b : Arr) (ha : a.length = n.length) (hb : b.length = n.length)
    (han : val a < val n) (hbn : val b < val n) :
    val (addMod n a b) = (val a + val b) % val n ∧
      val (subMod n a b) = (val a + (val n - val b)) % val n :=
  ⟨(addMod_spec n a b ha hb (by omega)).2, (subMod_spec n a b ha hb han hbn).2⟩

example : (add [0xFFFFFFFFFFFFFFFF, 0xFFFFFFFFFFFFFFFF] [1, 0]) = ([0, 0], 1) := by decide
example : (sub [0, 1] [1, 0]) = ([0xFFFFFFFFFFFFFFFF, 0], 0) := by decide
example : ltMask [5, 1] [3, 2] = 0xFFFFFFFFFFFFFFFF := by
  rw [(C67_compare [5, 1] [3, 2] rfl).1]; decide
example : val (mulFull (List.replicate 64 0xFFFFFFFFFFFFFFFF) (List.replicate 64 0xFFFFFFFFFFFFFFFF)) =
    val (List.replicate 64 0xFFFFFFFFFFFFFFFF) * val (List.replicate 64 0xFFFFFFFFFFFFFFFF) :=
  (C67_mul _ _ rfl).2
example : val (subMod [7] [3] [5]) = 5 := by
  rw [(C67_add_sub_mod [7] [3] [5] rfl rfl (by decide) (by decide)).2]; decide

/-! ## C68: reduction and exponentiation -/

/-- The condition the modulus has to meet. -/
def OddMod (n : Arr) : Prop := val n % 2 = 1 ∧ 1 < val n

instance (n : Arr) : Decidable (OddMod n) := inferInstanceAs (Decidable (_ ∧ _))

theorem OddMod.good {n : Arr} (h : OddMod n) : Hacl.GoodMod n.length (val n) := ⟨h.1, h.2, val_lt n⟩

theorem OddMod.ctx {n : Arr} (h : OddMod n) (hl : n.length ≤ 2 ^ 24) : (ctxInit n).Good :=
  ctxInit_good n h.good (by omega)

theorem OddMod.pos {n : Arr} (h : OddMod n) : 0 < n.length := GoodMod.length_pos h.good

/-- `mod_precomp` reduces every number of twice the length of the modulus. -/
theorem C68_mod_precomp (n a : Arr) (hn : OddMod n) (hl : n.length ≤ 2 ^ 24)
    (ha : a.length = n.length + n.length) :
    (modPrecomp (ctxInit n) a).length = n.length ∧ val (modPrecomp (ctxInit n) a) = val a % val n := by
  have hg := hn.ctx hl
  obtain ⟨r1, r2⟩ := areduction_val n a (ctxInit n).mu ha
  obtain ⟨t1, t2⟩ := toMont_val (ctxInit n) hg (areduction n (ctxInit n).mu a) r1
  refine ⟨t1, ?_⟩
  have hlt : val a < Hacl.R n.length * Hacl.R n.length := by
    have := val_lt a
    rw [ha] at this
    unfold Hacl.R
    rwa [← pow_add, ← Nat.mul_add]
  have := Hacl.modPrecomp_eq hg.good (val a) hlt
  unfold modPrecomp
  refine Eq.trans ?_ this
  refine Eq.trans t2 ?_
  rw [r2]
  rfl

/-- `mod` succeeds exactly if the modulus is odd and greater than one. -/
theorem C68_mod (n a : Arr) (h0 : 0 < n.length) (hl : n.length ≤ 2 ^ 24)
    (ha : a.length = n.length + n.length) :
    ((mod n a).1 = true ↔ OddMod n) ∧ (OddMod n → val (mod n a).2 = val a % val n) ∧
      (¬OddMod n → (mod n a).2 = List.replicate n.length 0) := by
  unfold mod
  rw [modCheck_eq n h0, checked_mask]
  by_cases h : OddMod n
  · have h' := h
    unfold OddMod at h'
    rw [if_pos h']
    exact ⟨by simp [h], fun _ => (C68_mod_precomp n a h hl ha).2, fun hh => absurd h hh⟩
  · have h' := h
    unfold OddMod at h'
    rw [if_neg h']
    exact ⟨by simp [h], fun hh => absurd hh h, fun _ => rfl⟩

/-- `mod_exp_vartime_precomp` is the modular power.  `bBits` bounds the bits of the exponent. -/
theorem C68_exp_vartime (n a b : Arr) (bBits : ℕ) (hn : OddMod n) (hl : n.length ≤ 2 ^ 24)
    (ha : a.length = n.length) (hb : bBits ≤ 64 * b.length) (hlt : val b < 2 ^ bBits) :
    (modExpVartime (ctxInit n) a bBits b).length = n.length ∧
      val (modExpVartime (ctxInit n) a bBits b) = val a ^ val b % val n := by
  have hg := hn.ctx hl
  have e := Hacl.modExpPrecomp_eq hg.good (val a) bBits (val b) (val_ltR (ctxInit n) a ha) hlt
  unfold Hacl.modExpPrecomp at e
  unfold modExpVartime
  split_ifs with h
  · rw [if_pos h] at e
    obtain ⟨h1, h2⟩ := expBinary_val (ctxInit n) hg a b bBits ha hb
    exact ⟨h1, h2.trans e⟩
  · rw [if_neg h] at e
    obtain ⟨h1, h2⟩ := expWindow_val (ctxInit n) hg lookVartime
      (fun aM one _ _ w hw => lookVartime_eq _ aM one w hw) a b bBits ha hb
    exact ⟨h1, h2.trans e⟩

/-- `mod_exp_consttime_precomp` is the modular power too, with the Montgomery ladder (fewer than 200 bits)
and with the table that is read as a whole. -/
theorem C68_exp_consttime (n a b : Arr) (bBits : ℕ) (hn : OddMod n) (hl : n.length ≤ 2 ^ 24)
    (ha : a.length = n.length) (hb : bBits ≤ 64 * b.length) (hlt : val b < 2 ^ bBits) :
    (modExpConsttime (ctxInit n) a bBits b).length = n.length ∧
      val (modExpConsttime (ctxInit n) a bBits b) = val a ^ val b % val n := by
  have hg := hn.ctx hl
  have e := Hacl.modExpPrecomp_eq hg.good (val a) bBits (val b) (val_ltR (ctxInit n) a ha) hlt
  unfold Hacl.modExpPrecomp at e
  unfold modExpConsttime
  split_ifs with h
  · exact expLadder_val (ctxInit n) hg a b bBits ha hb hlt
  · rw [if_neg h] at e
    obtain ⟨h1, h2⟩ := expWindow_val (ctxInit n) hg lookConsttime
      (fun aM one h1 h2 w hw => lookConsttime_eq _ aM one h1 h2 w hw) a b bBits ha hb
    exact ⟨h1, h2.trans e⟩

/-- The constant-time and the variable-time functions return the same limbs. -/
theorem C68_exp_same (n a b : Arr) (bBits : ℕ) (hn : OddMod n) (hl : n.length ≤ 2 ^ 24)
    (ha : a.length = n.length) (hb : bBits ≤ 64 * b.length) (hlt : val b < 2 ^ bBits) :
    modExpConsttime (ctxInit n) a bBits b = modExpVartime (ctxInit n) a bBits b := by
  obtain ⟨h1, h2⟩ := C68_exp_vartime n a b bBits hn hl ha hb hlt
  obtain ⟨h3, h4⟩ := C68_exp_consttime n a b bBits hn hl ha hb hlt
  exact val_inj _ _ (by rw [h1, h3]) (by rw [h2, h4])

/-- What the exponentiation functions require. -/
def ExpArgs (n a : Arr) (bBits : ℕ) (b : Arr) : Prop :=
  OddMod n ∧ val b < 2 ^ bBits ∧ val a < val n

/-- `mod_exp_vartime` and `mod_exp_consttime` return `true` exactly if the documented preconditions hold,
and then the power; they return zero otherwise. -/
theorem C68_exp_checked (n a b : Arr) (bBits : ℕ) (h0 : 0 < n.length) (hl : n.length ≤ 2 ^ 24)
    (ha : a.length = n.length) (hb : b.length = bLen bBits) :
    (((modExpVartimeChecked n a bBits b).1 = true ↔ ExpArgs n a bBits b) ∧
      ((modExpConsttimeChecked n a bBits b).1 = true ↔ ExpArgs n a bBits b)) ∧
    (ExpArgs n a bBits b →
      val (modExpVartimeChecked n a bBits b).2 = val a ^ val b % val n ∧
        val (modExpConsttimeChecked n a bBits b).2 = val a ^ val b % val n) ∧
    (¬ExpArgs n a bBits b →
      val (modExpVartimeChecked n a bBits b).2 = 0 ∧ val (modExpConsttimeChecked n a bBits b).2 = 0) := by
  unfold modExpVartimeChecked modExpConsttimeChecked
  rw [expCheck_eq n a b bBits h0 ha hb, checked_mask, checked_mask]
  have hbl := (bLen_pos bBits).1
  by_cases h : ExpArgs n a bBits b
  · have h' := h
    unfold ExpArgs OddMod at h'
    rw [if_pos h', if_pos h']
    refine ⟨by simp [h], fun _ => ⟨?_, ?_⟩, fun hh => absurd h hh⟩
    · exact (C68_exp_vartime n a b bBits h.1 hl ha (by omega) h.2.1).2
    · exact (C68_exp_consttime n a b bBits h.1 hl ha (by omega) h.2.1).2
  · have h' := h
    unfold ExpArgs OddMod at h'
    rw [if_neg h', if_neg h']
    exact ⟨by simp [h], fun hh => absurd hh h, fun _ => ⟨val_replicate _, val_replicate _⟩⟩

/-- `mod_inv_prime_vartime` returns `true` exactly if `0 < a < n` and `n` is odd and greater than one;
for a prime modulus the result is then the inverse. -/
theorem C68_inverse (n a : Arr) (h0 : 0 < n.length) (hl : n.length ≤ 2 ^ 24) (ha : a.length = n.length) :
    ((modInvPrime n a).1 = true ↔ OddMod n ∧ 0 < val a ∧ val a < val n) ∧
      ((val n).Prime → OddMod n → 0 < val a → val a < val n →
        val a * val (modInvPrime n a).2 % val n = 1 ∧ val (modInvPrime n a).2 < val n) := by
  unfold modInvPrime
  dsimp only
  have hz : a = List.replicate n.length 0 ↔ val a = 0 := by
    constructor
    · intro h; rw [h]; exact val_replicate _
    · intro h; exact val_inj _ _ (by simp [ha]) (by rw [h, val_replicate])
  have hiff : (((val n % 2 = 1 ∧ 1 < val n) ∧ ¬a = List.replicate n.length 0) ∧ val a < val n) ↔
      OddMod n ∧ 0 < val a ∧ val a < val n := by
    rw [hz]; unfold OddMod
    constructor
    · rintro ⟨⟨h1, h2⟩, h3⟩; exact ⟨h1, by omega, h3⟩
    · rintro ⟨h1, h2, h3⟩; exact ⟨⟨h1, by omega⟩, h3⟩
  rw [modCheck_eq n h0, eqMask_eq a _ (by simp [ha]), maskOf_not, ltMask_eq a n ha, maskOf_and, maskOf_and,
    checked_mask]
  refine ⟨?_, ?_⟩
  · rw [← hiff]
    by_cases h : ((val n % 2 = 1 ∧ 1 < val n) ∧ ¬a = List.replicate n.length 0) ∧ val a < val n
    · rw [if_pos h]; simp [h]
    · rw [if_neg h]
      constructor
      · intro hf; exact absurd hf (by simp)
      · intro hh; exact absurd hh h
  · intro hp hodd hpos hlt
    rw [if_pos (hiff.2 ⟨hodd, hpos, hlt⟩)]
    -- the exponent
    have h2len : (2 :: List.replicate (n.length - 1) (0 : UInt64)).length = n.length := by simp; omega
    have h2val : val (2 :: List.replicate (n.length - 1) (0 : UInt64)) = 2 := by
      rw [val, val_replicate]; rfl
    have hn3 : 2 < val n := by have := hodd.1; have := hodd.2; omega
    obtain ⟨s1, hs⟩ := C67_sub n (2 :: List.replicate (n.length - 1) (0 : UInt64)) h2len.symm
    rw [h2val] at hs
    have hexp : val (sub n (2 :: List.replicate (n.length - 1) 0)).1 = val n - 2 := by
      rcases hs with ⟨-, -, h⟩ | ⟨h, -⟩
      · exact h
      · omega
    obtain ⟨-, e2⟩ := C68_exp_vartime n a (sub n (2 :: List.replicate (n.length - 1) 0)).1 (64 * n.length)
      hodd hl ha (by rw [s1]) (by
        have hv := val_lt (sub n (2 :: List.replicate (n.length - 1) 0)).1
        rwa [s1] at hv)
    dsimp only
    rw [e2, hexp]
    refine ⟨?_, Nat.mod_lt _ (by omega)⟩
    have : Fact (val n).Prime := ⟨hp⟩
    have hne : ((val a : ℕ) : ZMod (val n)) ≠ 0 := by
      intro h
      rw [ZMod.natCast_eq_zero_iff] at h
      exact absurd (Nat.le_of_dvd hpos h) (by omega)
    have hf := ZMod.pow_card_sub_one_eq_one hne
    have : ((val a * (val a ^ (val n - 2) % val n) : ℕ) : ZMod (val n)) = ((1 : ℕ) : ZMod (val n)) := by
      rw [Nat.cast_mul, ZMod.natCast_mod, Nat.cast_pow, ← pow_succ', show val n - 2 + 1 = val n - 1 by omega, hf,
        Nat.cast_one]
    have h1 := (ZMod.natCast_eq_natCast_iff' _ _ _).1 this
    rw [h1, Nat.mod_eq_of_lt (by omega)]

theorem oddMod_7 : OddMod [7] := by decide

example : val (modExpVartime (ctxInit [7]) [3] 64 [5]) = 5 := by
  rw [(C68_exp_vartime [7] [3] [5] 64 oddMod_7 (by norm_num) rfl (by norm_num) (by decide)).2]; decide
example : val (modExpConsttime (ctxInit [7]) [3] 256 [5, 0, 0, 0]) = 5 := by
  rw [(C68_exp_consttime [7] [3] [5, 0, 0, 0] 256 oddMod_7 (by norm_num) rfl (by norm_num)
    (by decide)).2]; decide
example : (modExpVartimeChecked [7] [7] 64 [5]).1 = false := by
  have h := (C68_exp_checked [7] [7] [5] 64 (by norm_num) (by norm_num) rfl rfl).1.1
  rw [Bool.eq_false_iff]
  intro hc
  have hh := (h.1 hc).2.2
  exact absurd hh (lt_irrefl _)
example : val [3] * val (modInvPrime [7] [3]).2 % val [7] = 1 :=
  ((C68_inverse [7] [3] (by norm_num) (by norm_num) rfl).2 (by rw [show val [7] = 7 from by decide]; norm_num) oddMod_7
    (by decide) (by decide)).1
example : (mod [8] [3, 0]).1 = false := by
  have h := (C68_mod [8] [3, 0] (by norm_num) (by norm_num) rfl).1
  rw [Bool.eq_false_iff]
  intro hc
  exact absurd (h.1 hc) (by decide)

/-! ## C69: bytes -/

/-- `new_bn_from_bytes_be` reads the number that the bytes are in base 256, most significant byte
first, for any number of bytes; there is no result exactly if there are no bytes or far too many. -/
theorem C69_from_bytes (b : List UInt8) (h0 : b ≠ []) (hmax : b.length ≤ 4294967288) :
    ∃ r, fromBytesBE b = some r ∧ r.length = (b.length - 1) / 8 + 1 ∧
      val r = Nat.ofDigits 256 (b.reverse.map UInt8.toNat) := by
  have hpos : 0 < b.length := List.length_pos_iff.2 h0
  unfold fromBytesBE
  dsimp only
  rw [if_neg (by omega)]
  refine ⟨_, rfl, by simp, ?_⟩
  rw [limbs_of_bytes _ _ (by simp; omega), ofBytesBE_zeros, ofBytesBE_digits]

/-- Nothing is read from no bytes, or from more bytes than the library allows. -/
theorem C69_from_bytes_none (b : List UInt8) :
    fromBytesBE b = none ↔ b = [] ∨ 4294967288 < b.length := by
  unfold fromBytesBE
  dsimp only
  split_ifs with h
  · simp only [true_iff]
    rcases h with h | h
    · left; exact List.length_eq_zero_iff.1 h
    · right; omega
  · simp only [false_iff]
    rintro (h' | h')
    · exact h (Or.inl (by rw [h']; rfl))
    · exact h (Or.inr (by omega))

/-- `bn_to_bytes_be` writes eight bytes per limb, and they denote the number. -/
theorem C69_to_bytes (a : Arr) :
    (toBytesBE a).length = 8 * a.length ∧
      Nat.ofDigits 256 ((toBytesBE a).reverse.map UInt8.toNat) = val a := by
  obtain ⟨h1, h2⟩ := toBytesBE_val a
  exact ⟨h1, by rw [← ofBytesBE_digits, h2]⟩

/-- Writing and reading gives the same limbs. -/
theorem C69_round_trip (a : Arr) (h0 : a ≠ []) (hmax : a.length ≤ 536870911) :
    fromBytesBE (toBytesBE a) = some a := by
  obtain ⟨h1, h2⟩ := C69_to_bytes a
  have hpos : 0 < a.length := List.length_pos_iff.2 h0
  obtain ⟨r, hr, hl, hv⟩ := C69_from_bytes (toBytesBE a)
    (by intro h; rw [h] at h1; rw [List.length_nil] at h1; omega) (by omega)
  rw [hr]
  congr 1
  exact val_inj _ _ (by rw [hl, h1]; omega) (by rw [hv, h2])

example : fromBytesBE [1, 2, 3, 4, 5, 6, 7, 8, 9] = some [0x0203040506070809, 1] := by decide
example : toBytesBE [0x0203040506070809, 1] = [0, 0, 0, 0, 0, 0, 0, 1, 2, 3, 4, 5, 6, 7, 8, 9] := by decide
example : ∃ r, fromBytesBE (List.replicate 512 0xFF) = some r ∧ r.length = 64 := by
  obtain ⟨r, h, hl, -⟩ := C69_from_bytes (List.replicate 512 0xFF)
    (by intro h; have := congrArg List.length h; rw [List.length_replicate] at this; exact absurd this (by decide))
    (by rw [List.length_replicate]; norm_num)
  exact ⟨r, h, by rw [hl, List.length_replicate]⟩

end EG.Limbs
