import Verif.Lemmas.LimbsExp
import Verif.Lemmas.Convert
import Mathlib.Data.Nat.Digits.Defs

/-!
# Limb loops: the checks of the arguments, and bytes
-/

namespace EG.Limbs

/-- A mask: all ones or zero. -/
def maskOf (p : Prop) [Decidable p] : UInt64 := if p then 0xFFFFFFFFFFFFFFFF else 0

theorem maskOf_and (p q : Prop) [Decidable p] [Decidable q] :
    maskOf p &&& maskOf q = maskOf (p ∧ q) := by
  unfold maskOf
  by_cases hp : p <;> by_cases hq : q <;> simp only [hp, hq] <;> decide

theorem maskOf_not (p : Prop) [Decidable p] : ~~~(maskOf p) = maskOf (¬p) := by
  unfold maskOf
  by_cases hp : p <;> simp only [hp] <;> decide

theorem maskOf_eq (p : Prop) [Decidable p] : maskOf p = 0xFFFFFFFFFFFFFFFF ↔ p := by
  unfold maskOf
  by_cases hp : p <;> simp only [hp] <;> decide

theorem ltMask_eq (a b : Arr) (h : a.length = b.length) : ltMask a b = maskOf (val a < val b) := by
  unfold ltMask maskOf
  rw [ltLoop_spec a b 0 h (Or.inl rfl)]
  split_ifs <;> rfl

theorem eqMask_eq (a b : Arr) (h : a.length = b.length) : eqMask a b = maskOf (a = b) := by
  unfold eqMask maskOf
  rw [eqLoop_spec a b _ h (Or.inr rfl)]

theorem oneArr_spec (k : ℕ) (hk : 0 < k) : (oneArr k).length = k ∧ val (oneArr k) = 1 := by
  unfold oneArr
  refine ⟨by simp; omega, ?_⟩
  rw [val, val_replicate]
  rfl

theorem limb0_odd (n : Arr) (hn : 0 < n.length) : (n.getD 0 0).toNat % 2 = val n % 2 := by
  rw [getD_val n 0 hn]
  omega

theorem modCheck_eq (n : Arr) (hn : 0 < n.length) :
    modCheck n = maskOf (val n % 2 = 1 ∧ 1 < val n) := by
  unfold modCheck
  obtain ⟨o1, o2⟩ := oneArr_spec n.length hn
  rw [ltMask_eq _ _ o1, o2]
  have h0 := limb0_odd n hn
  have e : 0 - (n.getD 0 0 &&& 1) = maskOf (val n % 2 = 1) := by
    rcases and_one_cases (n.getD 0 0) with ⟨h, h'⟩ | ⟨h, h'⟩
    · rw [h', mask_zero, maskOf, if_neg (by omega)]
    · rw [h', mask_one, maskOf, if_pos (by omega)]
  rw [e, maskOf_and]

theorem bLen_pos (bBits : ℕ) : bBits ≤ 64 * bLen bBits ∧ 0 < bLen bBits := by
  unfold bLen
  split_ifs <;> omega

theorem pow_arr (len bBits : ℕ) (h : bBits < 64 * len) :
    (splice (List.replicate len 0) (bBits / 64) [(0 : UInt64) ||| 1 <<< UInt64.ofNat (bBits % 64)]).length =
        len ∧
      val (splice (List.replicate len 0) (bBits / 64) [(0 : UInt64) ||| 1 <<< UInt64.ofNat (bBits % 64)]) =
        2 ^ bBits := by
  have hq : bBits / 64 < len := by omega
  have hm : bBits % 64 < 64 := Nat.mod_lt _ (by norm_num)
  have e : bBits = 64 * (bBits / 64) + bBits % 64 := by omega
  generalize bBits / 64 = t at *
  generalize bBits % 64 = j at *
  have hrep : List.replicate len (0 : UInt64) =
      List.replicate t 0 ++ [0] ++ List.replicate (len - (t + 1)) 0 := by
    have h1 : len = t + (1 + (len - (t + 1))) := by omega
    conv_lhs => rw [h1, List.replicate_add, List.replicate_add]
    rw [List.append_assoc]
    rfl
  rw [hrep, splice_one _ _ _ _ t (by simp)]
  refine ⟨by simp; omega, ?_⟩
  rw [val_append, val_append, val_replicate, val_replicate, val_singleton, List.length_replicate,
    UInt64.zero_or, shl_toNat _ _ hm, show (1 : UInt64).toNat = 1 from rfl, Nat.one_mul,
    Nat.mod_eq_of_lt (Nat.pow_lt_pow_right (by norm_num) hm), e, pow_add]
  ring

theorem expCheck_eq (n a b : Arr) (bBits : ℕ) (hn : 0 < n.length) (ha : a.length = n.length)
    (hb : b.length = bLen bBits) :
    expCheck n a bBits b =
      maskOf ((val n % 2 = 1 ∧ 1 < val n) ∧ val b < 2 ^ bBits ∧ val a < val n) := by
  unfold expCheck
  dsimp only
  rw [modCheck_eq n hn, ltMask_eq a n ha]
  have hlen := bLen_pos bBits
  have hm1 : (if bBits < 64 * bLen bBits then
      ltMask b (splice (List.replicate (bLen bBits) 0) (bBits / 64)
        [(0 : UInt64) ||| 1 <<< UInt64.ofNat (bBits % 64)])
      else 0xFFFFFFFFFFFFFFFF) = maskOf (val b < 2 ^ bBits) := by
    split_ifs with h
    · obtain ⟨p1, p2⟩ := pow_arr (bLen bBits) bBits h
      rw [ltMask_eq _ _ (by rw [hb, p1]), p2]
    · have : val b < 2 ^ bBits := by
        have := val_lt b
        rwa [hb, show 64 * bLen bBits = bBits by omega] at this
      rw [maskOf, if_pos this]
  rw [hm1, maskOf_and, maskOf_and]

theorem checked_mask (p : Prop) [Decidable p] (k : ℕ) (r : Arr) :
    checked (maskOf p) k r = if p then (true, r) else (false, List.replicate k 0) := by
  unfold checked
  by_cases h : p
  · rw [if_pos ((maskOf_eq p).2 h), if_pos h]
  · rw [if_neg (fun hh => h ((maskOf_eq p).1 hh)), if_neg h]

/-! ## Bytes -/

theorem load_step (acc : UInt64) (b : UInt8) (h : acc.toNat < 2 ^ 56) :
    (acc <<< 8 ||| b.toUInt64).toNat = acc.toNat * 256 + b.toNat := by
  have e : (acc <<< (8 : UInt64)).toNat = acc.toNat * 256 := by
    rw [UInt64.toNat_shiftLeft, Nat.shiftLeft_eq]
    have : (8 : UInt64).toNat % 64 = 8 := by decide
    rw [this]
    omega
  rw [UInt64.toNat_or, e, UInt8.toNat_toUInt64]
  have hb := b.toNat_lt
  have := Nat.two_pow_add_eq_or_of_lt (b := b.toNat) (i := 8) (by omega) acc.toNat
  rw [show acc.toNat * 256 = 2 ^ 8 * acc.toNat by ring, ← this]

theorem load_foldl (bs : List UInt8) (acc : UInt64) (k : ℕ) (h : acc.toNat < 256 ^ k)
    (hk : k + bs.length ≤ 8) :
    (bs.foldl (fun (acc : UInt64) b => acc <<< 8 ||| b.toUInt64) acc).toNat =
      acc.toNat * 256 ^ bs.length + ofBytesBE bs := by
  induction bs generalizing acc k with
  | nil => simp [ofBytesBE, ofBytesLE]
  | cons b bs ih =>
    have h56 : acc.toNat < 2 ^ 56 := by
      have : 256 ^ k ≤ 256 ^ 7 := Nat.pow_le_pow_right (by norm_num) (by simp at hk; omega)
      have e : (256 : ℕ) ^ 7 = 2 ^ 56 := by norm_num
      omega
    rw [List.foldl_cons, ih _ (k + 1) (by
      rw [load_step acc b h56, pow_succ]
      have := b.toNat_lt
      omega) (by simp at hk; omega), load_step acc b h56, ofBytesBE_cons, List.length_cons, pow_succ]
    ring

theorem load64be_eq (bs : List UInt8) (h : bs.length ≤ 8) : (load64be bs).toNat = ofBytesBE bs := by
  unfold load64be
  rw [load_foldl bs 0 0 (by simp) (by omega)]
  simp

theorem ofBytesBE_append (xs ys : List UInt8) :
    ofBytesBE (xs ++ ys) = ofBytesBE xs * 256 ^ ys.length + ofBytesBE ys := by
  unfold ofBytesBE
  rw [List.reverse_append, ofBytesLE_append, List.length_reverse]
  ring

theorem ofBytesBE_zeros (n : ℕ) (bs : List UInt8) :
    ofBytesBE (List.replicate n 0 ++ bs) = ofBytesBE bs := by
  induction n with
  | zero => rfl
  | succ n ih => rw [List.replicate_succ, List.cons_append, ofBytesBE_cons_zero, ih]

/-- The limbs of a multiple of eight bytes. -/
theorem limbs_of_bytes (k : ℕ) (tmp : List UInt8) (h : tmp.length = 8 * k) :
    val ((List.range k).map fun i => load64be ((tmp.drop ((k - i - 1) * 8)).take 8)) = ofBytesBE tmp := by
  induction k generalizing tmp with
  | zero =>
    have : tmp = [] := List.length_eq_zero_iff.1 (by omega)
    subst this
    rfl
  | succ k ih =>
    -- the first eight bytes are the last limb
    obtain ⟨hd, tl, ht, h1, h2⟩ : ∃ hd tl, tmp = hd ++ tl ∧ hd.length = 8 ∧ tl.length = 8 * k :=
      ⟨tmp.take 8, tmp.drop 8, (List.take_append_drop 8 tmp).symm, by rw [List.length_take]; omega,
        by rw [List.length_drop]; omega⟩
    subst ht
    rw [List.range_succ, List.map_append, val_append, List.length_map, List.length_range, ofBytesBE_append]
    have e1 : (List.range k).map (fun i => load64be (((hd ++ tl).drop ((k + 1 - i - 1) * 8)).take 8)) =
        (List.range k).map (fun i => load64be ((tl.drop ((k - i - 1) * 8)).take 8)) := by
      apply List.map_congr_left
      intro i hi
      have hik := List.mem_range.1 hi
      congr 2
      rw [show (k + 1 - i - 1) * 8 = hd.length + (k - i - 1) * 8 by omega, ← List.drop_drop, List.drop_left]
    rw [e1, ih tl h2]
    have e2 : ((hd ++ tl).drop ((k + 1 - k - 1) * 8)).take 8 = hd := by
      rw [show (k + 1 - k - 1) * 8 = 0 by omega, List.drop_zero, ← h1, List.take_left]
    rw [List.map_cons, List.map_nil, val_singleton, e2, load64be_eq hd h1.le, h2]
    have e3 : 2 ^ (64 * k) = 256 ^ (8 * k) := by
      rw [show (256 : ℕ) = 2 ^ 8 by norm_num, ← pow_mul]; congr 1; ring
    rw [e3]
    ring

theorem store64be_eq (x : UInt64) : store64be x = EG.toBytesBE 8 x.toNat := by
  have hx := x.toNat_lt
  have sh : ∀ j : ℕ, j < 64 → ((x >>> UInt64.ofNat j).toUInt8) = UInt8.ofNat (x.toNat / 2 ^ j % 256) := by
    intro j hj
    apply UInt8.toNat_inj.1
    rw [UInt64.toNat_toUInt8, shr_toNat x j hj, UInt8.toNat_ofNat', Nat.mod_mod]
  have s0 : x.toUInt8 = UInt8.ofNat (x.toNat % 256) := by
    apply UInt8.toNat_inj.1
    rw [UInt64.toNat_toUInt8, UInt8.toNat_ofNat', Nat.mod_mod]
  have h8 := sh 8 (by norm_num)
  have h16 := sh 16 (by norm_num)
  have h24 := sh 24 (by norm_num)
  have h32 := sh 32 (by norm_num)
  have h40 := sh 40 (by norm_num)
  have h48 := sh 48 (by norm_num)
  have h56 := sh 56 (by norm_num)
  unfold store64be EG.toBytesBE
  change [(x >>> UInt64.ofNat 56).toUInt8, (x >>> UInt64.ofNat 48).toUInt8, (x >>> UInt64.ofNat 40).toUInt8,
    (x >>> UInt64.ofNat 32).toUInt8, (x >>> UInt64.ofNat 24).toUInt8, (x >>> UInt64.ofNat 16).toUInt8,
    (x >>> UInt64.ofNat 8).toUInt8, x.toUInt8] = _
  rw [h8, h16, h24, h32, h40, h48, h56, s0]
  simp only [toBytesLE, List.reverse_cons, List.reverse_nil, List.nil_append, List.cons_append,
    Nat.div_div_eq_div_mul]
  norm_num only

theorem toBytesBE_val (b : Arr) :
    (toBytesBE b).length = 8 * b.length ∧ ofBytesBE (toBytesBE b) = val b := by
  unfold toBytesBE
  induction b with
  | nil => exact ⟨rfl, rfl⟩
  | cons x b ih =>
    have e : (List.range (x :: b).length).flatMap
          (fun i => store64be ((x :: b).getD ((x :: b).length - i - 1) 0)) =
        (List.range b.length).flatMap (fun i => store64be (b.getD (b.length - i - 1) 0)) ++ store64be x := by
      rw [List.length_cons, List.range_succ, List.flatMap_append]
      congr 1
      · rw [List.flatMap_congr]
        intro i hi
        have hi' := List.mem_range.1 hi
        rw [show b.length + 1 - i - 1 = (b.length - i - 1) + 1 by omega, List.getD_cons_succ]
      · rw [List.flatMap_cons, List.flatMap_nil, List.append_nil,
          show b.length + 1 - b.length - 1 = 0 by omega, List.getD_cons_zero]
    rw [e, List.length_append, ofBytesBE_append, ih.1, ih.2, store64be_eq, toBytesBE_length,
      ofBytesBE_toBytesBE, List.length_cons, val]
    have hx := x.toNat_lt
    rw [show (256 : ℕ) ^ 8 = 2 ^ 64 by norm_num, Nat.mod_eq_of_lt hx]
    constructor <;> ring

theorem ofBytesBE_digits (bs : List UInt8) :
    ofBytesBE bs = Nat.ofDigits 256 (bs.reverse.map UInt8.toNat) := by
  unfold ofBytesBE
  generalize bs.reverse = l
  induction l with
  | nil => rfl
  | cons b l ih => rw [ofBytesLE, List.map_cons, Nat.ofDigits_cons, ih]

end EG.Limbs
