import Verif.Lemmas.Limbs32Exp

/-!
# Limb loops with 32-bit limbs: the checks of the arguments
-/

namespace EG.Limbs32

/-- A mask: all ones or zero. -/
def maskOf (p : Prop) [Decidable p] : UInt32 := if p then 0xFFFFFFFF else 0

theorem maskOf_and (p q : Prop) [Decidable p] [Decidable q] :
    maskOf p &&& maskOf q = maskOf (p ∧ q) := by
  unfold maskOf
  by_cases hp : p <;> by_cases hq : q <;> simp only [hp, hq] <;> decide

theorem maskOf_not (p : Prop) [Decidable p] : ~~~(maskOf p) = maskOf (¬p) := by
  unfold maskOf
  by_cases hp : p <;> simp only [hp] <;> decide

theorem maskOf_eq (p : Prop) [Decidable p] : maskOf p = 0xFFFFFFFF ↔ p := by
  unfold maskOf
  by_cases hp : p <;> simp only [hp] <;> decide

theorem ltMask_eq (a b : Arr) (h : a.length = b.length) : ltMask a b = maskOf (val a < val b) := by
  unfold ltMask maskOf
  rw [ltLoop_spec a b 0 h (Or.inl rfl)]
  split_ifs <;> rfl

theorem eqMask_eq (a b : Arr) (h : a.length = b.length) : eqMask a b = maskOf (a = b) := by
  unfold eqMask maskOf
  rw [eqLoop_spec a b _ h (Or.inr rfl)]

theorem oneArr_spec (k : ℕ) (hk : 0 < k) : (oneArr k).length = k ∧ val (oneArr k) = 1 := by
  unfold oneArr
  refine ⟨by simp; omega, ?_⟩
  rw [val, val_replicate]
  rfl

theorem limb0_odd (n : Arr) (hn : 0 < n.length) : (n.getD 0 0).toNat % 2 = val n % 2 := by
  rw [getD_val n 0 hn]
  omega

theorem modCheck_eq (n : Arr) (hn : 0 < n.length) :
    modCheck n = maskOf (val n % 2 = 1 ∧ 1 < val n) := by
  unfold modCheck
  obtain ⟨o1, o2⟩ := oneArr_spec n.length hn
  rw [ltMask_eq _ _ o1, o2]
  have h0 := limb0_odd n hn
  have e : 0 - (n.getD 0 0 &&& 1) = maskOf (val n % 2 = 1) := by
    rcases and_one_cases (n.getD 0 0) with ⟨h, h'⟩ | ⟨h, h'⟩
    · rw [h', mask_zero, maskOf, if_neg (by omega)]
    · rw [h', mask_one, maskOf, if_pos (by omega)]
  rw [e, maskOf_and]

theorem bLen_pos (bBits : ℕ) : bBits ≤ 32 * bLen bBits ∧ 0 < bLen bBits := by
  unfold bLen
  split_ifs <;> omega

theorem pow_arr (len bBits : ℕ) (h : bBits < 32 * len) :
    (splice (List.replicate len 0) (bBits / 32) [(0 : UInt32) ||| 1 <<< UInt32.ofNat (bBits % 32)]).length =
        len ∧
      val (splice (List.replicate len 0) (bBits / 32) [(0 : UInt32) ||| 1 <<< UInt32.ofNat (bBits % 32)]) =
        2 ^ bBits := by
  have hq : bBits / 32 < len := by omega
  have hm : bBits % 32 < 32 := Nat.mod_lt _ (by norm_num)
  have e : bBits = 32 * (bBits / 32) + bBits % 32 := by omega
  generalize bBits / 32 = t at *
  generalize bBits % 32 = j at *
  have hrep : List.replicate len (0 : UInt32) =
      List.replicate t 0 ++ [0] ++ List.replicate (len - (t + 1)) 0 := by
    have h1 : len = t + (1 + (len - (t + 1))) := by omega
    conv_lhs => rw [h1, List.replicate_add, List.replicate_add]
    rw [List.append_assoc]
    rfl
  rw [hrep, splice_one _ _ _ _ t (by simp)]
  refine ⟨by simp; omega, ?_⟩
  rw [val_append, val_append, val_replicate, val_replicate, val_singleton, List.length_replicate,
    UInt32.zero_or, shl_toNat _ _ hm, show (1 : UInt32).toNat = 1 from rfl, Nat.one_mul,
    Nat.mod_eq_of_lt (Nat.pow_lt_pow_right (by norm_num) hm), e, pow_add]
  ring

theorem expCheck_eq (n a b : Arr) (bBits : ℕ) (hn : 0 < n.length) (ha : a.length = n.length)
    (hb : b.length = bLen bBits) :
    expCheck n a bBits b =
      maskOf ((val n % 2 = 1 ∧ 1 < val n) ∧ val b < 2 ^ bBits ∧ val a < val n) := by
  unfold expCheck
  dsimp only
  rw [modCheck_eq n hn, ltMask_eq a n ha]
  have hlen := bLen_pos bBits
  have hm1 : (if bBits < 32 * bLen bBits then
      ltMask b (splice (List.replicate (bLen bBits) 0) (bBits / 32)
        [(0 : UInt32) ||| 1 <<< UInt32.ofNat (bBits % 32)])
      else 0xFFFFFFFF) = maskOf (val b < 2 ^ bBits) := by
    split_ifs with h
    · obtain ⟨p1, p2⟩ := pow_arr (bLen bBits) bBits h
      rw [ltMask_eq _ _ (by rw [hb, p1]), p2]
    · have : val b < 2 ^ bBits := by
        have := val_lt b
        rwa [hb, show 32 * bLen bBits = bBits by omega] at this
      rw [maskOf, if_pos this]
  rw [hm1, maskOf_and, maskOf_and]

theorem checked_mask (p : Prop) [Decidable p] (k : ℕ) (r : Arr) :
    checked (maskOf p) k r = if p then (true, r) else (false, List.replicate k 0) := by
  unfold checked
  by_cases h : p
  · rw [if_pos ((maskOf_eq p).2 h), if_pos h]
  · rw [if_neg (fun hh => h ((maskOf_eq p).1 hh)), if_neg h]

end EG.Limbs32
