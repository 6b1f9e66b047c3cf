import Verif.Lemmas.Windows
import Verif.Props.LimbsGroup

/-!
# C97: the Windows build computes the same

On Windows the 4096-bit arithmetic is done by other HACL* functions, with 32-bit limbs, on the same memory.
`unix` and `windows` are the two variants of the facade.  Each theorem says that the two leave the same
64-bit limbs in memory and return the same status.
-/

namespace EG.Win

open Limbs (Arr)

/-- `add` and `sub`, with carry and borrow, for all operands of the same length. -/
theorem C97_add_sub (a b : Arr) (h : a.length = b.length) :
    windows.add a b = unix.add a b ∧ windows.sub a b = unix.sub a b := by
  have hs : (split a).length = (split b).length := by rw [split_length, split_length, h]
  have ha := Limbs.val_lt a
  constructor
  · obtain ⟨a1, a2, a3⟩ := Limbs.add_spec a b h
    obtain ⟨b1, b2, b3⟩ := Limbs32.add_spec (split a) (split b) hs
    rw [split_length] at b1
    rw [split_length, split_val, split_val, bits_eq] at b3
    have v1 := Limbs.val_lt (Limbs.add a b).1
    have v2 := Limbs32.val_lt (Limbs32.add (split a) (split b)).1
    rw [a1] at v1
    rw [b1, bits_eq] at v2
    have hc : (Limbs32.add (split a) (split b)).2.toNat = (Limbs.add a b).2.toNat := by
      generalize 2 ^ (64 * a.length) = P at *
      rcases Nat.le_one_iff_eq_zero_or_eq_one.1 a2 with h1 | h1 <;>
        rcases Nat.le_one_iff_eq_zero_or_eq_one.1 b2 with h2 | h2 <;> rw [h1] at a3 ⊢ <;> rw [h2] at b3 ⊢ <;>
        omega
    refine Prod.ext ?_ (toUInt64_eq _ _ hc)
    refine join_eq _ _ (b1.trans (congrArg (2 * ·) a1.symm)) ?_
    rw [hc] at b3
    show Limbs32.val (Limbs32.add (split a) (split b)).1 = Limbs.val (Limbs.add a b).1
    omega
  · obtain ⟨a1, a2, a3⟩ := Limbs.sub_spec a b h
    obtain ⟨b1, b2, b3⟩ := Limbs32.sub_spec (split a) (split b) hs
    rw [split_length] at b1
    rw [split_length, split_val, split_val, bits_eq] at b3
    have v1 := Limbs.val_lt (Limbs.sub a b).1
    have v2 := Limbs32.val_lt (Limbs32.sub (split a) (split b)).1
    rw [a1] at v1
    rw [b1, bits_eq] at v2
    have hc : (Limbs32.sub (split a) (split b)).2.toNat = (Limbs.sub a b).2.toNat := by
      generalize 2 ^ (64 * a.length) = P at *
      rcases Nat.le_one_iff_eq_zero_or_eq_one.1 a2 with h1 | h1 <;>
        rcases Nat.le_one_iff_eq_zero_or_eq_one.1 b2 with h2 | h2 <;> rw [h1] at a3 ⊢ <;> rw [h2] at b3 ⊢ <;>
        omega
    refine Prod.ext ?_ (toUInt64_eq _ _ hc)
    refine join_eq _ _ (b1.trans (congrArg (2 * ·) a1.symm)) ?_
    rw [hc] at b3
    show Limbs32.val (Limbs32.sub (split a) (split b)).1 = Limbs.val (Limbs.sub a b).1
    omega

/-- `mul`, for all operands of the same length. -/
theorem C97_mul (a b : Arr) (h : a.length = b.length) : windows.mul a b = unix.mul a b := by
  obtain ⟨a1, a2⟩ := Limbs.mulFull_spec a b h
  obtain ⟨b1, b2⟩ := Limbs32.mulFull_spec (split a) (split b) (by rw [split_length, split_length, h])
  rw [split_length, split_length] at b1
  rw [split_val, split_val] at b2
  refine join_eq _ _ (b1.trans ?_) (b2.trans a2.symm)
  show _ = 2 * (Limbs.mulFull a b).length
  omega

/-- `mod` with a context, for every odd modulus greater than one. -/
theorem C97_mod_context (n a : Arr) (hn : Limbs.OddMod n) (hl : n.length ≤ 2 ^ 23)
    (ha : a.length = n.length + n.length) : windows.modCtx n a = unix.modCtx n a := by
  obtain ⟨a1, a2⟩ := Limbs.C68_mod_precomp n a hn (by omega) ha
  obtain ⟨b1, b2⟩ := Limbs32.modPrecomp_spec (split n) (split a) ((oddMod_split n).2 hn)
    (by rw [split_length]; omega) (by rw [split_length, split_length]; omega)
  rw [split_length] at b1
  rw [split_val, split_val] at b2
  exact join_eq _ _ (b1.trans (congrArg (2 * ·) a1.symm)) (b2.trans a2.symm)

theorem join_replicate (k : ℕ) : join (List.replicate (2 * k) 0) = List.replicate k 0 :=
  join_eq _ _ (by simp) (by rw [Limbs32.val_replicate, Limbs.val_replicate])

/-- `mod` with the modulus as argument: the same result and the same status, for every modulus. -/
theorem C97_mod (n a : Arr) (h0 : 0 < n.length) (hl : n.length ≤ 2 ^ 23)
    (ha : a.length = n.length + n.length) : windows.mod n a = unix.mod n a := by
  show ((Limbs32.mod (split n) (split a)).1, join (Limbs32.mod (split n) (split a)).2) = Limbs.mod n a
  unfold Limbs32.mod Limbs.mod
  rw [Limbs.modCheck_eq n h0, Limbs32.modCheck_eq (split n) (by rw [split_length]; omega),
    Limbs.checked_mask, Limbs32.checked_mask, split_length]
  simp only [split_val]
  by_cases h : Limbs.val n % 2 = 1 ∧ 1 < Limbs.val n
  · rw [if_pos h, if_pos h]
    exact Prod.ext rfl (C97_mod_context n a h hl ha)
  · rw [if_neg h, if_neg h]
    exact Prod.ext rfl (join_replicate _)

/-- `modExp` with a context, in constant time or not: the same power. -/
theorem C97_mod_exp_context (ct : Bool) (n a b : Arr) (bBits : ℕ) (hn : Limbs.OddMod n)
    (hl : n.length ≤ 2 ^ 23) (ha : a.length = n.length) (hb : bBits ≤ 64 * b.length)
    (hlt : Limbs.val b < 2 ^ bBits) :
    windows.modExpCtx ct n a bBits b = unix.modExpCtx ct n a bBits b := by
  have hn' := (oddMod_split n).2 hn
  have l1 : (split n).length ≤ 2 ^ 24 := by rw [split_length]; omega
  have l2 : (split a).length = (split n).length := by rw [split_length, split_length, ha]
  have l3 : bBits ≤ 32 * (split b).length := by rw [split_length]; omega
  have l4 : Limbs32.val (split b) < 2 ^ bBits := by rw [split_val]; exact hlt
  cases ct
  · obtain ⟨a1, a2⟩ := Limbs.C68_exp_vartime n a b bBits hn (by omega) ha hb hlt
    obtain ⟨b1, b2⟩ := Limbs32.modExpVartime_spec (split n) (split a) (split b) bBits hn' l1 l2 l3 l4
    rw [split_length] at b1
    rw [split_val, split_val, split_val] at b2
    exact join_eq _ _ (b1.trans (congrArg (2 * ·) a1.symm)) (b2.trans a2.symm)
  · obtain ⟨a1, a2⟩ := Limbs.C68_exp_consttime n a b bBits hn (by omega) ha hb hlt
    obtain ⟨b1, b2⟩ := Limbs32.modExpConsttime_spec (split n) (split a) (split b) bBits hn' l1 l2 l3 l4
    rw [split_length] at b1
    rw [split_val, split_val, split_val] at b2
    exact join_eq _ _ (b1.trans (congrArg (2 * ·) a1.symm)) (b2.trans a2.symm)

/-- A longer exponent is cut off in the same way if `bBits` is a multiple of four.  (`pow_mod_p` passes 512
as the number of bits of an exponent of 4096 bits.) -/
theorem C97_mod_exp_long (n a b : Arr) (bBits : ℕ) (hn : Limbs.OddMod n) (hl : n.length ≤ 2 ^ 23)
    (ha : a.length = n.length) (hb : bBits ≤ 64 * b.length) (h4 : bBits % 4 = 0) :
    windows.modExpCtx false n a bBits b = unix.modExpCtx false n a bBits b ∧
      Limbs.val (windows.modExpCtx false n a bBits b) =
        Limbs.val a ^ (Limbs.val b % 2 ^ bBits) % Limbs.val n := by
  have hg := hn.ctx (by omega : n.length ≤ 2 ^ 24)
  have hg' := ctx32 hn hl
  have l2 : (split a).length = (Limbs32.ctxInit (split n)).n.length := by
    show (split a).length = (split n).length
    rw [split_length, split_length, ha]
  have l3 : bBits ≤ 32 * (split b).length := by rw [split_length]; omega
  have ea := Hacl.modExpPrecomp_mod hg.good (Limbs.val a) bBits (Limbs.val b)
    (Limbs.val_ltR (Limbs.ctxInit n) a ha) h4
  have eb := Hacl32.modExpPrecomp_mod hg'.good (Limbs32.val (split a)) bBits (Limbs32.val (split b))
    (Limbs32.val_ltR (Limbs32.ctxInit (split n)) (split a) l2) h4
  have en : (Limbs32.ctxInit (split n)).toHacl32.n = Limbs.val n := split_val n
  rw [en, split_val, split_val] at eb
  have ua : (Limbs.modExpVartime (Limbs.ctxInit n) a bBits b).length = n.length ∧
      Limbs.val (Limbs.modExpVartime (Limbs.ctxInit n) a bBits b) =
        Limbs.val a ^ (Limbs.val b % 2 ^ bBits) % Limbs.val n := by
    unfold Hacl.modExpPrecomp at ea
    unfold Limbs.modExpVartime
    split_ifs with h
    · rw [if_pos h] at ea
      obtain ⟨h1, h2⟩ := Limbs.expBinary_val (Limbs.ctxInit n) hg a b bBits ha hb
      exact ⟨h1, h2.trans ea⟩
    · rw [if_neg h] at ea
      obtain ⟨h1, h2⟩ := Limbs.expWindow_val (Limbs.ctxInit n) hg Limbs.lookVartime
        (fun aM one _ _ w hw => Limbs.lookVartime_eq _ aM one w hw) a b bBits ha hb
      exact ⟨h1, h2.trans ea⟩
  have ub : (Limbs32.modExpVartime (Limbs32.ctxInit (split n)) (split a) bBits (split b)).length =
        (split n).length ∧
      Limbs32.val (Limbs32.modExpVartime (Limbs32.ctxInit (split n)) (split a) bBits (split b)) =
        Limbs.val a ^ (Limbs.val b % 2 ^ bBits) % Limbs.val n := by
    unfold Hacl32.modExpPrecomp at eb
    unfold Limbs32.modExpVartime
    split_ifs with h
    · rw [if_pos h] at eb
      obtain ⟨h1, h2⟩ := Limbs32.expBinary_val (Limbs32.ctxInit (split n)) hg' (split a) (split b) bBits l2 l3
      rw [split_val, split_val] at h2
      exact ⟨h1, h2.trans eb⟩
    · rw [if_neg h] at eb
      obtain ⟨h1, h2⟩ := Limbs32.expWindow_val (Limbs32.ctxInit (split n)) hg' Limbs32.lookVartime
        (fun aM one _ _ w hw => Limbs32.lookVartime_eq _ aM one w hw) (split a) (split b) bBits l2 l3
      rw [split_val, split_val] at h2
      exact ⟨h1, h2.trans eb⟩
  obtain ⟨a1, a2⟩ := ua
  obtain ⟨b1, b2⟩ := ub
  rw [split_length] at b1
  have e : windows.modExpCtx false n a bBits b = unix.modExpCtx false n a bBits b :=
    join_eq _ _ (b1.trans (congrArg (2 * ·) a1.symm)) (b2.trans a2.symm)
  exact ⟨e, by rw [e]; exact a2⟩

theorem take_val (x : Limbs32.Arr) (m : ℕ) (h : m ≤ x.length) :
    Limbs32.val (x.take m) = Limbs32.val x % 2 ^ (32 * m) := by
  have e := Limbs32.val_append (x.take m) (x.drop m)
  rw [List.take_append_drop, List.length_take, Nat.min_eq_left h] at e
  have hl := Limbs32.val_lt (x.take m)
  rw [List.length_take, Nat.min_eq_left h] at hl
  rw [e, Nat.add_mul_mod_self_left, Nat.mod_eq_of_lt hl]

/-- The value of the limbs that `modExp` reads of the exponent. -/
theorem exponent_val (b : Arr) (bBits : ℕ) (hb : Limbs.bLen bBits ≤ b.length)
    (h : Limbs.val (b.take (Limbs.bLen bBits)) < 2 ^ bBits ∨ bBits % 64 = 0 ∧ 0 < bBits ∨ 32 < bBits % 64) :
    ((split b).take (Limbs32.bLen bBits)).length = Limbs32.bLen bBits ∧
      Limbs32.val ((split b).take (Limbs32.bLen bBits)) = Limbs.val (b.take (Limbs.bLen bBits)) := by
  have hle : Limbs32.bLen bBits ≤ 2 * Limbs.bLen bBits ∧
      (bBits % 64 = 0 ∧ 0 < bBits ∨ 32 < bBits % 64 → Limbs32.bLen bBits = 2 * Limbs.bLen bBits) ∧
      bBits ≤ 32 * Limbs32.bLen bBits := by
    unfold Limbs32.bLen Limbs.bLen
    split_ifs <;> omega
  have hlen := split_length b
  refine ⟨by rw [List.length_take]; omega, ?_⟩
  rcases h with h | h
  · have e : (split b).take (Limbs32.bLen bBits) =
        (split (b.take (Limbs.bLen bBits))).take (Limbs32.bLen bBits) := by
      rw [← split_take, List.take_take, Nat.min_eq_left hle.1]
    rw [e, take_val _ _ (by rw [split_length, List.length_take]; omega), split_val,
      Nat.mod_eq_of_lt (lt_of_lt_of_le h (Nat.pow_le_pow_right (by norm_num) hle.2.2))]
  · rw [hle.2.1 h, split_take, split_val]

/-- `modExp` with the modulus as argument: the same result and the same status, for every modulus and
base, if the exponent has no more than `bBits` bits or `bBits` ends in the upper half of a limb. -/
theorem C97_mod_exp_partial (ct : Bool) (n a b : Arr) (bBits : ℕ) (h0 : 0 < n.length) (hl : n.length ≤ 2 ^ 23)
    (ha : a.length = n.length) (hb : Limbs.bLen bBits ≤ b.length)
    (h : Limbs.val (b.take (Limbs.bLen bBits)) < 2 ^ bBits ∨ bBits % 64 = 0 ∧ 0 < bBits ∨ 32 < bBits % 64) :
    windows.modExp ct n a bBits b = unix.modExp ct n a bBits b := by
  obtain ⟨el, ev⟩ := exponent_val b bBits hb h
  have e1 : (b.take (Limbs.bLen bBits)).length = Limbs.bLen bBits := by rw [List.length_take]; omega
  have b1 := (Limbs.bLen_pos bBits).1
  have b2 := (Limbs32.bLen_pos bBits).1
  have k1 := Limbs.expCheck_eq n a (b.take (Limbs.bLen bBits)) bBits h0 ha e1
  have k2 := Limbs32.expCheck_eq (split n) (split a) ((split b).take (Limbs32.bLen bBits)) bBits
    (by rw [split_length]; omega) (by rw [split_length, split_length, ha]) el
  have key : ∀ (ct : Bool) (_ : Limbs.OddMod n ∧ Limbs.val (b.take (Limbs.bLen bBits)) < 2 ^ bBits ∧
      Limbs.val a < Limbs.val n),
      join (if ct then Limbs32.modExpConsttime (Limbs32.ctxInit (split n)) (split a) bBits
          ((split b).take (Limbs32.bLen bBits))
        else Limbs32.modExpVartime (Limbs32.ctxInit (split n)) (split a) bBits
          ((split b).take (Limbs32.bLen bBits))) =
      (if ct then Limbs.modExpConsttime (Limbs.ctxInit n) a bBits (b.take (Limbs.bLen bBits))
        else Limbs.modExpVartime (Limbs.ctxInit n) a bBits (b.take (Limbs.bLen bBits))) := by
    intro ct hx
    have hn' := (oddMod_split n).2 hx.1
    have l1 : (split n).length ≤ 2 ^ 24 := by rw [split_length]; omega
    have l2 : (split a).length = (split n).length := by rw [split_length, split_length, ha]
    have l4 : Limbs32.val ((split b).take (Limbs32.bLen bBits)) < 2 ^ bBits := by rw [ev]; exact hx.2.1
    cases ct
    · obtain ⟨p1, p2⟩ := Limbs.C68_exp_vartime n a _ bBits hx.1 (by omega) ha (by rw [e1]; exact b1) hx.2.1
      obtain ⟨q1, q2⟩ := Limbs32.modExpVartime_spec (split n) (split a) _ bBits hn' l1 l2
        (by rw [el]; exact b2) l4
      rw [split_length] at q1
      rw [split_val, split_val, ev] at q2
      exact join_eq _ _ (q1.trans (congrArg (2 * ·) p1.symm)) (q2.trans p2.symm)
    · obtain ⟨p1, p2⟩ := Limbs.C68_exp_consttime n a _ bBits hx.1 (by omega) ha (by rw [e1]; exact b1) hx.2.1
      obtain ⟨q1, q2⟩ := Limbs32.modExpConsttime_spec (split n) (split a) _ bBits hn' l1 l2
        (by rw [el]; exact b2) l4
      rw [split_length] at q1
      rw [split_val, split_val, ev] at q2
      exact join_eq _ _ (q1.trans (congrArg (2 * ·) p1.symm)) (q2.trans p2.symm)
  have hwin : windows.modExp ct n a bBits b =
      if Limbs.OddMod n ∧ Limbs.val (b.take (Limbs.bLen bBits)) < 2 ^ bBits ∧ Limbs.val a < Limbs.val n then
        (true, unix.modExpCtx ct n a bBits (b.take (Limbs.bLen bBits)))
      else (false, List.replicate n.length 0) := by
    unfold Limbs.OddMod
    cases ct
    · show ((Limbs32.modExpVartimeChecked _ _ _ _).1, join (Limbs32.modExpVartimeChecked _ _ _ _).2) = _
      unfold Limbs32.modExpVartimeChecked
      rw [k2, Limbs32.checked_mask]
      simp only [split_val, ev, split_length]
      split_ifs with hx
      · exact Prod.ext rfl (key false hx)
      · exact Prod.ext rfl (join_replicate _)
    · show ((Limbs32.modExpConsttimeChecked _ _ _ _).1, join (Limbs32.modExpConsttimeChecked _ _ _ _).2) = _
      unfold Limbs32.modExpConsttimeChecked
      rw [k2, Limbs32.checked_mask]
      simp only [split_val, ev, split_length]
      split_ifs with hx
      · exact Prod.ext rfl (key true hx)
      · exact Prod.ext rfl (join_replicate _)
  rw [hwin]
  unfold Limbs.OddMod
  cases ct
  · show _ = Limbs.modExpVartimeChecked n a bBits (b.take (Limbs.bLen bBits))
    unfold Limbs.modExpVartimeChecked
    rw [k1, Limbs.checked_mask]
    rfl
  · show _ = Limbs.modExpConsttimeChecked n a bBits (b.take (Limbs.bLen bBits))
    unfold Limbs.modExpConsttimeChecked
    rw [k1, Limbs.checked_mask]
    rfl

/-- The inverse modulo a prime: the function with 32-bit limbs gives what that with 64-bit limbs gives, for all operands. (The
library calls the latter on all platforms, elgamal.cpp:177.) -/
theorem C97_inverse (n a : Arr) (h0 : 0 < n.length) (hl : n.length ≤ 2 ^ 23) (ha : a.length = n.length) :
    ((Limbs32.modInvPrime (split n) (split a)).1, join (Limbs32.modInvPrime (split n) (split a)).2) =
      Limbs.modInvPrime n a := by
  have l0 : 0 < (split n).length := by rw [split_length]; omega
  have l2 : (split a).length = (split n).length := by rw [split_length, split_length, ha]
  have z1 : a = List.replicate n.length 0 ↔ Limbs.val a = 0 := by
    constructor
    · intro h; rw [h]; exact Limbs.val_replicate _
    · intro h; exact Limbs.val_inj _ _ (by simp [ha]) (by rw [h, Limbs.val_replicate])
  have z2 : split a = List.replicate (split n).length 0 ↔ Limbs.val a = 0 := by
    rw [← split_val]
    constructor
    · intro h; rw [h]; exact Limbs32.val_replicate _
    · intro h; exact Limbs32.val_inj _ _ (by simp [l2]) (by rw [h, Limbs32.val_replicate])
  unfold Limbs32.modInvPrime Limbs.modInvPrime
  dsimp only
  rw [Limbs32.modCheck_eq _ l0, Limbs32.eqMask_eq _ _ (by simp [l2]), Limbs32.maskOf_not, Limbs32.ltMask_eq _ _ l2,
    Limbs32.maskOf_and, Limbs32.maskOf_and, Limbs32.checked_mask, Limbs.modCheck_eq n h0,
    Limbs.eqMask_eq a _ (by simp [ha]), Limbs.maskOf_not, Limbs.ltMask_eq a n ha, Limbs.maskOf_and, Limbs.maskOf_and,
    Limbs.checked_mask]
  simp only [z1, z2, split_val]
  split_ifs with hx
  · refine Prod.ext rfl ?_
    have hodd : Limbs.OddMod n := hx.1.1
    have hn3 : 2 < Limbs.val n := by have := hodd.1; have := hodd.2; omega
    have a1 : (2 :: List.replicate (n.length - 1) (0 : UInt64)).length = n.length := by simp; omega
    have a2 : Limbs.val (2 :: List.replicate (n.length - 1) (0 : UInt64)) = 2 := by
      rw [Limbs.val, Limbs.val_replicate]; rfl
    have b1 : (2 :: List.replicate ((split n).length - 1) (0 : UInt32)).length = (split n).length := by simp; omega
    have b2 : Limbs32.val (2 :: List.replicate ((split n).length - 1) (0 : UInt32)) = 2 := by
      rw [Limbs32.val, Limbs32.val_replicate]; rfl
    obtain ⟨s1, s2, s3⟩ := Limbs.sub_spec n (2 :: List.replicate (n.length - 1) (0 : UInt64)) a1.symm
    obtain ⟨t1, t2, t3⟩ := Limbs32.sub_spec (split n) (2 :: List.replicate ((split n).length - 1) (0 : UInt32)) b1.symm
    have v1 := Limbs.val_lt (Limbs.sub n (2 :: List.replicate (n.length - 1) (0 : UInt64))).1
    have v2 := Limbs32.val_lt (Limbs32.sub (split n) (2 :: List.replicate ((split n).length - 1) (0 : UInt32))).1
    have w1 := v1
    have w2 := v2
    rw [s1] at v1
    rw [t1] at v2
    rw [a2] at s3
    rw [b2, split_val] at t3
    have e1 : Limbs.val (Limbs.sub n (2 :: List.replicate (n.length - 1) (0 : UInt64))).1 = Limbs.val n - 2 := by
      generalize 2 ^ (64 * n.length) = Q at *
      rcases Nat.le_one_iff_eq_zero_or_eq_one.1 s2 with h1 | h1 <;> rw [h1] at s3 <;> omega
    have e2 : Limbs32.val (Limbs32.sub (split n) (2 :: List.replicate ((split n).length - 1) (0 : UInt32))).1 =
        Limbs.val n - 2 := by
      generalize 2 ^ (32 * (split n).length) = Q at *
      rcases Nat.le_one_iff_eq_zero_or_eq_one.1 t2 with h1 | h1 <;> rw [h1] at t3 <;> omega
    obtain ⟨p1, p2⟩ := Limbs.C68_exp_vartime n a _ (64 * n.length) hodd (by omega) ha (by rw [s1]) v1
    obtain ⟨q1, q2⟩ := Limbs32.modExpVartime_spec (split n) (split a) _ (32 * (split n).length) ((oddMod_split n).2 hodd)
      (by rw [split_length]; omega) l2 (by rw [t1]) v2
    rw [split_val, split_val, e2, ← e1] at q2
    rw [split_length] at q1 q2 ⊢
    exact join_eq _ _ (q1.trans (congrArg (2 * ·) p1.symm)) (q2.trans p2.symm)
  · rw [split_length]
    exact Prod.ext rfl (join_replicate _)

/-- Otherwise the results may differ: an exponent that has too many bits is refused by the 64-bit code, but
the 32-bit code does not look at the upper half of the limb that `bBits` ends in. -/
theorem C97_mod_exp_violated :
    unix.modExp true [7] [3] 20 [2 ^ 32] = (false, [0]) ∧
      (windows.modExp true [7] [3] 20 [2 ^ 32]).1 = true := by
  constructor
  · show Limbs.modExpConsttimeChecked [7] [3] 20 [2 ^ 32] = _
    unfold Limbs.modExpConsttimeChecked
    rw [Limbs.expCheck_eq [7] [3] [2 ^ 32] 20 (by decide) rfl rfl, Limbs.checked_mask, if_neg (by decide)]
    rfl
  · show (Limbs32.modExpConsttimeChecked [7, 0] [3, 0] 20 [0]).1 = true
    exact (Limbs32.modExpChecked_spec [7, 0] [3, 0] [0] 20 (by decide) (by decide) rfl rfl).1.2.2
      ⟨by decide, by decide, by decide⟩

/-- The conversions to and from Montgomery form, and the product of two numbers in Montgomery form of
which one is reduced. -/
theorem C97_montgomery (n a b : Arr) (hn : Limbs.OddMod n) (hl : n.length ≤ 2 ^ 23) (ha : a.length = n.length)
    (hb : b.length = n.length) :
    windows.toMont n a = unix.toMont n a ∧ windows.fromMont n a = unix.fromMont n a ∧
      (Limbs.val a < Limbs.val n ∨ Limbs.val b < Limbs.val n →
        windows.montMul n a b = unix.montMul n a b) := by
  refine ⟨toMont_same hn hl a ha, fromMont_same hn hl a ha, fun h => montMul_same hn hl a b ha hb ?_⟩
  have h1 := Limbs.val_lt a
  have h2 := Limbs.val_lt b
  rw [ha] at h1
  rw [hb] at h2
  rcases h with h | h
  · exact Nat.mul_le_mul h.le h2.le
  · rw [Nat.mul_comm]; exact Nat.mul_le_mul h.le h1.le

/-! ## The group operations -/

open Limbs (PArrs zeros)

variable {P : PArrs} {G : Params}

/-- The functions with the facade of the other platforms are those of C77. -/
theorem unix_same (a b : Arr) :
    addModP unix P a b = Limbs.addModP P a b ∧ mulModP unix P a b = Limbs.mulModP P a b ∧
      powModPP unix P a b = Limbs.powModPP P a b := ⟨rfl, rfl, rfl⟩

theorem add_same (a b : Arr) (h : a.length = b.length) : windows.add a b = unix.add a b := (C97_add_sub a b h).1

/-- `add_mod_p` and `mul_mod_p`, for all operands of 64 limbs; also where the access is out of bounds. -/
theorem C97_add_mul_mod_p (h : P.Denotes G) (hG : G.Valid) (a b : Arr) (ha : a.length = 64)
    (hb : b.length = 64) :
    addModP windows P a b = Limbs.addModP P a b ∧ mulModP windows P a b = Limbs.mulModP P a b := by
  have hp := h.plen
  have hodd := h.oddP hG
  have len : ∀ x y : Arr, x.length = 64 → y.length = 64 → (unix.add x y).1.length = 64 :=
    fun x y hx hy => ((Limbs.add_spec x y (by omega)).1).trans hx
  have modc : ∀ x : Arr, x.length = 64 → windows.modCtx P.p (x ++ zeros 64) = unix.modCtx P.p (x ++ zeros 64) :=
    fun x hx => C97_mod_context _ _ hodd (by omega) (by simp [zeros, hx, hp])
  have off : ∀ x : Arr, x.length = 64 → addOffset windows x P.pOff = addOffset unix x P.pOff ∧
      (addOffset unix x P.pOff).length = 64 := by
    intro x hx
    have ho := h.pOlen
    unfold addOffset
    rw [add_same x P.pOff (by omega)]
    have l1 := len x P.pOff hx ho
    have o1 := (Limbs.oneArr_spec x.length (by omega)).1
    rw [add_same _ _ (by omega)]
    exact ⟨rfl, len _ _ l1 (by omega)⟩
  constructor
  · show addModP windows P a b = addModP unix P a b
    have z : (zeros 64).length = 64 := by simp [zeros]
    have s1 := len a b ha hb
    unfold addModP
    dsimp only
    rw [add_same a b (by omega)]
    by_cases c1 : (decide ((unix.add a b).2 > 0) || Limbs.isMax (unix.add a b).1) = true
    · rw [if_pos c1, if_pos c1]
      by_cases c2 : (Limbs.elemLt P.p a || Limbs.elemLt P.p b) = true
      · rw [if_pos c2, if_pos c2]
        obtain ⟨o1, o2⟩ := off (zeros 64) z
        rw [o1]
        by_cases c3 : Limbs.elemLt P.p a = true
        · rw [if_pos c3]
          obtain ⟨q1, q2⟩ := off _ o2
          rw [q1]
          by_cases c4 : Limbs.elemLt P.p b = true
          · rw [if_pos c4, add_same _ _ (by omega), modc _ (len _ _ s1 q2)]
          · rw [if_neg c4, add_same _ _ (by omega), modc _ (len _ _ s1 o2)]
        · rw [if_neg c3]
          by_cases c4 : Limbs.elemLt P.p b = true
          · rw [if_pos c4, if_pos c4, o1, add_same _ _ (by omega), modc _ (len _ _ s1 o2)]
          · rw [if_neg c4, if_neg c4, add_same _ _ (by omega), modc _ (len _ _ s1 z)]
      · rw [if_neg c2, if_neg c2]
    · rw [if_neg c1, if_neg c1, modc _ s1]
  · show windows.modCtx P.p (windows.mul a b) = unix.modCtx P.p (unix.mul a b)
    rw [C97_mul a b (by omega)]
    exact C97_mod_context _ _ hodd (by omega) (by
      show (Limbs.mulFull a b).length = _
      rw [(Limbs.mulFull_spec a b (by omega)).1]; omega)

/-- `pow_mod_p` with an exponent mod `p`. -/
theorem C97_pow_mod_p_long (h : P.Denotes G) (hG : G.Valid) (a e : Arr) (ha : a.length = 64)
    (he : e.length = 64) : powModPP windows P a e = Limbs.powModPP P a e := by
  have hp := h.plen
  show powModPP windows P a e = powModPP unix P a e
  unfold powModPP
  rw [(C97_mod_exp_long P.p a e 512 (h.oddP hG) (by omega) (by omega) (by omega) (by norm_num)).1]

theorem genRow_same (n rowBase : Arr) (hn : Limbs.OddMod n) (hl : n.length ≤ 2 ^ 23)
    (hb : rowBase.length = n.length) (hlt : Limbs.val rowBase < Limbs.val n) (k : ℕ) : ∀ running : Arr,
    running.length = n.length → Limbs.val running < Limbs.val n →
    genRow windows n rowBase k running = Limbs.genRow (Limbs.ctxInit n) rowBase k running ∧
      (Limbs.genRow (Limbs.ctxInit n) rowBase k running).2.length = n.length ∧
      Limbs.val (Limbs.genRow (Limbs.ctxInit n) rowBase k running).2 < Limbs.val n ∧
      ∀ x ∈ (Limbs.genRow (Limbs.ctxInit n) rowBase k running).1, x.length = n.length := by
  induction k with
  | zero => intro r h1 h2; exact ⟨rfl, h1, h2, fun x hx => absurd hx (by simp [Limbs.genRow])⟩
  | succ k ih =>
    intro r h1 h2
    have hg := hn.ctx (by omega : n.length ≤ 2 ^ 24)
    have hm := (C97_montgomery n r rowBase hn hl h1 hb).2.2 (Or.inl h2)
    have hm' : windows.montMul n r rowBase = Limbs.fieldMul (Limbs.ctxInit n) r rowBase := hm
    obtain ⟨f1, f2, -⟩ : Limbs.ARep (Limbs.ctxInit n) (Limbs.fieldMul (Limbs.ctxInit n) r rowBase)
        (((Limbs.val r : ℕ) : ZMod _) * ((Hacl.R n.length : ℕ) : ZMod _)⁻¹ *
          (((Limbs.val rowBase : ℕ) : ZMod _) * ((Hacl.R n.length : ℕ) : ZMod _)⁻¹)) := by
      have hu := Hacl.R_unit hn.good
      have cancel : ∀ x : ZMod (Limbs.val n), x = x * ((Hacl.R n.length : ℕ) : ZMod (Limbs.val n))⁻¹ *
          ((Hacl.R n.length : ℕ) : ZMod (Limbs.val n)) := by
        intro x
        rw [mul_assoc, ZMod.inv_mul_of_unit _ hu, mul_one]
      exact Limbs.fieldMul_val hg r rowBase _ _ ⟨h1, h2, cancel _⟩ ⟨hb, hlt, cancel _⟩
    obtain ⟨i1, i2, i3, i4⟩ := ih _ f1 f2
    refine ⟨?_, i2, i3, ?_⟩
    · rw [genRow, hm', i1]; rfl
    · intro x hx
      rw [Limbs.genRow] at hx
      rcases List.mem_cons.1 hx with rfl | hx
      · exact h1
      · exact i4 x hx

theorem genRows_same (n : Arr) (hn : Limbs.OddMod n) (hl : n.length ≤ 2 ^ 23) (k : ℕ) : ∀ rb : Arr,
    rb.length = n.length → Limbs.val rb < Limbs.val n →
    genRows windows n k rb rb = Limbs.genRows (Limbs.ctxInit n) k rb rb ∧
      ∀ row ∈ Limbs.genRows (Limbs.ctxInit n) k rb rb, ∀ x ∈ row, x.length = n.length := by
  induction k with
  | zero => intro rb _ _; exact ⟨rfl, fun x hx => absurd hx (by simp [Limbs.genRows])⟩
  | succ k ih =>
    intro rb h1 h2
    obtain ⟨i1, i2, i3, i4⟩ := genRow_same n rb hn hl h1 h2 255 rb h1 h2
    obtain ⟨j1, j2⟩ := ih _ i2 i3
    refine ⟨?_, ?_⟩
    · rw [genRows, i1, Limbs.genRows, j1]
      rfl
    · intro row hrow
      rw [Limbs.genRows] at hrow
      rcases List.mem_cons.1 hrow with rfl | hrow
      · intro x hx
        rcases List.mem_cons.1 hx with rfl | hx
        · exact List.length_replicate
        · exact i4 x hx
      · exact j2 row hrow

/-- The tables for fixed bases have the same limbs, so that it does not matter which platform made one. -/
theorem C97_table (h : P.Denotes G) (hG : G.Valid) (base : Arr) (hb : base.length = 64) :
    genLut windows P.p base = Limbs.genLut (Limbs.ctxInit P.p) base := by
  have hp := h.plen
  have hodd := h.oddP hG
  have hg := hodd.ctx (by omega : P.p.length ≤ 2 ^ 24)
  obtain ⟨o1, -⟩ := Limbs.oneArr_spec P.p.length (by omega)
  have t1 := toMont_same hodd (by omega) base (by omega)
  have t2 := toMont_same hodd (by omega) (Limbs.oneArr P.p.length) o1
  obtain ⟨r1, r2, -⟩ := Limbs.toMont_rep hg base (by rw [hb]; exact hp.symm)
  unfold genLut Limbs.genLut
  dsimp only
  rw [t1, t2]
  exact Prod.ext (genRows_same P.p hodd (by omega) 32 _ r1 r2).1 rfl

theorem fieldMul_red {n : Arr} (hn : Limbs.OddMod n) (hl : n.length ≤ 2 ^ 23) (x y : Arr)
    (hx : x.length = n.length) (hxn : Limbs.val x < Limbs.val n) (hy : y.length = n.length) :
    (Limbs.fieldMul (Limbs.ctxInit n) x y).length = n.length ∧
      Limbs.val (Limbs.fieldMul (Limbs.ctxInit n) x y) < Limbs.val n := by
  have hg := hn.ctx (by omega : n.length ≤ 2 ^ 24)
  obtain ⟨m1, m2⟩ := Limbs.mulFull_spec x y (by omega)
  have h2 := Limbs.val_lt y
  rw [hy] at h2
  have hle : Limbs.val (Limbs.mulFull x y) ≤ Limbs.val n * Hacl.R n.length := by
    rw [m2]; exact Nat.mul_le_mul hxn.le h2.le
  obtain ⟨r1, r2⟩ := Limbs.reduction_val n (Limbs.mulFull x y) (Limbs.ctxInit n).mu (by omega) hn.good
    hg.good.mu hle
  refine ⟨r1, ?_⟩
  show Limbs.val (Limbs.reduction _ _ _) < _
  refine lt_of_eq_of_lt r2 ?_
  exact Hacl.reduction_lt _ _ _ _ hn.good hg.good.mu hle

theorem lutLoop_same (n : Arr) (hn : Limbs.OddMod n) (hl : n.length ≤ 2 ^ 23) (rows : List (List Arr)) :
    ∀ (bytes : List UInt8) (acc : Arr), (∀ row ∈ rows, ∀ x ∈ row, x.length = n.length) →
    acc.length = n.length → Limbs.val acc < Limbs.val n →
    lutLoop windows n rows bytes acc = Limbs.lutLoop (Limbs.ctxInit n) rows bytes acc ∧
      ∀ r, Limbs.lutLoop (Limbs.ctxInit n) rows bytes acc = .ok r → r.length = n.length := by
  induction rows with
  | nil =>
    intro bytes acc _ h1 _
    refine ⟨by simp only [lutLoop, Limbs.lutLoop], ?_⟩
    intro r hr
    simp only [Limbs.lutLoop] at hr
    injection hr with hr
    rw [← hr]; exact h1
  | cons row rows ih =>
    intro bytes acc hr h1 h2
    cases bytes with
    | nil => exact ⟨rfl, fun r hr => by simp [Limbs.lutLoop] at hr⟩
    | cons s bytes =>
      have hr' : ∀ row ∈ rows, ∀ x ∈ row, x.length = n.length := fun x hx => hr x (List.mem_cons_of_mem _ hx)
      rw [lutLoop, Limbs.lutLoop]
      by_cases hs : s = 0
      · rw [if_pos hs, if_pos hs]
        exact ih bytes acc hr' h1 h2
      · rw [if_neg hs, if_neg hs]
        cases hx : row[s.toNat]? with
        | none => exact ⟨rfl, fun r hr => by simp at hr⟩
        | some x =>
          have hxl : x.length = n.length := hr row (by simp) x (List.mem_of_getElem? hx)
          have hm : windows.montMul n acc x = Limbs.fieldMul (Limbs.ctxInit n) acc x :=
            (C97_montgomery n acc x hn hl h1 hxl).2.2 (Or.inl h2)
          obtain ⟨f1, f2⟩ := fieldMul_red hn hl acc x h1 h2 hxl
          dsimp only
          rw [hm]
          exact ih bytes _ hr' f1 f2

/-- `pow_mod_p` with an exponent mod `q`, with a table or without. -/
theorem C97_pow_mod_p (h : P.Denotes G) (hG : G.Valid) (fixed : Bool) (a e : Arr) (ha : a.length = 64)
    (he : e.length = 4) : powModP windows P fixed a e = Limbs.powModP P fixed a e := by
  have hp := h.plen
  have hodd := h.oddP hG
  have hg := hodd.ctx (by omega : P.p.length ≤ 2 ^ 24)
  unfold powModP Limbs.powModP
  split_ifs with h1 h2
  · rfl
  · rw [C97_table h hG a ha]
    obtain ⟨o1, -⟩ := Limbs.oneArr_spec P.p.length (by omega)
    obtain ⟨q1, q2, -⟩ := Limbs.toMont_rep hg (Limbs.oneArr P.p.length) o1
    obtain ⟨r1, r2, -⟩ := Limbs.toMont_rep hg a (by rw [ha]; exact hp.symm)
    have hrows := (genRows_same P.p hodd (by omega) 32 _ r1 r2).2
    obtain ⟨l1, l2⟩ := lutLoop_same P.p hodd (by omega) (Limbs.genLut (Limbs.ctxInit P.p) a).1
      (Limbs.toBytesBE e).reverse (Limbs.genLut (Limbs.ctxInit P.p) a).2 hrows q1 q2
    unfold lutPow Limbs.lutPow
    rw [l1]
    cases hr : Limbs.lutLoop (Limbs.ctxInit P.p) (Limbs.genLut (Limbs.ctxInit P.p) a).1
      (Limbs.toBytesBE e).reverse (Limbs.genLut (Limbs.ctxInit P.p) a).2 with
    | ok r => exact congrArg Res.ok (fromMont_same hodd (by omega) r (l2 r hr))
    | throw x => rfl
    | ub => rfl
  · rw [C97_pow_mod_p_long h hG a (e ++ zeros 60) ha (by simp [zeros, he])]

/-! ## Cases that meet the hypotheses -/

example : windows.add [0xFFFFFFFFFFFFFFFF, 0xFFFFFFFFFFFFFFFF] [1, 0] = ([0, 0], 1) := by decide
example : windows.sub [0, 1] [1, 0] = ([0xFFFFFFFFFFFFFFFF, 0], 0) := by decide
example : split [0x0123456789ABCDEF] = [0x89ABCDEF, 0x01234567] := by decide
example : windows.mod [8] [3, 0] = unix.mod [8] [3, 0] := C97_mod [8] [3, 0] (by decide) (by decide) rfl
example : windows.modExp true [7] [3] 64 [5] = unix.modExp true [7] [3] 64 [5] :=
  C97_mod_exp_partial true [7] [3] [5] 64 (by decide) (by decide) rfl (by decide) (by decide)
example : Limbs.val (windows.modExpCtx false [7] [3] 256 [5, 0, 0, 0]) = 5 :=
  (C97_mod_exp_long [7] [3] [5, 0, 0, 0] 256 Limbs.oddMod_7 (by decide) rfl (by decide) (by decide)).2.trans
    (by decide)

/-- The generator raised to `q` is one on Windows too. -/
example : ∃ r, powModP windows .std true PArrs.std.g PArrs.std.q = .ok r ∧ Limbs.val r = 1 := by
  rw [C97_pow_mod_p Limbs.C77_std C54_std_valid true _ _ Limbs.C77_std.glen Limbs.C77_std.qlen]
  obtain ⟨r, h1, -, h2⟩ := Limbs.C77_pow_mod_p Limbs.C77_std C54_std_valid true PArrs.std.g PArrs.std.q
    Limbs.C77_std.glen Limbs.C77_std.qlen
  refine ⟨r, h1, ?_⟩
  rw [h2, Limbs.C77_std.q_eq, Limbs.C77_std.g_eq]
  exact C54_std_valid.g_pow

end EG.Win
