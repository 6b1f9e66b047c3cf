import Verif.Model.Binary
import Verif.Spec.Binary
import Verif.Lemmas.JsonText
import Mathlib.Tactic.IntervalCases
import Mathlib.Tactic.FieldSimp

/-!
# Bytes, numbers and texts in MessagePack and BSON
-/

namespace EG.Binary

open EG.Spec.Binary
open EG.Spec.JsonText (IsMap)

/-! ## Numbers -/

theorem leBytes_length (k n : ℕ) : (leBytes k n).length = k := by
  induction k generalizing n with
  | zero => rfl
  | succ k ih => simp [leBytes, ih]

theorem beBytes_length (k n : ℕ) : (beBytes k n).length = k := by
  rw [beBytes, List.length_reverse, leBytes_length]

theorem leNum_leBytes (k n : ℕ) (h : n < 256 ^ k) : leNum (leBytes k n) = n := by
  induction k generalizing n with
  | zero => simp at h; simp [leBytes, leNum, h]
  | succ k ih =>
    have h1 : n / 256 < 256 ^ k := by rw [Nat.div_lt_iff_lt_mul (by omega)]; rw [pow_succ] at h; omega
    simp only [leBytes, leNum]
    rw [ih _ h1, UInt8.toNat_ofNat']
    omega

theorem beNum_beBytes (k n : ℕ) (h : n < 256 ^ k) : beNum (beBytes k n) = n := by
  rw [beNum, beBytes, List.reverse_reverse, leNum_leBytes k n h]

theorem leNum_lt (l : List UInt8) : leNum l < 256 ^ l.length := by
  induction l with
  | nil => simp [leNum]
  | cons b l ih =>
    have := b.toNat_lt
    simp only [leNum, List.length_cons, pow_succ]
    omega

theorem beNum_lt (l : List UInt8) : beNum l < 256 ^ l.length := by
  have := leNum_lt l.reverse
  rwa [List.length_reverse] at this

theorem beNum_snoc (t : List UInt8) (b : UInt8) : beNum (t ++ [b]) = 256 * beNum t + b.toNat := by
  rw [beNum, List.reverse_append]
  simp [leNum, beNum]
  omega

theorem big_iff (t : List UInt8) (n : ℕ) : Big t n ↔ n = beNum t := by
  constructor
  · intro h
    induction h with
    | nil => rfl
    | snoc _ ih => rw [beNum_snoc, ih]
  · rintro rfl
    induction t using List.reverseRecOn with
    | nil => exact .nil
    | append_singleton t b ih => rw [beNum_snoc]; exact .snoc ih

theorem little_iff (t : List UInt8) (n : ℕ) : Little t n ↔ n = leNum t := by
  rw [Little, big_iff, beNum, List.reverse_reverse]

theorem big_beNum (t : List UInt8) : Big t (beNum t) := (big_iff t _).2 rfl

theorem little_leNum (t : List UInt8) : Little t (leNum t) := (little_iff t _).2 rfl

theorem big_beBytes (k n : ℕ) (h : n < 256 ^ k) : Big (beBytes k n) n := (big_iff _ _).2 (beNum_beBytes k n h).symm

theorem little_leBytes (k n : ℕ) (h : n < 256 ^ k) : Little (leBytes k n) n :=
  (little_iff _ _).2 (leNum_leBytes k n h).symm

theorem signed_iff (k n : ℕ) (hk : 0 < k) (h : n < 256 ^ k) (j : Json) : Signed k n j ↔ signed k n = j := by
  have e : (256 : ℕ) ^ k = 2 * 2 ^ (8 * k - 1) := by
    rw [← pow_succ', Nat.sub_add_cancel (by omega), pow_mul]; norm_num
  have e' : (2 : ℕ) ^ (8 * k) = 2 * 2 ^ (8 * k - 1) := by
    rw [← pow_succ', Nat.sub_add_cancel (by omega)]
  have e'' : (2 : ℤ) ^ (8 * k) = 2 * 2 ^ (8 * k - 1) := by exact_mod_cast e'
  have ec : ((2 ^ (8 * k - 1) : ℕ) : ℤ) = 2 ^ (8 * k - 1) := by push_cast; rfl
  unfold Signed signed
  rw [e'', e', ← ec]
  rw [e] at h
  generalize 2 ^ (8 * k - 1) = H at *
  constructor
  · rintro ⟨v, h1, h2, h3, (⟨h4, rfl⟩ | ⟨h4, rfl⟩)⟩
    · rw [Int.emod_eq_of_lt h4 (by omega)] at h3
      rw [if_pos (by omega)]
      congr 1
      omega
    · have : v % (2 * (H : ℤ)) = v + 2 * H := by
        rw [← Int.add_emod_right, Int.emod_eq_of_lt (by omega) (by omega)]
      rw [this] at h3
      rw [if_neg (by omega)]
      congr 1
      omega
  · rintro rfl
    by_cases hn : n < H
    · refine ⟨n, by omega, by omega, (Int.emod_eq_of_lt (by omega) (by omega)).symm, Or.inl ⟨by omega, ?_⟩⟩
      rw [if_pos hn]
      rfl
    · refine ⟨n - 2 * H, by omega, by omega, ?_, Or.inr ⟨by omega, ?_⟩⟩
      · rw [Int.sub_emod_right, Int.emod_eq_of_lt (by omega) (by omega)]
      · rw [if_neg hn]
        congr 1
        omega

theorem ieee_iff (e m n : ℕ) (h : n < 2 ^ (1 + e + m)) (v : ℚ) : Ieee e m n v ↔ ieee e m n = some v := by
  have hm : 0 < 2 ^ m := by positivity
  have he : 0 < 2 ^ e := by positivity
  have h2 : ((2 : ℚ) ^ m) ≠ 0 := by positivity
  have scale0 : ∀ f : ℕ, ((f : ℚ) * 2 ^ (1 - ((2 : ℤ) ^ (e - 1) - 1) - (m : ℤ))) =
      (f / 2 ^ m : ℚ) * 2 ^ (1 - (2 ^ (e - 1) - 1) : ℤ) := by
    intro f
    rw [zpow_sub₀ (by norm_num), zpow_natCast]
    ring
  have scale1 : ∀ x f : ℕ, (((2 ^ m + f : ℕ) : ℚ) * 2 ^ ((x : ℤ) - ((2 : ℤ) ^ (e - 1) - 1) - (m : ℤ))) =
      (1 + f / 2 ^ m : ℚ) * 2 ^ ((x : ℤ) - (2 ^ (e - 1) - 1)) := by
    intro x f
    rw [zpow_sub₀ (by norm_num) _ (m : ℤ), zpow_natCast]
    push_cast
    field_simp
  constructor
  · rintro ⟨s, x, f, hs, hx, hf, rfl, rfl⟩
    have e1 : ((s * 2 ^ e + x) * 2 ^ m + f) % 2 ^ m = f := by
      rw [Nat.mul_comm, Nat.mul_add_mod, Nat.mod_eq_of_lt hf]
    have e2 : ((s * 2 ^ e + x) * 2 ^ m + f) / 2 ^ m = s * 2 ^ e + x := by
      rw [Nat.mul_comm, Nat.mul_add_div hm, Nat.div_eq_of_lt hf, Nat.add_zero]
    have e3 : (s * 2 ^ e + x) % 2 ^ e = x := by
      rw [Nat.mul_comm, Nat.mul_add_mod, Nat.mod_eq_of_lt (by omega)]
    have e4 : ((s * 2 ^ e + x) * 2 ^ m + f) / 2 ^ (m + e) % 2 = s := by
      rw [pow_add, ← Nat.div_div_eq_div_mul, e2, Nat.mul_comm s, Nat.mul_add_div he,
        Nat.div_eq_of_lt (by omega), Nat.add_zero, Nat.mod_eq_of_lt hs]
    unfold ieee
    simp only [e1, e2, e3, e4]
    have sgn : (if s = 1 then (-1 : ℚ) else 1) = (-1) ^ s := by
      rcases (by omega : s = 0 ∨ s = 1) with rfl | rfl <;> simp
    rw [if_neg (by omega), sgn]
    by_cases h0 : x = 0
    · rw [if_pos h0, if_pos h0, scale0]
    · rw [if_neg h0, if_neg h0, scale1]
  · intro hv
    refine ⟨n / 2 ^ (m + e) % 2, n / 2 ^ m % 2 ^ e, n % 2 ^ m, Nat.mod_lt _ (by omega), ?_, Nat.mod_lt _ hm, ?_, ?_⟩
    · have := Nat.mod_lt (n / 2 ^ m) he
      unfold ieee at hv
      simp only at hv
      by_contra hc
      rw [if_pos (by omega)] at hv
      cases hv
    · have e1 : n / 2 ^ (m + e) % 2 = n / 2 ^ (m + e) := by
        apply Nat.mod_eq_of_lt
        rw [Nat.div_lt_iff_lt_mul (by positivity)]
        calc n < 2 ^ (1 + e + m) := h
          _ = 2 * 2 ^ (m + e) := by ring
      rw [e1, pow_add, ← Nat.div_div_eq_div_mul, Nat.div_add_mod', Nat.div_add_mod']
    · unfold ieee at hv
      simp only at hv
      have sgn : (if n / 2 ^ (m + e) % 2 = 1 then (-1 : ℚ) else 1) = (-1) ^ (n / 2 ^ (m + e) % 2) := by
        rcases Nat.mod_two_eq_zero_or_one (n / 2 ^ (m + e)) with h | h <;> rw [h] <;> simp
      rw [sgn] at hv
      split_ifs at hv with h1 h3
      · injection hv with hv
        rw [← hv, if_pos h3, scale0]
      · injection hv with hv
        rw [← hv, if_neg h3, scale1]

theorem float_iff (e m n : ℕ) (h : n < 2 ^ (1 + e + m)) (j : Json) :
    float e m n = .ok j ↔ ∃ v, Ieee e m n v ∧ j = .float v := by
  unfold float
  cases hi : ieee e m n with
  | none =>
    constructor
    · intro h; cases h
    · rintro ⟨v, hv, -⟩
      rw [ieee_iff e m n h, hi] at hv
      cases hv
  | some v =>
    constructor
    · intro hj
      injection hj with hj
      exact ⟨v, (ieee_iff e m n h v).2 hi, hj.symm⟩
    · rintro ⟨w, hw, rfl⟩
      rw [ieee_iff e m n h, hi] at hw
      injection hw with hw
      rw [hw]

/-! ## Bytes and texts -/

theorem take_iff (k : ℕ) (s x r : List UInt8) : take k s = .ok (x, r) ↔ s = x ++ r ∧ x.length = k := by
  unfold take
  constructor
  · intro h
    split_ifs at h with hk
    · injection h with h
      injection h with h1 h2
      exact ⟨by rw [← h1, ← h2, List.take_append_drop], by rw [← h1, List.length_take]; omega⟩
  · rintro ⟨rfl, rfl⟩
    rw [if_pos (by simp)]
    simp

theorem decode_iff (b : List UInt8) (s : Str) : decode b = .ok s ↔ b = s.bytes := by
  unfold decode
  have key : ∀ s : Str, s.bytes.toByteArray = s.utf8Encode := fun s => rfl
  constructor
  · intro h
    cases hd : b.toByteArray.utf8Decode? with
    | none => rw [hd] at h; cases h
    | some a =>
      rw [hd] at h
      injection h with h
      have h1 := ByteArray.utf8Encode_get_utf8Decode? (b := b.toByteArray) (h := by rw [hd]; rfl)
      simp only [hd, Option.get_some] at h1
      rw [h, ← key] at h1
      have h2 := congrArg (fun x => x.data.toList) h1
      simpa using h2.symm
  · rintro rfl
    rw [key, List.utf8Decode?_utf8Encode]

theorem readLen_iff (l : Len) (s r : List UInt8) (n : ℕ) : readLen l s = .ok (n, r) ↔
    match l with
    | .now m => n = m ∧ r = s
    | .behind k => ∃ t, s = t ++ r ∧ t.length = k ∧ Big t n := by
  cases l with
  | now m =>
    simp only [readLen]
    constructor
    · intro h
      injection h with h
      injection h with h1 h2
      exact ⟨h1.symm, h2.symm⟩
    · rintro ⟨rfl, rfl⟩; rfl
  | behind k =>
    simp only [readLen]
    constructor
    · intro h
      cases ht : take k s with
      | error e => rw [ht] at h; cases h
      | ok p =>
        obtain ⟨x, r'⟩ := p
        rw [ht] at h
        injection h with h
        injection h with h1 h2
        obtain ⟨h3, h4⟩ := (take_iff _ _ _ _).1 ht
        refine ⟨x, by rw [← h2]; exact h3, h4, (big_iff _ _).2 h1.symm⟩
    · rintro ⟨t, rfl, h1, h2⟩
      rw [(take_iff k (t ++ r) t r).2 ⟨rfl, h1⟩, (big_iff _ _).1 h2]

theorem readStr_iff (l : Len) (s r : List UInt8) (t : Str) : readStr l s = .ok (t, r) ↔
    readLen l s = .ok (t.bytes.length, t.bytes ++ r) := by
  unfold readStr
  constructor
  · intro h
    cases hl : readLen l s with
    | error e => rw [hl] at h; cases h
    | ok p =>
      obtain ⟨n, s'⟩ := p
      rw [hl] at h
      simp only at h
      cases ht : take n s' with
      | error e => rw [ht] at h; cases h
      | ok p =>
        obtain ⟨x, s''⟩ := p
        rw [ht] at h
        simp only at h
        cases hd : decode x with
        | error e => rw [hd] at h; cases h
        | ok u =>
          rw [hd] at h
          injection h with h
          injection h with h1 h2
          obtain ⟨h3, h4⟩ := (take_iff _ _ _ _).1 ht
          have h5 := (decode_iff _ _).1 hd
          rw [h1] at h5
          rw [h3, h5, h2, ← h4, h5]
  · intro h
    rw [h]
    simp only
    rw [(take_iff _ _ _ _).2 ⟨rfl, rfl⟩]
    simp only
    rw [(decode_iff _ _).2 rfl]

end EG.Binary
