import Verif.Model.Convert
import Mathlib.Tactic.Ring
import Mathlib.Tactic.NormNum
import Mathlib.Tactic.IntervalCases

/-! Helper lemmas about byte and hex conversion. -/

namespace EG

theorem toBytesLE_length (len n : ℕ) : (toBytesLE len n).length = len := by
  induction len generalizing n with
  | zero => rfl
  | succ len ih => simp [toBytesLE, ih]

@[simp] theorem toBytesBE_length (len n : ℕ) : (toBytesBE len n).length = len := by
  simp [toBytesBE, toBytesLE_length]

theorem ofBytesLE_toBytesLE (len n : ℕ) : ofBytesLE (toBytesLE len n) = n % 256 ^ len := by
  induction len generalizing n with
  | zero => simp [toBytesLE, ofBytesLE, Nat.mod_one]
  | succ len ih =>
    rw [toBytesLE, ofBytesLE, ih, pow_succ', Nat.mod_mul]
    have : (UInt8.ofNat (n % 256)).toNat = n % 256 := by simp
    rw [this]

theorem ofBytesLE_lt (bs : List UInt8) : ofBytesLE bs < 256 ^ bs.length := by
  induction bs with
  | nil => simp [ofBytesLE]
  | cons b bs ih =>
    rw [ofBytesLE, List.length_cons, pow_succ']
    have := b.toNat_lt
    omega

theorem toBytesLE_ofBytesLE (bs : List UInt8) : toBytesLE bs.length (ofBytesLE bs) = bs := by
  induction bs with
  | nil => rfl
  | cons b bs ih =>
    have hb := b.toNat_lt
    have h1 : (b.toNat + 256 * ofBytesLE bs) % 256 = b.toNat := by omega
    have h2 : (b.toNat + 256 * ofBytesLE bs) / 256 = ofBytesLE bs := by omega
    rw [List.length_cons, ofBytesLE, toBytesLE, h1, h2, ih]
    simp

theorem ofBytesBE_toBytesBE (len n : ℕ) : ofBytesBE (toBytesBE len n) = n % 256 ^ len := by
  simp [ofBytesBE, toBytesBE, ofBytesLE_toBytesLE]

theorem ofBytesBE_lt (bs : List UInt8) : ofBytesBE bs < 256 ^ bs.length := by
  simpa [ofBytesBE] using ofBytesLE_lt bs.reverse

theorem toBytesBE_ofBytesBE (bs : List UInt8) : toBytesBE bs.length (ofBytesBE bs) = bs := by
  have := toBytesLE_ofBytesLE bs.reverse
  rw [List.length_reverse] at this
  rw [toBytesBE, ofBytesBE, this, List.reverse_reverse]

theorem ofBytesLE_append_zero (bs : List UInt8) : ofBytesLE (bs ++ [0]) = ofBytesLE bs := by
  induction bs with
  | nil => rfl
  | cons b bs ih => rw [List.cons_append, ofBytesLE, ofBytesLE, ih]

theorem ofBytesBE_cons_zero (bs : List UInt8) : ofBytesBE (0 :: bs) = ofBytesBE bs := by
  rw [ofBytesBE, List.reverse_cons, ofBytesLE_append_zero, ofBytesBE]

theorem ofBytesBE_dropWhile (bs : List UInt8) :
    ofBytesBE (bs.dropWhile (· = 0)) = ofBytesBE bs := by
  induction bs with
  | nil => rfl
  | cons b bs ih =>
    by_cases hb : b = 0
    · subst hb
      rw [List.dropWhile_cons_of_pos (by simp), ih, ofBytesBE_cons_zero]
    · rw [List.dropWhile_cons_of_neg (by simpa using hb)]

theorem ofBytesLE_append (xs ys : List UInt8) :
    ofBytesLE (xs ++ ys) = ofBytesLE xs + 256 ^ xs.length * ofBytesLE ys := by
  induction xs with
  | nil => simp [ofBytesLE]
  | cons x xs ih => simp only [List.cons_append, ofBytesLE, ih, List.length_cons, pow_succ']; ring

theorem ofBytesBE_cons (b : UInt8) (bs : List UInt8) :
    ofBytesBE (b :: bs) = b.toNat * 256 ^ bs.length + ofBytesBE bs := by
  simp only [ofBytesBE, List.reverse_cons, ofBytesLE_append, List.length_reverse, ofBytesLE]
  ring

theorem ofBytesBE_eq_zero (bs : List UInt8) (h : ofBytesBE bs = 0) :
    bs.dropWhile (· = 0) = [] := by
  induction bs with
  | nil => rfl
  | cons b bs ih =>
    rw [ofBytesBE_cons] at h
    have h1 : b.toNat = 0 := by
      have := Nat.pos_of_ne_zero (pow_ne_zero bs.length (show (256 : ℕ) ≠ 0 by norm_num))
      rcases Nat.eq_zero_or_pos b.toNat with h0 | h0
      · exact h0
      · have := Nat.mul_pos h0 this; omega
    have h2 : b = 0 := UInt8.toNat_inj.1 (by simpa using h1)
    rw [List.dropWhile_cons_of_pos (by simpa using h2)]
    exact ih (by omega)

/-- Every byte survives printing with two hex digits and parsing (all 256 bytes). -/
theorem stoi16Byte_fin : ∀ n : Fin 256,
    stoi16Byte [hexDigit (n.val / 16), hexDigit (n.val % 16)] = .ok (UInt8.ofNat n.val) := by
  decide +kernel

theorem stoi16Byte_byteToHex (b : UInt8) : stoi16Byte (byteToHex b) = .ok b := by
  have := stoi16Byte_fin ⟨b.toNat, b.toNat_lt⟩
  simp only at this
  rw [byteToHex, this]
  simp

theorem hexToBytes_flatMap (bs : List UInt8) : hexToBytes (bs.flatMap byteToHex) = .ok bs := by
  induction bs with
  | nil => rfl
  | cons b bs ih =>
    have h := stoi16Byte_byteToHex b
    rw [List.flatMap_cons]
    unfold byteToHex at h ⊢
    rw [List.cons_append, List.cons_append, List.nil_append, hexToBytes, h]
    change (do let bs ← hexToBytes (bs.flatMap byteToHex); pure (b :: bs) : Res _) = _
    rw [ih]
    rfl

theorem hexDigit_fin : ∀ n : Fin 16, isLeadingChar (hexDigit n.val) = decide (n.val = 0) ∧
    (n.val = 0 → hexDigit n.val = '0') := by
  decide +kernel

theorem flatMap_byteToHex_length (bs : List UInt8) :
    (bs.flatMap byteToHex).length = 2 * bs.length := by
  induction bs with
  | nil => rfl
  | cons b bs ih => rw [List.flatMap_cons, List.length_append, ih, List.length_cons]; simp [byteToHex]; omega

theorem sanitizeHex_flatMap (b : UInt8) (bs : List UInt8) (hb : b ≠ 0) :
    sanitizeHex ((b :: bs).flatMap byteToHex) = .ok ((b :: bs).flatMap byteToHex) := by
  have hlt := b.toNat_lt
  have hne : b.toNat ≠ 0 := fun h => hb (UInt8.toNat_inj.1 (by simpa using h))
  have hlen := flatMap_byteToHex_length bs
  obtain ⟨h1, h1'⟩ := hexDigit_fin ⟨b.toNat / 16, by omega⟩
  obtain ⟨h2, -⟩ := hexDigit_fin ⟨b.toNat % 16, by omega⟩
  simp only at h1 h2 h1'
  have e : (b :: bs).flatMap byteToHex =
      hexDigit (b.toNat / 16) :: hexDigit (b.toNat % 16) :: bs.flatMap byteToHex := rfl
  rw [e]
  unfold sanitizeHex
  by_cases h0 : b.toNat / 16 = 0
  · rw [List.dropWhile_cons_of_pos (by rw [h1]; simpa using h0),
      List.dropWhile_cons_of_neg (by rw [h2]; simp; omega)]
    simp only [List.length_cons, hlen]
    rw [if_pos (by omega), h1' h0]
  · rw [List.dropWhile_cons_of_neg (by rw [h1]; simpa using h0)]
    simp only [List.length_cons, hlen]
    rw [if_neg (by omega)]

theorem bytesToHex_of_ne_zero (bs : List UInt8) (h : ofBytesBE bs ≠ 0) :
    ∃ b rest, bs.dropWhile (· = 0) = b :: rest ∧ b ≠ 0 ∧
      bytesToHex bs = (b :: rest).flatMap byteToHex := by
  cases hd : bs.dropWhile (· = 0) with
  | nil =>
    rw [← ofBytesBE_dropWhile, hd] at h
    exact absurd rfl h
  | cons b rest =>
    refine ⟨b, rest, rfl, ?_, ?_⟩
    · have := List.head_dropWhile_not (p := fun x : UInt8 => decide (x = 0)) (l := bs) (by rw [hd]; simp)
      simpa [hd] using this
    · rw [bytesToHex, hd]

/-- Printing as hex and parsing gives back the bytes without leading zeros. -/
theorem parse_bytesToHex (bs : List UInt8) (h : ofBytesBE bs ≠ 0) :
    (do let t ← sanitizeHex (bytesToHex bs); hexToBytes t) = .ok (bs.dropWhile (· = 0)) := by
  obtain ⟨b, rest, hd, hb, hh⟩ := bytesToHex_of_ne_zero bs h
  rw [hh, sanitizeHex_flatMap b rest hb, Res.bind_ok, hexToBytes_flatMap, hd]

theorem sanitizeHex_zero (bs : List UInt8) (h : ofBytesBE bs = 0) :
    sanitizeHex (bytesToHex bs) = .throw .outOfRange := by
  rw [bytesToHex, ofBytesBE_eq_zero bs h]
  rfl

/-- Hex strings determine the number. -/
theorem bytesToHex_inj (bs cs : List UInt8) (h : bytesToHex bs = bytesToHex cs) :
    ofBytesBE bs = ofBytesBE cs := by
  by_cases hb : ofBytesBE bs = 0
  · by_cases hc : ofBytesBE cs = 0
    · rw [hb, hc]
    · obtain ⟨b, rest, hd, hb', hh⟩ := bytesToHex_of_ne_zero cs hc
      have h1 := sanitizeHex_zero bs hb
      rw [h, hh, sanitizeHex_flatMap b rest hb'] at h1
      cases h1
  · by_cases hc : ofBytesBE cs = 0
    · obtain ⟨b, rest, hd, hb', hh⟩ := bytesToHex_of_ne_zero bs hb
      have h1 := sanitizeHex_zero cs hc
      rw [← h, hh, sanitizeHex_flatMap b rest hb'] at h1
      cases h1
    · have h1 := parse_bytesToHex bs hb
      rw [h, parse_bytesToHex cs hc] at h1
      rw [← ofBytesBE_dropWhile bs, ← ofBytesBE_dropWhile cs]
      rw [Res.ok.inj h1]

end EG
