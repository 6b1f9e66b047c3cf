import Verif.Lemmas.Group
import Verif.Spec.Hex

/-! Helper lemmas: parsing strings that consist of hex digits. -/

namespace EG

open Spec

/-- All hex digit characters. -/
def hexChars : List Char := digitsUpper ++ digitsLower

/-- Value of a hex digit, 0 for other characters. -/
def dv (c : Char) : ℕ := (hexVal c).getD 0

theorem isDigit_spec (c : Char) (d : ℕ) (h : IsDigit c d) : c ∈ hexChars ∧ d = dv c := by
  have hU : ∀ n : Fin 16, dv (digitsUpper[n.val]?.getD ' ') = n.val := by decide +kernel
  have hL : ∀ n : Fin 16, dv (digitsLower[n.val]?.getD ' ') = n.val := by decide +kernel
  rcases h with h | h
  · have hd : d < 16 := (List.getElem?_eq_some_iff.1 h).1
    have := hU ⟨d, hd⟩
    simp only [h, Option.getD_some] at this
    exact ⟨List.mem_append_left _ (List.mem_of_getElem? h), this.symm⟩
  · have hd : d < 16 := (List.getElem?_eq_some_iff.1 h).1
    have := hL ⟨d, hd⟩
    simp only [h, Option.getD_some] at this
    exact ⟨List.mem_append_right _ (List.mem_of_getElem? h), this.symm⟩

theorem hexNumber_spec (s : List Char) (n : ℕ) (h : HexNumber s n) :
    (∀ c ∈ s, c ∈ hexChars) ∧ n = hexDigitsVal s := by
  induction h with
  | nil => exact ⟨by simp, rfl⟩
  | snoc s c n d _ hd ih =>
    obtain ⟨h1, h2⟩ := isDigit_spec c d hd
    refine ⟨?_, ?_⟩
    · intro x hx
      rcases List.mem_append.1 hx with h | h
      · exact ih.1 x h
      · rw [List.mem_singleton.1 h]; exact h1
    · rw [hexDigitsVal, List.foldl_append, ih.2, h2]; rfl

theorem hexDigitsVal_cons_zero (s : List Char) : hexDigitsVal ('0' :: s) = hexDigitsVal s := by
  rw [hexDigitsVal, List.foldl_cons]; rfl

theorem foldl_hex (s : List Char) (acc : ℕ) :
    s.foldl (fun acc c => 16 * acc + (hexVal c).getD 0) acc = acc * 16 ^ s.length + hexDigitsVal s := by
  induction s generalizing acc with
  | nil => simp [hexDigitsVal]
  | cons c s ih =>
    rw [hexDigitsVal, List.foldl_cons, List.foldl_cons, ih, ih, List.length_cons, pow_succ]
    ring

theorem hexDigitsVal_cons (c : Char) (s : List Char) :
    hexDigitsVal (c :: s) = dv c * 16 ^ s.length + hexDigitsVal s := by
  rw [hexDigitsVal, List.foldl_cons, foldl_hex]; simp [dv]

theorem leading_hex : ∀ c ∈ hexChars, (isLeadingChar c = true ↔ c = '0') ∧
    (dv c = 0 ↔ c = '0') ∧ dv c < 16 := by decide +kernel

theorem hexDigitsVal_dropWhile (s : List Char) (h : ∀ c ∈ s, c ∈ hexChars) :
    hexDigitsVal (s.dropWhile isLeadingChar) = hexDigitsVal s := by
  induction s with
  | nil => rfl
  | cons c s ih =>
    have hc := (leading_hex c (h c (by simp))).1
    by_cases hl : isLeadingChar c = true
    · rw [List.dropWhile_cons_of_pos hl, ih (fun x hx => h x (by simp [hx])), hc.1 hl,
        hexDigitsVal_cons_zero]
    · rw [List.dropWhile_cons_of_neg hl]

theorem stoi_two : ∀ c1 ∈ hexChars, ∀ c2 ∈ hexChars,
    stoi16Byte [c1, c2] = .ok (UInt8.ofNat (16 * dv c1 + dv c2)) := by decide +kernel

theorem hexToBytes_digits (k : ℕ) : ∀ s : List Char, s.length = 2 * k → (∀ c ∈ s, c ∈ hexChars) →
    ∃ bs, hexToBytes s = .ok bs ∧ bs.length = k ∧ ofBytesBE bs = hexDigitsVal s := by
  induction k with
  | zero =>
    intro s hl _
    have : s = [] := by simpa using hl
    subst this
    exact ⟨[], rfl, rfl, rfl⟩
  | succ k ih =>
    intro s hl hs
    match s, hl with
    | c1 :: c2 :: s, hl =>
      have hl' : s.length = 2 * k := by simp at hl; omega
      obtain ⟨bs, h1, h2, h3⟩ := ih s hl' (fun c hc => hs c (by simp [hc]))
      have hc1 := hs c1 (by simp)
      have hc2 := hs c2 (by simp)
      refine ⟨UInt8.ofNat (16 * dv c1 + dv c2) :: bs, ?_, by simp [h2], ?_⟩
      · rw [hexToBytes, stoi_two c1 hc1 c2 hc2, Res.bind_ok, h1]; rfl
      · have hb1 := (leading_hex c1 hc1).2.2
        have hb2 := (leading_hex c2 hc2).2.2
        rw [ofBytesBE_cons, h2, h3, hexDigitsVal_cons, hexDigitsVal_cons, List.length_cons, hl']
        have : (UInt8.ofNat (16 * dv c1 + dv c2)).toNat = 16 * dv c1 + dv c2 := by
          simp; omega
        rw [this, show (256 : ℕ) = 16 ^ 2 by norm_num, ← pow_mul, pow_succ]
        ring

/-- Parsing a string of hex digits: nothing but zeros throws, otherwise the parsed bytes denote
the number and have no superfluous leading byte. -/
theorem parse_digits (s : List Char) (h : ∀ c ∈ s, c ∈ hexChars) :
    (hexDigitsVal s = 0 → sanitizeHex s = .throw .outOfRange) ∧
    (hexDigitsVal s ≠ 0 → ∃ t bs, sanitizeHex s = .ok t ∧ hexToBytes t = .ok bs ∧ bs ≠ [] ∧
      ofBytesBE bs = hexDigitsVal s ∧ 256 ^ (bs.length - 1) ≤ hexDigitsVal s) := by
  have hv := hexDigitsVal_dropWhile s h
  have hsub : ∀ c ∈ s.dropWhile isLeadingChar, c ∈ hexChars :=
    fun c hc => h c ((List.dropWhile_sublist _).subset hc)
  have hhead : ∀ c rest, s.dropWhile isLeadingChar = c :: rest → 0 < dv c := by
    intro c rest hd
    have h1 := List.head_dropWhile_not (p := isLeadingChar) (l := s) (by rw [hd]; simp)
    simp only [hd, List.head_cons] at h1
    have hc := leading_hex c (hsub c (by rw [hd]; simp))
    rcases Nat.eq_zero_or_pos (dv c) with h0 | h0
    · rw [hc.1.2 (hc.2.1.1 h0)] at h1; cases h1
    · exact h0
  unfold sanitizeHex
  cases hd : s.dropWhile isLeadingChar with
  | nil =>
    rw [hd] at hv
    exact ⟨fun _ => rfl, fun hne => absurd hv.symm hne⟩
  | cons c rest =>
    have h0 := hhead c rest hd
    have hge : 16 ^ rest.length ≤ hexDigitsVal s := by
      rw [← hv, hd, hexDigitsVal_cons]
      nlinarith [Nat.one_le_pow rest.length 16 (by norm_num)]
    refine ⟨fun hz => absurd hz (by have := Nat.one_le_pow rest.length 16 (by norm_num); omega), ?_⟩
    intro _
    have hp : (256 : ℕ) = 16 ^ 2 := by norm_num
    by_cases hodd : (c :: rest).length % 2 ≠ 0
    · simp only [if_pos hodd]
      obtain ⟨bs, h1, h2, h3⟩ := hexToBytes_digits ((rest.length + 2) / 2) ('0' :: c :: rest)
        (by simp at hodd ⊢; omega) (by
          intro x hx
          rcases List.mem_cons.1 hx with hx | hx
          · rw [hx]; decide +kernel
          · exact hsub x (by rw [hd]; exact hx))
      refine ⟨_, bs, rfl, h1, ?_, ?_, ?_⟩
      · intro hb; rw [hb] at h2; simp at h2
      · rw [h3, hexDigitsVal_cons_zero, ← hd, hv]
      · refine le_trans ?_ hge
        rw [hp, ← pow_mul]
        exact Nat.pow_le_pow_right (by norm_num) (by omega)
    · simp only [if_neg hodd]
      obtain ⟨bs, h1, h2, h3⟩ := hexToBytes_digits ((rest.length + 1) / 2) (c :: rest)
        (by simp at hodd ⊢; omega) (by intro x hx; exact hsub x (by rw [hd]; exact hx))
      refine ⟨_, bs, rfl, h1, ?_, ?_, ?_⟩
      · intro hb; rw [hb] at h2; simp at h2 hodd; omega
      · rw [h3, ← hd, hv]
      · refine le_trans ?_ hge
        rw [hp, ← pow_mul]
        exact Nat.pow_le_pow_right (by norm_num) (by simp at hodd; omega)

end EG
