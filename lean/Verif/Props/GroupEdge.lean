import Verif.Props.Group
import Verif.Lemmas.HexLax

/-!
# C01, C06, C07, C08, C55: the group functions outside their normal use
-/

namespace EG

variable (G : Params)

/-! ## C01 addition of elements above the modulus -/

/-- C01, what happens beyond the claim, exactly: when two 256-bit values, one of them above `q`, have a sum
of at least `2^256 - 1`, the result is too large by the number of operands above `q`; adding `q` and
`2^256 - 1` gives zero. -/
theorem C01_unreduced_exact (a b : ℕ) (ha : a < 2 ^ 256) (hb : b < 2 ^ 256)
    (hs : 2 ^ 256 - 1 ≤ a + b) (hbig : Params.std.q < a ∨ Params.std.q < b) :
    addModQ .std a b =
      if (a = Params.std.q ∧ b = 2 ^ 256 - 1) ∨ (b = Params.std.q ∧ a = 2 ^ 256 - 1) then 0
      else (a + b + (if Params.std.q < a then 1 else 0) + if Params.std.q < b then 1 else 0) %
        Params.std.q := by
  have hq : Params.std.q = 2 ^ 256 - 189 := by decide +kernel
  have hoff : Params.std.qOff = 189 := by decide +kernel
  have hc := (addModQ_cond a b ha hb).trans (decide_eq_true hs)
  have hor : (elemLt Params.std.q a || elemLt Params.std.q b) = true := by
    rw [Bool.or_eq_true, elemLt_iff, elemLt_iff]; exact hbig
  unfold addModQ
  simp only [hc, hor, if_true, elemLt_iff]
  simp only [add4_fst, hoff]
  rw [modQ_eq C54_std_valid _ (mod256_lt _), hq]
  rw [hq] at hbig
  have red : ∀ x y k : ℕ, y = x + (2 ^ 256 - 189) * k → x % (2 ^ 256 - 189) = y % (2 ^ 256 - 189) := by
    rintro x y k rfl
    rw [Nat.add_mul_mod_self_left]
  by_cases h1 : 2 ^ 256 - 189 < a
  · by_cases h2 : 2 ^ 256 - 189 < b
    · have he : ¬ ((a = 2 ^ 256 - 189 ∧ b = 2 ^ 256 - 1) ∨ (b = 2 ^ 256 - 189 ∧ a = 2 ^ 256 - 1)) := by
        omega
      rw [if_neg he]
      simp only [if_pos h1, if_pos h2]
      refine red _ _ 2 ?_
      omega
    · simp only [if_pos h1, if_neg h2]
      by_cases he : (a = 2 ^ 256 - 189 ∧ b = 2 ^ 256 - 1) ∨ (b = 2 ^ 256 - 189 ∧ a = 2 ^ 256 - 1)
      · rw [if_pos he]
        have : b = 2 ^ 256 - 189 ∧ a = 2 ^ 256 - 1 := by omega
        rw [this.1, this.2]
        norm_num
      · rw [if_neg he]
        refine red _ _ 1 ?_
        omega
  · have h2 : 2 ^ 256 - 189 < b := by omega
    simp only [if_neg h1, if_pos h2]
    by_cases he : (a = 2 ^ 256 - 189 ∧ b = 2 ^ 256 - 1) ∨ (b = 2 ^ 256 - 189 ∧ a = 2 ^ 256 - 1)
    · rw [if_pos he]
      have : a = 2 ^ 256 - 189 ∧ b = 2 ^ 256 - 1 := by omega
      rw [this.1, this.2]
      norm_num
    · rw [if_neg he]
      refine red _ _ 1 ?_
      omega

/-- C01 is limited to reduced operands: otherwise the sum is always wrong when it overflows. -/
theorem C01_unreduced_always_wrong (a b : ℕ) (ha : a < 2 ^ 256) (hb : b < 2 ^ 256)
    (hs : 2 ^ 256 - 1 ≤ a + b) (hbig : Params.std.q < a ∨ Params.std.q < b) :
    addModQ .std a b ≠ (a + b) % Params.std.q := by
  have hq : Params.std.q = 2 ^ 256 - 189 := by decide +kernel
  rw [C01_unreduced_exact a b ha hb hs hbig]
  rw [hq] at hbig ⊢
  split_ifs <;> omega

example : Params.std.q < Params.std.q + 5 ∧ Params.std.q + 5 < 2 ^ 256 ∧
    addModQ .std (Params.std.q + 5) (Params.std.q + 7) = 14 ∧
    (Params.std.q + 5 + (Params.std.q + 7)) % Params.std.q = 12 := by decide +kernel

/-! ## C06 reduction modulo p -/

/-- C06 is violated by `mod_p`: for every element it reads beyond the end of the element's array. -/
theorem C06_mod_p_violated (a : ℕ) : modP G a = .ub := by
  have hl : ∀ k n, (toLimbs k n).length = k := by
    intro k
    induction k with
    | zero => intro n; rfl
    | succ k ih => intro n; simp [toLimbs, ih]
  rw [modP, modArr, if_pos]
  rw [hl]
  show 64 < 2 * 64
  norm_num

/-- The reduction is right for arrays of the size it expects. -/
theorem C06_mod_array (hG : G.Valid) (limbs : List ℕ) (hl : limbs.length = 128)
    (h : ∀ x ∈ limbs, x < 2 ^ 64) : modArr (ctxP G) limbs = .ok (ofLimbs limbs % G.p) := by
  have hk : (ctxP G).k = 64 := rfl
  have hlt : ∀ l : List ℕ, (∀ x ∈ l, x < 2 ^ 64) → ofLimbs l < 2 ^ (64 * l.length) := by
    intro l
    induction l with
    | nil => intro _; simp [ofLimbs]
    | cons x l ih =>
      intro hx
      have h1 := hx x (by simp)
      have h2 := ih (fun y hy => hx y (by simp [hy]))
      rw [ofLimbs, List.length_cons, mul_add, pow_add]
      generalize 2 ^ (64 * l.length) = M at *
      rw [mul_one]
      nlinarith
  rw [modArr, if_neg (by rw [hk]; omega), hk, List.take_of_length_le (by omega), modP_eq hG]
  have := hlt limbs h
  rw [hl] at this
  exact this

/-! ## C07 arrays that are too long -/

/-- C07: an array that is too long for the element overflows the fixed buffer. -/
theorem C07_long_limbs_p (un : Bool) (limbs : List ℕ) (hl : 64 < limbs.length) :
    mkPVec G un limbs = .ub := by
  rw [mkPVec, if_pos (by omega)]

example : 64 < (List.replicate 65 (1 : ℕ)).length := by decide

/-! ## C08 hex of bytes -/

/-- C08: bytes print as `00` exactly if there is no byte but zero; the empty sequence is one of them. -/
theorem C08_hex_of_zeros (bs : List UInt8) : bytesToHex bs = ['0', '0'] ↔ ∀ b ∈ bs, b = 0 := by
  have key : ∀ b : UInt8, b ≠ 0 → byteToHex b ≠ ['0', '0'] := by
    intro b hb h
    have h1 := stoi16Byte_byteToHex b
    rw [h, show stoi16Byte ['0', '0'] = .ok 0 by decide +kernel] at h1
    injection h1 with h1
    exact hb h1.symm
  rw [show (∀ b ∈ bs, b = 0) ↔ bs.dropWhile (· = 0) = [] by simp [List.dropWhile_eq_nil_iff]]
  unfold bytesToHex
  cases hd : bs.dropWhile (· = 0) with
  | nil => simp
  | cons b rest =>
    simp only [reduceCtorEq, iff_false]
    have hb : b ≠ 0 := by
      have h1 := List.head_dropWhile_not (p := fun x : UInt8 => decide (x = 0)) (l := bs) (by rw [hd]; simp)
      simp only [hd, List.head_cons] at h1
      simpa using h1
    intro h
    rw [List.flatMap_cons] at h
    cases rest with
    | nil => exact key b hb (by simpa using h)
    | cons c rest =>
      have := congrArg List.length h
      simp [byteToHex] at this

example : bytesToHex [] = ['0', '0'] ∧ bytesToHex [0, 10] = ['0', 'A'] := by decide +kernel

/-! ## C55 what hex parsing accepts -/

/-- C55: every text either has nothing but zeros and white space, or something is left when leading zeros
and white space are removed. -/
theorem C55_stripped (s : List Char) :
    (∀ c ∈ s, c = '0' ∨ c ∈ Spec.blanks) ∨ ∃ t, Spec.Stripped s t := stripped_cases s

/-- C55: a text of zeros and white space is refused, also the text `0`. -/
theorem C55_blank (un : Bool) (s : List Char) (h : ∀ c ∈ s, c = '0' ∨ c ∈ Spec.blanks) :
    fromHexQ G un s = .throw .outOfRange ∧ fromHexP G un s = .throw .outOfRange := by
  rw [fromHexQ, fromHexP, sanitizeHex_blank s h]
  exact ⟨rfl, rfl⟩

/-- C55, what is accepted, exactly: behind leading zeros and white space, pairs of characters that are read
as bytes in the wide sense of `Spec.LaxByte`. -/
theorem C55_exact_q (s t : List Char) (ht : Spec.Stripped s t) :
    (∀ k n, Spec.LaxHex t k n → fromHexQ G false s =
      if k ≤ 32 ∧ n ≤ G.q then .ok n else .throw .outOfRange) ∧
    ((∀ k n, ¬ Spec.LaxHex t k n) → fromHexQ G false s = .throw .invalidArgument) := by
  obtain ⟨h1, h2, h3⟩ := sanitizeHex_stripped s t ht
  unfold fromHexQ
  rw [h1, Res.bind_ok]
  rcases hexToBytes_lax (t.length / 2) t (by omega) with ⟨n, bs, h4, h5, h6, h7⟩ | ⟨h4, h5⟩
  · rw [h5, Res.bind_ok]
    refine ⟨?_, fun h => absurd h4 (h _ _)⟩
    intro k m hm
    obtain ⟨rfl, rfl⟩ := laxHex_unique h4 hm
    have hne : bs ≠ [] := by
      rintro rfl
      simp at h6
      exact h3 (List.length_eq_zero_iff.1 (by omega))
    rw [C07_bytes_q G bs hne, h7, h6]
  · rw [h5]
    exact ⟨fun k n h => absurd h (h4 k n), fun _ => rfl⟩

/-- C55, the same for p-elements. -/
theorem C55_exact_p (s t : List Char) (ht : Spec.Stripped s t) :
    (∀ k n, Spec.LaxHex t k n → fromHexP G false s =
      if k ≤ 512 ∧ n ≤ G.p then .ok n else .throw .outOfRange) ∧
    ((∀ k n, ¬ Spec.LaxHex t k n) → fromHexP G false s = .throw .invalidArgument) := by
  obtain ⟨h1, h2, h3⟩ := sanitizeHex_stripped s t ht
  unfold fromHexP
  rw [h1, Res.bind_ok]
  rcases hexToBytes_lax (t.length / 2) t (by omega) with ⟨n, bs, h4, h5, h6, h7⟩ | ⟨h4, h5⟩
  · rw [h5, Res.bind_ok]
    refine ⟨?_, fun h => absurd h4 (h _ _)⟩
    intro k m hm
    obtain ⟨rfl, rfl⟩ := laxHex_unique h4 hm
    have hne : bs ≠ [] := by
      rintro rfl
      simp at h6
      exact h3 (List.length_eq_zero_iff.1 (by omega))
    rw [C07_bytes_p G bs hne, h7, h6]
  · rw [h5]
    exact ⟨fun k n h => absurd h (h4 k n), fun _ => rfl⟩

/-- The text ` 0 1-F1z` is read as the bytes 1, 241, 1. -/
example : Spec.Stripped [' ', '0', ' ', '1', '-', 'F', '1', 'z'] ['0', '1', '-', 'F', '1', 'z'] ∧
    Spec.LaxHex ['0', '1', '-', 'F', '1', 'z'] 3 (256 * (256 * (256 * 0 + 1) + 241) + 1) := by
  refine ⟨.odd [' ', '0', ' '] _ (by decide) (by decide) rfl, ?_⟩
  refine .snoc ['0', '1', '-', 'F'] '1' 'z' 2 _ 1 (.snoc ['0', '1'] '-' 'F' 1 _ 241
    (.snoc [] '0' '1' 0 0 1 .nil (.both (m := 0) (n := 1) (.inl rfl) (.inl rfl)))
    (.minus (n := 15) (.inl rfl))) (.first (.inl rfl) ?_)
  rw [← hexVal_none]
  decide +kernel

/-- A text that is refused. -/
example : Spec.Stripped ['-', '-'] ['-', '-'] ∧ ∀ k n, ¬ Spec.LaxHex ['-', '-'] k n := by
  refine ⟨.even [] _ (by simp) (by simp) (by decide) rfl, ?_⟩
  intro k n h
  obtain ⟨_, _, _, _, _, h1, _⟩ := laxHex_uncons h '-' '-' [] rfl
  cases h1 with
  | both h _ => exact (hexVal_none '-').1 sign_not_hex.2.1 _ h
  | first h _ => exact (hexVal_none '-').1 sign_not_hex.2.1 _ h
  | blank _ h => exact (hexVal_none '-').1 sign_not_hex.2.1 _ h
  | minus h => exact (hexVal_none '-').1 sign_not_hex.2.1 _ h

end EG
