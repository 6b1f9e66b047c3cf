import Verif.Model.LookupTable
import Verif.Spec.Params
import Verif.Lemmas.Hacl
import Verif.Lemmas.Convert

/-! Helper lemmas: the group model computes the arithmetic it should. -/

namespace EG

open Hacl

variable {G : Params}

theorem R4 : R 4 = 2 ^ 256 := rfl
theorem R64 : R 64 = 2 ^ 4096 := rfl

theorem Params.Valid.q_odd (h : G.Valid) : G.q % 2 = 1 := by
  rcases h.q_prime.eq_two_or_odd with h2 | h2
  · have := h.q_gt; omega
  · exact h2

theorem Params.Valid.p_gt (h : G.Valid) : 1 < G.p := lt_trans h.g_gt h.g_lt

theorem Params.Valid.r_pos (h : G.Valid) : 0 < G.r := by
  rcases Nat.eq_zero_or_pos G.r with h0 | h0
  · have := h.p_gt; rw [h.p_eq, h0] at this; simp at this
  · exact h0

theorem Params.Valid.q_lt_p (h : G.Valid) : G.q < G.p := by
  rw [h.p_eq]
  have := Nat.le_mul_of_pos_right G.q h.r_pos
  omega

theorem goodQ (h : G.Valid) : GoodMod 4 G.q where
  odd := h.q_odd
  gt := by have := h.q_gt; omega
  lt := by rw [R4]; exact h.q_lt

theorem goodP (h : G.Valid) : GoodMod 64 G.p where
  odd := h.p_odd
  gt := h.p_gt
  lt := by rw [R64]; exact h.p_lt

theorem ctxQ_good (h : G.Valid) : GoodCtx (ctxQ G) := ctxInit_good 4 G.q (goodQ h)
theorem ctxP_good (h : G.Valid) : GoodCtx (ctxP G) := ctxInit_good 64 G.p (goodP h)

theorem modQ_eq (h : G.Valid) (a : ℕ) (ha : a < 2 ^ 512) : modPrecomp (ctxQ G) a = a % G.q :=
  modPrecomp_eq (ctxQ_good h) a (by
    have e : R (ctxQ G).k * R (ctxQ G).k = 2 ^ 512 := by
      change R 4 * R 4 = _
      rw [R4, ← pow_add]
    rw [e]; exact ha)

theorem modP_eq (h : G.Valid) (a : ℕ) (ha : a < 2 ^ 8192) : modPrecomp (ctxP G) a = a % G.p :=
  modPrecomp_eq (ctxP_good h) a (by
    have e : R (ctxP G).k * R (ctxP G).k = 2 ^ 8192 := by
      change R 64 * R 64 = _
      rw [R64, ← pow_add]
    rw [e]; exact ha)

theorem elemLt_iff (a b : ℕ) : elemLt a b = true ↔ a < b := by
  unfold elemLt ltMask
  split <;> simp_all

theorem elemLt_eq (a b : ℕ) : elemLt a b = decide (a < b) := by
  rw [Bool.eq_iff_iff, elemLt_iff, decide_eq_true_iff]

theorem mulModP_eq (h : G.Valid) (a b : ℕ) (ha : a < 2 ^ 4096) (hb : b < 2 ^ 4096) :
    mulModP G a b = a * b % G.p := by
  apply modP_eq h
  have : a * b < 2 ^ 4096 * 2 ^ 4096 := Nat.mul_lt_mul_of_lt_of_lt ha hb
  rw [← pow_add] at this
  exact this

theorem powModPP_eq (h : G.Valid) (a e : ℕ) (ha : a < 2 ^ 4096) (he : e < 2 ^ 512) :
    powModPP G a e = a ^ e % G.p := by
  unfold powModPP
  split
  · rename_i h0
    rw [h0, pow_zero, Nat.mod_eq_of_lt h.p_gt]
  · exact modExpPrecomp_eq (ctxP_good h) a 512 e (by change a < R 64; rw [R64]; exact ha) he

theorem powModP_eq (h : G.Valid) (a e : ℕ) (ha : a < 2 ^ 4096) (he : e < 2 ^ 512) :
    powModP G a e = a ^ e % G.p := by
  unfold powModP
  split
  · rename_i h0
    rw [h0, pow_zero, Nat.mod_eq_of_lt h.p_gt]
  · exact powModPP_eq h a e ha he

theorem powModP_lt (h : G.Valid) (a e : ℕ) (ha : a < 2 ^ 4096) (he : e < 2 ^ 512) :
    powModP G a e < G.p := by
  rw [powModP_eq h a e ha he]
  exact Nat.mod_lt _ (by have := h.p_gt; omega)

theorem gPowP_eq (h : G.Valid) (e : ℕ) (he : e < 2 ^ 512) : gPowP G e = G.g ^ e % G.p :=
  powModP_eq h G.g e (lt_trans h.g_lt h.p_lt) he

theorem add4_fst (a b : ℕ) : (add 4 a b).1 = (a + b) % 2 ^ 256 := rfl
theorem add4_snd (a b : ℕ) : (add 4 a b).2 = (a + b) / 2 ^ 256 := rfl
theorem sub4_fst (a b : ℕ) : (sub 4 a b).1 = (a + 2 ^ 256 - b) % 2 ^ 256 := rfl
theorem sub4_snd (a b : ℕ) : (sub 4 a b).2 = if a < b then 1 else 0 := rfl

theorem mod256_lt (x : ℕ) : x % 2 ^ 256 < 2 ^ 512 :=
  lt_of_lt_of_le (Nat.mod_lt _ (by norm_num)) (Nat.pow_le_pow_right (by norm_num) (by norm_num))

theorem lt_512_of_lt {x : ℕ} (h : x < 2 ^ 256) : x < 2 ^ 512 :=
  lt_of_lt_of_le h (Nat.pow_le_pow_right (by norm_num) (by norm_num))

theorem aPlusBc_eq (h : G.Valid) (a b c : ℕ) (ha : a < 2 ^ 256) (hb : b < 2 ^ 256)
    (hc : c < 2 ^ 256) : aPlusBcModQ G a b c = .ok ((a + b * c) % G.q) := by
  have hq := h.q_gt
  have hlt := h.q_lt
  have hbc : b * c < 2 ^ 512 := by
    have : b * c < 2 ^ 256 * 2 ^ 256 := Nat.mul_lt_mul_of_lt_of_lt hb hc
    rw [← pow_add] at this
    exact this
  have hodd : G.q % 2 = 1 ∧ 1 < G.q := ⟨h.q_odd, by omega⟩
  have hm : b * c % G.q < G.q := Nat.mod_lt _ (by omega)
  have m1 : ∀ x < 2 ^ 512, modChecked 4 G.q x = some (x % G.q) := by
    intro x hx
    rw [modChecked, if_pos hodd]
    exact congrArg some (modQ_eq h x hx)
  unfold aPlusBcModQ
  rw [m1 _ hbc]
  simp only []
  have hrec : (a + b * c % G.q) % 2 ^ 256 + (a + b * c % G.q) / 2 ^ 256 * 2 ^ 256
      = a + b * c % G.q := by
    have := Nat.mod_add_div (a + b * c % G.q) (2 ^ 256)
    rw [Nat.mul_comm (2 ^ 256)] at this
    exact this
  rw [add4_fst, add4_snd, hrec, m1 _ (by have := @lt_512_of_lt; omega)]
  simp [Nat.add_mod]

/-- The test that triggers the correction of `add_mod_q`. -/
theorem addModQ_cond (a b : ℕ) (ha : a < 2 ^ 256) (hb : b < 2 ^ 256) :
    (decide ((add 4 a b).2 > 0) || isMax256 (add 4 a b).1) = decide (2 ^ 256 - 1 ≤ a + b) := by
  rw [Bool.eq_iff_iff, Bool.or_eq_true, decide_eq_true_iff, decide_eq_true_iff, isMax256,
    decide_eq_true_iff, add4_fst, add4_snd]
  omega

/-- Sums that do not reach `2^256 - 1` are right for arbitrary (also unreduced) operands. -/
theorem addModQ_small (h : G.Valid) (a b : ℕ) (hab : a + b < 2 ^ 256 - 1) :
    addModQ G a b = (a + b) % G.q := by
  have hc := (addModQ_cond a b (by omega) (by omega)).trans
    (decide_eq_false (show ¬ (2 ^ 256 - 1 ≤ a + b) by omega))
  unfold addModQ
  simp only [hc, Bool.false_eq_true, if_false]
  rw [add4_fst, Nat.mod_eq_of_lt (by omega), modQ_eq h _ (lt_512_of_lt (by omega))]

theorem addModQ_eq (h : G.Valid) (a b : ℕ) (ha : a ≤ G.q) (hb : b ≤ G.q) :
    addModQ G a b = (a + b) % G.q := by
  have hq := h.q_gt
  have hlt := h.q_lt
  have hoff := h.qOff_eq
  by_cases hs : a + b < 2 ^ 256 - 1
  · exact addModQ_small h a b hs
  have hA : elemLt G.q a = false := by rw [elemLt_eq]; exact decide_eq_false (by omega)
  have hB : elemLt G.q b = false := by rw [elemLt_eq]; exact decide_eq_false (by omega)
  have hc := (addModQ_cond a b (by omega) (by omega)).trans
    (decide_eq_true (show 2 ^ 256 - 1 ≤ a + b by omega))
  unfold addModQ
  simp only [hc, hA, hB, Bool.or_false, Bool.false_eq_true, if_false, if_true]
  rw [add4_fst, add4_fst, modQ_eq h _ (mod256_lt _)]
  have h3 : (((a + b) % 2 ^ 256) + G.qOff) % 2 ^ 256 + G.q = a + b := by omega
  have h4 := Nat.add_mod_right ((((a + b) % 2 ^ 256) + G.qOff) % 2 ^ 256) G.q
  rw [h3] at h4
  exact h4.symm

theorem addModQ_zero (h : G.Valid) (a : ℕ) (ha : a < 2 ^ 256 - 1) : addModQ G a 0 = a % G.q := by
  rw [addModQ_small h a 0 (by omega), Nat.add_zero]

theorem addModQ_lt (h : G.Valid) (a b : ℕ) : addModQ G a b < G.q := by
  have hq := h.q_gt
  unfold addModQ
  simp only []
  rw [modQ_eq h]
  · exact Nat.mod_lt _ (by omega)
  · split
    · split <;> exact mod256_lt _
    · exact mod256_lt _

theorem subModQ_eq (h : G.Valid) (a b : ℕ) (ha : a ≤ G.q) (hb : b ≤ G.q) :
    subModQ G a b = (a + G.q - b) % G.q := by
  have hq := h.q_gt
  have hlt := h.q_lt
  have hoff := h.qOff_eq
  have hA : elemLt G.q a = false := by rw [elemLt_eq]; exact decide_eq_false (by omega)
  have hB : elemLt G.q b = false := by rw [elemLt_eq]; exact decide_eq_false (by omega)
  unfold subModQ
  simp only [hA, hB, Bool.or_false, Bool.false_eq_true, if_false]
  rw [sub4_snd]
  by_cases hab : a < b
  · rw [if_pos hab, if_pos (by omega), sub4_fst, sub4_fst, modQ_eq h _ (mod256_lt _)]
    congr 1
    omega
  · rw [if_neg hab, if_neg (by omega), sub4_fst, modQ_eq h _ (mod256_lt _)]
    have e : (a + 2 ^ 256 - b) % 2 ^ 256 = a - b := by omega
    have e2 : a + G.q - b = a - b + G.q := by omega
    rw [e, e2, Nat.add_mod_right]

theorem subModQ_lt (h : G.Valid) (a b : ℕ) : subModQ G a b < G.q := by
  have hq := h.q_gt
  unfold subModQ
  simp only []
  rw [modQ_eq h]
  · exact Nat.mod_lt _ (by omega)
  · split
    · split <;> exact mod256_lt _
    · exact mod256_lt _

theorem subFromQ_eq (h : G.Valid) (a : ℕ) (ha : a ≤ G.q) : subFromQ G a = G.q - a := by
  have hlt := h.q_lt
  unfold subFromQ
  rw [sub4_fst]
  omega

theorem mkP_eq (un : Bool) (v : ℕ) :
    mkP G un v = if un = false ∧ G.p < v then .throw .outOfRange else .ok v := by
  have := elemLt_eq G.p v
  unfold elemLt at this
  unfold mkP
  rw [this]
  simp

theorem mkQ_eq (un : Bool) (v : ℕ) :
    mkQ G un v = if un = false ∧ G.q < v then .throw .outOfRange else .ok v := by
  have := elemLt_eq G.q v
  unfold elemLt at this
  unfold mkQ
  rw [this]
  simp

theorem pow256 (n : ℕ) : (256 : ℕ) ^ n = 2 ^ (8 * n) := by
  rw [pow_mul]; norm_num

theorem bytesToP_eq (un : Bool) (bs : List UInt8) (h0 : bs ≠ []) (h1 : bs.length ≤ 512) :
    bytesToP G un bs = mkP G un (ofBytesBE bs) := by
  have hl : bs.length ≠ 0 := by simpa using h0
  have := ofBytesBE_lt bs
  rw [pow256] at this
  rw [bytesToP, if_neg (by omega), if_neg hl, Nat.mod_eq_of_lt this]

theorem bytesToQ_eq (un : Bool) (bs : List UInt8) (h0 : bs ≠ []) (h1 : bs.length ≤ 32) :
    bytesToQ G un bs = mkQ G un (ofBytesBE bs) := by
  have hl : bs.length ≠ 0 := by simpa using h0
  have := ofBytesBE_lt bs
  rw [pow256] at this
  rw [bytesToQ, if_neg (by omega), if_neg hl, Nat.mod_eq_of_lt this]

theorem toHexP_inj (a b : ℕ) (ha : a < 2 ^ 4096) (hb : b < 2 ^ 4096) (h : toHexP a = toHexP b) :
    a = b := by
  have := bytesToHex_inj _ _ h
  unfold toBytesP at this
  rw [ofBytesBE_toBytesBE, ofBytesBE_toBytesBE, pow256, Nat.mod_eq_of_lt ha,
    Nat.mod_eq_of_lt hb] at this
  exact this

theorem toHexQ_inj (a b : ℕ) (ha : a < 2 ^ 256) (hb : b < 2 ^ 256) (h : toHexQ a = toHexQ b) :
    a = b := by
  have := bytesToHex_inj _ _ h
  unfold toBytesQ at this
  rw [ofBytesBE_toBytesBE, ofBytesBE_toBytesBE, pow256, Nat.mod_eq_of_lt ha,
    Nat.mod_eq_of_lt hb] at this
  exact this

theorem dropWhile_length_le (bs : List UInt8) : (bs.dropWhile (· = 0)).length ≤ bs.length :=
  (List.dropWhile_sublist _).length_le

theorem fromHexP_toHexP (un : Bool) (v : ℕ) (hv : v < 2 ^ 4096) (h0 : v ≠ 0) :
    fromHexP G un (toHexP v) = mkP G un v := by
  have hv' : ofBytesBE (toBytesP v) = v := by
    unfold toBytesP
    rw [ofBytesBE_toBytesBE, pow256, Nat.mod_eq_of_lt hv]
  have h1 := parse_bytesToHex (toBytesP v) (by rw [hv']; exact h0)
  have h2 : ofBytesBE ((toBytesP v).dropWhile (· = 0)) = v := by rw [ofBytesBE_dropWhile, hv']
  rw [Res.bind_eq_ok] at h1
  obtain ⟨t, h3, h4⟩ := h1
  unfold fromHexP toHexP
  rw [h3, Res.bind_ok, h4, Res.bind_ok, bytesToP_eq un _ _ _, h2]
  · intro h; rw [h] at h2; exact h0 h2.symm
  · refine le_trans (dropWhile_length_le _) ?_
    simp [toBytesP]

theorem fromHexQ_toHexQ (un : Bool) (v : ℕ) (hv : v < 2 ^ 256) (h0 : v ≠ 0) :
    fromHexQ G un (toHexQ v) = mkQ G un v := by
  have hv' : ofBytesBE (toBytesQ v) = v := by
    unfold toBytesQ
    rw [ofBytesBE_toBytesBE, pow256, Nat.mod_eq_of_lt hv]
  have h1 := parse_bytesToHex (toBytesQ v) (by rw [hv']; exact h0)
  have h2 : ofBytesBE ((toBytesQ v).dropWhile (· = 0)) = v := by rw [ofBytesBE_dropWhile, hv']
  rw [Res.bind_eq_ok] at h1
  obtain ⟨t, h3, h4⟩ := h1
  unfold fromHexQ toHexQ
  rw [h3, Res.bind_ok, h4, Res.bind_ok, bytesToQ_eq un _ _ _, h2]
  · intro h; rw [h] at h2; exact h0 h2.symm
  · refine le_trans (dropWhile_length_le _) ?_
    simp [toBytesQ]

theorem isInBoundsP_iff (v : ℕ) : isInBoundsP G v = true ↔ 0 < v ∧ v < G.p := by
  simp [isInBoundsP, elemLt_eq]

theorem isInBoundsQ_iff (v : ℕ) : isInBoundsQ G v = true ↔ 0 < v ∧ v < G.q := by
  simp [isInBoundsQ, elemLt_eq]

theorem isValidResidue_iff (h : G.Valid) (v : ℕ) (hv : v < 2 ^ 4096) :
    isValidResidue G v = true ↔ (0 < v ∧ v < G.p) ∧ v ^ G.q % G.p = 1 := by
  unfold isValidResidue
  rw [Bool.and_eq_true, isInBoundsP_iff, decide_eq_true_iff,
    powModP_eq h v G.q hv (lt_512_of_lt h.q_lt)]

end EG
