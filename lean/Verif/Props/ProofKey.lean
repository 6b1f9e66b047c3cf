import Verif.Props.VoteLimit
import Verif.Props.ZeroKnowledge
import Mathlib.Tactic.Ring

/-!
# C75: proofs and the public key

The hashed challenge covers the header, the ciphertext and the commitments, not the public key, and no
header derived from an election covers the key either (C40).  So whoever chooses the key can choose it
after the challenge.
-/

namespace EG

variable (G : Params) (C : Crypto)

section
variable {G}

theorem residue_one (hG : G.Valid) : Residue G 1 :=
  ⟨one_pos, hG.p_gt, by rw [one_pow, Nat.mod_eq_of_lt hG.p_gt]⟩

theorem exists_half (hG : G.Valid) {c : ℕ} (hc : c < G.q) (h0 : c ≠ 0) :
    ∃ s, 0 < s ∧ s < G.q ∧ (s + s) % G.q = c := by
  have hgt := hG.q_gt
  rcases Nat.even_or_odd' c with ⟨k, rfl | rfl⟩
  · exact ⟨k, by omega, by omega, by rw [← two_mul, Nat.mod_eq_of_lt hc]⟩
  · have hodd : ∃ j, G.q = 2 * j + 1 := by
      rcases hG.q_prime.eq_two_or_odd' with h | ⟨j, hj⟩
      · omega
      · exact ⟨j, hj⟩
    obtain ⟨j, hj⟩ := hodd
    refine ⟨k + j + 1, by omega, by omega, ?_⟩
    rw [show k + j + 1 + (k + j + 1) = 2 * k + 1 + G.q by omega, Nat.add_mod_right, Nat.mod_eq_of_lt hc]

theorem root_unique (hG : G.Valid) {x y : ZMod G.p} (hx : x ^ G.q = 1) (hy : y ^ G.q = 1) {v : ℕ}
    (v0 : 0 < v) (vq : v < G.q) (h : x ^ v = y ^ v) : x = y := by
  have hcop : Nat.Coprime v G.q := ((Nat.Prime.coprime_iff_not_dvd hG.q_prime).2 (fun hd =>
    absurd (Nat.eq_zero_of_dvd_of_lt hd vq) (by omega))).symm
  obtain ⟨k, hk⟩ := Nat.exists_mul_mod_eq_one_of_coprime hcop (by have := hG.q_gt; omega)
  have key : ∀ z : ZMod G.p, z ^ G.q = 1 → (z ^ v) ^ k = z := by
    intro z hz
    rw [← pow_mul, pow_congr hz (b := 1), pow_one]
    rw [hk.2, Nat.mod_eq_of_lt (by have := hG.q_gt; omega)]
  rw [← key x hx, ← key y hy, h]

end

/-- C75, what holds: one disjunctive proof is not accepted under two keys. -/
theorem C75_one_key_partial (hG : G.Valid) (π : DisjProof) (hπ : π.Typed) (m : Ciphertext)
    (hp : m.pad < 2 ^ 4096) (hd : m.data < 2 ^ 4096) (K K' h h' : ℕ) (hK : Residue G K)
    (hK' : Residue G K') (C' : Crypto) (h1 : π.isValid G C m K h = true)
    (h2 : π.isValid G C' m K' h' = true) : K = K' := by
  have s1 := (disj_isValid_iff hG π hπ m hp hd K h (hK.lt hG)).1 h1
  have s2 := (disj_isValid_iff hG π hπ m hp hd K' h' (hK'.lt hG)).1 h2
  have e := s1.kv0.trans s2.kv0.symm
  rw [modEq_cast] at e
  push_cast at e
  exact eq_of_cast hK.2.1 hK'.2.1 (root_unique hG (hK.pow_q hG) (hK'.pow_q hG) s1.v0_pos s1.v0_lt e)

/-- C75, what holds: one constant proof is not accepted under two keys. -/
theorem C75_one_key_constant_partial (hG : G.Valid) (hL : G.Large) (π : ConstProof) (hπ : π.Typed)
    (m : Ciphertext) (hp : m.pad < 2 ^ 4096) (hd : m.data < 2 ^ 4096) (K K' h h' : ℕ)
    (hK : Residue G K) (hK' : Residue G K') (C' : Crypto) (h1 : π.isValid G C m K h = .ok true)
    (h2 : π.isValid G C' m K' h' = .ok true) : K = K' := by
  obtain ⟨b1, q1, r1⟩ := const_isValid_iff hG hL (C := C) π hπ m hp hd K h (hK.lt hG)
  obtain ⟨b2, q2, r2⟩ := const_isValid_iff hG hL (C := C') π hπ m hp hd K' h' (hK'.lt hG)
  rw [h1, Res.ok.injEq] at q1
  rw [h2, Res.ok.injEq] at q2
  have s1 := r1.1 q1.symm
  have s2 := r2.1 q2.symm
  have e := s1.gckv.trans s2.gckv.symm
  rw [modEq_cast] at e
  push_cast at e
  have e' := ((isUnit_of_pow_q hG (g_pow_q hG)).pow _).mul_right_inj.1 e
  exact eq_of_cast hK.2.1 hK'.2.1 (root_unique hG (hK.pow_q hG) (hK'.pow_q hG) s1.v_pos s1.v_lt e')

/-- The ciphertext `(1, g^t)`: the encryption of `t` with nonce 0, under every key. -/
def bareCiphertext (t : ℕ) : Ciphertext := ⟨1, gPowP G t⟩

theorem bareCiphertext_encrypts (hG : G.Valid) (K t : ℕ) (ht : t < G.q) :
    IsEncryption G K t 0 (bareCiphertext G t) := by
  have ht' := lt_trans ht hG.q_lt
  refine ⟨hG.p_gt, gPowP_lt hG t ht', ?_, ?_⟩
  · rw [modEq_cast]; simp [bareCiphertext]
  · rw [modEq_cast]
    simp only [bareCiphertext]
    push_cast
    rw [cast_gPowP hG t ht', pow_zero, mul_one]

/-- C75 is violated, for every hash function: for every number `t` of votes there are a key with a known
secret and an accepted proof that a ciphertext encrypts 0 or 1, where it encrypts `t` (unless the
challenge happens to be zero). -/
theorem C75_disjunctive_violated (hG : G.Valid) (h t : ℕ) (h2 : 2 ≤ t) (ht : t < G.q)
    (hc : hashElems G C [.q h, .p 1, .p (gPowP G t), .p (gPowP G t), .p 1, .p (gPowP G (t - 1)), .p 1] ≠ 0) :
    ∃ (s : ℕ) (π : DisjProof), s < G.q ∧ π.Typed ∧ Residue G (gPowP G s) ∧
      π.isValid G C (bareCiphertext G t) (gPowP G s) h = true ∧
      IsEncryption G (gPowP G s) t 0 (bareCiphertext G t) ∧
      ∀ x r, IsEncryption G (gPowP G s) x r (bareCiphertext G t) → x % G.q = t := by
  have hq := hG.q_lt
  have hgt := hG.q_gt
  obtain ⟨s, s0, sq, hs⟩ := exists_half hG (hashElems_lt (C := C) hG [.q h, .p 1, .p (gPowP G t),
    .p (gPowP G t), .p 1, .p (gPowP G (t - 1)), .p 1]) hc
  have sq' := lt_trans sq hq
  have tq' := lt_trans ht hq
  have tq1 : t - 1 < 2 ^ 256 := lt_of_le_of_lt (Nat.sub_le _ _) tq'
  have r1 := residue_one hG
  have rt := residue_gPowP hG t tq'
  have rt1 := residue_gPowP hG (t - 1) tq1
  have rs := residue_gPowP hG s sq'
  have lc := hashElems_lt (C := C) hG [.q h, .p 1, .p (gPowP G t), .p (gPowP G t), .p 1,
    .p (gPowP G (t - 1)), .p 1]
  have henc := bareCiphertext_encrypts G hG (gPowP G s) t ht
  refine ⟨s, ⟨gPowP G t, 1, gPowP G (t - 1), 1, s, s, hashElems G C [.q h, .p 1, .p (gPowP G t),
    .p (gPowP G t), .p 1, .p (gPowP G (t - 1)), .p 1], t, t - 1⟩, sq, ⟨rt.lt hG, r1.lt hG, rt1.lt hG,
    r1.lt hG, sq', sq', lt_trans lc hq, tq', tq1⟩, rs, ?_, henc, ?_⟩
  · refine (disj_complete G C hG (bareCiphertext G t) (gPowP G s) h (rs.lt hG) r1 rt _ _ _ _ _ _ _ _ _
      rt r1 rt1 r1 sq sq ht (by omega) hs rfl ?_ ?_ ?_ ?_).2 ⟨by omega, by omega, by omega, by omega⟩
    · simp only [bareCiphertext]
      rw [cast_gPowP hG t tq', Nat.cast_one, one_pow, mul_one]
    · simp only [bareCiphertext]
      rw [cast_gPowP hG _ tq1, Nat.cast_one, one_pow, mul_one]
    · simp only [bareCiphertext]
      rw [cast_gPowP hG t tq', cast_gPowP hG s sq', Nat.cast_one, one_mul, ← pow_mul, ← pow_mul, mul_comm]
    · simp only [bareCiphertext]
      rw [cast_gPowP hG t tq', cast_gPowP hG s sq', Nat.cast_one, one_mul, ← pow_mul, ← pow_mul, ← pow_add]
      congr 1
      obtain ⟨k, rfl⟩ : ∃ k, t = k + 1 := ⟨t - 1, by omega⟩
      simp only [Nat.add_sub_cancel]
      ring
  · intro x r hx
    rw [isEncryption_unique G hG rs hx henc, Nat.mod_eq_of_lt ht]

/-- C75 is violated for constant proofs too: for every number `t` of votes and every constant `L` there
are a key with a known secret and an accepted proof that a ciphertext of `t` encrypts `L`. -/
theorem C75_constant_violated (hG : G.Valid) (hL : G.Large) (h t L : ℕ) (ht : t < G.q) (hL64 : L < 2 ^ 64)
    (hc : hashElems G C [.q h, .p 1, .p (gPowP G t), .p (gPowP G 1), .p 1] ≠ 0) :
    ∃ (s : ℕ) (π : ConstProof), s < G.q ∧ π.Typed ∧ π.constant = L ∧ Residue G (gPowP G s) ∧
      π.isValid G C (bareCiphertext G t) (gPowP G s) h = .ok true ∧
      IsEncryption G (gPowP G s) t 0 (bareCiphertext G t) ∧
      ∀ x r, IsEncryption G (gPowP G s) x r (bareCiphertext G t) → x % G.q = t := by
  have hq := hG.q_lt
  have hgt := hG.q_gt
  have lc := hashElems_lt (C := C) hG [.q h, .p 1, .p (gPowP G t), .p (gPowP G 1), .p 1]
  obtain ⟨c, hcdef⟩ : ∃ c, c = hashElems G C [.q h, .p 1, .p (gPowP G t), .p (gPowP G 1), .p 1] := ⟨_, rfl⟩
  rw [← hcdef] at hc lc
  have hLq := lt_of_lt_of_le hL64 hL.q_ge
  obtain ⟨s, sq, hs⟩ := exists_sub_mod (Nat.mod_lt (t * c) (show 0 < G.q by omega)) (c * L)
  have sq' := lt_trans sq hq
  have tq' := lt_trans ht hq
  have o1 : (1 : ℕ) < 2 ^ 256 := by norm_num
  have r1 := residue_one hG
  have rt := residue_gPowP hG t tq'
  have rg := residue_gPowP hG 1 o1
  have rs := residue_gPowP hG s sq'
  have henc := bareCiphertext_encrypts G hG (gPowP G s) t ht
  have hty : (ConstProof.mk (gPowP G 1) 1 c 1 L).Typed :=
    ⟨rg.lt hG, r1.lt hG, lt_trans lc hq, o1, hL64⟩
  refine ⟨s, ⟨gPowP G 1, 1, c, 1, L⟩, sq, hty, rfl, rs, ?_, henc, ?_⟩
  · obtain ⟨b, hb, hiff⟩ := const_isValid_iff hG hL (C := C) _ hty (bareCiphertext G t) (r1.lt hG)
      (rt.lt hG) (gPowP G s) h (rs.lt hG)
    rw [hb, Res.ok.injEq]
    refine hiff.2 ⟨r1, rt, rg, r1, Nat.pos_of_ne_zero hc, lc, one_pos, by simp only; omega, hcdef, ?_, ?_⟩
    · rw [modEq_cast]
      simp only [bareCiphertext]
      push_cast
      rw [cast_gPowP hG 1 o1, one_pow, mul_one]
    · rw [modEq_cast]
      simp only [bareCiphertext]
      push_cast
      rw [cast_gPowP hG t tq', cast_gPowP hG s sq', pow_one, one_mul, ← pow_add, ← pow_mul]
      exact pow_congr (g_pow_q hG) (by rw [add_comm, hs])
  · intro x r hx
    rw [isEncryption_unique G hG rs hx henc, Nat.mod_eq_of_lt ht]

/-- With the standard parameters, a hash function with value 5 and `t = 40`: one ciphertext that counts
as 40 votes passes as 0 or 1. -/
example : ∃ (s : ℕ) (π : DisjProof), π.isValid .std (constCrypto 5) (bareCiphertext .std 40)
    (gPowP .std s) 7 = true ∧ IsEncryption .std (gPowP .std s) 40 0 (bareCiphertext .std 40) := by
  obtain ⟨s, π, -, -, -, h, h', -⟩ := C75_disjunctive_violated .std (constCrypto 5) C54_std_valid 7 40
    (by omega) (lt_trans (by omega) std_q_gt100)
    (by rw [hashElems_small .std C54_std_valid std_q_gt100 5 (by omega)]; omega)
  exact ⟨s, π, h, h'⟩

/-- The same for a constant proof: 40 votes pass as one. -/
example : ∃ (s : ℕ) (π : ConstProof), π.constant = 1 ∧ π.isValid .std (constCrypto 5)
    (bareCiphertext .std 40) (gPowP .std s) 7 = .ok true ∧
    IsEncryption .std (gPowP .std s) 40 0 (bareCiphertext .std 40) := by
  obtain ⟨s, π, -, -, hL, -, h, h', -⟩ := C75_constant_violated .std (constCrypto 5) C54_std_valid
    std_large 7 40 1 (lt_trans (by omega) std_q_gt100) (by norm_num)
    (by rw [hashElems_small .std C54_std_valid std_q_gt100 5 (by omega)]; omega)
  exact ⟨s, π, hL, h, h'⟩

/-- The hypotheses of `C75_one_key_partial` are met by the accepted proof of `accepted_example`. -/
example : ∃ (π : DisjProof) (m : Ciphertext) (K : ℕ), π.Typed ∧ Residue .std K ∧ m.pad < 2 ^ 4096 ∧
    m.data < 2 ^ 4096 ∧ π.isValid .std (constCrypto 5) m K 7 = true := by
  obtain ⟨m, hm, h1, h2, hall⟩ := accepted_example
  obtain ⟨-, h4, h5⟩ := hall 5 (by omega) (by omega)
  exact ⟨_, m, _, h5, residue_gPowP C54_std_valid 2 (by norm_num), h1, h2, h4⟩

end EG
