import Verif.Props.ChaumPedersen
import Mathlib.Data.Finset.Prod

/-!
# C76: the proofs show nothing but the statement

For every hash function: each proof the verifier accepts is the output of the prover for exactly one
choice of its random numbers, whichever of the two plaintexts the ciphertext holds and whatever its
nonce.  So for uniformly chosen random numbers the accepted proofs are all equally likely, and their
distribution is the same for a vote and for its absence.
-/

namespace EG

variable (G : Params) (C : Crypto)

section
variable {G C}

theorem exists_sub_mod {q v : ℕ} (hv : v < q) (k : ℕ) : ∃ d, d < q ∧ (d + k) % q = v := by
  have hq : 0 < q := by omega
  have hk := Nat.mod_lt k hq
  refine ⟨(v + q - k % q) % q, Nat.mod_lt _ hq, ?_⟩
  rw [Nat.mod_add_mod, ← Nat.add_mod_mod, show v + q - k % q + k % q = v + q by omega,
    Nat.add_mod_right, Nat.mod_eq_of_lt hv]

theorem add_sub_mod {q a b : ℕ} (ha : a < q) (hb : b < q) : ((a + b) % q + q - b) % q = a := by
  rcases Nat.lt_or_ge (a + b) q with h | h
  · rw [Nat.mod_eq_of_lt h, show a + b + q - b = a + q by omega, Nat.add_mod_right,
      Nat.mod_eq_of_lt ha]
  · rw [show a + b = (a + b - q) + q by omega, Nat.add_mod_right,
      Nat.mod_eq_of_lt (show a + b - q < q by omega), show a + b - q + q - b = a by omega,
      Nat.mod_eq_of_lt ha]

theorem gPowP_inj (hG : G.Valid) {a b : ℕ} (ha : a < G.q) (hb : b < G.q)
    (h : gPowP G a = gPowP G b) : a = b := by
  have hq := hG.q_lt
  have e : ((gPowP G a : ℕ) : ZMod G.p) = (gPowP G b : ℕ) := by rw [h]
  rw [cast_gPowP hG a (lt_trans ha hq), cast_gPowP hG b (lt_trans hb hq)] at e
  exact g_pow_inj G hG ha hb e

/-- The value of a commitment, from the verifier's equation for a base `y` and a ciphertext component
that is the power `y ^ n`. -/
theorem commit_eq (hG : G.Valid) {y z b n d c v : ℕ} (hy : (y : ZMod G.p) ^ G.q = 1)
    (hz : (z : ZMod G.p) = (y : ZMod G.p) ^ n) (hv : (d + c * n) % G.q = v)
    (e : (y : ZMod G.p) ^ v = b * (z : ZMod G.p) ^ c) :
    (b : ZMod G.p) = (y : ZMod G.p) ^ d := by
  rw [← hv, pow_response hy, hz] at e
  exact ((((isUnit_of_pow_q hG hy).pow n).pow c).mul_left_inj.1 e).symm

theorem pow_sub_cancel {z c : ℕ} (hz : (z : ZMod G.p) ^ G.q = 1) (hc : c < G.q) :
    (z : ZMod G.p) ^ c * (z : ZMod G.p) ^ (G.q - c) = 1 := by
  rw [← pow_add, show c + (G.q - c) = G.q by omega, hz]

/-- What an accepted proof says about its commitments when the ciphertext is known to encrypt 0. -/
theorem zero_commitments (hG : G.Valid) {K x n h : ℕ} {m : Ciphertext} {π : DisjProof}
    (hπ : π.Typed) (hK : Residue G K) (hm : IsEncryption G K x n m) (hx : x % G.q = 0)
    (ha : π.isValid G C m K h = true) {d0 d1 : ℕ} (l0 : d0 < G.q) (l1 : d1 < G.q)
    (e0 : (d0 + π.zeroChallenge * n) % G.q = π.zeroResponse)
    (e1 : (d1 + π.oneChallenge * n) % G.q = π.oneResponse) :
    π.zeroPad = gPowP G d0 ∧ π.zeroData = powModP G K d0 ∧ π.onePad = gPowP G d1 ∧
      π.oneData = mulModP G (gPowP G π.oneChallenge) (powModP G K d1) := by
  have hq := hG.q_lt
  obtain ⟨rα, rβ, cα, cβ⟩ := hm.casts hG hK
  have s := (disj_isValid_iff hG π hπ m (rα.lt hG) (rβ.lt hG) K h (hK.lt hG)).1 ha
  have hgq := g_pow_q hG
  have hKq := hK.pow_q hG
  have hgx : (G.g : ZMod G.p) ^ x = 1 := by
    rw [pow_congr hgq (b := 0) (by rw [hx, Nat.zero_mod]), pow_zero]
  rw [hgx, one_mul] at cβ
  have l0' := lt_trans l0 hq
  have l1' := lt_trans l1 hq
  have lc1' := lt_trans s.c1_lt hq
  have q1 := s.gv0
  have q2 := s.gv1
  have q3 := s.kv0
  have q4 := s.gckv1
  rw [modEq_cast] at q1 q2 q3 q4
  push_cast at q1 q2 q3 q4
  refine ⟨eq_of_cast s.res_a0.2.1 (gPowP_lt hG _ l0') ?_,
    eq_of_cast s.res_b0.2.1 (powModP_lt hG _ _ (hK.lt hG) (lt_512_of_lt l0')) ?_,
    eq_of_cast s.res_a1.2.1 (gPowP_lt hG _ l1') ?_,
    eq_of_cast s.res_b1.2.1 (mulModP_lt hG _ _ (gPowP_lt4096 hG _ lc1')
      (powModP_lt4096 hG _ _ (hK.lt hG) l1')) ?_⟩
  · rw [cast_gPowP hG _ l0']; exact commit_eq hG hgq cα e0 q1
  · rw [cast_powModP hG _ _ (hK.lt hG) l0']; exact commit_eq hG hKq cβ e0 q3
  · rw [cast_gPowP hG _ l1']; exact commit_eq hG hgq cα e1 q2
  · rw [cast_mulModP hG _ _ (gPowP_lt4096 hG _ lc1') (powModP_lt4096 hG _ _ (hK.lt hG) l1'),
      cast_gPowP hG _ lc1', cast_powModP hG _ _ (hK.lt hG) l1']
    rw [← e1, pow_response hKq, cβ, ← mul_assoc] at q4
    exact ((((isUnit_of_pow_q hG hKq).pow n).pow _).mul_left_inj.1 q4).symm

/-- What an accepted proof says about its commitments when the ciphertext is known to encrypt 1. -/
theorem one_commitments (hG : G.Valid) {K x n h : ℕ} {m : Ciphertext} {π : DisjProof}
    (hπ : π.Typed) (hK : Residue G K) (hm : IsEncryption G K x n m) (hx : x % G.q = 1)
    (ha : π.isValid G C m K h = true) {d0 d1 : ℕ} (l0 : d0 < G.q) (l1 : d1 < G.q)
    (e0 : (d0 + π.zeroChallenge * n) % G.q = π.zeroResponse)
    (e1 : (d1 + π.oneChallenge * n) % G.q = π.oneResponse) :
    π.zeroPad = gPowP G d0 ∧
      π.zeroData = mulModP G (gPowP G (G.q - π.zeroChallenge)) (powModP G K d0) ∧
      π.onePad = gPowP G d1 ∧ π.oneData = powModP G K d1 := by
  have hq := hG.q_lt
  obtain ⟨rα, rβ, cα, cβ⟩ := hm.casts hG hK
  have s := (disj_isValid_iff hG π hπ m (rα.lt hG) (rβ.lt hG) K h (hK.lt hG)).1 ha
  have hgq := g_pow_q hG
  have hKq := hK.pow_q hG
  have huK := isUnit_of_pow_q hG hKq
  have hug := isUnit_of_pow_q hG hgq
  have hgx : (G.g : ZMod G.p) ^ x = G.g := by
    rw [pow_congr hgq (b := 1) (by rw [hx, Nat.mod_eq_of_lt (by have := hG.q_gt; omega)]), pow_one]
  rw [hgx] at cβ
  have l0' := lt_trans l0 hq
  have l1' := lt_trans l1 hq
  have lw : G.q - π.zeroChallenge < 2 ^ 256 := lt_of_le_of_lt (Nat.sub_le _ _) hq
  have q1 := s.gv0
  have q2 := s.gv1
  have q3 := s.kv0
  have q4 := s.gckv1
  rw [modEq_cast] at q1 q2 q3 q4
  push_cast at q1 q2 q3 q4
  refine ⟨eq_of_cast s.res_a0.2.1 (gPowP_lt hG _ l0') ?_,
    eq_of_cast s.res_b0.2.1 (mulModP_lt hG _ _ (gPowP_lt4096 hG _ lw)
      (powModP_lt4096 hG _ _ (hK.lt hG) l0')) ?_,
    eq_of_cast s.res_a1.2.1 (gPowP_lt hG _ l1') ?_,
    eq_of_cast s.res_b1.2.1 (powModP_lt hG _ _ (hK.lt hG) (lt_512_of_lt l1')) ?_⟩
  · rw [cast_gPowP hG _ l0']; exact commit_eq hG hgq cα e0 q1
  · rw [cast_mulModP hG _ _ (gPowP_lt4096 hG _ lw) (powModP_lt4096 hG _ _ (hK.lt hG) l0'),
      cast_gPowP hG _ lw, cast_powModP hG _ _ (hK.lt hG) l0']
    rw [← e0, pow_response hKq, cβ, mul_pow, ← mul_assoc] at q3
    have q5 := ((huK.pow n).pow _).mul_left_inj.1 q3
    rw [q5, mul_comm, mul_assoc, pow_sub_cancel hgq s.c0_lt, mul_one]
  · rw [cast_gPowP hG _ l1']; exact commit_eq hG hgq cα e1 q2
  · rw [cast_powModP hG _ _ (hK.lt hG) l1']
    rw [← e1, pow_response hKq, cβ, mul_pow, ← mul_assoc, ← mul_assoc] at q4
    have q5 := ((huK.pow n).pow _).mul_left_inj.1 q4
    rw [mul_comm] at q5
    exact ((hug.pow _).mul_left_inj.1 q5).symm

end

/-- C76: a proof accepted for a ciphertext of `x`, 0 or 1, is what the prover makes for exactly one
choice of the three random numbers below `q`. -/
theorem C76_disjunctive (hG : G.Valid) (π : DisjProof) (hπ : π.Typed) (K x n h : ℕ) (m : Ciphertext)
    (hK : Residue G K) (hx : x < 2) (hm : IsEncryption G K x n m) (hn : n < 2 ^ 256)
    (ha : π.isValid G C m K h = true) :
    ∃ u₀ v₀ w₀, u₀ < G.q ∧ v₀ < G.q ∧ w₀ < G.q ∧ ∀ u v w, u < G.q → v < G.q → w < G.q →
      (disjMake G C m n K h x u v w = .ok π ↔ u = u₀ ∧ v = v₀ ∧ w = w₀) := by
  have hq := hG.q_lt
  obtain ⟨rα, rβ, cα, cβ⟩ := hm.casts hG hK
  have s := (disj_isValid_iff hG π hπ m (rα.lt hG) (rβ.lt hG) K h (hK.lt hG)).1 ha
  obtain ⟨d0, l0, e0⟩ := exists_sub_mod s.v0_lt (π.zeroChallenge * n)
  obtain ⟨d1, l1, e1⟩ := exists_sub_mod s.v1_lt (π.oneChallenge * n)
  have l0' := lt_trans l0 hq
  have l1' := lt_trans l1 hq
  have hgt := hG.q_gt
  have hcase : x = 0 ∨ x = 1 := by omega
  have lc : π.challenge < G.q := by rw [s.c_hash]; exact hashElems_lt hG _
  have hs := s.c_sum
  have lc0 := s.c0_lt
  have lc1 := s.c1_lt
  have pc0 := s.c0_pos
  rcases hcase with rfl | rfl
  · obtain ⟨f1, f2, f3, f4⟩ := zero_commitments hG hπ hK hm (Nat.zero_mod _) ha l0 l1 e0 e1
    refine ⟨d0, d1, π.oneChallenge, l0, l1, s.c1_lt, fun u v w lu lv lw => ⟨fun hmk => ?_, ?_⟩⟩
    · simp only [disjMake, if_neg (show ¬ (0 > 1) by omega), if_neg (show ¬ (0 = 1) by omega),
        disjMakeZero] at hmk
      rw [aPlusBc_eq hG _ _ _ (lt_trans lu hq) (lt_trans (subModQ_lt hG _ _) hq) hn,
        aPlusBc_eq hG _ _ _ (lt_trans lv hq) (lt_trans lw hq) hn] at hmk
      have hmk' := Res.ok.inj hmk
      have g1 := congrArg DisjProof.zeroPad hmk'
      have g2 := congrArg DisjProof.onePad hmk'
      have g3 := congrArg DisjProof.oneChallenge hmk'
      simp only at g1 g2 g3
      rw [f1] at g1
      rw [f3] at g2
      exact ⟨gPowP_inj hG lu l0 g1, gPowP_inj hG lv l1 g2, g3⟩
    · rintro ⟨rfl, rfl, rfl⟩
      simp only [disjMake, if_neg (show ¬ (0 > 1) by omega), if_neg (show ¬ (0 = 1) by omega),
        disjMakeZero]
      rw [← f1, ← f2, ← f3, ← f4]
      have hc : disjChallenge G C h m π.zeroPad π.zeroData π.onePad π.oneData = π.challenge :=
        s.c_hash.symm
      have hc0 : subModQ G π.challenge π.oneChallenge = π.zeroChallenge := by
        rw [subModQ_eq hG _ _ (le_of_lt lc) (le_of_lt lc1), ← hs]
        exact add_sub_mod lc0 lc1
      rw [hc, hc0, aPlusBc_eq hG _ _ _ l0' (lt_trans lc0 hq) hn,
        aPlusBc_eq hG _ _ _ l1' (lt_trans lc1 hq) hn, e0, e1]
      rfl
  · obtain ⟨f1, f2, f3, f4⟩ := one_commitments hG hπ hK hm (Nat.mod_eq_of_lt (by omega)) ha l0 l1 e0 e1
    refine ⟨d1, d0, G.q - π.zeroChallenge, l1, l0, by omega, fun u v w lu lv lw => ⟨fun hmk => ?_, ?_⟩⟩
    · simp only [disjMake, if_neg (show ¬ (1 > 1) by omega), if_pos,
        disjMakeOne] at hmk
      rw [aPlusBc_eq hG _ _ _ (lt_trans lv hq) (lt_trans (subModQ_lt hG _ _) hq) hn,
        aPlusBc_eq hG _ _ _ (lt_trans lu hq) (lt_trans (addModQ_lt hG _ _) hq) hn] at hmk
      have hmk' := Res.ok.inj hmk
      have g1 := congrArg DisjProof.zeroPad hmk'
      have g2 := congrArg DisjProof.onePad hmk'
      have g3 := congrArg DisjProof.zeroChallenge hmk'
      simp only at g1 g2 g3
      rw [f1] at g1
      rw [f3] at g2
      refine ⟨gPowP_inj hG lu l1 g2, gPowP_inj hG lv l0 g1, ?_⟩
      rw [subModQ_eq hG _ _ le_rfl (le_of_lt lw)] at g3
      rcases Nat.eq_zero_or_pos w with h0 | h0
      · rw [h0, Nat.sub_zero, Nat.add_mod_right, Nat.mod_self] at g3
        omega
      · rw [show G.q + G.q - w = (G.q - w) + G.q by omega, Nat.add_mod_right,
          Nat.mod_eq_of_lt (by omega)] at g3
        omega
    · rintro ⟨rfl, rfl, rfl⟩
      simp only [disjMake, if_neg (show ¬ (1 > 1) by omega), if_pos, disjMakeOne]
      rw [← f1, ← f2, ← f3, ← f4]
      have hc : disjChallenge G C h m π.zeroPad π.zeroData π.onePad π.oneData = π.challenge :=
        s.c_hash.symm
      have hc0 : subModQ G G.q (G.q - π.zeroChallenge) = π.zeroChallenge := by
        rw [subModQ_eq hG _ _ le_rfl (Nat.sub_le _ _),
          show G.q + G.q - (G.q - π.zeroChallenge) = π.zeroChallenge + G.q by omega,
          Nat.add_mod_right, Nat.mod_eq_of_lt lc0]
      have hc1 : addModQ G π.challenge (G.q - π.zeroChallenge) = π.oneChallenge := by
        rw [addModQ_eq hG _ _ (le_of_lt lc) (Nat.sub_le _ _), ← hs, Nat.mod_add_mod,
          show π.zeroChallenge + π.oneChallenge + (G.q - π.zeroChallenge) = π.oneChallenge + G.q by omega,
          Nat.add_mod_right, Nat.mod_eq_of_lt lc1]
      rw [hc, hc0, hc1, aPlusBc_eq hG _ _ _ l0' (lt_trans lc0 hq) hn,
        aPlusBc_eq hG _ _ _ l1' (lt_trans lc1 hq) hn, e0, e1]
      rfl

open Classical in
/-- C76: of the `q³` choices of the random numbers exactly one makes a given accepted proof: each
accepted proof has probability `q⁻³`, for a vote and for no vote alike. -/
theorem C76_uniform (hG : G.Valid) (π : DisjProof) (hπ : π.Typed) (K x n h : ℕ) (m : Ciphertext)
    (hK : Residue G K) (hx : x < 2) (hm : IsEncryption G K x n m) (hn : n < 2 ^ 256)
    (ha : π.isValid G C m K h = true) :
    ((Finset.range G.q ×ˢ Finset.range G.q ×ˢ Finset.range G.q).filter fun t =>
      disjMake G C m n K h x t.1 t.2.1 t.2.2 = .ok π).card = 1 := by
  obtain ⟨u₀, v₀, w₀, l1, l2, l3, hall⟩ := C76_disjunctive G C hG π hπ K x n h m hK hx hm hn ha
  rw [Finset.card_eq_one]
  refine ⟨(u₀, v₀, w₀), ?_⟩
  ext ⟨u, v, w⟩
  simp only [Finset.mem_filter, Finset.mem_product, Finset.mem_range, Finset.mem_singleton,
    Prod.mk.injEq]
  constructor
  · rintro ⟨⟨lu, lv, lw⟩, e⟩
    exact (hall u v w lu lv lw).1 e
  · rintro ⟨rfl, rfl, rfl⟩
    exact ⟨⟨l1, l2, l3⟩, (hall u v w l1 l2 l3).2 ⟨rfl, rfl, rfl⟩⟩

/-- C76, the prover that takes a seed: an accepted proof is made exactly if the first three nonces of
the seed have one particular value. -/
theorem C76_seeded (hG : G.Valid) (π : DisjProof) (hπ : π.Typed) (K x n h : ℕ) (m : Ciphertext)
    (hK : Residue G K) (hx : x < 2) (hm : IsEncryption G K x n m) (hn : n < 2 ^ 256)
    (ha : π.isValid G C m K h = true) :
    ∃ t₀ t₁ t₂, t₀ < G.q ∧ t₁ < G.q ∧ t₂ < G.q ∧ ∀ seed,
      (disjMakeSeeded G C m n K h seed x = .ok π ↔
        ((Nonces.makeWith G C seed (.str "disjoint-chaum-pedersen-proof".toList)).get G C 0).1 = t₀ ∧
        ((Nonces.makeWith G C seed (.str "disjoint-chaum-pedersen-proof".toList)).get G C 1).1 = t₁ ∧
        ((Nonces.makeWith G C seed (.str "disjoint-chaum-pedersen-proof".toList)).get G C 2).1 = t₂) := by
  have hq := hG.q_lt
  obtain ⟨rα, rβ, cα, cβ⟩ := hm.casts hG hK
  have s := (disj_isValid_iff hG π hπ m (rα.lt hG) (rβ.lt hG) K h (hK.lt hG)).1 ha
  have hαq := rα.pow_q hG
  have hβq := rβ.pow_q hG
  obtain ⟨d0, l0, e0⟩ := exists_sub_mod s.v0_lt (π.zeroChallenge * n)
  obtain ⟨d1, l1, e1⟩ := exists_sub_mod s.v1_lt (π.oneChallenge * n)
  have l0' := lt_trans l0 hq
  have l1' := lt_trans l1 hq
  have hgt := hG.q_gt
  have hcase : x = 0 ∨ x = 1 := by omega
  have lc : π.challenge < G.q := by rw [s.c_hash]; exact hashElems_lt hG _
  have hs := s.c_sum
  have lc0 := s.c0_lt
  have lc1 := s.c1_lt
  have lv0 := s.v0_lt
  have lv1 := s.v1_lt
  have lc0' := lt_trans lc0 hq
  have lc1' := lt_trans lc1 hq
  have lv0' := lt_trans lv0 hq
  have lv1' := lt_trans lv1 hq
  have q1 := s.gv0
  have q2 := s.gv1
  have q3 := s.kv0
  have q4 := s.gckv1
  rw [modEq_cast] at q1 q2 q3 q4
  push_cast at q1 q2 q3 q4
  have hc : disjChallenge G C h m π.zeroPad π.zeroData π.onePad π.oneData = π.challenge :=
    s.c_hash.symm
  rcases hcase with rfl | rfl
  · obtain ⟨f1, f2, -, -⟩ := zero_commitments hG hπ hK hm (Nat.zero_mod _) ha l0 l1 e0 e1
    refine ⟨π.oneChallenge, π.oneResponse, d0, lc1, lv1, l0, fun seed => ?_⟩
    have lt := nonce_lt (C := C) hG (Nonces.makeWith G C seed (.str disjHeader))
    simp only [disjMakeSeeded, if_neg (show ¬ (0 > 1) by omega), if_neg (show ¬ (0 = 1) by omega),
      disjMakeZeroSeeded]
    change _ ↔ ((Nonces.makeWith G C seed (.str disjHeader)).get G C 0).1 = _ ∧
      ((Nonces.makeWith G C seed (.str disjHeader)).get G C 1).1 = _ ∧
      ((Nonces.makeWith G C seed (.str disjHeader)).get G C 2).1 = _
    generalize (Nonces.makeWith G C seed (.str disjHeader)) = ns at lt ⊢
    have lx0 := lt 0
    have lx1 := lt 1
    have lx2 := lt 2
    generalize (ns.get G C 0).1 = c1 at lx0 ⊢
    generalize (ns.get G C 1).1 = v1 at lx1 ⊢
    generalize (ns.get G C 2).1 = u at lx2 ⊢
    constructor
    · intro hmk
      rw [aPlusBc_eq hG _ _ _ (lt_trans lx2 hq) (lt_trans (subModQ_lt hG _ _) hq) hn] at hmk
      have hmk' := Res.ok.inj hmk
      have g1 := congrArg DisjProof.zeroPad hmk'
      have g2 := congrArg DisjProof.oneResponse hmk'
      have g3 := congrArg DisjProof.oneChallenge hmk'
      simp only at g1 g2 g3
      rw [f1] at g1
      exact ⟨g3, g2, gPowP_inj hG lx2 l0 g1⟩
    · rintro ⟨rfl, rfl, rfl⟩
      rw [subFromQ_eq hG _ (le_of_lt lx0)]
      have ls : G.q - π.oneChallenge < 2 ^ 256 := lt_of_le_of_lt (Nat.sub_le _ _) hq
      have k4 := powModP_lt4096 hG K _ (hK.lt hG) lv1'
      have g4 := gPowP_lt4096 hG _ lc1'
      have d4 := powModP_lt4096 hG m.data (G.q - π.oneChallenge) (rβ.lt hG) ls
      have hvec := C04_mul_mod_p_vector G hG [.p (powModP G K π.oneResponse),
        .p (gPowP G π.oneChallenge), .p (powModP G m.data (G.q - π.oneChallenge))] (by
          intro y hy
          simp only [List.mem_cons, List.not_mem_nil, or_false] at hy
          rcases hy with rfl | rfl | rfl
          · exact k4
          · exact g4
          · exact d4)
      have f3 : mulModP G (gPowP G π.oneResponse) (powModP G m.pad (G.q - π.oneChallenge)) =
          π.onePad := by
        refine eq_of_cast (mulModP_lt hG _ _ (gPowP_lt4096 hG _ lv1')
          (powModP_lt4096 hG _ _ (rα.lt hG) ls)) s.res_a1.2.1 ?_
        rw [cast_mulModP hG _ _ (gPowP_lt4096 hG _ lv1') (powModP_lt4096 hG _ _ (rα.lt hG) ls),
          cast_gPowP hG _ lv1', cast_powModP hG _ _ (rα.lt hG) ls, q2, mul_assoc,
          pow_sub_cancel hαq lc1, mul_one]
      have f4 : mulModPVec G [.p (powModP G K π.oneResponse), .p (gPowP G π.oneChallenge),
          .p (powModP G m.data (G.q - π.oneChallenge))] = π.oneData := by
        rw [hvec]
        refine eq_of_cast (Nat.mod_lt _ (by have := hG.p_gt; omega)) s.res_b1.2.1 ?_
        rw [cast_mod]
        simp only [List.map_cons, List.map_nil, ElemPQ.val, List.prod_cons, List.prod_nil, mul_one]
        push_cast
        rw [cast_powModP hG K _ (hK.lt hG) lv1', cast_gPowP hG _ lc1',
          cast_powModP hG _ _ (rβ.lt hG) ls, ← mul_assoc, mul_comm ((K : ZMod G.p) ^ _), q4,
          mul_assoc, pow_sub_cancel hβq lc1, mul_one]
      have hc0 : subModQ G π.challenge π.oneChallenge = π.zeroChallenge := by
        rw [subModQ_eq hG _ _ (le_of_lt lc) (le_of_lt lc1), ← hs]
        exact add_sub_mod lc0 lc1
      rw [f3, f4, ← f1, ← f2, hc, hc0, aPlusBc_eq hG _ _ _ l0' lc0' hn, e0]
      rfl
  · obtain ⟨-, -, f3, f4⟩ := one_commitments hG hπ hK hm (Nat.mod_eq_of_lt (by omega)) ha l0 l1 e0 e1
    refine ⟨π.zeroChallenge, π.zeroResponse, d1, lc0, lv0, l1, fun seed => ?_⟩
    have lt := nonce_lt (C := C) hG (Nonces.makeWith G C seed (.str disjHeader))
    simp only [disjMakeSeeded, if_neg (show ¬ (1 > 1) by omega), if_pos, disjMakeOneSeeded]
    change _ ↔ ((Nonces.makeWith G C seed (.str disjHeader)).get G C 0).1 = _ ∧
      ((Nonces.makeWith G C seed (.str disjHeader)).get G C 1).1 = _ ∧
      ((Nonces.makeWith G C seed (.str disjHeader)).get G C 2).1 = _
    generalize (Nonces.makeWith G C seed (.str disjHeader)) = ns at lt ⊢
    have lx0 := lt 0
    have lx1 := lt 1
    have lx2 := lt 2
    generalize (ns.get G C 0).1 = c0 at lx0 ⊢
    generalize (ns.get G C 1).1 = v0 at lx1 ⊢
    generalize (ns.get G C 2).1 = u at lx2 ⊢
    constructor
    · intro hmk
      rw [aPlusBc_eq hG _ _ _ (lt_trans lx2 hq) (lt_trans (subModQ_lt hG _ _) hq) hn] at hmk
      have hmk' := Res.ok.inj hmk
      have g1 := congrArg DisjProof.onePad hmk'
      have g2 := congrArg DisjProof.zeroResponse hmk'
      have g3 := congrArg DisjProof.zeroChallenge hmk'
      simp only at g1 g2 g3
      rw [f3] at g1
      exact ⟨g3, g2, gPowP_inj hG lx2 l1 g1⟩
    · rintro ⟨rfl, rfl, rfl⟩
      rw [subFromQ_eq hG _ (le_of_lt lx0)]
      have ls : G.q - π.zeroChallenge < 2 ^ 256 := lt_of_le_of_lt (Nat.sub_le _ _) hq
      have f1 : mulModP G (gPowP G π.zeroResponse) (powModP G m.pad (G.q - π.zeroChallenge)) =
          π.zeroPad := by
        refine eq_of_cast (mulModP_lt hG _ _ (gPowP_lt4096 hG _ lv0')
          (powModP_lt4096 hG _ _ (rα.lt hG) ls)) s.res_a0.2.1 ?_
        rw [cast_mulModP hG _ _ (gPowP_lt4096 hG _ lv0') (powModP_lt4096 hG _ _ (rα.lt hG) ls),
          cast_gPowP hG _ lv0', cast_powModP hG _ _ (rα.lt hG) ls, q1, mul_assoc,
          pow_sub_cancel hαq lc0, mul_one]
      have f2 : mulModP G (powModP G K π.zeroResponse) (powModP G m.data (G.q - π.zeroChallenge)) =
          π.zeroData := by
        refine eq_of_cast (mulModP_lt hG _ _ (powModP_lt4096 hG _ _ (hK.lt hG) lv0')
          (powModP_lt4096 hG _ _ (rβ.lt hG) ls)) s.res_b0.2.1 ?_
        rw [cast_mulModP hG _ _ (powModP_lt4096 hG _ _ (hK.lt hG) lv0')
          (powModP_lt4096 hG _ _ (rβ.lt hG) ls), cast_powModP hG _ _ (hK.lt hG) lv0',
          cast_powModP hG _ _ (rβ.lt hG) ls, q3, mul_assoc, pow_sub_cancel hβq lc0, mul_one]
      have hc1 : subModQ G π.challenge π.zeroChallenge = π.oneChallenge := by
        rw [subModQ_eq hG _ _ (le_of_lt lc) (le_of_lt lc0), ← hs, add_comm π.zeroChallenge]
        exact add_sub_mod lc1 lc0
      rw [f1, f2, ← f3, ← f4, hc, hc1, aPlusBc_eq hG _ _ _ l1' lc1' hn, e1]
      rfl

/-- C76, the constant prover, with and without a precomputed triple: an accepted proof is made exactly
if the one secret number drawn has one particular value. -/
theorem C76_constant (hG : G.Valid) (hL : G.Large) (π : ConstProof) (hπ : π.Typed) (K x n h : ℕ)
    (m : Ciphertext) (hK : Residue G K) (hm : IsEncryption G K x n m)
    (hn : n < 2 ^ 256) (ha : π.isValid G C m K h = .ok true) (hc : π.constant = x) :
    ∃ t₀, t₀ < G.q ∧ ∀ (triple : Option Triple) (seed : ℕ), (∀ t ∈ triple, t.ForKey G K) →
      (constMake G C triple m n K seed h x = .ok π ↔
        triple.elim
          ((Nonces.makeWith G C seed (.str "constant-chaum-pedersen-proof".toList)).get G C 0).1
          Triple.exp = t₀) := by
  have hq := hG.q_lt
  obtain ⟨rα, rβ, cα, cβ⟩ := hm.casts hG hK
  obtain ⟨b, hb, hiff⟩ := const_isValid_iff hG hL π hπ m (rα.lt hG) (rβ.lt hG) K h (hK.lt hG)
  rw [ha, Res.ok.injEq] at hb
  have s := hiff.1 hb.symm
  have hgq := g_pow_q hG
  have hKq := hK.pow_q hG
  have huK := isUnit_of_pow_q hG hKq
  have hug := isUnit_of_pow_q hG hgq
  obtain ⟨d, ld, ed⟩ := exists_sub_mod s.v_lt (π.challenge * n)
  have ld' := lt_trans ld hq
  have q1 := s.gv
  have q2 := s.gckv
  rw [modEq_cast] at q1 q2
  push_cast at q1 q2
  have f1 : π.pad = gPowP G d := by
    refine eq_of_cast s.res_a.2.1 (gPowP_lt hG _ ld') ?_
    rw [cast_gPowP hG _ ld']
    exact commit_eq hG hgq cα ed q1
  have f2 : π.data = powModP G K d := by
    refine eq_of_cast s.res_b.2.1 (powModP_lt hG _ _ (hK.lt hG) (lt_512_of_lt ld')) ?_
    rw [cast_powModP hG _ _ (hK.lt hG) ld']
    rw [← ed, pow_response hKq, cβ, mul_pow, ← mul_assoc, ← mul_assoc, hc] at q2
    have q3 := ((huK.pow n).pow _).mul_left_inj.1 q2
    rw [mul_comm, ← pow_mul, mul_comm π.challenge x] at q3
    exact ((hug.pow _).mul_left_inj.1 q3).symm
  refine ⟨d, ld, fun triple seed ht => ?_⟩
  change _ ↔ triple.elim ((Nonces.makeWith G C seed (.str constHeader)).get G C 0).1 Triple.exp = d
  have key : ∀ u, u < G.q → ((do
      let v ← aPlusBcModQ G u (constChallenge G C h m (gPowP G u) (powModP G K u)) n
      Res.ok (ConstProof.mk (gPowP G u) (powModP G K u)
        (constChallenge G C h m (gPowP G u) (powModP G K u)) v x)) = Res.ok π ↔ u = d) := by
    intro u lu
    rw [aPlusBc_eq hG u (constChallenge G C h m (gPowP G u) (powModP G K u)) n (lt_trans lu hq)
      (hashElems_lt256 hG _) hn]
    constructor
    · intro e
      have g1 := congrArg ConstProof.pad (Res.ok.inj e)
      simp only at g1
      rw [f1] at g1
      exact gPowP_inj hG lu ld g1
    · rintro rfl
      rw [← f1, ← f2]
      have hch : constChallenge G C h m π.pad π.data = π.challenge := s.c_hash.symm
      rw [hch, ed, ← hc]
      rfl
  cases triple with
  | none =>
    have lu := nonce_lt (C := C) hG (Nonces.makeWith G C seed (.str constHeader)) 0
    simp only [constMake, Option.elim]
    exact key _ lu
  | some t =>
    obtain ⟨lu, e1, e2⟩ := ht t rfl
    have lu' := lt_512_of_lt (lt_trans lu hq)
    have e1' : t.gToExp = gPowP G t.exp := by rw [e1, gPowP_eq hG _ lu']
    have e2' : t.pubkeyToExp = powModP G K t.exp := by rw [e2, powModP_eq hG K _ (hK.lt hG) lu']
    simp only [constMake, Option.elim, e1', e2']
    exact key _ lu

/-- The hypotheses can be met with the standard parameters: the accepted proof of `accepted_example` is
made for the random numbers 1, 1, 2 and for no others. -/
example : ∃ m : Ciphertext, ∀ u v w, u < Params.std.q → v < Params.std.q → w < Params.std.q →
    (disjMake .std (constCrypto 50) m 1 (gPowP .std 2) 7 0 u v w = .ok (exampleProof .std 50) ↔
      u = 1 ∧ v = 1 ∧ w = 2) := by
  have hG := C54_std_valid
  have hq : 100 < Params.std.q := by decide +kernel
  have hK : Residue .std (gPowP .std 2) := residue_gPowP hG 2 (by norm_num)
  obtain ⟨m, hm, h1, h2, hall⟩ := accepted_example
  obtain ⟨h3, h4, h5⟩ := hall 50 (by omega) (by omega)
  refine ⟨m, ?_⟩
  obtain ⟨u₀, v₀, w₀, l1, l2, l3, hiff⟩ := C76_disjunctive .std (constCrypto 50) hG _ h5 _ 0 1 7 m hK
    (by omega) hm (by norm_num) h4
  obtain ⟨rfl, rfl, rfl⟩ := (hiff 1 1 2 (by omega) (by omega) (by omega)).1 h3
  exact hiff

end EG
