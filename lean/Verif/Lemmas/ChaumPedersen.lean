import Verif.Model.ChaumPedersen
import Verif.Spec.ChaumPedersen
import Verif.Props.ElGamal
import Verif.Props.Hash
import Mathlib.GroupTheory.OrderOfElement
import Mathlib.Data.ZMod.Units
import Mathlib.Algebra.Group.Units.Basic

/-!
# Lemmas about Chaum-Pedersen proofs
-/

namespace EG

variable {G : Params} {C : Crypto}

theorem residue_iff (hG : G.Valid) (x : ℕ) (hx : x < 2 ^ 4096) :
    isValidResidue G x = true ↔ Residue G x := by
  rw [isValidResidue_iff hG x hx, Residue, and_assoc]

theorem Residue.pow_q (hG : G.Valid) {x : ℕ} (h : Residue G x) : (x : ZMod G.p) ^ G.q = 1 := by
  rw [← Nat.cast_pow, cast_eq_one_iff hG]; exact h.2.2

theorem Residue.lt {x : ℕ} (hG : G.Valid) (h : Residue G x) : x < 2 ^ 4096 :=
  lt_trans h.2.1 hG.p_lt

theorem residue_of_cast (hG : G.Valid) {x : ℕ} (hx : x < G.p) (h : (x : ZMod G.p) ^ G.q = 1) :
    Residue G x := by
  have h1 : x ^ G.q % G.p = 1 := by rw [← cast_eq_one_iff hG, Nat.cast_pow]; exact h
  refine ⟨Nat.pos_of_ne_zero ?_, hx, h1⟩
  rintro rfl
  rw [zero_pow (by have := hG.q_gt; omega), Nat.zero_mod] at h1
  omega

/-- Exponents of elements of the subgroup count modulo `q`. -/
theorem pow_congr {x : ZMod G.p} (hx : x ^ G.q = 1) {a b : ℕ} (h : a % G.q = b % G.q) :
    x ^ a = x ^ b := by
  have key : ∀ n, x ^ n = x ^ (n % G.q) := by
    intro n
    conv_lhs => rw [← Nat.div_add_mod n G.q, pow_add, pow_mul, hx, one_pow, one_mul]
  rw [key a, key b, h]

/-- The response of an honest prover. -/
theorem pow_response {x : ZMod G.p} (hx : x ^ G.q = 1) (u c r : ℕ) :
    x ^ ((u + c * r) % G.q) = x ^ u * (x ^ r) ^ c := by
  rw [pow_congr hx (b := u + c * r) (Nat.mod_mod _ _), pow_add, ← pow_mul, mul_comm c r]

theorem mul_pow_q {x y : ZMod G.p} (hx : x ^ G.q = 1) (hy : y ^ G.q = 1) : (x * y) ^ G.q = 1 := by
  rw [mul_pow, hx, hy, one_mul]

theorem pow_pow_q {x : ZMod G.p} (hx : x ^ G.q = 1) (n : ℕ) : (x ^ n) ^ G.q = 1 := by
  rw [← pow_mul, mul_comm, pow_mul, hx, one_pow]

/-- An equation between two reduced results, as the code compares them, and as a congruence. -/
theorem eq_iff_cast {a b : ℕ} (ha : a < G.p) (hb : b < G.p) {x y : ZMod G.p}
    (hx : (a : ZMod G.p) = x) (hy : (b : ZMod G.p) = y) : a = b ↔ x = y := by
  constructor
  · rintro rfl; rw [← hx, ← hy]
  · intro h; exact eq_of_cast ha hb (by rw [hx, hy, h])

theorem powModP_lt4096 (hG : G.Valid) (a e : ℕ) (ha : a < 2 ^ 4096) (he : e < 2 ^ 256) :
    powModP G a e < 2 ^ 4096 :=
  lt_trans (powModP_lt hG a e ha (lt_512_of_lt he)) hG.p_lt

theorem gPowP_lt4096 (hG : G.Valid) (e : ℕ) (he : e < 2 ^ 256) : gPowP G e < 2 ^ 4096 :=
  lt_trans (gPowP_lt hG e he) hG.p_lt

/-- The components of a proof are what their C++ types can hold. -/
structure DisjProof.Typed (π : DisjProof) : Prop where
  zp : π.zeroPad < 2 ^ 4096
  zd : π.zeroData < 2 ^ 4096
  op : π.onePad < 2 ^ 4096
  od : π.oneData < 2 ^ 4096
  zc : π.zeroChallenge < 2 ^ 256
  oc : π.oneChallenge < 2 ^ 256
  ch : π.challenge < 2 ^ 256
  zr : π.zeroResponse < 2 ^ 256
  or : π.oneResponse < 2 ^ 256

structure ConstProof.Typed (π : ConstProof) : Prop where
  pad : π.pad < 2 ^ 4096
  data : π.data < 2 ^ 4096
  ch : π.challenge < 2 ^ 256
  re : π.response < 2 ^ 256
  co : π.constant < 2 ^ 64

theorem disj_isValid_iff (hG : G.Valid) (π : DisjProof) (hπ : π.Typed) (m : Ciphertext)
    (hp : m.pad < 2 ^ 4096) (hd : m.data < 2 ^ 4096) (K h : ℕ) (hK : K < 2 ^ 4096) :
    π.isValid G C m K h = true ↔
      DisjSpec G (disjChallenge G C h m π.zeroPad π.zeroData π.onePad π.oneData) K m.pad m.data
        π.zeroPad π.zeroData π.onePad π.oneData π.zeroChallenge π.oneChallenge π.challenge
        π.zeroResponse π.oneResponse := by
  obtain ⟨a0, b0, a1, b1, c0, c1, c, v0, v1⟩ := π
  obtain ⟨zp, zd, op, od, zc, oc, ch, zr, or⟩ := hπ
  simp only at zp zd op od zc oc ch zr or
  have pw : ∀ {x e : ℕ}, x < 2 ^ 4096 → e < 2 ^ 256 → powModP G x e < 2 ^ 4096 :=
    fun hx he => powModP_lt4096 hG _ _ hx he
  have e1 : gPowP G v0 = mulModP G a0 (powModP G m.pad c0) ↔
      G.g ^ v0 ≡ a0 * m.pad ^ c0 [MOD G.p] := by
    rw [modEq_cast]; push_cast
    exact eq_iff_cast (gPowP_lt hG v0 zr) (mulModP_lt hG _ _ zp (pw hp zc)) (cast_gPowP hG v0 zr)
      (by rw [cast_mulModP hG _ _ zp (pw hp zc), cast_powModP hG _ _ hp zc])
  have e2 : gPowP G v1 = mulModP G a1 (powModP G m.pad c1) ↔
      G.g ^ v1 ≡ a1 * m.pad ^ c1 [MOD G.p] := by
    rw [modEq_cast]; push_cast
    exact eq_iff_cast (gPowP_lt hG v1 or) (mulModP_lt hG _ _ op (pw hp oc)) (cast_gPowP hG v1 or)
      (by rw [cast_mulModP hG _ _ op (pw hp oc), cast_powModP hG _ _ hp oc])
  have e3 : powModP G K v0 = mulModP G b0 (powModP G m.data c0) ↔
      K ^ v0 ≡ b0 * m.data ^ c0 [MOD G.p] := by
    rw [modEq_cast]; push_cast
    exact eq_iff_cast (powModP_lt hG K v0 hK (lt_512_of_lt zr)) (mulModP_lt hG _ _ zd (pw hd zc))
      (cast_powModP hG K v0 hK zr)
      (by rw [cast_mulModP hG _ _ zd (pw hd zc), cast_powModP hG _ _ hd zc])
  have e4 : mulModP G (gPowP G c1) (powModP G K v1) = mulModP G b1 (powModP G m.data c1) ↔
      G.g ^ c1 * K ^ v1 ≡ b1 * m.data ^ c1 [MOD G.p] := by
    rw [modEq_cast]; push_cast
    exact eq_iff_cast (mulModP_lt hG _ _ (gPowP_lt4096 hG c1 oc) (pw hK or))
      (mulModP_lt hG _ _ od (pw hd oc))
      (by rw [cast_mulModP hG _ _ (gPowP_lt4096 hG c1 oc) (pw hK or), cast_gPowP hG c1 oc,
        cast_powModP hG _ _ hK or])
      (by rw [cast_mulModP hG _ _ od (pw hd oc), cast_powModP hG _ _ hd oc])
  simp only [DisjProof.isValid, Bool.and_eq_true, decide_eq_true_iff, residue_iff hG _ hp,
    residue_iff hG _ hd, residue_iff hG _ zp, residue_iff hG _ zd, residue_iff hG _ op,
    residue_iff hG _ od, isInBoundsQ_iff, e1, e2, e3, e4]
  constructor
  · rintro ⟨⟨⟨⟨⟨⟨⟨⟨⟨⟨⟨⟨⟨⟨h1, h2⟩, h3⟩, h4⟩, h5⟩, h6⟩, h7⟩, h8⟩, h9⟩, h10⟩, h11, h12⟩, h13⟩, h14⟩, h15⟩, h16⟩
    exact ⟨h1, h2, h3, h4, h5, h6, h7.1, h7.2, h8.1, h8.2, h9.1, h9.2, h10.1, h10.2,
      by rw [← h11, addModQ_eq hG c0 c1 (le_of_lt h7.2) (le_of_lt h8.2)], h12, h13, h14, h15, h16⟩
  · intro h
    refine ⟨⟨⟨⟨⟨⟨⟨⟨⟨⟨⟨⟨⟨⟨h.res_alpha, h.res_beta⟩, h.res_a0⟩, h.res_b0⟩, h.res_a1⟩, h.res_b1⟩, h.c0_pos,
      h.c0_lt⟩, h.c1_pos, h.c1_lt⟩, h.v0_pos, h.v0_lt⟩, h.v1_pos, h.v1_lt⟩, ?_, h.c_hash⟩, h.gv0⟩,
      h.gv1⟩, h.kv0⟩, h.gckv1⟩
    rw [addModQ_eq hG c0 c1 (le_of_lt h.c0_lt) (le_of_lt h.c1_lt)]
    exact h.c_sum

theorem const_isValid_iff (hG : G.Valid) (hL : G.Large) (π : ConstProof) (hπ : π.Typed)
    (m : Ciphertext) (hp : m.pad < 2 ^ 4096) (hd : m.data < 2 ^ 4096) (K h : ℕ) (hK : K < 2 ^ 4096) :
    ∃ b, π.isValid G C m K h = .ok b ∧ (b = true ↔
      ConstSpec G (constChallenge G C h m π.pad π.data) K m.pad m.data π.pad π.data π.challenge
        π.response π.constant) := by
  obtain ⟨a, b, c, v, L⟩ := π
  obtain ⟨tp, td, tc, tr, tL⟩ := hπ
  simp only at tp td tc tr tL
  have pw : ∀ {x e : ℕ}, x < 2 ^ 4096 → e < 2 ^ 256 → powModP G x e < 2 ^ 4096 :=
    fun hx he => powModP_lt4096 hG _ _ hx he
  have hq : fromUint64Q G false L = .ok L := by
    rw [(C07_uint64 G L tL).2, if_pos (le_trans (le_of_lt tL) hL.q_ge)]
  have hcL : c * L < 2 ^ 320 := by
    have h1 : c * L < 2 ^ 256 * 2 ^ 64 := Nat.mul_lt_mul_of_lt_of_lt tc tL
    rw [← pow_add] at h1
    exact h1
  have h320 : (2 : ℕ) ^ 320 ≤ 2 ^ 512 := Nat.pow_le_pow_right (by omega) (by omega)
  have hprod : mulModPVec G [.q c, .q L] = c * L := by
    rw [C04_mul_mod_p_vector G hG _ (by
      intro x hx
      have l1 : (2 : ℕ) ^ 256 ≤ 2 ^ 4096 := Nat.pow_le_pow_right (by omega) (by omega)
      have l2 : (2 : ℕ) ^ 64 ≤ 2 ^ 4096 := Nat.pow_le_pow_right (by omega) (by omega)
      simp only [List.mem_cons, List.not_mem_nil, or_false] at hx
      rcases hx with rfl | rfl
      · exact lt_of_lt_of_le tc l1
      · exact lt_of_lt_of_le tL l2)]
    simp only [List.map_cons, List.map_nil, ElemPQ.val, List.prod_cons, List.prod_nil, mul_one]
    exact Nat.mod_eq_of_lt (lt_of_lt_of_le hcL hL.p_ge)
  have hg4 : G.g < 2 ^ 4096 := lt_trans hG.g_lt hG.p_lt
  have hgp : powModPP G G.g (c * L) = G.g ^ (c * L) % G.p :=
    powModPP_eq hG G.g (c * L) hg4 (lt_of_lt_of_le hcL h320)
  have hgplt : G.g ^ (c * L) % G.p < 2 ^ 4096 :=
    lt_trans (Nat.mod_lt _ (by have := hG.p_gt; omega)) hG.p_lt
  have e1 : gPowP G v = mulModP G a (powModP G m.pad c) ↔
      G.g ^ v ≡ a * m.pad ^ c [MOD G.p] := by
    rw [modEq_cast]; push_cast
    exact eq_iff_cast (gPowP_lt hG v tr) (mulModP_lt hG _ _ tp (pw hp tc)) (cast_gPowP hG v tr)
      (by rw [cast_mulModP hG _ _ tp (pw hp tc), cast_powModP hG _ _ hp tc])
  have e2 : mulModP G (powModPP G G.g (mulModPVec G [.q c, .q L])) (powModP G K v) =
      mulModP G b (powModP G m.data c) ↔
      G.g ^ (c * L) * K ^ v ≡ b * m.data ^ c [MOD G.p] := by
    rw [hprod, hgp, modEq_cast]; push_cast
    exact eq_iff_cast (mulModP_lt hG _ _ hgplt (pw hK tr)) (mulModP_lt hG _ _ td (pw hd tc))
      (by rw [cast_mulModP hG _ _ hgplt (pw hK tr), cast_mod, Nat.cast_pow,
        cast_powModP hG _ _ hK tr])
      (by rw [cast_mulModP hG _ _ td (pw hd tc), cast_powModP hG _ _ hd tc])
  refine ⟨_, by simp only [ConstProof.isValid, hq]; rfl, ?_⟩
  simp only [Bool.and_eq_true, decide_eq_true_iff, residue_iff hG _ hp,
    residue_iff hG _ hd, residue_iff hG _ tp, residue_iff hG _ td, isInBoundsQ_iff, e1, e2]
  constructor
  · rintro ⟨⟨⟨⟨⟨⟨⟨⟨h1, h2⟩, h3⟩, h4⟩, h5⟩, h6⟩, h7⟩, h8⟩, h9⟩
    exact ⟨h1, h2, h3, h4, h5.1, h5.2, h6.1, h6.2, h7, h8, h9⟩
  · intro h
    exact ⟨⟨⟨⟨⟨⟨⟨⟨h.res_alpha, h.res_beta⟩, h.res_a⟩, h.res_b⟩, h.c_pos, h.c_lt⟩, h.v_pos, h.v_lt⟩,
      h.c_hash⟩, h.gv⟩, h.gckv⟩

/-! ### Extraction -/

/-- In a finite commutative group: two transcripts with different challenges give the witness. -/
theorem extract_group {U : Type*} [CommGroup U] [Finite U] {q : ℕ} (hq : q.Prime)
    (g K α β a b : U) (c c' v v' : ℕ) (hα : α ^ q = 1) (hβ : β ^ q = 1)
    (e1 : g ^ v = a * α ^ c) (e1' : g ^ v' = a * α ^ c') (e2 : K ^ v = b * β ^ c)
    (e2' : K ^ v' = b * β ^ c') (hne : c % q ≠ c' % q) : ∃ r : ℕ, α = g ^ r ∧ β = K ^ r := by
  have hcop : IsCoprime ((c : ℤ) - c') (q : ℤ) := by
    rw [Int.isCoprime_iff_gcd_eq_one, Int.gcd_comm]
    refine (Nat.Prime.coprime_iff_not_dvd hq).2 (fun hd => hne ?_)
    have hd' : (q : ℤ) ∣ (c : ℤ) - c' := Int.natCast_dvd.2 hd
    exact (Nat.modEq_iff_dvd.2 (by rw [← neg_sub, dvd_neg]; exact hd') : c ≡ c' [MOD q])
  obtain ⟨x, y, hxy⟩ := hcop
  have main : ∀ {h γ d : U}, γ ^ q = 1 → h ^ v = d * γ ^ c → h ^ v' = d * γ ^ c' →
      γ = h ^ (x * ((v : ℤ) - v')) := by
    intro h γ d hγ h1 h2
    have h3 : h ^ ((v : ℤ) - v') = γ ^ ((c : ℤ) - c') := by
      rw [zpow_sub, zpow_sub, zpow_natCast, zpow_natCast, zpow_natCast, zpow_natCast, h1, h2,
        mul_inv, mul_mul_mul_comm, mul_inv_cancel, one_mul]
    calc γ = γ ^ (x * ((c : ℤ) - c') + y * q) := by rw [hxy, zpow_one]
      _ = γ ^ (((c : ℤ) - c') * x) * γ ^ ((q : ℤ) * y) := by rw [zpow_add, mul_comm x, mul_comm y]
      _ = h ^ (x * ((v : ℤ) - v')) := by
          rw [zpow_mul, ← h3, zpow_mul γ q y, zpow_natCast, hγ, one_zpow, mul_one, ← zpow_mul,
            mul_comm x]
  have hnat : ∀ h : U, h ^ (x * ((v : ℤ) - v')) =
      h ^ ((x * ((v : ℤ) - v')) % (Nat.card U : ℤ)).toNat := by
    intro h
    have hc : (Nat.card U : ℤ) ≠ 0 := by exact_mod_cast Nat.card_pos.ne'
    rw [← zpow_natCast, Int.toNat_of_nonneg (Int.emod_nonneg _ hc)]
    conv_lhs => rw [← Int.mul_ediv_add_emod (x * ((v : ℤ) - v')) (Nat.card U : ℤ), zpow_add, zpow_mul,
      zpow_natCast, pow_card_eq_one', one_zpow, one_mul]
  exact ⟨_, by rw [← hnat]; exact main hα e1 e1', by rw [← hnat]; exact main hβ e2 e2'⟩

theorem isUnit_of_pow_q (hG : G.Valid) {x : ZMod G.p} (h : x ^ G.q = 1) : IsUnit x :=
  IsUnit.of_pow_eq_one h (by have := hG.q_gt; omega)

/-- The same for residues modulo `p`. -/
theorem extract (hG : G.Valid) (K α β a b : ZMod G.p) (c c' v v' : ℕ) (hα : α ^ G.q = 1)
    (hβ : β ^ G.q = 1) (ha : a ^ G.q = 1) (hb : b ^ G.q = 1) (hv : v ≠ 0)
    (e1 : (G.g : ZMod G.p) ^ v = a * α ^ c) (e1' : (G.g : ZMod G.p) ^ v' = a * α ^ c')
    (e2 : K ^ v = b * β ^ c) (e2' : K ^ v' = b * β ^ c') (hne : c % G.q ≠ c' % G.q) :
    ∃ r : ℕ, α = (G.g : ZMod G.p) ^ r ∧ β = K ^ r := by
  have : NeZero G.p := ⟨by have := hG.p_gt; omega⟩
  have hK : IsUnit K := by
    have h1 : IsUnit (K ^ v) := by
      rw [e2]
      exact (isUnit_of_pow_q hG hb).mul ((isUnit_of_pow_q hG hβ).pow _)
    exact (isUnit_pow_iff hv).1 h1
  obtain ⟨K', rfl⟩ := hK
  obtain ⟨α', rfl⟩ := isUnit_of_pow_q hG hα
  obtain ⟨β', rfl⟩ := isUnit_of_pow_q hG hβ
  obtain ⟨a', rfl⟩ := isUnit_of_pow_q hG ha
  obtain ⟨b', rfl⟩ := isUnit_of_pow_q hG hb
  obtain ⟨g', hg'⟩ := isUnit_of_pow_q hG (g_pow_q hG)
  rw [← hg'] at e1 e1' ⊢
  obtain ⟨r, h1, h2⟩ := extract_group hG.q_prime g' K' α' β' a' b' c c' v v'
    (Units.ext (by simpa using hα)) (Units.ext (by simpa using hβ)) (Units.ext (by simpa using e1))
    (Units.ext (by simpa using e1')) (Units.ext (by simpa using e2)) (Units.ext (by simpa using e2'))
    hne
  exact ⟨r, by rw [h1]; simp, by rw [h2]; simp⟩

end EG
