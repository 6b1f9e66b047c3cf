import Verif.Lemmas.ChaumPedersen
import Verif.Props.Precompute

/-!
# C19-C24: Chaum-Pedersen proofs
-/

namespace EG

variable (G : Params) (C : Crypto)

/-! ## C23 the verifiers decide the equations of the specification -/

/-- C23, disjunctive verifier. -/
theorem C23_disjunctive_iff (hG : G.Valid) (π : DisjProof) (hπ : π.Typed) (m : Ciphertext)
    (hp : m.pad < 2 ^ 4096) (hd : m.data < 2 ^ 4096) (K h : ℕ) (hK : K < 2 ^ 4096) :
    π.isValid G C m K h = true ↔
      DisjSpec G (hashElems G C [.q h, .p m.pad, .p m.data, .p π.zeroPad, .p π.zeroData, .p π.onePad,
        .p π.oneData]) K m.pad m.data
        π.zeroPad π.zeroData π.onePad π.oneData π.zeroChallenge π.oneChallenge π.challenge
        π.zeroResponse π.oneResponse :=
  disj_isValid_iff hG π hπ m hp hd K h hK

/-- C23, constant verifier: it never throws and decides the equations. -/
theorem C23_constant_iff (hG : G.Valid) (hL : G.Large) (π : ConstProof) (hπ : π.Typed)
    (m : Ciphertext) (hp : m.pad < 2 ^ 4096) (hd : m.data < 2 ^ 4096) (K h : ℕ) (hK : K < 2 ^ 4096) :
    ∃ b, π.isValid G C m K h = .ok b ∧ (b = true ↔
      ConstSpec G (hashElems G C [.q h, .p m.pad, .p m.data, .p π.pad, .p π.data]) K m.pad m.data
        π.pad π.data π.challenge π.response π.constant) :=
  const_isValid_iff hG hL π hπ m hp hd K h hK

theorem std_large : Params.std.Large := ⟨by decide +kernel, by decide +kernel⟩

/-- C23: an accepted disjunctive proof is bound to the header, the ciphertext and the commitments by
its challenge, unless the hash function collides on the two strings hashed. -/
theorem C23_disjunctive_binding (hG : G.Valid) (π π' : DisjProof) (hπ : π.Typed) (hπ' : π'.Typed)
    (m m' : Ciphertext) (hp : m.pad < 2 ^ 4096) (hd : m.data < 2 ^ 4096) (hp' : m'.pad < 2 ^ 4096)
    (hd' : m'.data < 2 ^ 4096) (K K' h h' : ℕ) (hK : K < 2 ^ 4096) (hK' : K' < 2 ^ 4096)
    (hh : h < 2 ^ 256) (hh' : h' < 2 ^ 256)
    (hc : NoCollision G C (hashQueries G C [.q h, .p m.pad, .p m.data, .p π.zeroPad, .p π.zeroData,
        .p π.onePad, .p π.oneData] ++ hashQueries G C [.q h', .p m'.pad, .p m'.data, .p π'.zeroPad,
        .p π'.zeroData, .p π'.onePad, .p π'.oneData]))
    (h1 : π.isValid G C m K h = true) (h2 : π'.isValid G C m' K' h' = true)
    (heq : π.challenge = π'.challenge) :
    h = h' ∧ m = m' ∧ π.zeroPad = π'.zeroPad ∧ π.zeroData = π'.zeroData ∧ π.onePad = π'.onePad ∧
      π.oneData = π'.oneData := by
  have s1 := ((C23_disjunctive_iff G C hG π hπ m hp hd K h hK).1 h1).c_hash
  have s2 := ((C23_disjunctive_iff G C hG π' hπ' m' hp' hd' K' h' hK').1 h2).c_hash
  rw [heq, s2] at s1
  have := C26_hash_binding_partial G C hG _ _
    (by
      have := hπ.zp; have := hπ.zd; have := hπ.op; have := hπ.od
      simp [HElem.Plain, HElem.q, HElem.p, HAtom.Plain, *]; exact hh)
    (by
      have := hπ'.zp; have := hπ'.zd; have := hπ'.op; have := hπ'.od
      simp [HElem.Plain, HElem.q, HElem.p, HAtom.Plain, *]; exact hh')
    (by simp [HElem.SameType, HElem.q, HElem.p, HAtom.SameType]) hc s1.symm
  obtain ⟨p1, d1⟩ := m
  obtain ⟨p2, d2⟩ := m'
  simpa [HElem.q, HElem.p, and_assoc] using this

/-- C23: the constant verifier binds in the same way.  The constant itself is not hashed. -/
theorem C23_constant_binding (hG : G.Valid) (hL : G.Large) (π π' : ConstProof) (hπ : π.Typed)
    (hπ' : π'.Typed) (m m' : Ciphertext) (hp : m.pad < 2 ^ 4096) (hd : m.data < 2 ^ 4096)
    (hp' : m'.pad < 2 ^ 4096) (hd' : m'.data < 2 ^ 4096) (K K' h h' : ℕ) (hK : K < 2 ^ 4096)
    (hK' : K' < 2 ^ 4096) (hh : h < 2 ^ 256) (hh' : h' < 2 ^ 256)
    (hc : NoCollision G C (hashQueries G C [.q h, .p m.pad, .p m.data, .p π.pad, .p π.data] ++
      hashQueries G C [.q h', .p m'.pad, .p m'.data, .p π'.pad, .p π'.data]))
    (h1 : π.isValid G C m K h = .ok true) (h2 : π'.isValid G C m' K' h' = .ok true)
    (heq : π.challenge = π'.challenge) :
    h = h' ∧ m = m' ∧ π.pad = π'.pad ∧ π.data = π'.data := by
  obtain ⟨b1, q1, r1⟩ := C23_constant_iff G C hG hL π hπ m hp hd K h hK
  obtain ⟨b2, q2, r2⟩ := C23_constant_iff G C hG hL π' hπ' m' hp' hd' K' h' hK'
  rw [h1, Res.ok.injEq] at q1
  rw [h2, Res.ok.injEq] at q2
  have s1 := (r1.1 q1.symm).c_hash
  have s2 := (r2.1 q2.symm).c_hash
  rw [heq, s2] at s1
  have := C26_hash_binding_partial G C hG _ _
    (by have := hπ.pad; have := hπ.data; simp [HElem.Plain, HElem.q, HElem.p, HAtom.Plain, *]; exact hh)
    (by have := hπ'.pad; have := hπ'.data; simp [HElem.Plain, HElem.q, HElem.p, HAtom.Plain, *]; exact hh')
    (by simp [HElem.SameType, HElem.q, HElem.p, HAtom.SameType]) hc s1.symm
  obtain ⟨p1, d1⟩ := m
  obtain ⟨p2, d2⟩ := m'
  simpa [HElem.q, HElem.p, and_assoc] using this

theorem g_pow_inj (hG : G.Valid) {a b : ℕ} (ha : a < G.q) (hb : b < G.q)
    (h : (G.g : ZMod G.p) ^ a = (G.g : ZMod G.p) ^ b) : a = b := by
  have := (g_pow_eq_iff hG a b).1 h
  rwa [Nat.mod_eq_of_lt ha, Nat.mod_eq_of_lt hb] at this

/-- C23: for a given ciphertext, header and commitments, the first challenge determines everything
else of an accepted proof: changing any one further component makes the verifier reject. -/
theorem C23_disjunctive_unique (hG : G.Valid) (π π' : DisjProof) (hπ : π.Typed) (hπ' : π'.Typed)
    (m : Ciphertext) (hp : m.pad < 2 ^ 4096) (hd : m.data < 2 ^ 4096) (K h : ℕ) (hK : K < 2 ^ 4096)
    (h1 : π.isValid G C m K h = true) (h2 : π'.isValid G C m K h = true)
    (ha0 : π.zeroPad = π'.zeroPad) (hb0 : π.zeroData = π'.zeroData) (ha1 : π.onePad = π'.onePad)
    (hb1 : π.oneData = π'.oneData) (hc0 : π.zeroChallenge = π'.zeroChallenge) : π = π' := by
  have s1 := (C23_disjunctive_iff G C hG π hπ m hp hd K h hK).1 h1
  have s2 := (C23_disjunctive_iff G C hG π' hπ' m hp hd K h hK).1 h2
  obtain ⟨a0, b0, a1, b1, c0, c1, c, v0, v1⟩ := π
  obtain ⟨a0', b0', a1', b1', c0', c1', c', v0', v1'⟩ := π'
  simp only at ha0 hb0 ha1 hb1 hc0 s1 s2
  subst ha0 hb0 ha1 hb1 hc0
  have hc : c = c' := s1.c_hash.trans s2.c_hash.symm
  subst hc
  have hc1 : c1 = c1' := by
    have e : c0 + c1 ≡ c0 + c1' [MOD G.q] := s1.c_sum.trans s2.c_sum.symm
    have e' : c1 % G.q = c1' % G.q := Nat.ModEq.add_left_cancel' c0 e
    exact (Nat.mod_eq_of_lt s1.c1_lt).symm.trans (e'.trans (Nat.mod_eq_of_lt s2.c1_lt))
  subst hc1
  have e0 := s1.gv0.trans s2.gv0.symm
  have e1 := s1.gv1.trans s2.gv1.symm
  rw [modEq_cast, Nat.cast_pow, Nat.cast_pow] at e0 e1
  rw [g_pow_inj G hG s1.v0_lt s2.v0_lt e0, g_pow_inj G hG s1.v1_lt s2.v1_lt e1]

/-- C23: one constant proof is accepted for at most one constant, and for at most one response. -/
theorem C23_constant_unique (hG : G.Valid) (hL : G.Large) (π π' : ConstProof) (hπ : π.Typed)
    (hπ' : π'.Typed) (m : Ciphertext) (hp : m.pad < 2 ^ 4096) (hd : m.data < 2 ^ 4096) (K h : ℕ)
    (hK : K < 2 ^ 4096) (h1 : π.isValid G C m K h = .ok true) (h2 : π'.isValid G C m K h = .ok true)
    (ha : π.pad = π'.pad) (hb : π.data = π'.data) : π = π' := by
  obtain ⟨b1, q1, r1⟩ := C23_constant_iff G C hG hL π hπ m hp hd K h hK
  obtain ⟨b2, q2, r2⟩ := C23_constant_iff G C hG hL π' hπ' m hp hd K h hK
  rw [h1, Res.ok.injEq] at q1
  rw [h2, Res.ok.injEq] at q2
  have s1 := r1.1 q1.symm
  have s2 := r2.1 q2.symm
  have l1 := lt_of_lt_of_le hπ.co hL.q_ge
  have l2 := lt_of_lt_of_le hπ'.co hL.q_ge
  obtain ⟨a, b, c, v, L⟩ := π
  obtain ⟨a', b', c', v', L'⟩ := π'
  simp only at ha hb s1 s2 l1 l2
  subst ha hb
  have hc : c = c' := s1.c_hash.trans s2.c_hash.symm
  subst hc
  have e1 := s1.gv.trans s2.gv.symm
  rw [modEq_cast, Nat.cast_pow, Nat.cast_pow] at e1
  have hv := g_pow_inj G hG s1.v_lt s2.v_lt e1
  subst hv
  have e2 := s1.gckv.trans s2.gckv.symm
  rw [modEq_cast] at e2
  push_cast at e2
  have hKv : IsUnit ((K : ZMod G.p) ^ v) := by
    have h3 := s1.gckv
    rw [modEq_cast] at h3
    push_cast at h3
    have h4 : IsUnit ((G.g : ZMod G.p) ^ (c * L) * (K : ZMod G.p) ^ v) := by
      rw [h3]
      exact (isUnit_of_pow_q hG (s1.res_b.pow_q hG)).mul
        ((isUnit_of_pow_q hG (s1.res_beta.pow_q hG)).pow _)
    exact (IsUnit.mul_iff.1 h4).2
  rw [hKv.mul_left_inj, g_pow_eq_iff hG] at e2
  have hcop : Nat.Coprime G.q c := (Nat.Prime.coprime_iff_not_dvd hG.q_prime).2 (fun hd =>
    absurd (Nat.eq_zero_of_dvd_of_lt hd s1.c_lt) (by have := s1.c_pos; omega))
  have hLL : L % G.q = L' % G.q := Nat.ModEq.cancel_left_of_coprime hcop e2
  rw [Nat.mod_eq_of_lt l1, Nat.mod_eq_of_lt l2] at hLL
  rw [hLL]

/-! ## C19 completeness -/

/-- A proof satisfying all equations is accepted exactly if no challenge and response is zero. -/
theorem disj_complete (hG : G.Valid) (m : Ciphertext) (K h : ℕ) (hK : K < 2 ^ 4096)
    (hα : Residue G m.pad) (hβ : Residue G m.data) (a0 b0 a1 b1 c0 c1 c v0 v1 : ℕ)
    (ra0 : Residue G a0) (rb0 : Residue G b0) (ra1 : Residue G a1) (rb1 : Residue G b1)
    (lc0 : c0 < G.q) (lc1 : c1 < G.q) (lv0 : v0 < G.q) (lv1 : v1 < G.q)
    (hsum : (c0 + c1) % G.q = c) (hc : c = disjChallenge G C h m a0 b0 a1 b1)
    (e1 : (G.g : ZMod G.p) ^ v0 = a0 * (m.pad : ZMod G.p) ^ c0)
    (e2 : (G.g : ZMod G.p) ^ v1 = a1 * (m.pad : ZMod G.p) ^ c1)
    (e3 : (K : ZMod G.p) ^ v0 = b0 * (m.data : ZMod G.p) ^ c0)
    (e4 : (G.g : ZMod G.p) ^ c1 * (K : ZMod G.p) ^ v1 = b1 * (m.data : ZMod G.p) ^ c1) :
    (DisjProof.mk a0 b0 a1 b1 c0 c1 c v0 v1).isValid G C m K h = true ↔
      c0 ≠ 0 ∧ c1 ≠ 0 ∧ v0 ≠ 0 ∧ v1 ≠ 0 := by
  have hq := hG.q_lt
  have lc : c < G.q := by rw [← hsum]; exact Nat.mod_lt _ (by have := hG.q_gt; omega)
  rw [disj_isValid_iff hG _ ⟨ra0.lt hG, rb0.lt hG, ra1.lt hG, rb1.lt hG, lt_trans lc0 hq,
    lt_trans lc1 hq, lt_trans lc hq, lt_trans lv0 hq, lt_trans lv1 hq⟩ m (hα.lt hG) (hβ.lt hG) K h hK]
  constructor
  · intro s
    exact ⟨s.c0_pos.ne', s.c1_pos.ne', s.v0_pos.ne', s.v1_pos.ne'⟩
  · rintro ⟨n1, n2, n3, n4⟩
    exact ⟨hα, hβ, ra0, rb0, ra1, rb1, Nat.pos_of_ne_zero n1, lc0, Nat.pos_of_ne_zero n2, lc1,
      Nat.pos_of_ne_zero n3, lv0, Nat.pos_of_ne_zero n4, lv1, hsum, hc,
      modEq_cast.2 (by push_cast; exact e1), modEq_cast.2 (by push_cast; exact e2),
      modEq_cast.2 (by push_cast; exact e3), modEq_cast.2 (by push_cast; exact e4)⟩

theorem sub_add_mod {q c w : ℕ} (hc : c < q) (hw : w < q) : ((c + q - w) % q + w) % q = c := by
  rw [Nat.mod_add_mod, show c + q - w + w = c + q by omega, Nat.add_mod_right, Nat.mod_eq_of_lt hc]

theorem neg_add_mod {q c w : ℕ} (hc : c < q) (hw : w < q) :
    ((q + q - w) % q + (c + w) % q) % q = c := by
  rw [← Nat.add_mod, show q + q - w + (c + w) = c + q + q by omega, Nat.add_mod_right,
    Nat.add_mod_right, Nat.mod_eq_of_lt hc]

section
variable {G C}

theorem residue_gPowP (hG : G.Valid) (e : ℕ) (he : e < 2 ^ 256) : Residue G (gPowP G e) :=
  residue_of_cast hG (gPowP_lt hG e he) (by rw [cast_gPowP hG e he]; exact pow_pow_q (g_pow_q hG) e)

theorem residue_powModP (hG : G.Valid) {x : ℕ} (hx : Residue G x) (e : ℕ) (he : e < 2 ^ 256) :
    Residue G (powModP G x e) :=
  residue_of_cast hG (powModP_lt hG x e (hx.lt hG) (lt_512_of_lt he))
    (by rw [cast_powModP hG x e (hx.lt hG) he]; exact pow_pow_q (hx.pow_q hG) e)

theorem residue_mulModP (hG : G.Valid) {x y : ℕ} (hx : Residue G x) (hy : Residue G y) :
    Residue G (mulModP G x y) :=
  residue_of_cast hG (mulModP_lt hG x y (hx.lt hG) (hy.lt hG))
    (by rw [cast_mulModP hG x y (hx.lt hG) (hy.lt hG)]; exact mul_pow_q (hx.pow_q hG) (hy.pow_q hG))

theorem nonce_lt (hG : G.Valid) (s : Nonces) (i : ℕ) : (s.get G C i).1 < G.q :=
  hashElems_lt (C := C) hG [.q s.seed, .u64 i]

/-- The ciphertext components of an encryption are residues with the expected values. -/
theorem IsEncryption.casts (hG : G.Valid) {K x n : ℕ} {m : Ciphertext} (hK : Residue G K)
    (h : IsEncryption G K x n m) :
    Residue G m.pad ∧ Residue G m.data ∧ (m.pad : ZMod G.p) = (G.g : ZMod G.p) ^ n ∧
      (m.data : ZMod G.p) = (G.g : ZMod G.p) ^ x * (K : ZMod G.p) ^ n := by
  obtain ⟨h1, h2, h3, h4⟩ := h
  rw [modEq_cast] at h3 h4
  push_cast at h3 h4
  exact ⟨residue_of_cast hG h1 (by rw [h3]; exact pow_pow_q (g_pow_q hG) n),
    residue_of_cast hG h2 (by
      rw [h4]; exact mul_pow_q (pow_pow_q (g_pow_q hG) x) (pow_pow_q (hK.pow_q hG) n)), h3, h4⟩

/-- The real branch of a proof for plaintext 0 forces the plaintext. -/
theorem zero_branch (hG : G.Valid) {K x n u c0 : ℕ} (hK : Residue G K) (lc0 : c0 < G.q)
    (n0 : c0 ≠ 0)
    (e : (K : ZMod G.p) ^ ((u + c0 * n) % G.q) = (K : ZMod G.p) ^ u *
      ((G.g : ZMod G.p) ^ x * (K : ZMod G.p) ^ n) ^ c0) : x % G.q = 0 := by
  have hKq := hK.pow_q hG
  have huK := isUnit_of_pow_q hG hKq
  rw [pow_response hKq, mul_pow, mul_left_comm,
    show ∀ y z : ZMod G.p, (y = z * y) = (1 * y = z * y) from fun y z => by rw [one_mul],
    ((huK.pow u).mul ((huK.pow n).pow c0)).mul_left_inj, ← pow_mul, ← pow_zero (G.g : ZMod G.p),
    g_pow_eq_iff hG, Nat.zero_mod] at e
  have hd := (Nat.Prime.dvd_mul hG.q_prime).1 (Nat.dvd_of_mod_eq_zero e.symm)
  rcases hd with hd | hd
  · exact Nat.mod_eq_zero_of_dvd hd
  · exact absurd (Nat.eq_zero_of_dvd_of_lt hd lc0) n0

/-- The real branch of a proof for plaintext 1 forces the plaintext. -/
theorem one_branch (hG : G.Valid) {K x n u c1 : ℕ} (hK : Residue G K) (lc1 : c1 < G.q)
    (n1 : c1 ≠ 0)
    (e : (G.g : ZMod G.p) ^ c1 * (K : ZMod G.p) ^ ((u + c1 * n) % G.q) = (K : ZMod G.p) ^ u *
      ((G.g : ZMod G.p) ^ x * (K : ZMod G.p) ^ n) ^ c1) : x % G.q = 1 := by
  have hKq := hK.pow_q hG
  have huK := isUnit_of_pow_q hG hKq
  rw [pow_response hKq, mul_pow, mul_left_comm ((K : ZMod G.p) ^ u),
    ((huK.pow u).mul ((huK.pow n).pow c1)).mul_left_inj, ← pow_mul, g_pow_eq_iff hG] at e
  have hcop : Nat.Coprime G.q c1 := (Nat.Prime.coprime_iff_not_dvd hG.q_prime).2 (fun hd =>
    n1 (Nat.eq_zero_of_dvd_of_lt hd lc1))
  have e' : c1 * 1 ≡ c1 * x [MOD G.q] := by rw [mul_one, mul_comm]; exact e
  have := Nat.ModEq.cancel_left_of_coprime hcop e'
  have h1 : 1 % G.q = x % G.q := this
  rw [← h1, Nat.mod_eq_of_lt (by have := hG.q_gt; omega)]

end

/-- What completeness says about a proof: accepted exactly if no challenge and response is zero. -/
def AcceptedUnlessZero (π : DisjProof) (m : Ciphertext) (K h : ℕ) : Prop :=
  π.isValid G C m K h = true ↔
    π.zeroChallenge ≠ 0 ∧ π.oneChallenge ≠ 0 ∧ π.zeroResponse ≠ 0 ∧ π.oneResponse ≠ 0

/-- Everything a prover must do, for a ciphertext of `x` and claimed plaintext `t`: a proof for the right
plaintext is accepted unless a challenge or response is zero, for a wrong one it is rejected. -/
def GoodProver (K x t : ℕ) (m : Ciphertext) (h : ℕ) (π : DisjProof) : Prop :=
  (x % G.q = t → AcceptedUnlessZero G C π m K h) ∧
  (x % G.q ≠ t → π.isValid G C m K h = false) ∧
  π.challenge = hashElems G C [.q h, .p m.pad, .p m.data, .p π.zeroPad, .p π.zeroData, .p π.onePad,
        .p π.oneData]

theorem disjMakeZero_good (hG : G.Valid) (K x n h u v w : ℕ) (m : Ciphertext) (hK : Residue G K)
    (hm : IsEncryption G K x n m) (hn : n < 2 ^ 256) (hu : u < G.q) (hv : v < G.q) (hw : w < G.q) :
    ∃ π, disjMakeZero G C m n K h u v w = .ok π ∧ GoodProver G C K x 0 m h π := by
  have hq := hG.q_lt
  have hu' := lt_trans hu hq
  have hv' := lt_trans hv hq
  have hw' := lt_trans hw hq
  have hq0 : 0 < G.q := by have := hG.q_gt; omega
  obtain ⟨rα, rβ, cα, cβ⟩ := hm.casts hG hK
  have hgq := g_pow_q hG
  have hKq := hK.pow_q hG
  have ra0 := residue_gPowP hG u hu'
  have rb0 := residue_powModP hG hK u hu'
  have ra1 := residue_gPowP hG v hv'
  have rb1 := residue_mulModP hG (residue_gPowP hG w hw') (residue_powModP hG hK v hv')
  set c := disjChallenge G C h m (gPowP G u) (powModP G K u) (gPowP G v)
    (mulModP G (gPowP G w) (powModP G K v)) with hc
  have lc : c < G.q := hashElems_lt hG _
  have hc0 : subModQ G c w = (c + G.q - w) % G.q := subModQ_eq hG c w (le_of_lt lc) (le_of_lt hw)
  have lc0 : subModQ G c w < G.q := subModQ_lt hG _ _
  have lc0' := lt_trans lc0 hq
  have hsum : (subModQ G c w + w) % G.q = c := by rw [hc0]; exact sub_add_mod lc hw
  refine ⟨⟨gPowP G u, powModP G K u, gPowP G v, mulModP G (gPowP G w) (powModP G K v),
    subModQ G c w, w, c, (u + subModQ G c w * n) % G.q, (v + w * n) % G.q⟩, ?_, ?_, ?_, rfl⟩
  · simp only [disjMakeZero]
    rw [aPlusBc_eq hG _ _ _ hu' lc0' hn, aPlusBc_eq hG _ _ _ hv' hw' hn]
    rfl
  · intro hx
    have hgx : (G.g : ZMod G.p) ^ x = 1 := by
      rw [pow_congr hgq (b := 0) (by rw [hx, Nat.zero_mod]), pow_zero]
    rw [hgx, one_mul] at cβ
    refine disj_complete G C hG m K h (hK.lt hG) rα rβ _ _ _ _ _ _ _ _ _ ra0 rb0 ra1 rb1 lc0 hw
      (Nat.mod_lt _ hq0) (Nat.mod_lt _ hq0) hsum hc ?_ ?_ ?_ ?_
    · rw [cast_gPowP hG u hu', cα, pow_response hgq]
    · rw [cast_gPowP hG v hv', cα, pow_response hgq]
    · rw [cast_powModP hG K u (hK.lt hG) hu', cβ, pow_response hKq]
    · rw [cast_mulModP hG _ _ (gPowP_lt4096 hG w hw') (powModP_lt4096 hG K v (hK.lt hG) hv'),
        cast_gPowP hG w hw', cast_powModP hG K v (hK.lt hG) hv', cβ, pow_response hKq, mul_assoc]
  · intro hx
    rw [← Bool.not_eq_true]
    intro hv
    rw [disj_isValid_iff hG _ ⟨ra0.lt hG, rb0.lt hG, ra1.lt hG, rb1.lt hG, lc0',
      hw', lt_trans lc hq, lt_trans (Nat.mod_lt _ hq0) hq, lt_trans (Nat.mod_lt _ hq0) hq⟩ m (rα.lt hG)
      (rβ.lt hG) K h (hK.lt hG)] at hv
    have e := hv.kv0
    rw [modEq_cast] at e
    push_cast at e
    rw [cast_powModP hG K u (hK.lt hG) hu', cβ] at e
    exact hx (zero_branch hG hK lc0 hv.c0_pos.ne' e)

theorem disjMakeOne_good (hG : G.Valid) (K x n h u v w : ℕ) (m : Ciphertext) (hK : Residue G K)
    (hm : IsEncryption G K x n m) (hn : n < 2 ^ 256) (hu : u < G.q) (hv : v < G.q) (hw : w < G.q) :
    ∃ π, disjMakeOne G C m n K h u v w = .ok π ∧ GoodProver G C K x 1 m h π := by
  have hq := hG.q_lt
  have hu' := lt_trans hu hq
  have hv' := lt_trans hv hq
  have hw' := lt_trans hw hq
  have hq0 : 0 < G.q := by have := hG.q_gt; omega
  obtain ⟨rα, rβ, cα, cβ⟩ := hm.casts hG hK
  have hgq := g_pow_q hG
  have hKq := hK.pow_q hG
  have ra0 := residue_gPowP hG v hv'
  have rb0 := residue_mulModP hG (residue_gPowP hG w hw') (residue_powModP hG hK v hv')
  have ra1 := residue_gPowP hG u hu'
  have rb1 := residue_powModP hG hK u hu'
  set c := disjChallenge G C h m (gPowP G v) (mulModP G (gPowP G w) (powModP G K v)) (gPowP G u)
    (powModP G K u) with hc
  have lc : c < G.q := hashElems_lt hG _
  have hc0 : subModQ G G.q w = (G.q + G.q - w) % G.q := subModQ_eq hG G.q w le_rfl (le_of_lt hw)
  have hc1 : addModQ G c w = (c + w) % G.q := addModQ_eq hG c w (le_of_lt lc) (le_of_lt hw)
  have lc0 : subModQ G G.q w < G.q := subModQ_lt hG _ _
  have lc1 : addModQ G c w < G.q := addModQ_lt hG _ _
  have lc0' := lt_trans lc0 hq
  have lc1' := lt_trans lc1 hq
  have hsum : (subModQ G G.q w + addModQ G c w) % G.q = c := by
    rw [hc0, hc1]; exact neg_add_mod lc hw
  refine ⟨⟨gPowP G v, mulModP G (gPowP G w) (powModP G K v), gPowP G u, powModP G K u,
    subModQ G G.q w, addModQ G c w, c, (v + subModQ G G.q w * n) % G.q,
    (u + addModQ G c w * n) % G.q⟩, ?_, ?_, ?_, rfl⟩
  · simp only [disjMakeOne]
    rw [aPlusBc_eq hG _ _ _ hv' lc0' hn, aPlusBc_eq hG _ _ _ hu' lc1' hn]
    rfl
  · intro hx
    have hgx : (G.g : ZMod G.p) ^ x = G.g := by
      rw [pow_congr hgq (b := 1) (by rw [hx, Nat.mod_eq_of_lt (by have := hG.q_gt; omega)]), pow_one]
    rw [hgx] at cβ
    refine disj_complete G C hG m K h (hK.lt hG) rα rβ _ _ _ _ _ _ _ _ _ ra0 rb0 ra1 rb1 lc0 lc1
      (Nat.mod_lt _ hq0) (Nat.mod_lt _ hq0) hsum hc ?_ ?_ ?_ ?_
    · rw [cast_gPowP hG v hv', cα, pow_response hgq]
    · rw [cast_gPowP hG u hu', cα, pow_response hgq]
    · have hz : (G.g : ZMod G.p) ^ w * (G.g : ZMod G.p) ^ subModQ G G.q w = 1 := by
        rw [← pow_add, pow_congr hgq (b := 0), pow_zero]
        rw [hc0, Nat.add_mod_mod, show w + (G.q + G.q - w) = G.q + G.q by omega, Nat.add_mod_right,
          Nat.mod_self, Nat.zero_mod]
      rw [cast_mulModP hG _ _ (gPowP_lt4096 hG w hw') (powModP_lt4096 hG K v (hK.lt hG) hv'),
        cast_gPowP hG w hw', cast_powModP hG K v (hK.lt hG) hv', cβ, pow_response hKq, mul_pow,
        mul_mul_mul_comm, hz, one_mul]
    · rw [cast_powModP hG K u (hK.lt hG) hu', cβ, pow_response hKq, mul_pow, mul_left_comm]
  · intro hx
    rw [← Bool.not_eq_true]
    intro hv
    rw [disj_isValid_iff hG _ ⟨ra0.lt hG, rb0.lt hG, ra1.lt hG, rb1.lt hG, lc0',
      lc1', lt_trans lc hq, lt_trans (Nat.mod_lt _ hq0) hq, lt_trans (Nat.mod_lt _ hq0) hq⟩ m (rα.lt hG)
      (rβ.lt hG) K h (hK.lt hG)] at hv
    have e := hv.gckv1
    rw [modEq_cast] at e
    push_cast at e
    rw [cast_powModP hG K u (hK.lt hG) hu', cβ] at e
    exact hx (one_branch hG hK lc1 hv.c1_pos.ne' e)

theorem disjMakeZeroSeeded_good (hG : G.Valid) (K x n h seed : ℕ) (m : Ciphertext)
    (hK : Residue G K) (hm : IsEncryption G K x n m) (hn : n < 2 ^ 256) :
    ∃ π, disjMakeZeroSeeded G C m n K h seed = .ok π ∧ GoodProver G C K x 0 m h π := by
  have hq := hG.q_lt
  have hq0 : 0 < G.q := by have := hG.q_gt; omega
  obtain ⟨rα, rβ, cα, cβ⟩ := hm.casts hG hK
  have hgq := g_pow_q hG
  have hKq := hK.pow_q hG
  have hαq := rα.pow_q hG
  have hβq := rβ.pow_q hG
  simp only [disjMakeZeroSeeded]
  have lt := nonce_lt (C := C) hG (Nonces.makeWith G C seed (.str disjHeader))
  generalize (Nonces.makeWith G C seed (.str disjHeader)) = ns at lt ⊢
  have lc1 := lt 0
  have lv1 := lt 1
  have lu := lt 2
  generalize (ns.get G C 0).1 = c1 at lc1 ⊢
  generalize (ns.get G C 1).1 = v1 at lv1 ⊢
  generalize (ns.get G C 2).1 = u at lu ⊢
  have lc1' := lt_trans lc1 hq
  have lv1' := lt_trans lv1 hq
  have lu' := lt_trans lu hq
  have hs : subFromQ G c1 = G.q - c1 := subFromQ_eq hG c1 (le_of_lt lc1)
  rw [hs]
  have ls : G.q - c1 < 2 ^ 256 := lt_of_le_of_lt (Nat.sub_le _ _) hq
  have ra0 := residue_gPowP hG u lu'
  have rb0 := residue_powModP hG hK u lu'
  have ra1 := residue_mulModP hG (residue_gPowP hG v1 lv1') (residue_powModP hG rα (G.q - c1) ls)
  have k4 := powModP_lt4096 hG K v1 (hK.lt hG) lv1'
  have g4 := gPowP_lt4096 hG c1 lc1'
  have d4 := powModP_lt4096 hG m.data (G.q - c1) (rβ.lt hG) ls
  have cb1 : ((mulModPVec G [.p (powModP G K v1), .p (gPowP G c1), .p (powModP G m.data (G.q - c1))] :
      ℕ) : ZMod G.p) = (K : ZMod G.p) ^ v1 * ((G.g : ZMod G.p) ^ c1 * (m.data : ZMod G.p) ^ (G.q - c1)) := by
    rw [C04_mul_mod_p_vector G hG _ (by
      intro y hy
      simp only [List.mem_cons, List.not_mem_nil, or_false] at hy
      rcases hy with rfl | rfl | rfl
      · exact k4
      · exact g4
      · exact d4), cast_mod]
    simp only [List.map_cons, List.map_nil, ElemPQ.val, List.prod_cons, List.prod_nil, mul_one]
    push_cast
    rw [cast_powModP hG K v1 (hK.lt hG) lv1', cast_gPowP hG c1 lc1', cast_powModP hG _ _ (rβ.lt hG) ls]
  have rb1 : Residue G (mulModPVec G [.p (powModP G K v1), .p (gPowP G c1),
      .p (powModP G m.data (G.q - c1))]) := by
    refine residue_of_cast hG ?_ ?_
    · rw [C04_mul_mod_p_vector G hG _ (by
        intro y hy
        simp only [List.mem_cons, List.not_mem_nil, or_false] at hy
        rcases hy with rfl | rfl | rfl
        · exact k4
        · exact g4
        · exact d4)]
      exact Nat.mod_lt _ (by have := hG.p_gt; omega)
    · rw [cb1]
      exact mul_pow_q (pow_pow_q hKq _) (mul_pow_q (pow_pow_q hgq _) (pow_pow_q hβq _))
  generalize mulModPVec G [.p (powModP G K v1), .p (gPowP G c1), .p (powModP G m.data (G.q - c1))] = b1
    at cb1 rb1 ⊢
  set c := disjChallenge G C h m (gPowP G u) (powModP G K u)
    (mulModP G (gPowP G v1) (powModP G m.pad (G.q - c1))) b1 with hc
  have lc : c < G.q := hashElems_lt hG _
  have hc0 : subModQ G c c1 = (c + G.q - c1) % G.q := subModQ_eq hG c c1 (le_of_lt lc) (le_of_lt lc1)
  have lc0 : subModQ G c c1 < G.q := subModQ_lt hG _ _
  have lc0' := lt_trans lc0 hq
  have hsum : (subModQ G c c1 + c1) % G.q = c := by rw [hc0]; exact sub_add_mod lc lc1
  have cancel : ∀ y : ZMod G.p, y ^ G.q = 1 → y ^ (G.q - c1) * y ^ c1 = 1 := by
    intro y hy
    rw [← pow_add, Nat.sub_add_cancel (le_of_lt lc1), hy]
  refine ⟨⟨gPowP G u, powModP G K u, mulModP G (gPowP G v1) (powModP G m.pad (G.q - c1)), b1,
    subModQ G c c1, c1, c, (u + subModQ G c c1 * n) % G.q, v1⟩, ?_, ?_, ?_, rfl⟩
  · rw [aPlusBc_eq hG _ _ _ lu' lc0' hn]
    rfl
  · intro hx
    have hgx : (G.g : ZMod G.p) ^ x = 1 := by
      rw [pow_congr hgq (b := 0) (by rw [hx, Nat.zero_mod]), pow_zero]
    rw [hgx, one_mul] at cβ
    refine disj_complete G C hG m K h (hK.lt hG) rα rβ _ _ _ _ _ _ _ _ _ ra0 rb0 ra1 rb1 lc0 lc1
      (Nat.mod_lt _ hq0) lv1 hsum hc ?_ ?_ ?_ ?_
    · rw [cast_gPowP hG u lu', cα, pow_response hgq]
    · rw [cast_mulModP hG _ _ (gPowP_lt4096 hG v1 lv1') (powModP_lt4096 hG _ _ (rα.lt hG) ls),
        cast_gPowP hG v1 lv1', cast_powModP hG _ _ (rα.lt hG) ls, mul_assoc, cancel _ hαq, mul_one]
    · rw [cast_powModP hG K u (hK.lt hG) lu', cβ, pow_response hKq]
    · rw [cb1, mul_assoc, mul_assoc, cancel _ hβq, mul_one, mul_comm]
  · intro hx
    rw [← Bool.not_eq_true]
    intro hv
    rw [disj_isValid_iff hG _ ⟨ra0.lt hG, rb0.lt hG, ra1.lt hG, rb1.lt hG, lc0',
      lc1', lt_trans lc hq, lt_trans (Nat.mod_lt _ hq0) hq, lv1'⟩ m (rα.lt hG)
      (rβ.lt hG) K h (hK.lt hG)] at hv
    have e := hv.kv0
    rw [modEq_cast] at e
    push_cast at e
    rw [cast_powModP hG K u (hK.lt hG) lu', cβ] at e
    exact hx (zero_branch hG hK lc0 hv.c0_pos.ne' e)

theorem disjMakeOneSeeded_good (hG : G.Valid) (K x n h seed : ℕ) (m : Ciphertext)
    (hK : Residue G K) (hm : IsEncryption G K x n m) (hn : n < 2 ^ 256) :
    ∃ π, disjMakeOneSeeded G C m n K h seed = .ok π ∧ GoodProver G C K x 1 m h π := by
  have hq := hG.q_lt
  have hq0 : 0 < G.q := by have := hG.q_gt; omega
  obtain ⟨rα, rβ, cα, cβ⟩ := hm.casts hG hK
  have hgq := g_pow_q hG
  have hKq := hK.pow_q hG
  have hαq := rα.pow_q hG
  have hβq := rβ.pow_q hG
  simp only [disjMakeOneSeeded]
  have lt := nonce_lt (C := C) hG (Nonces.makeWith G C seed (.str disjHeader))
  generalize (Nonces.makeWith G C seed (.str disjHeader)) = ns at lt ⊢
  have lc0 := lt 0
  have lv0 := lt 1
  have lu := lt 2
  generalize (ns.get G C 0).1 = c0 at lc0 ⊢
  generalize (ns.get G C 1).1 = v0 at lv0 ⊢
  generalize (ns.get G C 2).1 = u at lu ⊢
  have lc0' := lt_trans lc0 hq
  have lv0' := lt_trans lv0 hq
  have lu' := lt_trans lu hq
  have hs : subFromQ G c0 = G.q - c0 := subFromQ_eq hG c0 (le_of_lt lc0)
  rw [hs]
  have ls : G.q - c0 < 2 ^ 256 := lt_of_le_of_lt (Nat.sub_le _ _) hq
  have ra1 := residue_gPowP hG u lu'
  have rb1 := residue_powModP hG hK u lu'
  have ra0 := residue_mulModP hG (residue_gPowP hG v0 lv0') (residue_powModP hG rα (G.q - c0) ls)
  have rb0 := residue_mulModP hG (residue_powModP hG hK v0 lv0') (residue_powModP hG rβ (G.q - c0) ls)
  set c := disjChallenge G C h m (mulModP G (gPowP G v0) (powModP G m.pad (G.q - c0)))
    (mulModP G (powModP G K v0) (powModP G m.data (G.q - c0))) (gPowP G u) (powModP G K u) with hc
  have lc : c < G.q := hashElems_lt hG _
  have hc1 : subModQ G c c0 = (c + G.q - c0) % G.q := subModQ_eq hG c c0 (le_of_lt lc) (le_of_lt lc0)
  have lc1 : subModQ G c c0 < G.q := subModQ_lt hG _ _
  have lc1' := lt_trans lc1 hq
  have hsum : (c0 + subModQ G c c0) % G.q = c := by rw [hc1, add_comm c0]; exact sub_add_mod lc lc0
  have cancel : ∀ y : ZMod G.p, y ^ G.q = 1 → y ^ (G.q - c0) * y ^ c0 = 1 := by
    intro y hy
    rw [← pow_add, Nat.sub_add_cancel (le_of_lt lc0), hy]
  refine ⟨⟨mulModP G (gPowP G v0) (powModP G m.pad (G.q - c0)),
    mulModP G (powModP G K v0) (powModP G m.data (G.q - c0)), gPowP G u, powModP G K u,
    c0, subModQ G c c0, c, v0, (u + subModQ G c c0 * n) % G.q⟩, ?_, ?_, ?_, rfl⟩
  · rw [aPlusBc_eq hG _ _ _ lu' lc1' hn]
    rfl
  · intro hx
    have hgx : (G.g : ZMod G.p) ^ x = G.g := by
      rw [pow_congr hgq (b := 1) (by rw [hx, Nat.mod_eq_of_lt (by have := hG.q_gt; omega)]), pow_one]
    rw [hgx] at cβ
    refine disj_complete G C hG m K h (hK.lt hG) rα rβ _ _ _ _ _ _ _ _ _ ra0 rb0 ra1 rb1 lc0 lc1
      lv0 (Nat.mod_lt _ hq0) hsum hc ?_ ?_ ?_ ?_
    · rw [cast_mulModP hG _ _ (gPowP_lt4096 hG v0 lv0') (powModP_lt4096 hG _ _ (rα.lt hG) ls),
        cast_gPowP hG v0 lv0', cast_powModP hG _ _ (rα.lt hG) ls, mul_assoc, cancel _ hαq, mul_one]
    · rw [cast_gPowP hG u lu', cα, pow_response hgq]
    · rw [cast_mulModP hG _ _ (powModP_lt4096 hG K v0 (hK.lt hG) lv0')
          (powModP_lt4096 hG _ _ (rβ.lt hG) ls),
        cast_powModP hG K v0 (hK.lt hG) lv0', cast_powModP hG _ _ (rβ.lt hG) ls, mul_assoc,
        cancel _ hβq, mul_one]
    · rw [cast_powModP hG K u (hK.lt hG) lu', cβ, pow_response hKq, mul_pow, mul_left_comm]
  · intro hx
    rw [← Bool.not_eq_true]
    intro hv
    rw [disj_isValid_iff hG _ ⟨ra0.lt hG, rb0.lt hG, ra1.lt hG, rb1.lt hG, lc0',
      lc1', lt_trans lc hq, lv0', lt_trans (Nat.mod_lt _ hq0) hq⟩ m (rα.lt hG)
      (rβ.lt hG) K h (hK.lt hG)] at hv
    have e := hv.gckv1
    rw [modEq_cast] at e
    push_cast at e
    rw [cast_powModP hG K u (hK.lt hG) lu', cβ] at e
    exact hx (one_branch hG hK lc1 hv.c1_pos.ne' e)

/-- C19, randomised prover, for every choice `u v w` of the random numbers.  `x` is any plaintext. -/
theorem C19_randomised (hG : G.Valid) (K x n h t u v w : ℕ) (m : Ciphertext) (hK : Residue G K)
    (hm : IsEncryption G K x n m) (hn : n < 2 ^ 256) (ht : t < 2) (hu : u < G.q) (hv : v < G.q)
    (hw : w < G.q) :
    ∃ π, disjMake G C m n K h t u v w = .ok π ∧ GoodProver G C K x t m h π := by
  have : t = 0 ∨ t = 1 := by omega
  rcases this with rfl | rfl
  · exact disjMakeZero_good G C hG K x n h u v w m hK hm hn hu hv hw
  · exact disjMakeOne_good G C hG K x n h u v w m hK hm hn hu hv hw

/-- C19, seeded prover. -/
theorem C19_seeded (hG : G.Valid) (K x n h t seed : ℕ) (m : Ciphertext) (hK : Residue G K)
    (hm : IsEncryption G K x n m) (hn : n < 2 ^ 256) (ht : t < 2) :
    ∃ π, disjMakeSeeded G C m n K h seed t = .ok π ∧ GoodProver G C K x t m h π := by
  have : t = 0 ∨ t = 1 := by omega
  rcases this with rfl | rfl
  · exact disjMakeZeroSeeded_good G C hG K x n h seed m hK hm hn
  · exact disjMakeOneSeeded_good G C hG K x n h seed m hK hm hn

/-- With entries of the right form the precomputed prover is the randomised one. -/
theorem disjMakePrecomputed_eq (hG : G.Valid) (K h t : ℕ) (m : Ciphertext) (e : TwoTriplesQuad)
    (hK : K < 2 ^ 4096) (he : e.ForKey G K) :
    disjMakePrecomputed G C m e h t =
      disjMake G C m e.triple1.exp K h t e.triple2.exp e.quad.exp1 e.quad.exp2 := by
  obtain ⟨-, ⟨l2, g2, k2⟩, l3, l4, g3, k3⟩ := he
  have l2' := lt_trans l2 hG.q_lt
  have l3' := lt_trans l3 hG.q_lt
  have l4' := lt_trans l4 hG.q_lt
  have q1 : e.triple2.gToExp = gPowP G e.triple2.exp := by
    rw [g2, gPowP_eq hG _ (lt_512_of_lt l2')]
  have q2 : e.triple2.pubkeyToExp = powModP G K e.triple2.exp := by
    rw [k2, powModP_eq hG K _ hK (lt_512_of_lt l2')]
  have q3 : e.quad.gToExp1 = gPowP G e.quad.exp1 := by
    rw [g3, gPowP_eq hG _ (lt_512_of_lt l3')]
  have q4 : e.quad.gToExp2MulPubkeyToExp1 =
      mulModP G (gPowP G e.quad.exp2) (powModP G K e.quad.exp1) := by
    have := genQuadruple_forKey G hG K e.quad.exp1 e.quad.exp2 hK l3 l4
    rw [k3]
    exact this.2.2.2.symm
  unfold disjMakePrecomputed disjMake disjMakeOnePrecomputed disjMakeZeroPrecomputed disjMakeOne
    disjMakeZero
  rw [q1, q2, q3, q4]

/-- C19, precomputed prover, for a ciphertext whose nonce is the first precomputed exponent and a
buffer entry generated for the key. -/
theorem C19_precomputed (hG : G.Valid) (K x h t : ℕ) (m : Ciphertext) (e : TwoTriplesQuad)
    (hK : Residue G K) (he : e.ForKey G K) (hm : IsEncryption G K x e.triple1.exp m) (ht : t < 2) :
    ∃ π, disjMakePrecomputed G C m e h t = .ok π ∧ GoodProver G C K x t m h π := by
  rw [disjMakePrecomputed_eq G C hG K h t m e (hK.lt hG) he]
  exact C19_randomised G C hG K x _ h t _ _ _ m hK hm (lt_trans he.1.1 hG.q_lt) ht he.2.1.1
    he.2.2.1 he.2.2.2.1

/-- C19: plaintexts above 1 are refused by all three provers. -/
theorem C19_refused (m : Ciphertext) (r k h t seed u v w : ℕ) (e : TwoTriplesQuad) (ht : 1 < t) :
    disjMake G C m r k h t u v w = .throw .invalidArgument ∧
    disjMakeSeeded G C m r k h seed t = .throw .invalidArgument ∧
    disjMakePrecomputed G C m e h t = .throw .invalidArgument := by
  simp [disjMake, disjMakeSeeded, disjMakePrecomputed, ht]

/-- A hash function with a constant value, for examples. -/
def constCrypto (d : ℕ) : Crypto where
  sha256 := fun _ => d % 2 ^ 256
  sha256_lt := fun _ => Nat.mod_lt _ (Nat.two_pow_pos _)
  hmac := fun _ _ => List.replicate 32 0
  hmac_length := fun _ _ => List.length_replicate

theorem hashElems_const (d : ℕ) (xs : List HElem) : hashElems G (constCrypto d) xs =
    addModQ G (d % 2 ^ 256) 0 := by
  unfold hashElems digestQ constCrypto
  split <;> rfl

/-- An honest proof for the ciphertext of 0 with nonce 1, key `g^2` and random numbers 1, 1, 2, when
the hash function has the value `d`. -/
def exampleProof (G : Params) (d : ℕ) : DisjProof :=
  ⟨gPowP G 1, powModP G (gPowP G 2) 1, gPowP G 1, mulModP G (gPowP G 2) (powModP G (gPowP G 2) 1),
    d - 2, 2, d, d - 1, 3⟩

/-- Accepted honest proofs exist, with the same commitments and different challenges: the hypotheses of
the theorems about accepted proofs can be met, with the standard parameters. -/
theorem accepted_example : ∃ m : Ciphertext, IsEncryption .std (gPowP .std 2) 0 1 m ∧
    m.pad < 2 ^ 4096 ∧ m.data < 2 ^ 4096 ∧ ∀ d, 3 ≤ d → d < 100 →
    disjMake .std (constCrypto d) m 1 (gPowP .std 2) 7 0 1 1 2 = .ok (exampleProof .std d) ∧
    (exampleProof .std d).isValid .std (constCrypto d) m (gPowP .std 2) 7 = true ∧
    (exampleProof .std d).Typed := by
  have hG := C54_std_valid
  have hq : 100 < Params.std.q := by decide +kernel
  have hK : Residue .std (gPowP .std 2) := residue_gPowP hG 2 (by norm_num)
  generalize Params.std = G at *
  obtain ⟨m, -, hm⟩ := encrypt_isEncryption G hG 0 1 (gPowP G 2) (by omega) (by norm_num) (by omega)
    (hK.lt hG)
  refine ⟨m, hm, lt_trans hm.1 hG.p_lt, lt_trans hm.2.1 hG.p_lt, fun d hd hd' => ?_⟩
  obtain ⟨π, h1, h2, -⟩ := C19_randomised G (constCrypto d) hG (gPowP G 2) 0 1 7 0 1 1 2 m hK hm
    (by norm_num) (by omega) (by omega) (by omega) (by omega)
  have hd256 : d < 2 ^ 256 := lt_trans hd' (by norm_num)
  have h5 : addModQ G (d % 2 ^ 256) 0 = d := by
    rw [Nat.mod_eq_of_lt hd256, addModQ_eq hG d 0 (by omega) (by omega), Nat.add_zero,
      Nat.mod_eq_of_lt (by omega)]
  have h3 : subModQ G d 2 = d - 2 := by
    rw [subModQ_eq hG d 2 (by omega) (by omega), show d + G.q - 2 = d - 2 + G.q by omega,
      Nat.add_mod_right, Nat.mod_eq_of_lt (by omega)]
  have hv0 : aPlusBcModQ G 1 (d - 2) 1 = .ok (d - 1) := by
    rw [aPlusBc_eq hG 1 (d - 2) 1 (by norm_num) (lt_of_le_of_lt (Nat.sub_le _ _) hd256) (by norm_num),
      Nat.mod_eq_of_lt (by omega)]
    congr 1
    omega
  have hv1 : aPlusBcModQ G 1 2 1 = .ok 3 := by
    rw [aPlusBc_eq hG 1 2 1 (by norm_num) (by norm_num) (by norm_num), Nat.mod_eq_of_lt (by omega)]
  have hπ : disjMake G (constCrypto d) m 1 (gPowP G 2) 7 0 1 1 2 = .ok (exampleProof G d) := by
    unfold disjMake disjMakeZero disjChallenge
    rw [if_neg (by omega), if_neg (by omega)]
    simp only [hashElems_const, h5, h3, hv0, hv1]
    rfl
  rw [hπ, Res.ok.injEq] at h1
  subst h1
  have small : ∀ y, y < 100 → y < 2 ^ 256 := fun y hy => lt_trans hy (by norm_num)
  have k1 := powModP_lt4096 hG (gPowP G 2) 1 (hK.lt hG) (small 1 (by omega))
  refine ⟨hπ, (h2 (Nat.zero_mod _)).2 ?_, ⟨gPowP_lt4096 hG 1 (small 1 (by omega)), k1,
    gPowP_lt4096 hG 1 (small 1 (by omega)), lt_trans (mulModP_lt hG _ _ (hK.lt hG) k1) hG.p_lt,
    small _ (by simp only [exampleProof]; omega), small _ (by simp only [exampleProof]; omega),
    small _ (by simp only [exampleProof]; omega), small _ (by simp only [exampleProof]; omega),
    small _ (by simp only [exampleProof]; omega)⟩⟩
  simp only [exampleProof]
  omega

/-! ## C20 special soundness of the disjunctive proof -/

/-- C20: two accepted proofs for one ciphertext with the same commitments and different challenges
(so obtained with different hash functions or headers, as when a forger is rewound) show that the
ciphertext encrypts 0 or 1. -/
theorem C20_special_soundness (C' : Crypto) (hG : G.Valid) (π π' : DisjProof) (hπ : π.Typed)
    (hπ' : π'.Typed) (m : Ciphertext) (hp : m.pad < 2 ^ 4096) (hd : m.data < 2 ^ 4096) (K h h' : ℕ)
    (hK : K < 2 ^ 4096) (h1 : π.isValid G C m K h = true) (h2 : π'.isValid G C' m K h' = true)
    (ha0 : π.zeroPad = π'.zeroPad) (hb0 : π.zeroData = π'.zeroData) (ha1 : π.onePad = π'.onePad)
    (hb1 : π.oneData = π'.oneData) (hc : π.challenge ≠ π'.challenge) :
    ∃ x r, x < 2 ∧ IsEncryption G K x r m := by
  have s1 := (C23_disjunctive_iff G C hG π hπ m hp hd K h hK).1 h1
  have s2 := (C23_disjunctive_iff G C' hG π' hπ' m hp hd K h' hK).1 h2
  obtain ⟨a0, b0, a1, b1, c0, c1, c, v0, v1⟩ := π
  obtain ⟨a0', b0', a1', b1', c0', c1', c', v0', v1'⟩ := π'
  simp only at ha0 hb0 ha1 hb1 hc s1 s2
  subst ha0 hb0 ha1 hb1
  have conv : ∀ {x y : ℕ}, x ≡ y [MOD G.p] → (x : ZMod G.p) = y := modEq_cast.1
  have hαq := s1.res_alpha.pow_q hG
  have hβq := s1.res_beta.pow_q hG
  have mk : ∀ x r : ℕ, (m.pad : ZMod G.p) = (G.g : ZMod G.p) ^ r →
      (m.data : ZMod G.p) = (G.g : ZMod G.p) ^ x * (K : ZMod G.p) ^ r → IsEncryption G K x r m := by
    intro x r e1 e2
    exact ⟨s1.res_alpha.2.1, s1.res_beta.2.1, modEq_cast.2 (by push_cast; exact e1),
      modEq_cast.2 (by push_cast; exact e2)⟩
  by_cases h0 : c0 = c0'
  · have hne : c1 % G.q ≠ c1' % G.q := by
      intro he
      apply hc
      rw [← s1.c_sum, ← s2.c_sum, h0, Nat.add_mod, he, ← Nat.add_mod]
    have e1 := conv s1.gv1
    have e1' := conv s2.gv1
    have e2 := conv s1.gckv1
    have e2' := conv s2.gckv1
    push_cast at e1 e1' e2 e2'
    obtain ⟨g', hg'⟩ := isUnit_of_pow_q hG (g_pow_q hG)
    have hgi : (G.g : ZMod G.p) * (↑g'⁻¹ : ZMod G.p) = 1 := by rw [← hg']; exact g'.mul_inv
    have hgiq : (↑g'⁻¹ : ZMod G.p) ^ G.q = 1 := by
      have h3 : ((G.g : ZMod G.p) * (↑g'⁻¹ : ZMod G.p)) ^ G.q = 1 := by rw [hgi, one_pow]
      rwa [mul_pow, g_pow_q hG, one_mul] at h3
    have strip : ∀ {c v : ℕ}, (G.g : ZMod G.p) ^ c * (K : ZMod G.p) ^ v =
        b1 * (m.data : ZMod G.p) ^ c →
        (K : ZMod G.p) ^ v = b1 * ((m.data : ZMod G.p) * (↑g'⁻¹ : ZMod G.p)) ^ c := by
      intro c v e
      rw [mul_pow, ← mul_assoc, ← e, mul_right_comm, ← mul_pow, hgi, one_pow, one_mul]
    obtain ⟨r, hr1, hr2⟩ := extract hG (K : ZMod G.p) m.pad ((m.data : ZMod G.p) * (↑g'⁻¹ : ZMod G.p))
      a1 b1 c1 c1' v1 v1' hαq (mul_pow_q hβq hgiq) (s1.res_a1.pow_q hG) (s1.res_b1.pow_q hG)
      s1.v1_pos.ne' e1 e1' (strip e2) (strip e2') hne
    refine ⟨1, r, by omega, mk 1 r hr1 ?_⟩
    rw [pow_one, ← hr2, mul_left_comm, hgi, mul_one]
  · have hne : c0 % G.q ≠ c0' % G.q := by
      rw [Nat.mod_eq_of_lt s1.c0_lt, Nat.mod_eq_of_lt s2.c0_lt]; exact h0
    have e1 := conv s1.gv0
    have e1' := conv s2.gv0
    have e2 := conv s1.kv0
    have e2' := conv s2.kv0
    push_cast at e1 e1' e2 e2'
    obtain ⟨r, hr1, hr2⟩ := extract hG (K : ZMod G.p) m.pad m.data a0 b0 c0 c0' v0 v0' hαq hβq
      (s1.res_a0.pow_q hG) (s1.res_b0.pow_q hG) s1.v0_pos.ne' e1 e1' e2 e2' hne
    exact ⟨0, r, by omega, mk 0 r hr1 (by rw [hr2, pow_zero, one_mul])⟩

/-- C20: and then it decrypts to 0 or 1 with the secret of the key. -/
theorem C20_decrypts (C' : Crypto) (hG : G.Valid) (π π' : DisjProof) (hπ : π.Typed)
    (hπ' : π'.Typed) (m : Ciphertext) (hp : m.pad < 2 ^ 4096) (hd : m.data < 2 ^ 4096) (K h h' s : ℕ)
    (hK : K < 2 ^ 4096) (hs : s < 2 ^ 256) (hKs : K ≡ G.g ^ s [MOD G.p])
    (h1 : π.isValid G C m K h = true) (h2 : π'.isValid G C' m K h' = true)
    (ha0 : π.zeroPad = π'.zeroPad) (hb0 : π.zeroData = π'.zeroData) (ha1 : π.onePad = π'.onePad)
    (hb1 : π.oneData = π'.oneData) (hc : π.challenge ≠ π'.challenge) :
    decrypt G m s = 0 ∨ decrypt G m s = 1 := by
  obtain ⟨x, r, hx, he⟩ := C20_special_soundness G C C' hG π π' hπ hπ' m hp hd K h h' hK h1 h2 ha0
    hb0 ha1 hb1 hc
  rw [decrypt_encryption G hG s K x r m hs hKs he, Nat.mod_eq_of_lt (by have := hG.q_gt; omega)]
  have : x = 0 ∨ x = 1 := by omega
  rcases this with rfl | rfl <;> simp

/-- Two accepted proofs as required by C20 exist. -/
example : ∃ (C C' : Crypto) (m : Ciphertext) (K h : ℕ) (π π' : DisjProof), π.Typed ∧ π'.Typed ∧
    π.isValid .std C m K h = true ∧ π'.isValid .std C' m K h = true ∧ π.zeroPad = π'.zeroPad ∧
    π.zeroData = π'.zeroData ∧ π.onePad = π'.onePad ∧ π.oneData = π'.oneData ∧
    π.challenge ≠ π'.challenge := by
  obtain ⟨m, -, -, -, h⟩ := accepted_example
  obtain ⟨-, a1, a2⟩ := h 5 (by omega) (by omega)
  obtain ⟨-, b1, b2⟩ := h 6 (by omega) (by omega)
  exact ⟨_, _, m, _, 7, _, _, a2, b2, a1, b1, rfl, rfl, rfl, rfl, by simp [exampleProof]⟩

/-! ## C21 completeness of the constant proof -/

/-- What the constant prover must do for a ciphertext of `x` with claimed constant `L`. -/
def GoodConstProver (K x L : ℕ) (m : Ciphertext) (h : ℕ) (π : ConstProof) : Prop :=
  (x % G.q = L → (π.isValid G C m K h = .ok true ↔ π.challenge ≠ 0 ∧ π.response ≠ 0)) ∧
  (x % G.q ≠ L → π.isValid G C m K h = .ok false) ∧ π.constant = L ∧
  π.challenge = hashElems G C [.q h, .p m.pad, .p m.data, .p π.pad, .p π.data]

/-- The core: the commitments are powers with exponent `u` of the generator and of any residue
`K'`. -/
theorem const_core (hG : G.Valid) (hL : G.Large) (K K' x n h L u : ℕ) (m : Ciphertext)
    (hK : Residue G K) (hK' : Residue G K') (hm : IsEncryption G K x n m) (hu : u < G.q)
    (hL64 : L < 2 ^ 64) :
    ∃ b, (ConstProof.mk (gPowP G u) (powModP G K' u)
        (constChallenge G C h m (gPowP G u) (powModP G K' u))
        ((u + constChallenge G C h m (gPowP G u) (powModP G K' u) * n) % G.q) L).isValid G C m K h
          = .ok b ∧
      (b = true ↔ constChallenge G C h m (gPowP G u) (powModP G K' u) ≠ 0 ∧
        (u + constChallenge G C h m (gPowP G u) (powModP G K' u) * n) % G.q ≠ 0 ∧
        (G.g : ZMod G.p) ^ (constChallenge G C h m (gPowP G u) (powModP G K' u) * L) *
            (K : ZMod G.p) ^ u = (K' : ZMod G.p) ^ u *
          (G.g : ZMod G.p) ^ (constChallenge G C h m (gPowP G u) (powModP G K' u) * x)) := by
  have hq := hG.q_lt
  have hu' := lt_trans hu hq
  have hq0 : 0 < G.q := by have := hG.q_gt; omega
  obtain ⟨rα, rβ, cα, cβ⟩ := hm.casts hG hK
  have hgq := g_pow_q hG
  have hKq := hK.pow_q hG
  have ra := residue_gPowP hG u hu'
  have rb := residue_powModP hG hK' u hu'
  set c := constChallenge G C h m (gPowP G u) (powModP G K' u) with hc
  have lc : c < G.q := hashElems_lt hG _
  have lv : (u + c * n) % G.q < G.q := Nat.mod_lt _ hq0
  obtain ⟨b, hb, hiff⟩ := const_isValid_iff (C := C) hG hL
    ⟨gPowP G u, powModP G K' u, c, (u + c * n) % G.q, L⟩
    ⟨ra.lt hG, rb.lt hG, lt_trans lc hq, lt_trans lv hq, hL64⟩ m (rα.lt hG) (rβ.lt hG) K h (hK.lt hG)
  refine ⟨b, hb, hiff.trans ?_⟩
  have hunit : IsUnit (((K : ZMod G.p) ^ n) ^ c) := ((isUnit_of_pow_q hG hKq).pow n).pow c
  have key : (G.g : ZMod G.p) ^ (c * L) * (K : ZMod G.p) ^ ((u + c * n) % G.q) =
      ((powModP G K' u : ℕ) : ZMod G.p) * (m.data : ZMod G.p) ^ c ↔
      (G.g : ZMod G.p) ^ (c * L) * (K : ZMod G.p) ^ u =
        (K' : ZMod G.p) ^ u * (G.g : ZMod G.p) ^ (c * x) := by
    rw [cast_powModP hG K' u (hK'.lt hG) hu', cβ, pow_response hKq, mul_pow, ← pow_mul _ x c,
      mul_comm x c, ← mul_assoc, ← mul_assoc, hunit.mul_left_inj]
  constructor
  · intro s
    have e := modEq_cast.1 s.gckv
    push_cast at e
    exact ⟨s.c_pos.ne', s.v_pos.ne', key.1 e⟩
  · rintro ⟨n1, n2, e⟩
    refine ⟨rα, rβ, ra, rb, Nat.pos_of_ne_zero n1, lc, Nat.pos_of_ne_zero n2, lv, hc, ?_, ?_⟩
    · apply modEq_cast.2
      push_cast
      rw [cast_gPowP hG u hu', cα, pow_response hgq]
    · apply modEq_cast.2
      push_cast
      exact key.2 e

theorem const_good_of (hG : G.Valid) (hL : G.Large) (K x n h L u : ℕ) (m : Ciphertext)
    (hK : Residue G K) (hm : IsEncryption G K x n m) (hu : u < G.q) (hL64 : L < 2 ^ 64) :
    GoodConstProver G C K x L m h (ConstProof.mk (gPowP G u) (powModP G K u)
        (constChallenge G C h m (gPowP G u) (powModP G K u))
        ((u + constChallenge G C h m (gPowP G u) (powModP G K u) * n) % G.q) L) := by
  obtain ⟨b, hb, hiff⟩ := const_core G C hG hL K K x n h L u m hK hK hm hu hL64
  have hLq := lt_of_lt_of_le hL64 hL.q_ge
  have lc : constChallenge G C h m (gPowP G u) (powModP G K u) < G.q := hashElems_lt hG _
  have huK : IsUnit ((K : ZMod G.p) ^ u) := (isUnit_of_pow_q hG (hK.pow_q hG)).pow u
  rw [mul_comm ((K : ZMod G.p) ^ u), huK.mul_left_inj, g_pow_eq_iff hG] at hiff
  refine ⟨?_, ?_, rfl, rfl⟩
  · intro hx
    rw [hb, Res.ok.injEq, hiff]
    simp only
    constructor
    · rintro ⟨h1, h2, -⟩; exact ⟨h1, h2⟩
    · rintro ⟨h1, h2⟩
      refine ⟨h1, h2, ?_⟩
      rw [← hx, Nat.mul_mod_mod]
  · intro hx
    rw [hb]
    have : b = false := by
      rw [← Bool.not_eq_true, hiff]
      rintro ⟨h1, -, h3⟩
      have hcop : Nat.Coprime G.q (constChallenge G C h m (gPowP G u) (powModP G K u)) :=
        (Nat.Prime.coprime_iff_not_dvd hG.q_prime).2 (fun hd => h1 (Nat.eq_zero_of_dvd_of_lt hd lc))
      have h4 : L % G.q = x % G.q := Nat.ModEq.cancel_left_of_coprime hcop h3
      rw [Nat.mod_eq_of_lt hLq] at h4
      exact hx h4.symm
    rw [this]

/-- C21: without a precomputed triple, or with one generated for the key: the proof is accepted
exactly if challenge and response are not zero; and a proof for a wrong constant is rejected. -/
theorem C21_completeness (hG : G.Valid) (hL : G.Large) (triple : Option Triple)
    (K x n h L seed : ℕ) (m : Ciphertext) (hK : Residue G K) (hm : IsEncryption G K x n m)
    (hn : n < 2 ^ 256) (hL64 : L < 2 ^ 64) (ht : ∀ t ∈ triple, t.ForKey G K) :
    ∃ π, constMake G C triple m n K seed h L = .ok π ∧ GoodConstProver G C K x L m h π := by
  have hq := hG.q_lt
  have main : ∀ u, u < G.q → aPlusBcModQ G u (constChallenge G C h m (gPowP G u) (powModP G K u)) n =
      .ok ((u + constChallenge G C h m (gPowP G u) (powModP G K u) * n) % G.q) := by
    intro u hu
    exact aPlusBc_eq hG _ _ _ (lt_trans hu hq) (hashElems_lt256 hG _) hn
  cases triple with
  | none =>
    have lu := nonce_lt (C := C) hG (Nonces.makeWith G C seed (.str constHeader)) 0
    refine ⟨_, ?_, const_good_of G C hG hL K x n h L
      ((Nonces.makeWith G C seed (.str constHeader)).get G C 0).1 m hK hm lu hL64⟩
    simp only [constMake, Option.elim]
    rw [main _ lu]
    rfl
  | some t =>
    obtain ⟨lu, e1, e2⟩ := ht t rfl
    have lu' := lt_512_of_lt (lt_trans lu hq)
    have e1' : t.gToExp = gPowP G t.exp := by rw [e1, gPowP_eq hG _ lu']
    have e2' : t.pubkeyToExp = powModP G K t.exp := by rw [e2, powModP_eq hG K _ (hK.lt hG) lu']
    refine ⟨_, ?_, const_good_of G C hG hL K x n h L t.exp m hK hm lu hL64⟩
    simp only [constMake, Option.elim, e1', e2']
    rw [main _ lu]
    rfl

/-- C21: with a triple left in the buffer from another key, the proof is never accepted (for a
nonzero exponent), although the caller did everything right. -/
theorem C21_foreign_triple_rejected (hG : G.Valid) (hL : G.Large) (t : Triple)
    (s s' n h L seed : ℕ) (m : Ciphertext) (hs : s < 2 ^ 256) (hs' : s' < 2 ^ 256)
    (hne : s % G.q ≠ s' % G.q) (hm : IsEncryption G (gPowP G s) L n m) (hn : n < 2 ^ 256)
    (hL64 : L < 2 ^ 64) (ht : t.ForKey G (gPowP G s')) (ht0 : t.exp ≠ 0) :
    ∃ π, constMake G C (some t) m n (gPowP G s) seed h L = .ok π ∧
      π.isValid G C m (gPowP G s) h = .ok false := by
  have hq := hG.q_lt
  have hK := residue_gPowP hG s hs
  have hK' := residue_gPowP hG s' hs'
  obtain ⟨lu, e1, e2⟩ := ht
  have lu' := lt_512_of_lt (lt_trans lu hq)
  have e1' : t.gToExp = gPowP G t.exp := by rw [e1, gPowP_eq hG _ lu']
  have e2' : t.pubkeyToExp = powModP G (gPowP G s') t.exp := by
    rw [e2, powModP_eq hG _ _ (hK'.lt hG) lu']
  obtain ⟨b, hb, hiff⟩ := const_core G C hG hL (gPowP G s) (gPowP G s') L n h L t.exp m hK hK' hm lu hL64
  refine ⟨⟨gPowP G t.exp, powModP G (gPowP G s') t.exp,
    constChallenge G C h m (gPowP G t.exp) (powModP G (gPowP G s') t.exp),
    (t.exp + constChallenge G C h m (gPowP G t.exp) (powModP G (gPowP G s') t.exp) * n) % G.q, L⟩,
    ?_, ?_⟩
  · simp only [constMake, Option.elim, e1', e2']
    rw [aPlusBc_eq hG _ _ _ (lt_trans lu hq) (lt_trans (show constChallenge G C h m (gPowP G t.exp)
      (powModP G (gPowP G s') t.exp) < G.q from hashElems_lt hG _) hq) hn]
    rfl
  · rw [hb]
    have : b = false := by
      rw [← Bool.not_eq_true, hiff]
      rintro ⟨-, -, h3⟩
      rw [mul_comm, ((isUnit_of_pow_q hG (g_pow_q hG)).pow _).mul_left_inj, cast_gPowP hG s hs,
        cast_gPowP hG s' hs', ← pow_mul, ← pow_mul, g_pow_eq_iff hG] at h3
      have hcop : Nat.Coprime G.q t.exp := (Nat.Prime.coprime_iff_not_dvd hG.q_prime).2 (fun hd =>
        ht0 (Nat.eq_zero_of_dvd_of_lt hd lu))
      rw [mul_comm s, mul_comm s'] at h3
      exact hne (Nat.ModEq.cancel_left_of_coprime hcop h3)
    rw [this]

/-! ## C22 special soundness of the constant proof -/

/-- C22: two accepted proofs with the same commitments and constant and different challenges show that
the ciphertext encrypts the constant. -/
theorem C22_special_soundness (C' : Crypto) (hG : G.Valid) (hL : G.Large) (π π' : ConstProof)
    (hπ : π.Typed) (hπ' : π'.Typed) (m : Ciphertext) (hp : m.pad < 2 ^ 4096) (hd : m.data < 2 ^ 4096)
    (K h h' : ℕ) (hK : K < 2 ^ 4096) (h1 : π.isValid G C m K h = .ok true)
    (h2 : π'.isValid G C' m K h' = .ok true) (ha : π.pad = π'.pad) (hb : π.data = π'.data)
    (hconst : π.constant = π'.constant) (hc : π.challenge ≠ π'.challenge) :
    ∃ r, IsEncryption G K π.constant r m := by
  obtain ⟨b1, q1, r1⟩ := C23_constant_iff G C hG hL π hπ m hp hd K h hK
  obtain ⟨b2, q2, r2⟩ := C23_constant_iff G C' hG hL π' hπ' m hp hd K h' hK
  rw [h1, Res.ok.injEq] at q1
  rw [h2, Res.ok.injEq] at q2
  have s1 := r1.1 q1.symm
  have s2 := r2.1 q2.symm
  obtain ⟨a, b, c, v, L⟩ := π
  obtain ⟨a', b', c', v', L'⟩ := π'
  simp only at ha hb hconst hc s1 s2 ⊢
  subst ha hb hconst
  have conv : ∀ {x y : ℕ}, x ≡ y [MOD G.p] → (x : ZMod G.p) = y := modEq_cast.1
  have e1 := conv s1.gv
  have e1' := conv s2.gv
  have e2 := conv s1.gckv
  have e2' := conv s2.gckv
  push_cast at e1 e1' e2 e2'
  obtain ⟨g', hg'⟩ := isUnit_of_pow_q hG (g_pow_q hG)
  have hgi : (G.g : ZMod G.p) * (↑g'⁻¹ : ZMod G.p) = 1 := by rw [← hg']; exact g'.mul_inv
  have hgiq : (↑g'⁻¹ : ZMod G.p) ^ G.q = 1 := by
    have h3 : ((G.g : ZMod G.p) * (↑g'⁻¹ : ZMod G.p)) ^ G.q = 1 := by rw [hgi, one_pow]
    rwa [mul_pow, g_pow_q hG, one_mul] at h3
  have strip : ∀ {c v : ℕ}, (G.g : ZMod G.p) ^ (c * L) * (K : ZMod G.p) ^ v =
      b * (m.data : ZMod G.p) ^ c →
      (K : ZMod G.p) ^ v = b * ((m.data : ZMod G.p) * (↑g'⁻¹ : ZMod G.p) ^ L) ^ c := by
    intro c v e
    rw [mul_pow, ← mul_assoc, ← e, mul_right_comm, ← pow_mul, mul_comm L c, ← mul_pow, hgi, one_pow,
      one_mul]
  obtain ⟨r, hr1, hr2⟩ := extract hG (K : ZMod G.p) m.pad ((m.data : ZMod G.p) * (↑g'⁻¹ : ZMod G.p) ^ L)
    a b c c' v v' (s1.res_alpha.pow_q hG) (mul_pow_q (s1.res_beta.pow_q hG) (pow_pow_q hgiq L))
    (s1.res_a.pow_q hG) (s1.res_b.pow_q hG) s1.v_pos.ne' e1 e1' (strip e2) (strip e2')
    (by rw [Nat.mod_eq_of_lt s1.c_lt, Nat.mod_eq_of_lt s2.c_lt]; exact hc)
  refine ⟨r, s1.res_alpha.2.1, s1.res_beta.2.1, modEq_cast.2 (by push_cast; exact hr1),
    modEq_cast.2 ?_⟩
  push_cast
  rw [← hr2, mul_left_comm, ← mul_pow, hgi, one_pow, mul_one]

/-- Two accepted proofs as required by C22 exist (constant 1, nonce 1, key `g^2`). -/
example : ∃ (C C' : Crypto) (m : Ciphertext) (K h : ℕ) (π π' : ConstProof), π.constant = 1 ∧
    π.isValid .std C m K h = .ok true ∧ π'.isValid .std C' m K h = .ok true ∧ π.pad = π'.pad ∧
    π.data = π'.data ∧ π.constant = π'.constant ∧ π.challenge ≠ π'.challenge := by
  have hG := C54_std_valid
  have hL := std_large
  have hq : 100 < Params.std.q := by decide +kernel
  have hK : Residue .std (gPowP .std 2) := residue_gPowP hG 2 (by norm_num)
  generalize Params.std = G at *
  obtain ⟨m, -, hm⟩ := encrypt_isEncryption G hG 1 1 (gPowP G 2) (by omega) (by norm_num) (by omega)
    (hK.lt hG)
  have hc : ∀ d, d < 100 → constChallenge G (constCrypto d) 7 m (gPowP G 1) (powModP G (gPowP G 2) 1) = d := by
    intro d hd
    unfold constChallenge
    rw [hashElems_const, Nat.mod_eq_of_lt (lt_trans hd (by norm_num)), addModQ_eq hG d 0 (by omega)
      (by omega), Nat.add_zero, Nat.mod_eq_of_lt (by omega)]
  have hv : ∀ d, 1 ≤ d → d < 90 → (ConstProof.mk (gPowP G 1) (powModP G (gPowP G 2) 1) d (1 + d) 1).isValid G
      (constCrypto d) m (gPowP G 2) 7 = .ok true := by
    intro d hd hd'
    obtain ⟨h1, -⟩ := const_good_of G (constCrypto d) hG hL (gPowP G 2) 1 1 7 1 1 m hK hm (by omega)
      (by norm_num)
    rw [hc d (by omega), Nat.mul_one, Nat.mod_eq_of_lt (by omega : 1 + d < G.q)] at h1
    exact (h1 (Nat.mod_eq_of_lt (by omega))).2 ⟨by simp only; omega, by simp only; omega⟩
  exact ⟨_, _, m, _, 7, _, _, rfl, hv 5 (by omega) (by omega), hv 6 (by omega) (by omega), rfl, rfl, rfl,
    by simp⟩

/-! ## C24 copies of proofs -/

/-- C24, what holds: the copy constructor copies every component, and `clone` copies every component
but one. -/
theorem C24_copies_partial (π : DisjProof) (h0 : π.zeroChallenge ≤ G.q) (h1 : π.oneChallenge ≤ G.q)
    (h2 : π.challenge ≤ G.q) (h3 : π.zeroResponse ≤ G.q) (h4 : π.oneResponse ≤ G.q) :
    π.copy = π ∧ π.clone G = .ok { π with oneData := π.onePad } := by
  refine ⟨rfl, ?_⟩
  have hc : ∀ v, v ≤ G.q → cloneQ G v = .ok v := by
    intro v hv
    rw [cloneQ, mkQ_eq, if_neg (by omega)]
  simp only [DisjProof.clone, hc _ h0, hc _ h1, hc _ h2, hc _ h3, hc _ h4]
  rfl

/-- C24: the clone of an accepted proof is rejected unless the two second commitments happen to be
equal (then the clone is the proof itself). -/
theorem C24_clone_rejected (hG : G.Valid) (π : DisjProof) (hπ : π.Typed) (m : Ciphertext)
    (hp : m.pad < 2 ^ 4096) (hd : m.data < 2 ^ 4096) (K h : ℕ) (hK : K < 2 ^ 4096)
    (hv : π.isValid G C m K h = true) :
    ∃ π', π.clone G = .ok π' ∧ (π'.isValid G C m K h = true ↔ π.onePad = π.oneData) := by
  have s := (C23_disjunctive_iff G C hG π hπ m hp hd K h hK).1 hv
  have lc : π.challenge < G.q := by
    rw [← s.c_sum]; exact Nat.mod_lt _ (by have := hG.q_gt; omega)
  refine ⟨_, (C24_copies_partial G π (le_of_lt s.c0_lt) (le_of_lt s.c1_lt) (le_of_lt lc)
    (le_of_lt s.v0_lt) (le_of_lt s.v1_lt)).2, ?_⟩
  constructor
  · intro hv'
    have s' := (C23_disjunctive_iff G C hG { π with oneData := π.onePad }
      ⟨hπ.zp, hπ.zd, hπ.op, hπ.op, hπ.zc, hπ.oc, hπ.ch, hπ.zr, hπ.or⟩ m hp hd K h hK).1 hv'
    have e := modEq_cast.1 (s'.gckv1.symm.trans s.gckv1)
    push_cast at e
    rw [((isUnit_of_pow_q hG (s.res_beta.pow_q hG)).pow _).mul_left_inj] at e
    exact eq_of_cast s.res_a1.2.1 s.res_b1.2.1 e
  · intro he
    have : { π with oneData := π.onePad } = π := by cases π; simp only at he; subst he; rfl
    rw [this]
    exact hv

/-- C24 (the property is violated): with the standard parameters there is an accepted proof whose
clone is rejected. -/
theorem C24_violated : ∃ (C : Crypto) (m : Ciphertext) (K h : ℕ) (π π' : DisjProof),
    π.isValid .std C m K h = true ∧ π.clone .std = .ok π' ∧ π'.isValid .std C m K h = false := by
  obtain ⟨m, hm, hp, hd, hall⟩ := accepted_example
  obtain ⟨-, hv, hπ⟩ := hall 5 (by omega) (by omega)
  have hG := C54_std_valid
  have hq : 5 < Params.std.q := by decide +kernel
  have hK : Residue .std (gPowP .std 2) := residue_gPowP hG 2 (by norm_num)
  clear hall
  generalize Params.std = G at *
  have h2 : (2 : ℕ) < 2 ^ 256 := by norm_num
  have h1 : (1 : ℕ) < 2 ^ 256 := by norm_num
  have hne : (exampleProof G 5).onePad ≠ (exampleProof G 5).oneData := by
    simp only [exampleProof]
    intro h
    have h' : ((gPowP G 1 : ℕ) : ZMod G.p) = (mulModP G (gPowP G 2) (powModP G (gPowP G 2) 1) : ℕ) := by
      rw [← h]
    rw [cast_gPowP hG 1 h1, cast_mulModP hG _ _ (hK.lt hG) (powModP_lt4096 hG _ 1 (hK.lt hG) h1),
      cast_powModP hG _ 1 (hK.lt hG) h1, cast_gPowP hG 2 h2, ← pow_mul, ← pow_add,
      g_pow_eq_iff hG, Nat.mod_eq_of_lt (by omega), Nat.mod_eq_of_lt (by omega)] at h'
    omega
  obtain ⟨π', hc, hiff⟩ := C24_clone_rejected G (constCrypto 5) hG _ hπ m hp hd
    (gPowP G 2) 7 (hK.lt hG) hv
  refine ⟨constCrypto 5, m, gPowP G 2, 7, _, π', hv, hc, ?_⟩
  rw [← Bool.not_eq_true, hiff]
  exact hne

end EG
