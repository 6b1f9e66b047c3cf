import Verif.Lemmas.ElGamal
import Verif.Props.Group
import Mathlib.Data.List.Perm.Basic

/-!
# C11-C14, C56: ElGamal encryption
-/

namespace EG

variable (G : Params)

/-- `c` is an encryption of the number `m` with randomness `n` under the public key `K`: the two
equations of the specification. -/
def IsEncryption (K m n : ℕ) (c : Ciphertext) : Prop :=
  c.pad < G.p ∧ c.data < G.p ∧ c.pad ≡ G.g ^ n [MOD G.p] ∧ c.data ≡ G.g ^ m * K ^ n [MOD G.p]

theorem modEq_cast {n a b : ℕ} : a ≡ b [MOD n] ↔ ((a : ZMod n) = b) :=
  (ZMod.natCast_eq_natCast_iff a b n).symm

theorem encrypt_isEncryption (hG : G.Valid) (m n K : ℕ) (hm : m < 2) (hn : n < 2 ^ 256)
    (hn0 : n ≠ 0) (hK : K < 2 ^ 4096) :
    ∃ c, elgamalEncrypt G m n K = .ok c ∧ IsEncryption G K m n c := by
  have hg4 := lt_trans hG.g_lt hG.p_lt
  have hKn := powModP_lt hG K n hK (lt_512_of_lt hn)
  have hKn' := lt_trans hKn hG.p_lt
  refine ⟨_, by rw [elgamalEncrypt, if_neg hn0], gPowP_lt hG n hn, ?_, ?_, ?_⟩
  · dsimp only
    split
    · exact mulModP_lt hG _ _ hg4 hKn'
    · exact hKn
  · rw [modEq_cast, cast_gPowP hG n hn, Nat.cast_pow]
  · rw [modEq_cast]
    dsimp only
    split
    · rename_i h1
      rw [h1, cast_mulModP hG _ _ hg4 hKn', cast_powModP hG K n hK hn]
      simp
    · have : m = 0 := by omega
      rw [this, cast_powModP hG K n hK hn]
      simp

/-- Decryption of anything that satisfies the encryption equations, for any exponent `m`. -/
theorem decrypt_encryption (hG : G.Valid) (s K m n : ℕ) (c : Ciphertext) (hs : s < 2 ^ 256)
    (hK : K ≡ G.g ^ s [MOD G.p]) (hc : IsEncryption G K m n c) :
    decrypt G c s = if m % G.q = 0 then 0 else if m % G.q = 1 then 1 else 2 ^ 64 - 1 := by
  obtain ⟨hp, hd, h1, h2⟩ := hc
  have hq := hG.q_gt
  rw [modEq_cast] at hK h1 h2
  push_cast at hK h1 h2
  have hpq : (c.pad : ZMod G.p) ^ G.q = 1 := by
    rw [h1, ← pow_mul, mul_comm, pow_mul, g_pow_q hG, one_pow]
  rw [decrypt_spec hG c s hs hp hpq (lt_trans hd hG.p_lt)]
  have e0 : ∀ k : ℕ, ((c.data : ZMod G.p) = (G.g : ZMod G.p) ^ k * (c.pad : ZMod G.p) ^ s) ↔
      m % G.q = k % G.q := by
    intro k
    rw [← g_pow_eq_iff hG, h2, hK, h1, ← pow_mul, ← pow_mul, mul_comm s n]
    have hu : IsUnit ((G.g : ZMod G.p) ^ (n * s)) :=
      IsUnit.of_pow_eq_one (n := G.q)
        (by rw [← pow_mul, mul_comm, pow_mul, g_pow_q hG, one_pow]) (by omega)
    exact hu.mul_left_inj
  have e1 := e0 0
  have e2 := e0 1
  rw [pow_zero, one_mul, Nat.zero_mod] at e1
  rw [pow_one, Nat.mod_eq_of_lt (by omega : 1 < G.q)] at e2
  simp only [e1, e2]

theorem keyFromSecret_ok (hG : G.Valid) (s : ℕ) (hs : s < 2 ^ 256) (h2 : 2 ≤ s) :
    ∃ k, keyFromSecret G s = .ok k ∧ k.secret = s ∧ k.pub < G.p ∧ k.pub ≡ G.g ^ s [MOD G.p] := by
  refine ⟨⟨s, gPowP G s⟩, ?_, rfl, gPowP_lt hG s hs, ?_⟩
  · unfold keyFromSecret
    rw [if_neg]
    rw [elemLt_iff]
    omega
  · rw [modEq_cast, cast_gPowP hG s hs, Nat.cast_pow]

/-! ## C11 decryption inverts encryption -/

/-- C11: `decrypt` inverts `elgamalEncrypt` on 0 and 1, for every accepted key pair and nonce, and
encryption succeeds. -/
theorem C11_decrypt_encrypt (hG : G.Valid) (s n m : ℕ) (hs : s < 2 ^ 256) (hs2 : 2 ≤ s)
    (hn : n < 2 ^ 256) (hn0 : n ≠ 0) (hm : m < 2) :
    ∃ k c, keyFromSecret G s = .ok k ∧ elgamalEncrypt G m n k.pub = .ok c ∧
      decrypt G c k.secret = m := by
  have hq := hG.q_gt
  obtain ⟨k, hk, hks, hkp, hkg⟩ := keyFromSecret_ok G hG s hs hs2
  obtain ⟨c, hc, he⟩ := encrypt_isEncryption G hG m n k.pub hm hn hn0 (lt_trans hkp hG.p_lt)
  refine ⟨k, c, hk, hc, ?_⟩
  rw [hks, decrypt_encryption G hG s k.pub m n c hs hkg he, Nat.mod_eq_of_lt (by omega)]
  have : m = 0 ∨ m = 1 := by omega
  rcases this with h | h <;> simp [h]

/-- C11: the ciphertext satisfies the specification's equations, whatever the public key. -/
theorem C11_encrypt_equations (hG : G.Valid) (m n K : ℕ) (hm : m < 2) (hn : n < 2 ^ 256)
    (hn0 : n ≠ 0) (hK : K < 2 ^ 4096) :
    ∃ c, elgamalEncrypt G m n K = .ok c ∧ c.pad < G.p ∧ c.data < G.p ∧
      c.pad ≡ G.g ^ n [MOD G.p] ∧ c.data ≡ G.g ^ m * K ^ n [MOD G.p] :=
  encrypt_isEncryption G hG m n K hm hn hn0 hK

/-- C11: secrets 0 and 1 and the nonce 0 are refused. -/
theorem C11_refused (s m K : ℕ) :
    (keyFromSecret G s = .throw .invalidArgument ↔ s < 2) ∧
      elgamalEncrypt G m 0 K = .throw .invalidArgument := by
  constructor
  · unfold keyFromSecret
    by_cases h : s < 2
    · rw [if_pos ((elemLt_iff _ _).2 h)]; simp [h]
    · rw [if_neg (fun hh => h ((elemLt_iff _ _).1 hh))]; simp [h]
  · simp [elgamalEncrypt]

/-- C11: decryption with another secret (modulo `q`) never gives the other vote: with nonce not a
multiple of `q`, it gives a failure or, for secrets differing by the right amount, a flipped vote.
Precisely: it reads the vote `m + n (s - s')`. -/
theorem C11_wrong_secret (hG : G.Valid) (s s' n m K d : ℕ) (c : Ciphertext)
    (hs' : s' < 2 ^ 256) (hK : K ≡ G.g ^ s [MOD G.p]) (hc : IsEncryption G K m n c)
    (hd : s' + d ≡ s [MOD G.q]) :
    decrypt G c s' = if (m + n * d) % G.q = 0 then 0
      else if (m + n * d) % G.q = 1 then 1 else 2 ^ 64 - 1 := by
  have hgs : ∀ a b, a ≡ b [MOD G.q] → (G.g : ZMod G.p) ^ a = (G.g : ZMod G.p) ^ b :=
    fun a b h => (g_pow_eq_iff hG a b).2 h
  refine decrypt_encryption G hG s' (G.g ^ s') (m + n * d) n c hs' rfl ⟨hc.1, hc.2.1, hc.2.2.1, ?_⟩
  have h2 := hc.2.2.2
  rw [modEq_cast] at h2 hK ⊢
  push_cast at h2 hK ⊢
  rw [h2, hK, ← pow_mul, ← pow_mul, ← pow_add, ← pow_add]
  apply hgs
  have := (hd.symm.mul_right n).add_left m
  refine this.trans ?_
  rw [show m + n * d + s' * n = m + (s' + d) * n by ring]

/-! ## C12 homomorphic addition -/

/-- The encryption equations are preserved by multiplication. -/
theorem add_isEncryption (hG : G.Valid) (K m n m' n' : ℕ) (c c' : Ciphertext)
    (h : IsEncryption G K m n c) (h' : IsEncryption G K m' n' c') :
    IsEncryption G K (m + m') (n + n')
      { pad := mulModP G c.pad c'.pad, data := mulModP G c.data c'.data } := by
  obtain ⟨h1, h2, h3, h4⟩ := h
  obtain ⟨k1, k2, k3, k4⟩ := h'
  have lt4 : ∀ {x}, x < G.p → x < 2 ^ 4096 := fun hx => lt_trans hx hG.p_lt
  refine ⟨mulModP_lt hG _ _ (lt4 h1) (lt4 k1), mulModP_lt hG _ _ (lt4 h2) (lt4 k2), ?_, ?_⟩
  · rw [modEq_cast] at *
    rw [cast_mulModP hG _ _ (lt4 h1) (lt4 k1), h3, k3]
    push_cast
    rw [pow_add]
  · rw [modEq_cast] at *
    rw [cast_mulModP hG _ _ (lt4 h2) (lt4 k2), h4, k4]
    push_cast
    rw [pow_add, pow_add]
    ring

theorem one_isEncryption (hG : G.Valid) (K : ℕ) : IsEncryption G K 0 0 { pad := 1, data := 1 } :=
  ⟨hG.p_gt, hG.p_gt, by simp [Nat.ModEq], by simp [Nat.ModEq]⟩

theorem addLoop_isEncryption (hG : G.Valid) (K : ℕ) (xs : List (ℕ × ℕ × Ciphertext))
    (hx : ∀ x ∈ xs, IsEncryption G K x.1 x.2.1 x.2.2) :
    ∀ (m n : ℕ) (acc : Ciphertext), IsEncryption G K m n acc →
      IsEncryption G K (m + (xs.map (·.1)).sum) (n + (xs.map (·.2.1)).sum)
        (elgamalAddLoop G acc (xs.map (·.2.2))) := by
  induction xs with
  | nil => intro m n acc h; simpa [elgamalAddLoop] using h
  | cons x xs ih =>
    intro m n acc h
    have := ih (fun y hy => hx y (by simp [hy])) _ _ _
      (add_isEncryption G hG K _ _ _ _ _ _ h (hx x (by simp)))
    simpa [elgamalAddLoop, add_assoc] using this

/-- C12: adding ciphertexts gives an encryption of the sum of the plaintexts with the sum of the
nonces. `xs` lists plaintext, nonce and ciphertext. -/
theorem C12_add_encrypts_sum (hG : G.Valid) (K : ℕ) (xs : List (ℕ × ℕ × Ciphertext))
    (hne : xs ≠ []) (hx : ∀ x ∈ xs, IsEncryption G K x.1 x.2.1 x.2.2) :
    ∃ t, elgamalAdd G (xs.map (·.2.2)) = .ok t ∧
      IsEncryption G K (xs.map (·.1)).sum (xs.map (·.2.1)).sum t := by
  refine ⟨_, by unfold elgamalAdd; rw [if_neg (by simpa using hne)], ?_⟩
  have := addLoop_isEncryption G hG K xs hx 0 0 _ (one_isEncryption G hG K)
  simpa using this

/-- C12: end to end.  Encrypt any list of votes 0/1 with any nonces, add up, decrypt: the result is
the total if the total is 0 or 1, and the failure value otherwise. -/
theorem C12_decrypt_sum (hG : G.Valid) (s : ℕ) (hs : s < 2 ^ 256) (hs2 : 2 ≤ s) (k : KeyPair)
    (hk : keyFromSecret G s = .ok k)
    (xs : List (ℕ × ℕ × Ciphertext)) (hne : xs ≠ []) (hlen : xs.length < G.q)
    (hx : ∀ x ∈ xs, x.1 < 2 ∧ x.2.1 < 2 ^ 256 ∧ elgamalEncrypt G x.1 x.2.1 k.pub = .ok x.2.2) :
    ∃ t, elgamalAdd G (xs.map (·.2.2)) = .ok t ∧
      decrypt G t s = if (xs.map (·.1)).sum ≤ 1 then (xs.map (·.1)).sum else 2 ^ 64 - 1 := by
  obtain ⟨k', hk', -, hkp, hkg⟩ := keyFromSecret_ok G hG s hs hs2
  rw [hk] at hk'
  cases hk'
  have hall : ∀ x ∈ xs, IsEncryption G k.pub x.1 x.2.1 x.2.2 := by
    intro x hxm
    obtain ⟨h1, h2, h3⟩ := hx x hxm
    have hn0 : x.2.1 ≠ 0 := by
      intro h0
      rw [h0, elgamalEncrypt, if_pos rfl] at h3
      cases h3
    obtain ⟨c, hc, he⟩ := encrypt_isEncryption G hG x.1 x.2.1 k.pub h1 h2 hn0
      (lt_trans hkp hG.p_lt)
    rw [h3] at hc
    cases hc
    exact he
  obtain ⟨t, ht, hte⟩ := C12_add_encrypts_sum G hG k.pub xs hne hall
  refine ⟨t, ht, ?_⟩
  rw [decrypt_encryption G hG s k.pub _ _ t hs hkg hte]
  have hsum : (xs.map (·.1)).sum ≤ xs.length := by
    have := List.sum_le_card_nsmul (xs.map (·.1)) 1 (by
      intro y hy
      obtain ⟨x, hxm, rfl⟩ := List.mem_map.1 hy
      have := (hx x hxm).1
      omega)
    simpa using this
  rw [Nat.mod_eq_of_lt (by omega)]
  split
  · simp [*]
  · split
    · simp [*]
    · rw [if_neg (by omega)]

theorem addLoop_eq (hG : G.Valid) (cs : List Ciphertext)
    (hc : ∀ c ∈ cs, c.pad < 2 ^ 4096 ∧ c.data < 2 ^ 4096) :
    ∀ acc : Ciphertext, acc.pad < G.p → acc.data < G.p →
      elgamalAddLoop G acc cs = { pad := acc.pad * (cs.map (·.pad)).prod % G.p,
                                  data := acc.data * (cs.map (·.data)).prod % G.p } := by
  induction cs with
  | nil =>
    intro acc h1 h2
    simp [elgamalAddLoop, Nat.mod_eq_of_lt h1, Nat.mod_eq_of_lt h2]
  | cons c cs ih =>
    intro acc h1 h2
    have hcc := hc c (by simp)
    have h1' := lt_trans h1 hG.p_lt
    have h2' := lt_trans h2 hG.p_lt
    have := ih (fun y hy => hc y (by simp [hy]))
      { pad := mulModP G acc.pad c.pad, data := mulModP G acc.data c.data }
      (mulModP_lt hG _ _ h1' hcc.1) (mulModP_lt hG _ _ h2' hcc.2)
    rw [show elgamalAddLoop G acc (c :: cs) = elgamalAddLoop G
      { pad := mulModP G acc.pad c.pad, data := mulModP G acc.data c.data } cs from rfl, this]
    simp only [mulModP_eq hG _ _ h1' hcc.1, mulModP_eq hG _ _ h2' hcc.2, Nat.mod_mul_mod,
      List.map_cons, List.prod_cons, mul_assoc]

/-- C12: `elgamalAdd` of any ciphertexts, as products modulo `p`; the empty list is refused. -/
theorem C12_add_value (hG : G.Valid) (cs : List Ciphertext)
    (hc : ∀ c ∈ cs, c.pad < 2 ^ 4096 ∧ c.data < 2 ^ 4096) :
    elgamalAdd G cs = if cs = [] then .throw .invalidArgument else
      .ok { pad := (cs.map (·.pad)).prod % G.p, data := (cs.map (·.data)).prod % G.p } := by
  unfold elgamalAdd
  by_cases h : cs = []
  · simp [h]
  · rw [if_neg (by simpa using h), if_neg h,
      addLoop_eq G hG cs hc _ (by simpa using hG.p_gt) (by simpa using hG.p_gt)]
    simp

/-- C12: the order of the ciphertexts does not matter. -/
theorem C12_add_perm (hG : G.Valid) (cs ds : List Ciphertext) (hp : cs.Perm ds)
    (hc : ∀ c ∈ cs, c.pad < 2 ^ 4096 ∧ c.data < 2 ^ 4096) : elgamalAdd G cs = elgamalAdd G ds := by
  rw [C12_add_value G hG cs hc, C12_add_value G hG ds (fun d hd => hc d (hp.mem_iff.2 hd)),
    (hp.map Ciphertext.pad).prod_eq, (hp.map Ciphertext.data).prod_eq]
  by_cases h : cs = []
  · have hd : ds = [] := by subst h; exact hp.symm.eq_nil
    rw [if_pos h, if_pos hd]
  · rw [if_neg h, if_neg (fun hd => h (by subst hd; exact hp.eq_nil))]

/-- C12: a tally may be computed in batches: adding the totals of two nonempty batches gives the
total of all. -/
theorem C12_add_append (hG : G.Valid) (cs ds : List Ciphertext) (h1 : cs ≠ []) (h2 : ds ≠ [])
    (hc : ∀ c ∈ cs, c.pad < 2 ^ 4096 ∧ c.data < 2 ^ 4096)
    (hd : ∀ c ∈ ds, c.pad < 2 ^ 4096 ∧ c.data < 2 ^ 4096) :
    ∃ s t, elgamalAdd G cs = .ok s ∧ elgamalAdd G ds = .ok t ∧
      elgamalAdd G (cs ++ ds) = elgamalAdd G [s, t] := by
  have e1 := C12_add_value G hG cs hc
  have e2 := C12_add_value G hG ds hd
  rw [if_neg h1] at e1
  rw [if_neg h2] at e2
  have hlt : ∀ x, x % G.p < 2 ^ 4096 := fun x =>
    lt_trans (Nat.mod_lt _ (by have := hG.p_gt; omega)) hG.p_lt
  refine ⟨_, _, e1, e2, ?_⟩
  rw [C12_add_value G hG (cs ++ ds) (fun c hcm => by
      rcases List.mem_append.1 hcm with h | h
      · exact hc c h
      · exact hd c h), if_neg (by simp [h1]),
    C12_add_value G hG [_, _] (fun c hcm => by
      simp only [List.mem_cons, List.not_mem_nil, or_false] at hcm
      rcases hcm with h | h <;> subst h <;> exact ⟨hlt _, hlt _⟩), if_neg (by simp)]
  simp [Nat.mul_mod]

/-! ## C13 plaintexts above 1 -/

/-- C13 (the property is violated): a plaintext above 1 is not refused and not encrypted: the result
is the encryption of 0. -/
theorem C13_large_plaintext_encrypts_zero (m n K : ℕ) (hm : 2 ≤ m) :
    elgamalEncrypt G m n K = elgamalEncrypt G 0 n K := by
  have h1 : ¬ m = 1 := by omega
  simp [elgamalEncrypt, h1]

/-- C13: what does hold: plaintexts 0 and 1 are encrypted as themselves. -/
theorem C13_small_plaintext_partial (hG : G.Valid) (s n m : ℕ) (hs : s < 2 ^ 256) (hs2 : 2 ≤ s)
    (hn : n < 2 ^ 256) (hn0 : n ≠ 0) (hm : m < 2) :
    ∃ k c, keyFromSecret G s = .ok k ∧ elgamalEncrypt G m n k.pub = .ok c ∧
      IsEncryption G k.pub m n c := by
  obtain ⟨k, hk, hks, hkp, hkg⟩ := keyFromSecret_ok G hG s hs hs2
  obtain ⟨c, hc, he⟩ := encrypt_isEncryption G hG m n k.pub hm hn hn0 (lt_trans hkp hG.p_lt)
  exact ⟨k, c, hk, hc, he⟩

/-- C13 is violated for every plaintext of 2 or more: the call succeeds, the ciphertext decrypts to
0, not to the plaintext. -/
theorem C13_violated (hG : G.Valid) (s n m : ℕ) (hs : s < 2 ^ 256) (hs2 : 2 ≤ s)
    (hn : n < 2 ^ 256) (hn0 : n ≠ 0) (hm : 2 ≤ m) :
    ∃ k c, keyFromSecret G s = .ok k ∧ elgamalEncrypt G m n k.pub = .ok c ∧
      decrypt G c k.secret = 0 := by
  obtain ⟨k, c, hk, hc, hd⟩ := C11_decrypt_encrypt G hG s n 0 hs hs2 hn hn0 (by omega)
  exact ⟨k, c, hk, by rw [C13_large_plaintext_encrypts_zero G m n k.pub hm]; exact hc, hd⟩

/-! ## C14 precomputed encryption -/

/-- C14: encryption from precomputed powers of the nonce `n` is the direct encryption with nonce
`n`. -/
theorem C14_precomputed_eq_direct (m n K : ℕ) (hn0 : n ≠ 0) :
    elgamalEncrypt G m n K = .ok (elgamalEncryptPrecomputed G m (gPowP G n) (powModP G K n)) := by
  rw [elgamalEncrypt, if_neg hn0]
  rfl

/-- C14: and it satisfies the encryption equations, including the nonce 0 (which the direct function
refuses). -/
theorem C14_precomputed_isEncryption (hG : G.Valid) (m n K : ℕ) (hm : m < 2) (hn : n < 2 ^ 256)
    (hK : K < 2 ^ 4096) :
    IsEncryption G K m n (elgamalEncryptPrecomputed G m (gPowP G n) (powModP G K n)) := by
  have hg4 := lt_trans hG.g_lt hG.p_lt
  have hKn := powModP_lt hG K n hK (lt_512_of_lt hn)
  have hKn' := lt_trans hKn hG.p_lt
  refine ⟨gPowP_lt hG n hn, ?_, ?_, ?_⟩
  · unfold elgamalEncryptPrecomputed
    dsimp only
    split
    · exact mulModP_lt hG _ _ hg4 hKn'
    · exact hKn
  · rw [modEq_cast]
    exact (cast_gPowP hG n hn).trans (Nat.cast_pow _ _).symm
  · rw [modEq_cast]
    unfold elgamalEncryptPrecomputed
    dsimp only
    split
    · rename_i h1
      rw [h1, cast_mulModP hG _ _ hg4 hKn', cast_powModP hG K n hK hn]
      simp
    · have : m = 0 := by omega
      rw [this, cast_powModP hG K n hK hn]
      simp

/-! ## C56 decryption of malformed ciphertexts -/

/-- C56: for ciphertexts with a valid residue as pad, decryption answers 0 or 1 exactly if the data
is the pad to the secret times `g^0` or `g^1`, and otherwise the failure value. -/
theorem C56_decrypt_partial (hG : G.Valid) (c : Ciphertext) (s : ℕ) (hs : s < 2 ^ 256)
    (hp : c.pad < 2 ^ 4096) (hv : isValidResidue G c.pad = true) (hd : c.data < 2 ^ 4096) :
    (decrypt G c s = 0 ↔ c.data ≡ c.pad ^ s [MOD G.p]) ∧
    (decrypt G c s = 1 ↔ c.data ≡ G.g * c.pad ^ s [MOD G.p]) ∧
    (decrypt G c s ≠ 0 → decrypt G c s ≠ 1 → decrypt G c s = 2 ^ 64 - 1) := by
  rw [isValidResidue_iff hG _ hp] at hv
  have hpq : (c.pad : ZMod G.p) ^ G.q = 1 := by
    rw [← Nat.cast_pow, cast_eq_one_iff hG]; exact hv.2
  rw [decrypt_spec hG c s hs hv.1.2 hpq hd]
  simp only [modEq_cast, Nat.cast_mul, Nat.cast_pow]
  have hex : ∀ x : ZMod G.p, IsUnit x → x ≠ G.g * x := by
    intro x hx he
    have h1 : x * 1 = x * G.g := by rw [mul_one]; rw [mul_comm]; exact he
    have h2 := hx.mul_left_cancel h1
    have h3 := (cast_eq_one_iff hG G.g).1 h2.symm
    rw [Nat.mod_eq_of_lt hG.g_lt] at h3
    have := hG.g_gt
    omega
  have hu : IsUnit ((c.pad : ZMod G.p) ^ s) :=
    (IsUnit.of_pow_eq_one hpq (by have := hG.q_gt; omega)).pow s
  have hne := hex _ hu
  by_cases h1 : (c.data : ZMod G.p) = (c.pad : ZMod G.p) ^ s
  · rw [if_pos h1]
    refine ⟨by simp [h1], ?_, by simp⟩
    rw [h1]
    simp [hne]
  · rw [if_neg h1]
    by_cases h2 : (c.data : ZMod G.p) = G.g * (c.pad : ZMod G.p) ^ s
    · rw [if_pos h2]; simp [h2, Ne.symm hne]
    · rw [if_neg h2]; simp [h1, h2]

/-- C56 (the property is violated): a ciphertext whose pad is not reduced is reported as a vote of
0, whatever its data; `P()` itself is accepted by the checked constructor. -/
theorem C56_unreduced_pad_reads_zero (c : Ciphertext) (s : ℕ) (hp : G.p ≤ c.pad) :
    decrypt G c s = 0 := by
  unfold decrypt modExpChecked
  rw [if_neg (by omega)]

theorem C56_violated :
    ∃ pad, mkP G false pad = .ok pad ∧ ∀ data s, decrypt G { pad := pad, data := data } s = 0 :=
  ⟨G.p, by simp [mkP_eq], fun _ _ =>
    C56_unreduced_pad_reads_zero G _ _ (le_refl _)⟩

/-- C56: a zero pad is reported as failure for every nonzero secret (the inverse of zero is taken to
be zero). -/
theorem C56_zero_pad (hG : G.Valid) (data s : ℕ) (hs : s < 2 ^ 256) (h0 : s ≠ 0) :
    decrypt G { pad := 0, data := data } s = 2 ^ 64 - 1 := by
  have hp := hG.p_gt
  have hg := hG.g_gt
  unfold decrypt
  rw [modExpChecked_eq hG 0 s (by omega) (lt_512_of_lt hs), zero_pow h0, Nat.zero_mod]
  simp only
  rw [show modInvPrime G.p 0 = 0 by unfold modInvPrime; rw [if_neg (by omega)], mul_zero,
    modChecked_eq hG 0 (Nat.two_pow_pos _), Nat.zero_mod]
  simp only
  rw [if_neg (by omega), if_neg (by omega)]

/-! ### The hypotheses are satisfiable -/

section Examples

/-- Secret 2, nonce 3, vote 1 in the standard group. -/
example : ∃ k c, keyFromSecret .std 2 = .ok k ∧ elgamalEncrypt .std 1 3 k.pub = .ok c ∧
    decrypt .std c k.secret = 1 :=
  C11_decrypt_encrypt .std C54_std_valid 2 3 1 (by decide) (by decide) (by decide) (by decide)
    (by decide)

/-- Three encryptions add up to two votes, which decryption reports as failure; all hypotheses of
`C12_decrypt_sum` hold. -/
example : ∃ k a b c, keyFromSecret .std 2 = .ok k ∧ elgamalEncrypt .std 1 3 k.pub = .ok a ∧
    elgamalEncrypt .std 1 4 k.pub = .ok b ∧ elgamalEncrypt .std 0 4 k.pub = .ok c ∧
    ∃ t, elgamalAdd .std [a, b, c] = .ok t ∧ decrypt .std t 2 = 2 ^ 64 - 1 := by
  have hG := C54_std_valid
  obtain ⟨k, hk, -, hkp, -⟩ := keyFromSecret_ok .std hG 2 (by decide) (by decide)
  have h4 := lt_trans hkp hG.p_lt
  obtain ⟨a, ha, -⟩ := encrypt_isEncryption .std hG 1 3 k.pub (by decide) (by decide) (by decide) h4
  obtain ⟨b, hb, -⟩ := encrypt_isEncryption .std hG 1 4 k.pub (by decide) (by decide) (by decide) h4
  obtain ⟨c, hc, -⟩ := encrypt_isEncryption .std hG 0 4 k.pub (by decide) (by decide) (by decide) h4
  refine ⟨k, a, b, c, hk, ha, hb, hc, ?_⟩
  have := C12_decrypt_sum .std hG 2 (by decide) (by decide) k hk [(1, 3, a), (1, 4, b), (0, 4, c)]
    (by simp) (by simp only [List.length_cons, List.length_nil]; decide +kernel) (by
      intro x hx
      simp only [List.mem_cons, List.not_mem_nil, or_false] at hx
      rcases hx with rfl | rfl | rfl
      · exact ⟨by simp, by simp, ha⟩
      · exact ⟨by simp, by simp, hb⟩
      · exact ⟨by simp, by simp, hc⟩)
  simpa using this

/-- A valid residue as pad. -/
example : isValidResidue .std Params.std.g = true ∧ Params.std.g < 2 ^ 4096 :=
  ⟨C09_generator .std C54_std_valid, lt_trans C54_std_valid.g_lt C54_std_valid.p_lt⟩

end Examples

end EG
