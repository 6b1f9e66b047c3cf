import Verif.Props.Secrecy
import Verif.Props.Forgery
import Verif.Props.ZeroKnowledge
import Verif.Lemmas.Simulation

/-!
# C115: the proofs of a contest add nothing to what its ciphertexts tell

SHA-256 is replaced by a function on a finite set of strings that holds all strings from which challenges are made, as
in C112.  Who knows the ciphertexts and the public key only, and may choose answers of that function, makes proofs that
are distributed exactly like those of the library.  So the reduction of C110 holds for an adversary that also sees the
proofs of the selections, the proof of the contest, and the whole hash function.
-/

namespace EG.Secrecy

open EG.Sim

variable (G : Params) (C : Crypto)

/-- What is published beside the ciphertexts of a contest. -/
inductive Shown
  | selection (π : Res DisjProof)
  | contest (π : Res ConstProof)

/-- The list, if there is no exception among the results. -/
def allOk : List (Res Ciphertext) → Res (List Ciphertext)
  | [] => .ok []
  | r :: rs => r >>= fun c => allOk rs >>= fun cs => .ok (c :: cs)

/-- The proof of a contest, from its votes and nonces: the ciphertexts and the nonces are added up, and `u` is the
random number of a precomputed triple. -/
def contestProof (h K seed : ℕ) (l : List (ℕ × ℕ)) (u : ℕ) : Res ConstProof :=
  allOk (l.map (fun a => elgamalEncrypt G a.1 a.2 K)) >>= fun cs =>
    elgamalAdd G cs >>= fun acc =>
      addModQVec G (l.map Prod.snd) >>= fun R =>
        constMake G C (some (genTriple G K u)) acc R K seed h (l.map Prod.fst).sum

/-- The proofs of the selections, from votes and nonces; summed over the random numbers. -/
def selectionProofs (h K : ℕ) : List (ℕ × ℕ) → (List Shown → ℤ) → ℤ
  | [], f => f []
  | (x, r) :: l, f =>
    ∑ u ∈ Finset.range G.q, ∑ v ∈ Finset.range G.q, ∑ w ∈ Finset.range G.q,
      selectionProofs h K l (fun πs =>
        f (.selection (elgamalEncrypt G x r K >>= fun c => disjMake G C c r K h x u v w) :: πs))

/-- The nonces of a list of votes, each of its own; summed over them. -/
def noncesFor : List ℕ → (List (ℕ × ℕ) → ℤ) → ℤ
  | [], f => f []
  | m :: ms, f => ∑ r ∈ nonces G, noncesFor ms (fun l => f ((m, r) :: l))

open Classical in
/-- What an adversary gets from a contest: the public key, the hash function, the ciphertexts and the proofs.  It gets
nothing where two ciphertexts are the same. -/
noncomputable def contestView (X : Finset Str) (h seed K : ℕ)
    (A : ℕ → (X → Fin (2 ^ 256)) → List (Res Ciphertext) → List Shown → ℤ) (l : List (ℕ × ℕ)) : ℤ :=
  if (l.map (fun a => elgamalEncrypt G a.1 a.2 K)).Nodup then
    ∑ O : X → Fin (2 ^ 256), ∑ u ∈ Finset.range G.q, selectionProofs G (C.withOracle X O) h K l (fun πs =>
      A K O (l.map (fun a => elgamalEncrypt G a.1 a.2 K))
        (.contest (contestProof G (C.withOracle X O) h K seed l u) :: πs))
  else 0

/-- The adversary against the votes `ms` of a contest, summed over the key pairs, nonces, hash functions and random
numbers of the proofs. -/
noncomputable def contestGame (X : Finset Str) (h seed : ℕ)
    (A : ℕ → (X → Fin (2 ^ 256)) → List (Res Ciphertext) → List Shown → ℤ) (ms : List ℕ) : ℤ :=
  ∑ s ∈ secrets G,
    match keyFromSecret G s with
    | .ok k => noncesFor G ms (contestView G C X h seed k.pub A)
    | _ => 0

/-! ## The simulator -/

/-- A proof of a selection from its challenge and the random numbers `c0`, `v0`, `v1`, without nonce or vote. -/
def simDisj (K : ℕ) (m : Ciphertext) (c : ℕ) (t : ℕ × ℕ × ℕ) : DisjProof :=
  let c1 := (c + G.q - t.1) % G.q
  { zeroPad := G.g ^ t.2.1 * m.pad ^ (G.q - t.1) % G.p
    zeroData := K ^ t.2.1 * m.data ^ (G.q - t.1) % G.p
    onePad := G.g ^ t.2.2 * m.pad ^ (G.q - c1) % G.p
    oneData := G.g ^ c1 * K ^ t.2.2 * m.data ^ (G.q - c1) % G.p
    zeroChallenge := t.1
    oneChallenge := c1
    challenge := c
    zeroResponse := t.2.1
    oneResponse := t.2.2 }

/-- A proof of a contest from its challenge and the random number `v`. -/
def simConst (K : ℕ) (m : Ciphertext) (L c v : ℕ) : ConstProof :=
  { pad := G.g ^ v * m.pad ^ (G.q - c) % G.p
    data := G.g ^ (c * L) * K ^ v * m.data ^ (G.q - c) % G.p
    challenge := c
    response := v
    constant := L }

/-- Three numbers below `q`. -/
def three : Finset (ℕ × ℕ × ℕ) := Finset.range G.q ×ˢ Finset.range G.q ×ˢ Finset.range G.q

def disjSimulator (h K : ℕ) (m : Ciphertext) : Simulator Shown where
  T := ℕ × ℕ × ℕ
  dom := three G
  place y t := disjString h m (simDisj G K m (addModQ G y 0) t)
  proof y t := .selection (.ok (simDisj G K m (addModQ G y 0) t))

def constSimulator (h K : ℕ) (m : Ciphertext) (L : ℕ) : Simulator Shown where
  T := ℕ
  dom := Finset.range G.q
  place y v := constString h m (simConst G K m L (addModQ G y 0) v)
  proof y v := .contest (.ok (simConst G K m L (addModQ G y 0) v))

/-- The simulators for a contest with `L` votes, from its ciphertexts. -/
def simulators (h K L : ℕ) (cs : List (Res Ciphertext)) : List (Simulator Shown) :=
  match allOk cs with
  | .ok l =>
    match elgamalAdd G l with
    | .ok acc => constSimulator G h K acc L :: l.map (disjSimulator G h K)
    | _ => []
  | _ => []

open Classical in
/-- The adversary with simulated proofs: a function of the public key and the ciphertexts. -/
noncomputable def withSimulated {X : Finset Str} (h L : ℕ)
    (A : ℕ → (X → Fin (2 ^ 256)) → List (Res Ciphertext) → List Shown → ℤ) (K : ℕ) (cs : List (Res Ciphertext)) : ℤ :=
  if cs.Nodup then ∑ O : X → Fin (2 ^ 256), simulated (simulators G h K L cs) O (fun O' πs => A K O' cs πs) else 0

/-! ## The provers -/

/-- The numbers of the simulator that belong to the random numbers of the prover. -/
def choice (x r c : ℕ) (t : ℕ × ℕ × ℕ) : ℕ × ℕ × ℕ :=
  if x = 1 then
    let c0 := (G.q + G.q - t.2.2) % G.q
    (c0, (t.2.1 + c0 * r) % G.q, (t.1 + (c + t.2.2) % G.q * r) % G.q)
  else
    let c0 := (c + G.q - t.2.2) % G.q
    (c0, (t.1 + c0 * r) % G.q, (t.2.1 + t.2.2 * r) % G.q)

variable {G}

theorem cancel_response {y : ZMod G.p} (hy : y ^ G.q = 1) {c : ℕ} (hc : c < G.q) (a n : ℕ) :
    y ^ ((a + c * n) % G.q) * (y ^ n) ^ (G.q - c) = y ^ a := by
  have h : (y ^ n) ^ c * (y ^ n) ^ (G.q - c) = 1 := by
    rw [← pow_add, show c + (G.q - c) = G.q by omega, ← pow_mul, mul_comm, pow_mul, hy, one_pow]
  rw [pow_response hy, mul_assoc, h, mul_one]

theorem one_challenge {q c w : ℕ} (hc : c < q) (hw : w < q) : (c + q - (c + q - w) % q) % q = w := by
  rcases Nat.lt_or_ge c w with h | h
  · rw [Nat.mod_eq_of_lt (show c + q - w < q by omega), show c + q - (c + q - w) = w by omega, Nat.mod_eq_of_lt hw]
  · rw [show c + q - w = (c - w) + q by omega, Nat.add_mod_right, Nat.mod_eq_of_lt (show c - w < q by omega),
      show c + q - (c - w) = w + q by omega, Nat.add_mod_right, Nat.mod_eq_of_lt hw]

theorem zero_challenge {q c w : ℕ} (hw : w < q) :
    (c + q - (q + q - w) % q) % q = (c + w) % q := by
  rcases Nat.eq_zero_or_pos w with h | h
  · subst h
    simp
  · rw [show q + q - w = (q - w) + q by omega, Nat.add_mod_right, Nat.mod_eq_of_lt (show q - w < q by omega),
      show c + q - (q - w) = c + w by omega]

/-- The commitments of the prover are those of the simulator, whatever the challenge. -/
theorem simDisj_choice (hG : G.Valid) {K x r : ℕ} {m : Ciphertext} (hK : Residue G K) (hm : IsEncryption G K x r m)
    (hx : x < 2) {c : ℕ} (hc : c < G.q) {t : ℕ × ℕ × ℕ} (ht : t ∈ three G) :
    simDisj G K m c (choice G x r c t) =
      if x = 1 then
        { zeroPad := gPowP G t.2.1, zeroData := mulModP G (gPowP G t.2.2) (powModP G K t.2.1), onePad := gPowP G t.1,
          oneData := powModP G K t.1, zeroChallenge := (G.q + G.q - t.2.2) % G.q, oneChallenge := (c + t.2.2) % G.q,
          challenge := c, zeroResponse := (t.2.1 + (G.q + G.q - t.2.2) % G.q * r) % G.q,
          oneResponse := (t.1 + (c + t.2.2) % G.q * r) % G.q }
      else
        { zeroPad := gPowP G t.1, zeroData := powModP G K t.1, onePad := gPowP G t.2.1,
          oneData := mulModP G (gPowP G t.2.2) (powModP G K t.2.1), zeroChallenge := (c + G.q - t.2.2) % G.q,
          oneChallenge := t.2.2, challenge := c, zeroResponse := (t.1 + (c + G.q - t.2.2) % G.q * r) % G.q,
          oneResponse := (t.2.1 + t.2.2 * r) % G.q } := by
  obtain ⟨u, v, w⟩ := t
  simp only [three, Finset.mem_product, Finset.mem_range] at ht
  obtain ⟨hu, hv, hw⟩ := ht
  have hq := hG.q_lt
  have hp0 : 0 < G.p := by have := hG.p_gt; omega
  have hq0 : 0 < G.q := by omega
  have hu' := lt_trans hu hq
  have hv' := lt_trans hv hq
  have hw' := lt_trans hw hq
  have kK := hK.lt hG
  obtain ⟨rα, rβ, cα, cβ⟩ := hm.casts hG hK
  have hgq := g_pow_q hG
  have hKq := hK.pow_q hG
  have ml := mulModP_lt hG _ _ (gPowP_lt4096 hG w hw') (powModP_lt4096 hG K v kK hv')
  have mc : ((mulModP G (gPowP G w) (powModP G K v) : ℕ) : ZMod G.p) = (G.g : ZMod G.p) ^ w * (K : ZMod G.p) ^ v := by
    rw [cast_mulModP hG _ _ (gPowP_lt4096 hG w hw') (powModP_lt4096 hG K v kK hv'), cast_gPowP hG w hw',
      cast_powModP hG K v kK hv']
  by_cases h1 : x = 1
  · subst h1
    rw [pow_one] at cβ
    have e1 : (c + G.q - (G.q + G.q - w) % G.q) % G.q = (c + w) % G.q := zero_challenge hw
    have l0 := Nat.mod_lt (G.q + G.q - w) hq0
    have l1 := Nat.mod_lt (c + w) hq0
    simp only [simDisj, choice, if_true, e1, DisjProof.mk.injEq, and_true]
    refine ⟨eq_of_cast (Nat.mod_lt _ hp0) (gPowP_lt hG v hv') ?_, eq_of_cast (Nat.mod_lt _ hp0) ml ?_,
      eq_of_cast (Nat.mod_lt _ hp0) (gPowP_lt hG u hu') ?_,
      eq_of_cast (Nat.mod_lt _ hp0) (powModP_lt hG K u kK (lt_512_of_lt hu')) ?_⟩
    · rw [cast_mod, cast_gPowP hG v hv']
      push_cast
      rw [cα, cancel_response hgq l0]
    · rw [cast_mod, mc]
      push_cast
      rw [cβ, mul_pow, ← mul_assoc, mul_comm ((K : ZMod G.p) ^ _), mul_assoc, cancel_response hKq l0]
      congr 1
      refine pow_congr hgq ?_
      rcases Nat.eq_zero_or_pos w with h | h
      · subst h
        simp
      · rw [show G.q + G.q - w = (G.q - w) + G.q by omega, Nat.add_mod_right,
          Nat.mod_eq_of_lt (show G.q - w < G.q by omega), show G.q - (G.q - w) = w by omega]
    · rw [cast_mod, cast_gPowP hG u hu']
      push_cast
      rw [cα, cancel_response hgq l1]
    · rw [cast_mod, cast_powModP hG K u kK hu']
      push_cast
      generalize (c + w) % G.q = d at l1
      rw [cβ, mul_pow]
      have e := cancel_response hKq l1 u r
      have e2 : (G.g : ZMod G.p) ^ d * (G.g : ZMod G.p) ^ (G.q - d) = 1 := by
        rw [← pow_add, show d + (G.q - d) = G.q by omega, hgq]
      linear_combination (G.g : ZMod G.p) ^ d * (G.g : ZMod G.p) ^ (G.q - d) * e + (K : ZMod G.p) ^ u * e2
  · have h0 : x = 0 := by omega
    subst h0
    rw [pow_zero, one_mul] at cβ
    have e1 : (c + G.q - (c + G.q - w) % G.q) % G.q = w := one_challenge hc hw
    have l0 := Nat.mod_lt (c + G.q - w) hq0
    simp only [simDisj, choice, zero_ne_one, if_false, e1, DisjProof.mk.injEq, and_true]
    refine ⟨eq_of_cast (Nat.mod_lt _ hp0) (gPowP_lt hG u hu') ?_,
      eq_of_cast (Nat.mod_lt _ hp0) (powModP_lt hG K u kK (lt_512_of_lt hu')) ?_,
      eq_of_cast (Nat.mod_lt _ hp0) (gPowP_lt hG v hv') ?_, eq_of_cast (Nat.mod_lt _ hp0) ml ?_⟩
    · rw [cast_mod, cast_gPowP hG u hu']
      push_cast
      rw [cα, cancel_response hgq l0]
    · rw [cast_mod, cast_powModP hG K u kK hu']
      push_cast
      rw [cβ, cancel_response hKq l0]
    · rw [cast_mod, cast_gPowP hG v hv']
      push_cast
      rw [cα, cancel_response hgq hw]
    · rw [cast_mod, mc]
      push_cast
      rw [cβ, mul_assoc, cancel_response hKq hw]

theorem simConst_choice (hG : G.Valid) {K L R : ℕ} {m : Ciphertext} (hK : Residue G K) (hm : IsEncryption G K L R m)
    {c u : ℕ} (hc : c < G.q) (hu : u < G.q) :
    simConst G K m L c ((u + c * R) % G.q) =
      { pad := gPowP G u, data := powModP G K u, challenge := c, response := (u + c * R) % G.q, constant := L } := by
  have hq := hG.q_lt
  have hp0 : 0 < G.p := by have := hG.p_gt; omega
  have hu' := lt_trans hu hq
  have kK := hK.lt hG
  obtain ⟨rα, rβ, cα, cβ⟩ := hm.casts hG hK
  have hgq := g_pow_q hG
  have hKq := hK.pow_q hG
  simp only [simConst, ConstProof.mk.injEq, and_true]
  refine ⟨eq_of_cast (Nat.mod_lt _ hp0) (gPowP_lt hG u hu') ?_,
    eq_of_cast (Nat.mod_lt _ hp0) (powModP_lt hG K u kK (lt_512_of_lt hu')) ?_⟩
  · rw [cast_mod, cast_gPowP hG u hu']
    push_cast
    rw [cα, cancel_response hgq hc]
  · rw [cast_mod, cast_powModP hG K u kK hu']
    push_cast
    rw [cβ, mul_pow]
    have e := cancel_response hKq hc u R
    have e2 : (G.g : ZMod G.p) ^ (c * L) * ((G.g : ZMod G.p) ^ L) ^ (G.q - c) = 1 := by
      rw [mul_comm c L, pow_mul, ← pow_add, show c + (G.q - c) = G.q by omega, ← pow_mul, mul_comm, pow_mul, hgq, one_pow]
    linear_combination (G.g : ZMod G.p) ^ (c * L) * ((G.g : ZMod G.p) ^ L) ^ (G.q - c) * e + (K : ZMod G.p) ^ u * e2

theorem add_mod_inj {q a b k : ℕ} (ha : a < q) (hb : b < q) (h : (a + k) % q = (b + k) % q) : a = b := by
  have h1 : a + k ≡ b + k [MOD q] := h
  have h2 : a % q = b % q := Nat.ModEq.add_right_cancel' k h1
  rwa [Nat.mod_eq_of_lt ha, Nat.mod_eq_of_lt hb] at h2

theorem sub_mod_inj {q c a b : ℕ} (ha : a < q) (hb : b < q) (h : (c + q - a) % q = (c + q - b) % q) : a = b := by
  have h1 : c + q - a ≡ c + q - b [MOD q] := h
  have h2 := h1.add_right (a + b)
  rw [show c + q - a + (a + b) = b + (c + q) by omega, show c + q - b + (a + b) = a + (c + q) by omega] at h2
  exact (add_mod_inj hb ha h2).symm

theorem bijOn_of_inj {α : Type} {s : Finset α} {f : α → α} (h1 : ∀ a ∈ s, f a ∈ s)
    (h2 : ∀ a ∈ s, ∀ b ∈ s, f a = f b → a = b) : Set.BijOn f s s :=
  ⟨h1, fun a ha b hb h => h2 a ha b hb h,
    Finset.surjOn_of_injOn_of_card_le f h1 (fun a ha b hb h => h2 a ha b hb h) le_rfl⟩

theorem choice_bij (hG : G.Valid) (x r c : ℕ) : Set.BijOn (choice G x r c) (three G) (three G) := by
  have hq0 : 0 < G.q := by have := hG.q_gt; omega
  refine bijOn_of_inj ?_ ?_
  · intro t _
    simp only [choice, three]
    split <;> simp [Nat.mod_lt _ hq0]
  · rintro ⟨u, v, w⟩ ht ⟨u', v', w'⟩ ht' h
    simp only [three, Finset.mem_product, Finset.mem_range] at ht ht'
    obtain ⟨hu, hv, hw⟩ := ht
    obtain ⟨hu', hv', hw'⟩ := ht'
    simp only [choice] at h
    split at h
    · simp only [Prod.mk.injEq] at h
      obtain ⟨h1, h2, h3⟩ := h
      have := sub_mod_inj hw hw' h1
      subst this
      rw [add_mod_inj hv hv' h2, add_mod_inj hu hu' h3]
    · simp only [Prod.mk.injEq] at h
      obtain ⟨h1, h2, h3⟩ := h
      have := sub_mod_inj hw hw' h1
      subst this
      rw [add_mod_inj hu hu' h2, add_mod_inj hv hv' h3]

variable (G) in
/-- The prover of a selection with vote `x`, nonce `r` and ciphertext `m`. -/
def disjProver (h K : ℕ) (a : ℕ × ℕ × Ciphertext) : Prover Shown where
  T := ℕ × ℕ × ℕ
  dom := three G
  place t := disjString h a.2.2 (simDisj G K a.2.2 0 (choice G a.1 a.2.1 0 t))
  proof t y := .selection (.ok (simDisj G K a.2.2 (addModQ G y 0) (choice G a.1 a.2.1 (addModQ G y 0) t)))

variable (G) in
/-- The prover of a contest with `L` votes, added nonce `R` and accumulation `m`. -/
def constProver (h K L R : ℕ) (m : Ciphertext) : Prover Shown where
  T := ℕ
  dom := Finset.range G.q
  place u := constString h m (simConst G K m L 0 (u % G.q))
  proof u y := .contest (.ok (simConst G K m L (addModQ G y 0) ((u + addModQ G y 0 * R) % G.q)))

theorem disj_string (hG : G.Valid) {h K x r : ℕ} {m : Ciphertext} (hK : Residue G K) (hm : IsEncryption G K x r m)
    (hx : x < 2) {c : ℕ} (hc : c < G.q) {t : ℕ × ℕ × ℕ} (ht : t ∈ three G) :
    disjString h m (simDisj G K m c (choice G x r c t)) = disjString h m (simDisj G K m 0 (choice G x r 0 t)) := by
  rw [simDisj_choice hG hK hm hx hc ht, simDisj_choice hG hK hm hx (by have := hG.q_gt; omega) ht]
  split <;> rfl

theorem const_string (hG : G.Valid) {h K L R : ℕ} {m : Ciphertext} (hK : Residue G K) (hm : IsEncryption G K L R m)
    {c u : ℕ} (hc : c < G.q) (hu : u < G.q) :
    constString h m (simConst G K m L c ((u + c * R) % G.q)) = constString h m (simConst G K m L 0 (u % G.q)) := by
  have h0 := simConst_choice hG hK hm (c := 0) (by have := hG.q_gt; omega) hu
  rw [zero_mul, add_zero] at h0
  rw [simConst_choice hG hK hm hc hu, h0]
  rfl

theorem disj_simulates (hG : G.Valid) {h K x r : ℕ} {m : Ciphertext} (hK : Residue G K) (hm : IsEncryption G K x r m)
    (hx : x < 2) : Simulates (disjProver G h K (x, r, m)) (disjSimulator G h K m) :=
  ⟨fun y => choice G x r (addModQ G y 0), fun _ _ => ⟨choice_bij hG _ _ _, fun _ ht =>
    ⟨disj_string hG hK hm hx (addModQ_lt hG _ _) ht, rfl⟩⟩⟩

theorem const_simulates (hG : G.Valid) {h K L R : ℕ} {m : Ciphertext} (hK : Residue G K) (hm : IsEncryption G K L R m) :
    Simulates (constProver G h K L R m) (constSimulator G h K m L) := by
  have hq0 : 0 < G.q := by have := hG.q_gt; omega
  have hb : ∀ y, Set.BijOn (fun u : ℕ => (u + addModQ G y 0 * R) % G.q) (Finset.range G.q) (Finset.range G.q) := by
    intro y
    refine bijOn_of_inj (fun u _ => Finset.mem_range.2 (Nat.mod_lt _ hq0)) ?_
    intro u hu u' hu' e
    exact add_mod_inj (Finset.mem_range.1 hu) (Finset.mem_range.1 hu') e
  exact ⟨fun y (u : ℕ) => (u + addModQ G y 0 * R) % G.q, fun y _ => ⟨hb y, fun u hu =>
    ⟨const_string hG hK hm (addModQ_lt hG _ _) (Finset.mem_range.1 hu), rfl⟩⟩⟩

theorem disjMake_eq (hG : G.Valid) {h K x r : ℕ} {m : Ciphertext} (hK : Residue G K) (hm : IsEncryption G K x r m)
    (hx : x < 2) (hr : r < G.q) {u v w c : ℕ} (ht : (u, v, w) ∈ three G) (hc : c < G.q)
    (e : addModQ G (C.sha256 (disjString h m (simDisj G K m c (choice G x r c (u, v, w))))) 0 = c) :
    disjMake G C m r K h x u v w = .ok (simDisj G K m c (choice G x r c (u, v, w))) := by
  rw [simDisj_choice hG hK hm hx hc ht] at e ⊢
  simp only [three, Finset.mem_product, Finset.mem_range] at ht
  obtain ⟨hu, hv, hw⟩ := ht
  have hq := hG.q_lt
  have hq0 : 0 < G.q := by omega
  unfold disjMake
  rw [if_neg (by omega)]
  by_cases h1 : x = 1
  · subst h1
    rw [if_pos rfl] at e ⊢
    rw [if_pos rfl]
    unfold disjMakeOne
    have e' : disjChallenge G C h m (gPowP G v) (mulModP G (gPowP G w) (powModP G K v)) (gPowP G u) (powModP G K u) = c := e
    dsimp only
    rw [e', subModQ_eq hG _ _ le_rfl (le_of_lt hw), addModQ_eq hG _ _ (le_of_lt hc) (le_of_lt hw),
      aPlusBc_eq hG _ _ _ (by omega) (by have := Nat.mod_lt (G.q + G.q - w) hq0; omega) (by omega),
      aPlusBc_eq hG _ _ _ (by omega) (by have := Nat.mod_lt (c + w) hq0; omega) (by omega)]
    rfl
  · rw [if_neg h1] at e ⊢
    rw [if_neg h1]
    unfold disjMakeZero
    have e' : disjChallenge G C h m (gPowP G u) (powModP G K u) (gPowP G v) (mulModP G (gPowP G w) (powModP G K v)) = c := e
    dsimp only
    rw [e', subModQ_eq hG _ _ (le_of_lt hc) (le_of_lt hw),
      aPlusBc_eq hG _ _ _ (by omega) (by have := Nat.mod_lt (c + G.q - w) hq0; omega) (by omega),
      aPlusBc_eq hG _ _ _ (by omega) (by omega) (by omega)]
    rfl

/-- The library's proof of a selection is the prover's. -/
theorem disjMake_sim (hG : G.Valid) {h K x r : ℕ} {m : Ciphertext} (hK : Residue G K) (hm : IsEncryption G K x r m)
    (hx : x < 2) (hr : r < G.q) {u v w : ℕ} (ht : (u, v, w) ∈ three G) :
    Shown.selection (disjMake G C m r K h x u v w) = (disjProver G h K (x, r, m)).proof (u, v, w)
      (C.sha256 ((disjProver G h K (x, r, m)).place (u, v, w))) := by
  have hc := addModQ_lt hG (C.sha256 (disjString h m (simDisj G K m 0 (choice G x r 0 (u, v, w))))) 0
  rw [disjMake_eq C hG hK hm hx hr ht hc (by rw [disj_string hG hK hm hx hc ht])]
  rfl

theorem constMake_eq (hG : G.Valid) {h K L R : ℕ} {m : Ciphertext} (hK : Residue G K) (hm : IsEncryption G K L R m)
    (hR : R < G.q) (seed : ℕ) {u c : ℕ} (hu : u < G.q) (hc : c < G.q)
    (e : addModQ G (C.sha256 (constString h m (simConst G K m L c ((u + c * R) % G.q)))) 0 = c) :
    constMake G C (some (genTriple G K u)) m R K seed h L = .ok (simConst G K m L c ((u + c * R) % G.q)) := by
  rw [simConst_choice hG hK hm hc hu] at e ⊢
  have hq := hG.q_lt
  have e' : constChallenge G C h m (gPowP G u) (powModP G K u) = c := e
  unfold constMake
  dsimp only [Option.elim, genTriple]
  rw [e', aPlusBc_eq hG _ _ _ (by omega) (by omega) (by omega)]
  rfl

/-- The library's proof of a contest is the prover's. -/
theorem constMake_sim (hG : G.Valid) {h K L R : ℕ} {m : Ciphertext} (hK : Residue G K) (hm : IsEncryption G K L R m)
    (hR : R < G.q) (seed : ℕ) {u : ℕ} (hu : u < G.q) :
    Shown.contest (constMake G C (some (genTriple G K u)) m R K seed h L) = (constProver G h K L R m).proof u
      (C.sha256 ((constProver G h K L R m).place u)) := by
  have hc := addModQ_lt hG (C.sha256 (constString h m (simConst G K m L 0 (u % G.q)))) 0
  rw [constMake_eq C hG hK hm hR seed hu hc (by rw [const_string hG hK hm hc hu])]
  rfl

/-- The places differ. -/
theorem disj_apart {h K : ℕ} (hh : h < 2 ^ 256) (hG : G.Valid) {a b : ℕ × ℕ × Ciphertext}
    (ha : IsEncryption G K a.1 a.2.1 a.2.2) (hb : IsEncryption G K b.1 b.2.1 b.2.2) (hne : a.2.2 ≠ b.2.2) :
    Apart (disjProver G h K a) (disjProver G h K b) := by
  have hp := hG.p_lt
  have hp0 : 0 < G.p := by have := hG.p_gt; omega
  have hl : ∀ n, n % G.p < 2 ^ 4096 := fun n => lt_trans (Nat.mod_lt _ hp0) hp
  have a1 := lt_trans ha.1 hp
  have a2 := lt_trans ha.2.1 hp
  have b1 := lt_trans hb.1 hp
  have b2 := lt_trans hb.2.1 hp
  intro t _ t' _ e
  have e := C26_encoding_injective_partial [.q _, .p _, .p _, .p _, .p _, .p _, .p _]
    [.q _, .p _, .p _, .p _, .p _, .p _, .p _]
    (by simp only [List.mem_cons, List.not_mem_nil, or_false, forall_eq_or_imp, forall_eq]
        exact ⟨hh, a1, a2, hl _, hl _, hl _, hl _⟩)
    (by simp only [List.mem_cons, List.not_mem_nil, or_false, forall_eq_or_imp, forall_eq]
        exact ⟨hh, b1, b2, hl _, hl _, hl _, hl _⟩)
    (by simp [HAtom.SameType]) e
  simp only [List.cons.injEq, HAtom.p.injEq] at e
  apply hne
  obtain ⟨x, r, ⟨p1, d1⟩⟩ := a
  obtain ⟨x', r', ⟨p2, d2⟩⟩ := b
  have e1 : p1 = p2 := e.2.1
  have e2 : d1 = d2 := e.2.2.1
  subst e1 e2
  rfl

theorem const_apart {h K L R : ℕ} {m : Ciphertext} (b : ℕ × ℕ × Ciphertext) :
    Apart (constProver G h K L R m) (disjProver G h K b) := by
  intro u _ t _ e
  have hd : ∀ l : List HAtom, (∀ x ∈ l, ∃ n, x = .p n ∨ x = .q n) → ∀ s ∈ l.map HAtom.render, '|' ∉ s := by
    intro l hl s hs
    obtain ⟨x, hx, rfl⟩ := List.mem_map.1 hs
    obtain ⟨n, rfl | rfl⟩ := hl x hx
    · exact (toHexP_no_delim n).1
    · exact (toHexQ_no_delim n).1
  have := congrArg List.length (hashInput_inj _ _ (hd _ (by simp)) (hd _ (by simp)) e)
  simp at this

theorem disj_mem (hG : G.Valid) {X : Finset Str} (hX : HasChallenges X) {h K x r : ℕ} (hh : h < 2 ^ 256) {m : Ciphertext}
    (hm : IsEncryption G K x r m) (c : ℕ) (t : ℕ × ℕ × ℕ) : disjString h m (simDisj G K m c t) ∈ X := by
  have hp := hG.p_lt
  have hp0 : 0 < G.p := by have := hG.p_gt; omega
  have lp : ∀ n, n % G.p < 2 ^ 4096 := fun n => lt_trans (Nat.mod_lt _ hp0) hp
  have z : 0 < 2 ^ 256 := by positivity
  exact hX.disj h m ⟨(simDisj G K m c t).zeroPad, (simDisj G K m c t).zeroData, (simDisj G K m c t).onePad,
    (simDisj G K m c t).oneData, 0, 0, 0, 0, 0⟩ hh (lt_trans hm.1 hp) (lt_trans hm.2.1 hp)
    ⟨lp _, lp _, lp _, lp _, z, z, z, z, z⟩

theorem const_mem (hG : G.Valid) {X : Finset Str} (hX : HasChallenges X) {h K x r : ℕ} (hh : h < 2 ^ 256) {m : Ciphertext}
    (hm : IsEncryption G K x r m) (L c v : ℕ) : constString h m (simConst G K m L c v) ∈ X := by
  have hp := hG.p_lt
  have hp0 : 0 < G.p := by have := hG.p_gt; omega
  have lp : ∀ n, n % G.p < 2 ^ 4096 := fun n => lt_trans (Nat.mod_lt _ hp0) hp
  have z : 0 < 2 ^ 256 := by positivity
  exact hX.const h m ⟨(simConst G K m L c v).pad, (simConst G K m L c v).data, 0, 0, 0⟩ hh (lt_trans hm.1 hp)
    (lt_trans hm.2.1 hp) ⟨lp _, lp _, z, z, by positivity⟩

/-! ## Contests -/

/-- What is known of a vote, its nonce and its ciphertext. -/
structure Cast (G : Params) (K : ℕ) (a : ℕ × ℕ × Ciphertext) : Prop where
  vote : a.1 < 2
  nonce : a.2.1 < G.q
  made : elgamalEncrypt G a.1 a.2.1 K = .ok a.2.2
  holds : IsEncryption G K a.1 a.2.1 a.2.2

theorem exists_cast (hG : G.Valid) {K : ℕ} (hK : Residue G K) : ∀ l : List (ℕ × ℕ),
    (∀ a ∈ l, a.1 < 2 ∧ a.2 ∈ nonces G) →
    ∃ xs : List (ℕ × ℕ × Ciphertext), xs.map (fun a => (a.1, a.2.1)) = l ∧ ∀ a ∈ xs, Cast G K a
  | [], _ => ⟨[], rfl, by simp⟩
  | (x, r) :: l, h => by
    obtain ⟨xs, h1, h2⟩ := exists_cast hG hK l (fun a ha => h a (List.mem_cons_of_mem _ ha))
    obtain ⟨hx, hr⟩ := h (x, r) (by simp)
    have hr := Finset.mem_Ico.1 hr
    have hq := hG.q_lt
    obtain ⟨c, hc, he⟩ := encrypt_isEncryption G hG x r K hx (lt_trans hr.2 hq) (by omega) (hK.lt hG)
    refine ⟨(x, r, c) :: xs, by rw [List.map_cons, h1], ?_⟩
    intro a ha
    rcases List.mem_cons.1 ha with rfl | ha
    · exact ⟨hx, hr.2, hc, he⟩
    · exact h2 a ha

theorem made_map {K : ℕ} {xs : List (ℕ × ℕ × Ciphertext)} (h : ∀ a ∈ xs, Cast G K a) :
    (xs.map (fun a => (a.1, a.2.1))).map (fun a => elgamalEncrypt G a.1 a.2 K) = xs.map (fun a => Res.ok a.2.2) := by
  rw [List.map_map]
  exact List.map_congr_left (fun a ha => (h a ha).made)

theorem allOk_map {α : Type} (f : α → Ciphertext) : ∀ xs : List α, allOk (xs.map (fun a => Res.ok (f a))) = .ok (xs.map f)
  | [] => rfl
  | a :: xs => by
    rw [List.map_cons, allOk, Res.bind_ok, allOk_map f xs]
    rfl

theorem selectionProofs_eq (hG : G.Valid) {h K : ℕ} (hK : Residue G K) : ∀ (xs : List (ℕ × ℕ × Ciphertext))
    (f : List Shown → ℤ), (∀ a ∈ xs, Cast G K a) →
    selectionProofs G C h K (xs.map (fun a => (a.1, a.2.1))) f = proofs C.sha256 (xs.map (disjProver G h K)) f
  | [], f, _ => rfl
  | (x, r, m) :: xs, f, hx => by
    have c := hx (x, r, m) (by simp)
    simp only [List.map_cons, selectionProofs, proofs]
    show _ = ∑ t ∈ three G, _
    unfold three
    rw [Finset.sum_product]
    refine Finset.sum_congr rfl (fun u hu => ?_)
    rw [Finset.sum_product]
    refine Finset.sum_congr rfl (fun v hv => Finset.sum_congr rfl (fun w hw => ?_))
    have ht : (u, v, w) ∈ three G := Finset.mem_product.2 ⟨hu, Finset.mem_product.2 ⟨hv, hw⟩⟩
    rw [selectionProofs_eq hG hK xs _ (fun a ha => hx a (List.mem_cons_of_mem _ ha))]
    have e := disjMake_sim C hG (h := h) hK c.holds c.vote c.nonce ht
    have m1 : elgamalEncrypt G x r K = .ok m := c.made
    have e2 : Shown.selection (elgamalEncrypt G x r K >>= fun c => disjMake G C c r K h x u v w) =
        (disjProver G h K (x, r, m)).proof (u, v, w) (C.sha256 ((disjProver G h K (x, r, m)).place (u, v, w))) := by
      rw [m1, Res.bind_ok]
      exact e
    exact congrArg (fun z => proofs C.sha256 (xs.map (disjProver G h K)) (fun l => f (z :: l))) e2

open Classical in
/-- The proofs of a contest are distributed like the simulated ones. -/
theorem contestView_eq (hG : G.Valid) {X : Finset Str} (hX : HasChallenges X) {h : ℕ} (hh : h < 2 ^ 256) (seed : ℕ) {K : ℕ}
    (hK : Residue G K) (A : ℕ → (X → Fin (2 ^ 256)) → List (Res Ciphertext) → List Shown → ℤ) (l : List (ℕ × ℕ))
    (hne : l ≠ []) (hl : ∀ a ∈ l, a.1 < 2 ∧ a.2 ∈ nonces G) :
    withSimulated G h (l.map Prod.fst).sum A K (l.map (fun a => elgamalEncrypt G a.1 a.2 K)) =
      ((2 ^ 256) ^ (l.length + 1) : ℕ) * contestView G C X h seed K A l := by
  obtain ⟨xs, rfl, hxs⟩ := exists_cast hG hK l hl
  have hxne : xs ≠ [] := by
    rintro rfl
    exact hne rfl
  unfold withSimulated contestView
  by_cases hnd : ((xs.map (fun a => (a.1, a.2.1))).map (fun a => elgamalEncrypt G a.1 a.2 K)).Nodup
  · rw [if_pos hnd, if_pos hnd]
    obtain ⟨acc, hacc, henc⟩ := C12_add_encrypts_sum G hG K xs hxne (fun a ha => (hxs a ha).holds)
    have hq0 : 0 < G.q := by have := hG.q_gt; omega
    have hsum : ((xs.map (fun a => (a.1, a.2.1))).map Prod.fst).sum = (xs.map (fun a => a.1)).sum := by
      rw [List.map_map]
      rfl
    have hR : addModQVec G ((xs.map (fun a => (a.1, a.2.1))).map Prod.snd) = .ok ((xs.map (fun a => a.2.1)).sum % G.q) := by
      rw [List.map_map, C01_add_mod_q_vector G hG _ (by
        intro r hr
        obtain ⟨a, ha, rfl⟩ := List.mem_map.1 hr
        exact le_of_lt (hxs a ha).nonce), if_neg (by simpa using hxne)]
      rfl
    have henc' := henc.mod hG hK
    have hRlt := Nat.mod_lt (xs.map (fun a => a.2.1)).sum hq0
    rw [hsum]
    generalize hsimp : (xs.map (fun a => a.2.1)).sum % G.q = R at hR hRlt henc'
    generalize hLe : (xs.map (fun a => a.1)).sum = L at henc' hsum
    have hsims : simulators G h K L ((xs.map (fun a => (a.1, a.2.1))).map (fun a => elgamalEncrypt G a.1 a.2 K)) =
        constSimulator G h K acc L :: xs.map (fun a => disjSimulator G h K a.2.2) := by
      unfold simulators
      rw [made_map hxs, allOk_map (fun a : ℕ × ℕ × Ciphertext => a.2.2)]
      dsimp only
      rw [hacc]
      dsimp only
      rw [List.map_map]
      rfl
    have hS : List.Forall₂ Simulates (constProver G h K L R acc :: xs.map (disjProver G h K))
        (constSimulator G h K acc L :: xs.map (fun a => disjSimulator G h K a.2.2)) := by
      refine .cons (const_simulates hG hK henc') ?_
      clear hsims hnd hacc henc hR hsum hsimp hLe hxne hne hl
      induction xs with
      | nil => exact .nil
      | cons a xs ih =>
        have c := hxs a (by simp)
        exact .cons (disj_simulates hG hK c.holds c.vote) (ih (fun b hb => hxs b (List.mem_cons_of_mem _ hb)))
    have hP : (constProver G h K L R acc :: xs.map (disjProver G h K)).Pairwise Apart := by
      refine List.pairwise_cons.2 ⟨?_, ?_⟩
      · intro p hp
        obtain ⟨b, -, rfl⟩ := List.mem_map.1 hp
        exact const_apart b
      · rw [List.pairwise_map]
        rw [made_map hxs] at hnd
        have hnd := List.pairwise_map.1 hnd
        refine hnd.imp_of_mem ?_
        intro a b ha hb hab
        exact disj_apart hh hG (hxs a ha).holds (hxs b hb).holds (fun e => hab (congrArg Res.ok e))
    have hM : ∀ p ∈ constProver G h K L R acc :: xs.map (disjProver G h K), ∀ t ∈ p.dom, p.place t ∈ X := by
      intro p hpm
      rcases List.mem_cons.1 hpm with rfl | hpm
      · exact fun u _ => const_mem hG hX hh henc L 0 _
      · obtain ⟨a, ha, rfl⟩ := List.mem_map.1 hpm
        exact fun t _ => disj_mem hG hX hh (hxs a ha).holds 0 _
    rw [hsims, simulated_eq C _ _ _ hS hP hM]
    rw [List.length_cons, List.length_map, List.length_map]
    congr 1
    refine Finset.sum_congr rfl (fun O _ => ?_)
    simp only [proofs]
    refine Finset.sum_congr rfl (fun u hu => ?_)
    rw [selectionProofs_eq _ hG hK xs _ hxs]
    have e := constMake_sim (C.withOracle X O) hG (h := h) hK henc' hRlt seed (Finset.mem_range.1 hu)
    rw [← e]
    unfold contestProof
    rw [made_map hxs, allOk_map (fun a : ℕ × ℕ × Ciphertext => a.2.2), Res.bind_ok, hacc, Res.bind_ok, hR, Res.bind_ok, hsum]
  · rw [if_neg hnd, if_neg hnd, mul_zero]

theorem encrypted_noncesFor (K : ℕ) : ∀ (ms : List ℕ) (f : List (Res Ciphertext) → ℤ),
    encrypted G K ms f = noncesFor G ms (fun l => f (l.map (fun a => elgamalEncrypt G a.1 a.2 K)))
  | [], f => rfl
  | m :: ms, f => by
    simp only [encrypted, noncesFor]
    refine Finset.sum_congr rfl (fun r _ => ?_)
    rw [encrypted_noncesFor K ms]
    rfl

theorem noncesFor_mul (z : ℤ) : ∀ (ms : List ℕ) (f f' : List (ℕ × ℕ) → ℤ),
    (∀ l, l.map Prod.fst = ms → (∀ a ∈ l, a.2 ∈ nonces G) → f l = z * f' l) →
    noncesFor G ms f = z * noncesFor G ms f'
  | [], f, f', h => h [] rfl (by simp)
  | m :: ms, f, f', h => by
    simp only [noncesFor]
    rw [Finset.mul_sum]
    refine Finset.sum_congr rfl (fun r hr => ?_)
    refine noncesFor_mul z ms _ _ (fun l h1 h2 => h _ (by rw [List.map_cons, h1]) ?_)
    intro a ha
    rcases List.mem_cons.1 ha with rfl | ha
    · exact hr
    · exact h2 a ha

/-- C115: the adversary against the votes of a contest with its proofs does as well as the one with simulated proofs
against the ciphertexts alone. -/
theorem C115_simulated (hG : G.Valid) {X : Finset Str} (hX : HasChallenges X) {h : ℕ} (hh : h < 2 ^ 256) (seed : ℕ)
    (A : ℕ → (X → Fin (2 ^ 256)) → List (Res Ciphertext) → List Shown → ℤ) (ms : List ℕ) (hne : ms ≠ [])
    (hms : ∀ m ∈ ms, m < 2) :
    game G (withSimulated G h ms.sum A) ms = ((2 ^ 256) ^ (ms.length + 1) : ℕ) * contestGame G C X h seed A ms := by
  unfold contestGame game
  rw [Finset.mul_sum]
  refine Finset.sum_congr rfl (fun s hs => ?_)
  obtain ⟨k, h1, h2⟩ := pub_eq hG hs
  rw [h1]
  dsimp only
  have hK : Residue G k.pub := by
    rw [h2]
    refine residue_mod hG ?_
    push_cast
    rw [← pow_mul, mul_comm, pow_mul, g_pow_q hG, one_pow]
  rw [encrypted_noncesFor]
  refine noncesFor_mul _ ms _ _ ?_
  rintro l rfl hl
  have := contestView_eq C hG hX hh seed hK A l (by rintro rfl; exact hne rfl)
    (fun a ha => ⟨hms _ (List.mem_map_of_mem ha), hl a ha⟩)
  rw [List.length_map]
  exact this

/-- C115.  An adversary that tells two lists of votes with the same sum apart, by the ciphertexts of the contest, the
proofs of its selections, its own proof, and the hash function, gives distinguishers for the Diffie-Hellman problem: its
advantage is at most the sum of theirs.  (The factor counts the answers the simulator chooses.) -/
theorem C115_secrecy (hG : G.Valid) {X : Finset Str} (hX : HasChallenges X) {h : ℕ} (hh : h < 2 ^ 256) (seed : ℕ)
    (A : ℕ → (X → Fin (2 ^ 256)) → List (Res Ciphertext) → List Shown → ℤ) (ps : List (ℕ × ℕ)) (hne : ps ≠ [])
    (hps : ∀ a ∈ ps, a.1 < 2 ∧ a.2 < 2) (hsum : (ps.map Prod.fst).sum = (ps.map Prod.snd).sum) :
    (G.q : ℤ) * ((2 ^ 256) ^ (ps.length + 1) : ℕ) *
        |contestGame G C X h seed A (ps.map Prod.fst) - contestGame G C X h seed A (ps.map Prod.snd)| ≤
      ((hybrids G (withSimulated G h (ps.map Prod.fst).sum A) ps).map (ddhAdvantage G)).sum := by
  have h1 := C115_simulated C hG hX hh seed A (ps.map Prod.fst) (by simpa using hne)
    (by intro m hm; obtain ⟨a, ha, rfl⟩ := List.mem_map.1 hm; exact (hps a ha).1)
  have h2 := C115_simulated C hG hX hh seed A (ps.map Prod.snd) (by simpa using hne)
    (by intro m hm; obtain ⟨a, ha, rfl⟩ := List.mem_map.1 hm; exact (hps a ha).2)
  rw [← hsum] at h2
  have h3 := C110_secrecy hG ps (withSimulated G h (ps.map Prod.fst).sum A)
  rw [List.length_map] at h1 h2
  rw [h1, h2, ← mul_sub, abs_mul, Nat.abs_cast, ← mul_assoc] at h3
  exact h3

/-! ## How much is left out -/

theorem noncesFor_le : ∀ (ms : List ℕ) (f f' : List (ℕ × ℕ) → ℤ),
    (∀ l, l.map Prod.fst = ms → (∀ a ∈ l, a.2 ∈ nonces G) → f l ≤ f' l) → noncesFor G ms f ≤ noncesFor G ms f'
  | [], f, f', h => h [] rfl (by simp)
  | m :: ms, f, f', h => by
    simp only [noncesFor]
    refine Finset.sum_le_sum (fun r hr => noncesFor_le ms _ _ (fun l h1 h2 => h _ (by rw [List.map_cons, h1]) ?_))
    intro a ha
    rcases List.mem_cons.1 ha with rfl | ha
    · exact hr
    · exact h2 a ha

theorem noncesFor_sum : ∀ (ms : List ℕ) (f : ℕ → List (ℕ × ℕ) → ℤ) (R : Finset ℕ),
    ∑ r ∈ R, noncesFor G ms (f r) = noncesFor G ms (fun l => ∑ r ∈ R, f r l)
  | [], f, R => rfl
  | m :: ms, f, R => by
    simp only [noncesFor]
    rw [Finset.sum_comm]
    refine Finset.sum_congr rfl (fun x _ => ?_)
    exact noncesFor_sum ms (fun r l => f r ((m, x) :: l)) R

theorem noncesFor_const (z : ℤ) : ∀ ms : List ℕ, noncesFor G ms (fun _ => z) = ((nonces G).card : ℤ) ^ ms.length * z
  | [] => by simp [noncesFor]
  | m :: ms => by
    simp only [noncesFor]
    rw [noncesFor_const z ms, Finset.sum_const, nsmul_eq_mul, List.length_cons, pow_succ]
    ring

theorem noncesFor_add : ∀ (ms : List ℕ) (f f' : List (ℕ × ℕ) → ℤ),
    noncesFor G ms (fun l => f l + f' l) = noncesFor G ms f + noncesFor G ms f'
  | [], f, f' => rfl
  | m :: ms, f, f' => by
    simp only [noncesFor]
    rw [← Finset.sum_add_distrib]
    exact Finset.sum_congr rfl (fun r _ => noncesFor_add ms _ _)

open Classical in
/-- C115: two ciphertexts of a contest are the same for at most the part `k (k - 1) / (2 (q - 1))` of the nonces of `k`
votes. -/
theorem C115_coincidences (hG : G.Valid) {s : ℕ} (hs : s ∈ secrets G) : ∀ ms : List ℕ, ∃ k, keyFromSecret G s = .ok k ∧
    2 * ((nonces G).card : ℤ) * noncesFor G ms (fun l =>
      if (l.map (fun a => elgamalEncrypt G a.1 a.2 k.pub)).Nodup then 0 else 1) ≤
      ms.length * (ms.length - 1) * ((nonces G).card : ℤ) ^ ms.length := by
  obtain ⟨k, h1, h2⟩ := pub_eq hG hs
  refine fun ms => ⟨k, h1, ?_⟩
  rw [h2]
  clear h1 h2 k
  let enc : ℕ × ℕ → Res Ciphertext := fun a => elgamalEncrypt G a.1 a.2 (G.g ^ s % G.p)
  show 2 * ((nonces G).card : ℤ) * noncesFor G ms (fun l => if (l.map enc).Nodup then 0 else 1) ≤ _
  generalize hn : ((nonces G).card : ℤ) = n
  have hn0 : 0 ≤ n := by rw [← hn]; positivity
  induction ms with
  | nil => simp [noncesFor]
  | cons m ms ih =>
    have one : ∀ l : List (ℕ × ℕ), (∀ a ∈ l, a.2 ∈ nonces G) →
        ∑ r ∈ nonces G, (if enc (m, r) ∈ l.map enc then (1 : ℤ) else 0) ≤ l.length := by
      intro l hl
      rw [Finset.sum_boole, Nat.cast_le]
      have : (nonces G).filter (fun r => enc (m, r) ∈ l.map enc) ⊆ (l.map Prod.snd).toFinset := by
        intro r hr
        obtain ⟨hr1, hr2⟩ := Finset.mem_filter.1 hr
        obtain ⟨a, ha, he⟩ := List.mem_map.1 hr2
        have := (encrypt_ne hG (hl a ha) hr1 he).1
        rw [List.mem_toFinset]
        exact List.mem_map.2 ⟨a, ha, this⟩
      refine (Finset.card_le_card this).trans ((List.toFinset_card_le _).trans ?_)
      rw [List.length_map]
    have step : noncesFor G (m :: ms) (fun l => if (l.map enc).Nodup then 0 else 1) ≤
        n * noncesFor G ms (fun l => if (l.map enc).Nodup then 0 else 1) + n ^ ms.length * ms.length := by
      simp only [noncesFor]
      rw [noncesFor_sum]
      have h3 : noncesFor G ms (fun l => n * (if (l.map enc).Nodup then 0 else 1) + (ms.length : ℤ)) =
          n * noncesFor G ms (fun l => if (l.map enc).Nodup then 0 else 1) + n ^ ms.length * ms.length := by
        rw [noncesFor_add, noncesFor_const, hn, noncesFor_mul n ms _ (fun l => if (l.map enc).Nodup then 0 else 1)
          (fun l _ _ => rfl)]
      rw [← h3]
      refine noncesFor_le ms _ _ (fun l hl1 hl2 => ?_)
      have h4 := one l hl2
      have h5 : l.length = ms.length := by rw [← hl1, List.length_map]
      rw [h5] at h4
      refine le_trans ?_ (add_le_add_right h4 (n * (if (l.map enc).Nodup then 0 else 1)))
      rw [← hn, ← nsmul_eq_mul, ← Finset.sum_const, ← Finset.sum_add_distrib]
      refine Finset.sum_le_sum (fun r _ => ?_)
      rw [List.map_cons]
      by_cases c1 : enc (m, r) ∈ l.map enc <;> by_cases c2 : (l.map enc).Nodup <;>
        simp only [List.nodup_cons, c1, c2, not_true, not_false_eq_true, false_and, and_self, and_false, if_true, if_false] <;>
        norm_num
    rw [List.length_cons]
    push_cast
    have h6 := mul_le_mul_of_nonneg_left step (show 0 ≤ 2 * n by positivity)
    have h7 := mul_le_mul_of_nonneg_left ih hn0
    have h8 : n ^ (ms.length + 1) = n * n ^ ms.length := pow_succ' _ _
    rw [h8]
    generalize n ^ ms.length = z at *
    nlinarith

/-- The hypotheses, and votes to be told apart: two ways to vote once among three. -/
example : Params.Valid .std ∧ (∃ X : Finset Str, HasChallenges X) ∧
    (∀ a ∈ [(1, 0), (0, 1), (0, 0)], a.1 < 2 ∧ a.2 < 2) ∧
    ([(1, 0), (0, 1), (0, 0)].map Prod.fst).sum = ([(1, 0), (0, 1), (0, 0)].map Prod.snd).sum :=
  ⟨C54_std_valid, exists_challenges, by decide, by decide⟩

end EG.Secrecy
