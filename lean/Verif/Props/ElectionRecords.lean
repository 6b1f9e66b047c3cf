import Verif.Props.ElectionProofs
import Verif.Props.WriteInsOracle

/-!
# C123: the records of an election stay secret with nonces computed from the nonces of the ballots

C117 and C122 together.  The items of the layout are divided into `m` whose messages -- the records of overvotes and
write-ins -- are to be secret, and others, `T`, whose nonces are given away: all votes may be known, say.
-/

namespace EG.Records

open EG.Derived EG.Derive EG.WriteIns EG.Published
open EG.Secrecy (secrets)
open EG.Derived (Coins rate_iff secrets_nonempty hashing_bound)

variable {B K L T : Type} {m k : ℕ}

/-- Whoever tries to find out something on the records.  It sees the public key, the random numbers of the proofs of all
contests, the nonces of the items `T` and the hashed ciphertexts of the others; then it may hash `k` strings. -/
abbrev Adversary (K T : Type) (k : ℕ) : Type := ℕ → (K → ℕ) → (T → ℕ) → List (Res HashedCiphertext) → Prog Bool k

/-- The arguments with which a contest's record is encrypted (encrypt.cpp:516-518). -/
def item (ext : ℕ) (message : List UInt8) : Item := ⟨message, ext, bytes512, true⟩

/-- It answers yes, for the records `ms`, with the secret key `s`, the hash function that is `O` on `X`, and given random
numbers of the proofs and nonces. -/
def Yes (G : Params) (C : Crypto) (X : Finset Str) (ext : ℕ) (e : Fin m ⊕ T ≃ L) (A : Adversary K T k)
    (ms : Fin m → List UInt8) (s : ℕ) (O : Oracles X) (us : K → ℕ) (ns : L → ℕ) : Prop :=
  ∃ key, keyFromSecret G s = .ok key ∧
    (A key.pub us (fun t => ns (e (.inr t)))
      (List.ofFn fun i => (item ext (ms i)).encrypt G (C.withOracle X O) (ns (e (.inl i))) key.pub)).run
        (oracle C.sha256 X O) = true

/-- How often it answers yes for the records `ms`, among all secret keys, all nonces of ballots in `S`, and all functions
in place of SHA-256. -/
noncomputable def rate (E : Layout B K L) (G : Params) (C : Crypto) (e : Fin m ⊕ T ≃ L) (S : Finset ℕ) (X : Finset Str)
    (ext : ℕ) (A : Adversary K T k) (ms : Fin m → List UInt8) : ℚ :=
  freq (fun p : secrets G × (B → S) × Oracles X =>
    Yes G C X ext e A ms p.1 p.2.2 (E.proofNonce G (C.withOracle X p.2.2) (fun b => p.2.1 b))
      (E.nonce G (C.withOracle X p.2.2) (fun b => p.2.1 b)))

open Classical in
/-- How often the adversary answers yes, given what it sees of the key and the records, on average over digests in place of
the random numbers of the proofs and of the nonces of `T`. -/
noncomputable def average [Fintype K] [Fintype T] (G : Params) (C : Crypto) (X : Finset Str) (A : Adversary K T k) :
    Oracles X → ℕ → List (Res HashedCiphertext) → ℚ :=
  fun O pub cs => mean Finset.univ (fun o : (K → Fin (2 ^ 256)) × (T → Fin (2 ^ 256)) =>
    if (A pub (fun c => addModQ G (o.1 c) 0) (fun t => addModQ G (o.2 t) 0) cs).run (oracle C.sha256 X O) then 1 else 0)

/-- Two ways to fill in the records. -/
def pairs (ext : ℕ) (ms ms' : Fin m → List UInt8) : List Pair :=
  records (List.ofFn fun i => (ms i, ms' i, ext))

/-! ## Averages and frequencies -/

theorem freq_mean {α : Type} [Fintype α] (P : α → Prop) [DecidablePred P] :
    freq P = mean Finset.univ (fun a => if P a then (1 : ℚ) else 0) := by
  rw [freq_eq, Derive.cnt_eq, mean, Finset.sum_boole, Finset.card_univ]

theorem mean_univ_prod {α β : Type} [Fintype α] [Fintype β] (f : α × β → ℚ) :
    mean Finset.univ f = mean Finset.univ (fun a => mean Finset.univ (fun b => f (a, b))) := by
  unfold mean
  rw [Fintype.sum_prod_type, ← Finset.sum_div, Finset.card_univ, Fintype.card_prod, Nat.cast_mul, div_div, mul_comm,
    Finset.card_univ, Finset.card_univ]

theorem mean_coe {α : Type} (s : Finset α) (f : α → ℚ) : mean (Finset.univ : Finset s) (fun a => f a) = mean s f := by
  unfold mean
  rw [Finset.sum_coe_sort s f, Finset.card_univ, Fintype.card_coe]

theorem mean_equiv {α β : Type} [Fintype α] [Fintype β] (e : α ≃ β) (f : β → ℚ) :
    mean Finset.univ (fun a => f (e a)) = mean Finset.univ f := by
  unfold mean
  rw [Equiv.sum_comp e f, Finset.card_univ, Finset.card_univ, Fintype.card_congr e]

theorem encrypted_ofFn (G : Params) (C : Crypto) (pub : ℕ) : ∀ {m : ℕ} (ms : Fin m → Item)
    (f : List (Res HashedCiphertext) → ℚ), encrypted G C pub (List.ofFn ms) f =
      mean (Finset.univ : Finset (Fin m → nonces G)) (fun r => f (List.ofFn fun i => (ms i).encrypt G C (r i) pub))
  | 0, ms, f => by
    unfold mean
    rw [Fintype.sum_unique]
    simp [encrypted]
  | m + 1, ms, f => by
    rw [List.ofFn_succ, encrypted, ← mean_equiv (Fin.consEquiv fun _ => nonces G), mean_univ_prod, ← mean_coe]
    refine mean_congr (fun x _ => ?_)
    rw [encrypted_ofFn]
    refine mean_congr (fun r _ => ?_)
    rw [List.ofFn_succ]
    rfl

variable {E : Layout B K L} {G : Params} {C : Crypto} {X : Finset Str} {ext : ℕ}

/-! ## First step: random numbers in place of hashes -/

theorem yes_iff (hG : G.Valid) (e : Fin m ⊕ T ≃ L) (A : Adversary K T k) (ms : Fin m → List UInt8) {s : ℕ}
    (hs : s ∈ secrets G) (O : Oracles X) (us : K → ℕ) (ns : L → ℕ) :
    Yes G C X ext e A ms s O us ns ↔ (A (G.g ^ s % G.p) us (fun t => ns (e (.inr t)))
      (List.ofFn fun i => (item ext (ms i)).encrypt G (C.withOracle X O) (ns (e (.inl i))) (G.g ^ s % G.p))).run
        (oracle C.sha256 X O) = true := by
  obtain ⟨key, h1, h2⟩ := Secrecy.pub_eq hG hs
  unfold Yes
  rw [← h2]
  constructor
  · rintro ⟨key', h3, h4⟩
    rw [h1] at h3
    cases h3
    exact h4
  · exact fun h => ⟨key, h1, h⟩

/-- The program that makes the ciphertexts itself, asking for the digests of the session keys. -/
theorem asks (G : Params) (C : Crypto) (X : Finset Str) (ext : ℕ) (e : Fin m ⊕ T ≃ L) (A : Adversary K T k)
    (ms : Fin m → List UInt8) (pub : ℕ) : ∃ A' : (K → ℕ) → (L → ℕ) → Prog Bool (k + m), ∀ us ns (O : Oracles X),
    (A' us ns).run (oracle C.sha256 X O) = (A pub us (fun t => ns (e (.inr t)))
      (List.ofFn fun i => (item ext (ms i)).encrypt G (C.withOracle X O) (ns (e (.inl i))) pub)).run
        (oracle C.sha256 X O) := by
  choose h hh using fun (i : Fin m) (r : ℕ) =>
    encryptWith_oracle (G := G) (C := C) (X := X) (item ext (ms i)) (gPowP G r) (powModP G pub r)
  refine ⟨fun us ns => askFin m (fun i => sessionInput (gPowP G (ns (e (.inl i)))) (powModP G pub (ns (e (.inl i)))))
    (fun ys => A pub us (fun t => ns (e (.inr t))) (List.ofFn fun i => h i (ns (e (.inl i))) (ys i))), fun us ns O => ?_⟩
  rw [askFin_run]
  simp only [encrypt_with, hh]

/-- The same with random digests in place of the random numbers of the proofs and the nonces. -/
noncomputable def rateRandom (G : Params) (C : Crypto) (e : Fin m ⊕ T ≃ L) (X : Finset Str) (ext : ℕ) (A : Adversary K T k)
    (ms : Fin m → List UInt8) : ℚ :=
  freq (fun p : secrets G × (Leaf K L → Fin (2 ^ 256)) × Oracles X =>
    Yes G C X ext e A ms p.1 p.2.2 (fun c => addModQ G (p.2.1 (.proof c)) 0) (fun i => addModQ G (p.2.1 (.item i)) 0))

theorem rate_random [Fintype B] [Fintype K] [Fintype L] [Nonempty (secrets G)] (hG : G.Valid) (hE : E.Proper)
    (e : Fin m ⊕ T ≃ L) {S : Finset ℕ} (hne : S.Nonempty) (hS : ∀ s ∈ S, s < 2 ^ 256) (hX : E.strings G C S ⊆ X)
    (A : Adversary K T k) (ms : Fin m → List UInt8) :
    |rate E G C e S X ext A ms - rateRandom G C e X ext A ms| ≤ (Fintype.card B * (k + m : ℕ) : ℚ) / S.card +
      (5 * Fintype.card K + 2 * Fintype.card L) * ((k + m : ℕ) + (5 * Fintype.card K + 2 * Fintype.card L)) *
        fibre G / 2 ^ 256 := by
  classical
  refine freq_average _ _ _ ?_
  rintro ⟨s, hs⟩
  obtain ⟨A', hA'⟩ := asks G C X ext e A ms (G.g ^ s % G.p)
  have h := C117_random (E := E) (C := C) hG hE hne hS hX A'
  simp only [hA'] at h
  simp only [yes_iff hG e A ms hs]
  exact h

/-! ## Second step: the digests that are below `q` already -/

/-- The same with nonces below `q` for the secret records. -/
noncomputable def rateIdeal (G : Params) (C : Crypto) (X : Finset Str) (ext : ℕ) (A : Adversary K T k)
    (ms : Fin m → List UInt8) : ℚ :=
  freq (fun p : secrets G × (Fin m → nonces G) × Coins K T X =>
    (A (G.g ^ (p.1 : ℕ) % G.p) (fun c => addModQ G (p.2.2.1 c) 0) (fun t => addModQ G (p.2.2.2.1 t) 0)
      (List.ofFn fun i => (item ext (ms i)).encrypt G (C.withOracle X p.2.2.2.2) (p.2.1 i) (G.g ^ (p.1 : ℕ) % G.p))).run
        (oracle C.sha256 X p.2.2.2.2) = true)

/-- Whatever is computed from digests in place of nonces. -/
theorem embed [Fintype K] [Fintype L] [Fintype T] (hG : G.Valid) (e : Fin m ⊕ T ≃ L) (X : Finset Str)
    (P : (K → ℕ) → (T → ℕ) → (Fin m → ℕ) → Oracles X → Prop) :
    |freq (fun p : (Leaf K L → Fin (2 ^ 256)) × Oracles X => P (fun c => addModQ G (p.1 (.proof c)) 0)
        (fun t => addModQ G (p.1 (.item (e (.inr t)))) 0) (fun i => addModQ G (p.1 (.item (e (.inl i)))) 0) p.2) -
      freq (fun p : (Fin m → nonces G) × Coins K T X => P (fun c => addModQ G (p.2.1 c) 0)
        (fun t => addModQ G (p.2.2.1 t) 0) (fun i => p.1 i) p.2.2.2)| ≤
      m * ((2 ^ 256 - G.q : ℚ) / 2 ^ 256) := by
  classical
  have hlt : ∀ r : nonces G, (r : ℕ) < G.q := fun r => Finset.mem_range.1 r.2
  have hq := hG.q_lt
  let φ : (Fin m → nonces G) × Coins K T X → (Leaf K L → Fin (2 ^ 256)) × Oracles X := fun p =>
    (fun x => match x with
      | .proof c => p.2.1 c
      | .item i => match e.symm i with
        | .inl j => ⟨p.1 j, (hlt _).trans hq⟩
        | .inr t => p.2.2.1 t, p.2.2.2)
  have hφ : Function.Injective φ := by
    rintro ⟨r, x, y, O⟩ ⟨r', x', y', O'⟩ h
    have h1 := fun z => congrFun (congrArg Prod.fst h) z
    have h2 : O = O' := congrArg Prod.snd h
    have h3 : x = x' := funext fun c => h1 (.proof c)
    have h4 : y = y' := by
      funext t
      have := h1 (.item (e (.inr t)))
      simpa [φ] using this
    have h5 : r = r' := by
      funext j
      have := h1 (.item (e (.inl j)))
      simp only [φ, Equiv.symm_apply_apply, Fin.mk.injEq] at this
      exact Subtype.ext this
    rw [h2, h3, h4, h5]
  have hone : Nonempty ((Fin m → nonces G) × Coins K T X) :=
    ⟨fun _ => ⟨0, Finset.mem_range.2 (by have := hG.q_gt; omega)⟩, fun _ => 0, fun _ => 0, fun _ => 0⟩
  have key := freq_embed φ hφ (fun p => P (fun c => addModQ G (p.1 (.proof c)) 0)
        (fun t => addModQ G (p.1 (.item (e (.inr t)))) 0) (fun i => addModQ G (p.1 (.item (e (.inl i)))) 0) p.2)
  have hred : ∀ r : nonces G, addModQ G r 0 = r := by
    intro r
    rw [addModQ_zero hG _ (by have := hlt r; omega), Nat.mod_eq_of_lt (hlt r)]
  simp only [φ, Equiv.symm_apply_apply, hred] at key
  refine key.trans ?_
  have hL : Fintype.card L = m + Fintype.card T := by
    rw [← Fintype.card_congr e, Fintype.card_sum, Fintype.card_fin]
  have hLeaf : Fintype.card (Leaf K L) = Fintype.card K + (m + Fintype.card T) := by
    rw [← Fintype.card_congr leafEquiv, Fintype.card_sum, hL]
  have hn : Fintype.card (nonces G) = G.q := by rw [Fintype.card_coe, nonces, Finset.card_range]
  have hle : (G.q : ℚ) ≤ 2 ^ 256 := by exact_mod_cast hq.le
  have h0 : (0 : ℚ) ≤ G.q := Nat.cast_nonneg _
  rw [Fintype.card_prod, Fintype.card_prod, Fintype.card_prod, Fintype.card_prod]
  simp only [-Nat.reducePow, Fintype.card_fun, Fintype.card_fin, hLeaf, hn]
  generalize G.q = a at *
  simp only [-Nat.reducePow, Nat.cast_mul, Nat.cast_pow, Nat.cast_ofNat]
  have hN : (0 : ℚ) < 2 ^ 256 := by positivity
  generalize (2 : ℚ) ^ 256 = N at *
  have e1 : (a : ℚ) ^ m * (N ^ Fintype.card K * (N ^ Fintype.card T * N ^ Fintype.card X)) /
      (N ^ (Fintype.card K + (m + Fintype.card T)) * N ^ Fintype.card X) = (1 + -((N - a) / N)) ^ m := by
    have : 1 + -((N - (a : ℚ)) / N) = a / N := by field_simp; ring
    rw [this, div_pow, pow_add, pow_add]
    field_simp
  rw [e1]
  have h1 : -2 ≤ -((N - (a : ℚ)) / N) := by
    have : (N - (a : ℚ)) / N ≤ 1 := (div_le_one hN).2 (by linarith)
    linarith
  have := one_add_mul_le_pow h1 m
  linarith

theorem random_ideal [Fintype K] [Fintype L] [Fintype T] [Nonempty (secrets G)] (hG : G.Valid) (e : Fin m ⊕ T ≃ L)
    (A : Adversary K T k) (ms : Fin m → List UInt8) :
    |rateRandom G C e X ext A ms - rateIdeal G C X ext A ms| ≤ m * ((2 ^ 256 - G.q : ℚ) / 2 ^ 256) := by
  classical
  refine freq_average _ _ _ ?_
  rintro ⟨s, hs⟩
  simp only [yes_iff hG e A ms hs]
  exact embed hG e X (fun us ts rs O => (A (G.g ^ s % G.p) us ts
    (List.ofFn fun i => (item ext (ms i)).encrypt G (C.withOracle X O) (rs i) (G.g ^ s % G.p))).run
      (oracle C.sha256 X O) = true)

/-! ## Third step: C122 -/

theorem ideal_eq [Fintype K] [Fintype T] (hG : G.Valid) (A : Adversary K T k) (ms : Fin m → List UInt8) :
    rateIdeal G C X ext A ms = meanO X (fun O => game G (C.withOracle X O) (average G C X A O)
      (List.ofFn fun i => item ext (ms i))) := by
  classical
  rw [rateIdeal, freq_mean, mean_univ_prod]
  have e1 : ∀ O : Oracles X, game G (C.withOracle X O) (average G C X A O) (List.ofFn fun i => item ext (ms i)) =
      mean (Finset.univ : Finset (secrets G)) (fun s => mean (Finset.univ : Finset (Fin m → nonces G)) (fun r =>
        average G C X A O (G.g ^ (s : ℕ) % G.p) (List.ofFn fun i =>
          (item ext (ms i)).encrypt G (C.withOracle X O) (r i) (G.g ^ (s : ℕ) % G.p)))) := by
    intro O
    rw [game_eq hG, ← mean_coe]
    exact mean_congr (fun s _ => encrypted_ofFn _ _ _ _ _)
  unfold meanO
  rw [mean_congr (fun O _ => e1 O), mean_comm (Finset.univ : Finset (Oracles X))]
  refine mean_congr (fun s _ => ?_)
  rw [mean_univ_prod, mean_comm (Finset.univ : Finset (Oracles X))]
  refine mean_congr (fun r _ => ?_)
  rw [← mean_equiv (Equiv.prodAssoc (K → Fin (2 ^ 256)) (T → Fin (2 ^ 256)) (Oracles X)), mean_univ_prod]
  refine (mean_comm _ _ _).trans ?_
  refine mean_congr (fun O _ => ?_)
  unfold average
  refine mean_congr (fun o _ => ?_)
  rfl

theorem average_slow [Fintype K] [Fintype T] (A : Adversary K T k) (pub : ℕ) (cs : List (Res HashedCiphertext)) :
    Slow k (fun O => average G C X A O pub cs) := by
  unfold average
  exact Slow.mean _ (fun o => prog_slow _)

/-- **C123.**  Whoever tells two ways to fill in the records apart, by the hashed ciphertexts of any ballots whose nonces
are computed from the nonces of the ballots, solves the decisional Diffie-Hellman problem, or tells HMAC with a random
key from random blocks, or guesses.  It may know the nonces of all votes. -/
theorem C123_secrecy [Fintype B] [Fintype K] [Fintype L] [Fintype T] (hG : G.Valid) (hq : 2 < G.q) (hE : E.Proper)
    (e : Fin m ⊕ T ≃ L) {S : Finset ℕ} (hne : S.Nonempty) (hS : ∀ s ∈ S, s < 2 ^ 256) (hX : E.strings G C S ⊆ X)
    (hY : ∀ r t, sessionInput (G.g ^ r % G.p) (G.g ^ t % G.p) ∈ X) (ext : ℕ) (A : Adversary K T k)
    (ms ms' : Fin m → List UInt8) :
    |rate E G C e S X ext A ms - rate E G C e S X ext A ms'| ≤
      lossOracle G C X (average G C X A) (pairs ext ms ms') + 2 * m * (k + m) / G.q +
      2 * ((Fintype.card B * (k + m : ℕ) : ℚ) / S.card +
        (5 * Fintype.card K + 2 * Fintype.card L) * ((k + m : ℕ) + (5 * Fintype.card K + 2 * Fintype.card L)) *
          fibre G / 2 ^ 256 + m * ((2 ^ 256 - G.q : ℚ) / 2 ^ 256)) := by
  have := secrets_nonempty hq
  have h1 := rate_random (E := E) (C := C) (ext := ext) hG hE e hne hS hX A ms
  have h1' := rate_random (E := E) (C := C) (ext := ext) hG hE e hne hS hX A ms'
  have h2 := random_ideal (C := C) (X := X) (ext := ext) hG e A ms
  have h2' := random_ideal (C := C) (X := X) (ext := ext) hG e A ms'
  have h3 := oracle_secrecy (C := C) hG hY (pairs ext ms ms') (average G C X A) (average_slow A) (fun p hp => by
    obtain ⟨x, -, rfl⟩ := List.mem_map.1 hp
    exact ⟨16, by norm_num, fills_512 _ _, fills_512 _ _⟩)
  have l1 : (pairs ext ms ms').map Pair.one = List.ofFn fun i => item ext (ms i) := by
    unfold pairs records
    rw [List.map_map, List.map_ofFn]
    rfl
  have l2 : (pairs ext ms ms').map Pair.two = List.ofFn fun i => item ext (ms' i) := by
    unfold pairs records
    rw [List.map_map, List.map_ofFn]
    rfl
  have l3 : (pairs ext ms ms').length = m := by
    unfold pairs records
    rw [List.length_map, List.length_ofFn]
  rw [l1, l2, l3, ← ideal_eq hG, ← ideal_eq hG] at h3
  generalize rate E G C e S X ext A ms = a at *
  generalize rate E G C e S X ext A ms' = a' at *
  generalize rateRandom G C e X ext A ms = b at *
  generalize rateRandom G C e X ext A ms' = b' at *
  generalize rateIdeal G C X ext A ms = c at *
  generalize rateIdeal G C X ext A ms' = c' at *
  have t1 := abs_sub_le a b c
  have t2 := abs_sub_le a c c'
  have t3 := abs_sub_le a c' b'
  have t4 := abs_sub_le a b' a'
  rw [abs_sub_comm c' b'] at t3
  rw [abs_sub_comm b' a'] at t4
  linarith

/-- With the standard parameters, ballot nonces drawn from all exponents, up to 2^40 ballots, contests and items, and 2^79
hashes, only the advantages of the distinguishers are left, up to 2^-126. -/
theorem C123_standard [Fintype B] [Fintype K] [Fintype L] [Fintype T] (hE : E.Proper) (e : Fin m ⊕ T ≃ L)
    (hB : Fintype.card B ≤ 2 ^ 40) (hK : Fintype.card K ≤ 2 ^ 40) (hL : Fintype.card L ≤ 2 ^ 40) (hk : k ≤ 2 ^ 79)
    (hX : E.strings .std C (Finset.range Params.std.q) ⊆ X)
    (hY : ∀ r t, sessionInput (Params.std.g ^ r % Params.std.p) (Params.std.g ^ t % Params.std.p) ∈ X) (ext : ℕ)
    (A : Adversary K T k) (ms ms' : Fin m → List UInt8) :
    |rate E .std C e (Finset.range Params.std.q) X ext A ms - rate E .std C e (Finset.range Params.std.q) X ext A ms'| <
      lossOracle .std C X (average .std C X A) (pairs ext ms ms') + 1 / 2 ^ 126 := by
  have hV := C54_std_valid
  have hq := hV.q_gt
  have hq2 : 2 < Params.std.q := by decide +kernel
  have h := C123_secrecy (C := C) hV hq2 hE e ⟨0, Finset.mem_range.2 (by omega)⟩
    (fun s hs => (Finset.mem_range.1 hs).trans hV.q_lt) hX hY ext A ms ms'
  rw [Finset.card_range] at h
  have hm : m ≤ 2 ^ 40 := by
    rw [← Fintype.card_congr e, Fintype.card_sum, Fintype.card_fin] at hL
    omega
  have h1 := hashing_bound hB hK hL (show k + m ≤ 2 ^ 80 by
    have : (2 : ℕ) ^ 79 + 2 ^ 40 ≤ 2 ^ 80 := by norm_num
    omega)
  have hm' : (m : ℚ) ≤ 2 ^ 40 := by exact_mod_cast hm
  have hk' : (k : ℚ) ≤ 2 ^ 79 := by exact_mod_cast hk
  have h0 : (0 : ℚ) ≤ m := Nat.cast_nonneg _
  have h0' : (0 : ℚ) ≤ k := Nat.cast_nonneg _
  have hc : (Params.std.q : ℚ) = 2 ^ 256 - 189 := by
    have : Params.std.q = 2 ^ 256 - 189 := by decide +kernel
    rw [this]
    norm_num
  rw [hc] at h h1
  have h2 : (m : ℚ) * ((2 ^ 256 - (2 ^ 256 - 189)) / 2 ^ 256) ≤ 2 ^ 40 * ((2 ^ 256 - (2 ^ 256 - 189)) / 2 ^ 256) :=
    mul_le_mul_of_nonneg_right hm' (by norm_num)
  have h4 : (2 * m * (k + m) : ℚ) / (2 ^ 256 - 189) ≤ 2 * 2 ^ 40 * (2 ^ 79 + 2 ^ 40) / (2 ^ 256 - 189) := by
    refine div_le_div_of_nonneg_right ?_ (by norm_num)
    exact mul_le_mul (by linarith) (by linarith) (by linarith) (by norm_num)
  have h3 : (2 * 2 ^ 40 * (2 ^ 79 + 2 ^ 40) : ℚ) / (2 ^ 256 - 189) +
    2 * (1 / 2 ^ 128 + 2 ^ 40 * ((2 ^ 256 - (2 ^ 256 - 189)) / 2 ^ 256)) < 1 / 2 ^ 126 := by norm_num
  linarith

/-! ## The ciphertexts of the library -/

section

open EG.NonceUse

variable {S : StdSort}

/-- The record of a contest is the encryption of what `overvoteAndWriteIns` makes of the contest, with the nonce for its
place. -/
def Recorded (G : Params) (C : Crypto) (S : StdSort) (m : IManifest) (pub ext seed : ℕ) (c : PContest) (d : ContestDescP)
    (e : CContest) : Prop :=
  ∃ x check, e.extended = some x ∧ e.objectId = c.objectId ∧ d.desc.hash G C = .ok e.descHash ∧
    (check = .success ∨ check = .overvote) ∧
    (item ext (overvoteAndWriteIns S m c check).bytes).encrypt G C (hashElems G C [.q (hashElems G C
      [.q (hashElems G C [.q (hashElems G C [.q e.descHash, .q seed]), .u64 e.seq]),
        .str "constant-extended-data".toList]), .u64 0]) pub = .ok x ∧
    c.isValid d.desc.objectId (d.desc.getSelections S).length d.desc.numberElected d.desc.votesAllowed true = check

theorem extended_recorded {data : Str} {cn pub ext : ℕ} {w w' : World} {x : HashedCiphertext} (hw : w.Empty)
    (h : encryptExtended G C data cn pub ext w = (.ok x, w')) :
    (item ext data.bytes).encrypt G C (hashElems G C [.q (hashElems G C [.q cn, .str "constant-extended-data".toList]),
      .u64 0]) pub = .ok x := by
  unfold encryptExtended at h
  simp only [M.bind_eq_ok, M.getTriple, PreState.getTriple, hw.1, M.lift, Prod.mk.injEq, Res.ok.injEq] at h
  obtain ⟨t, w1, ⟨rfl, rfl⟩, hx, rfl⟩ := h
  exact hx

theorem contest_recorded (hG : G.Valid) {c : PContest} {m : IManifest} {d : ContestDescP} {pub ext seed : ℕ}
    {v : Bool} {w w' : World} {e : CContest} (hw : w.Empty)
    (h : encryptContest G C S c m d pub ext seed v w = (.ok e, w')) :
    Recorded G C S m pub ext seed c d e ∧ w'.Empty := by
  refine ⟨?_, (contest_nonces hG hw h).2⟩
  unfold encryptContest at h
  dsimp only at h
  split at h
  · simp [M.raise] at h
  rename_i hcheck
  rw [M.bind_eq_ok] at h
  obtain ⟨dh, w0, h0, h⟩ := h
  simp only [M.lift, Prod.mk.injEq] at h0
  obtain ⟨hdh, rfl⟩ := h0
  rw [M.bind_eq_ok] at h
  obtain ⟨rs, w1, h1, h⟩ := h
  rw [M.bind_eq_ok] at h
  obtain ⟨ps, w2, h2, h⟩ := h
  rw [M.bind_eq_ok] at h
  obtain ⟨x, w3, h3, h⟩ := h
  rw [M.bind_eq_ok] at h
  obtain ⟨e', w4, h4, h⟩ := h
  obtain ⟨-, b1⟩ := real_facts hG _ hw h1
  obtain ⟨-, b2⟩ := placeholder_facts hG _ b1 h2
  have a3 := extended_recorded b2 h3
  have he : e = e' := by
    split at h
    · simp only [M.ret, Prod.mk.injEq, Res.ok.injEq] at h
      exact h.1.symm
    · rw [M.bind_eq_ok] at h
      obtain ⟨b, w5, h5, h⟩ := h
      simp only [M.lift, Prod.mk.injEq] at h5
      obtain ⟨-, rfl⟩ := h5
      split at h
      · simp only [M.ret, Prod.mk.injEq, Res.ok.injEq] at h
        exact h.1.symm
      · simp [M.raise] at h
  subst he
  unfold CContest.make at h4
  simp only [M.bind_eq_ok, M.lift, M.getTriple, PreState.getTriple, M.ret, Prod.mk.injEq, Res.ok.injEq] at h4
  obtain ⟨ch, w5, ⟨hch, rfl⟩, acc, w6, ⟨hacc, rfl⟩, agg, w7, ⟨hagg, rfl⟩, t, w8, ⟨rfl, rfl⟩, π, w9,
    ⟨hπ, rfl⟩, rfl, rfl⟩ := h4
  exact ⟨x, _, rfl, rfl, hdh, by tauto, a3, rfl⟩

/-- **C123.**  The hashed ciphertexts of a ballot encrypted by the library are those of the theorem: each is the
encryption of the record of overvotes and write-ins of a contest, with the nonce of its place in the layout. -/
theorem C123_encrypts (hG : G.Valid) {b : PBallot} {m : IManifest} {ctx : Context} {seed : ℕ} {t : ℕ} {v : Bool}
    {w w' : World} {e : CBallot} {n : B → ℕ} (hw : w.Empty) (i : L)
    (h : encryptBallot G C S b m ctx seed (some (n (E.ballot (E.contest i)))) t v w = (.ok e, w'))
    (hm : m.manifestHash = E.manifestHash) (hid : b.objectId = E.ballotId (E.ballot (E.contest i)))
    (hi : E.item i = .extended) :
    ∀ c ∈ e.contests, c.descHash = E.contestHash (E.contest i) → c.seq = E.contestSeq (E.contest i) →
      ∃ x nb pc, ∃ d : ContestDescP, ∃ check, c.extended = some x ∧ emplaceBallot S b m = .ok nb ∧ pc ∈ nb.contests ∧
        c.objectId = pc.objectId ∧ d.desc.hash G C = .ok c.descHash ∧ (check = .success ∨ check = .overvote) ∧
        pc.isValid d.desc.objectId (d.desc.getSelections S).length d.desc.numberElected d.desc.votesAllowed true = check ∧
        (item ctx.extHash (overvoteAndWriteIns S m pc check).bytes).encrypt G C (E.nonce G C n i) ctx.pub = .ok x := by
  obtain ⟨n', w1, w2, h1, h2, -⟩ := encryptBallot_steps G C S _ _ _ _ _ _ _ _ _ _ h
  simp only [nonceOr, M.ret, Prod.mk.injEq, Res.ok.injEq] at h1
  obtain ⟨rfl, rfl⟩ := h1
  unfold encryptContests at h2
  rw [M.bind_eq_ok] at h2
  obtain ⟨nb, w3, h7, h2⟩ := h2
  simp only [M.lift, Prod.mk.injEq] at h7
  obtain ⟨h7, rfl⟩ := h7
  cases hst : m.getBallotStyle b.styleId with
  | none => rw [hst] at h2; simp [M.lift] at h2
  | some style =>
    rw [hst] at h2
    dsimp only at h2
    rw [M.bind_eq_ok] at h2
    obtain ⟨ds, w4, h8, h2⟩ := h2
    simp only [M.lift, Prod.mk.injEq] at h8
    obtain ⟨h8, rfl⟩ := h8
    have key := (forEach_spec _ World.Empty (fun d c => ∃ pc ∈ nb.contests, Recorded G C S m ctx.pub ctx.extHash
      (hashElems G C [.q m.manifestHash, .str b.objectId, .q (n (E.ballot (E.contest i)))]) pc d c) ds ?_ w w2
        e.contests hw h2).1
    · intro c hc hd hs
      obtain ⟨d, -, pc, hpc, x, check, hx, ho, hdh, hch, hk, hv⟩ := forall₂_right key hc
      refine ⟨x, nb, pc, d, check, hx, h7, hpc, ho, hdh, hch, hv, ?_⟩
      rw [← hk]
      congr 1
      unfold Layout.nonce
      simp only [Place.nonce, Place.itemInput, Place.itemSeedInput, Place.contestInput, Place.contestSeedInput,
        Place.ballotInput, Layout.place, hi, hd, hs, hm, hid]
    · intro d hd w w' c hw hf
      cases hc : nb.contests.find? (fun c => c.objectId = d.desc.objectId) with
      | none => rw [hc] at hf; simp [M.raise] at hf
      | some pc =>
        rw [hc] at hf
        obtain ⟨a, b⟩ := contest_recorded hG hw hf
        exact ⟨⟨pc, List.mem_of_find?_eq_some hc, a⟩, b⟩

end

open Classical in
/-- There are sets of strings as the theorems demand. -/
theorem strings_exist (hG : G.Valid) (Z : Finset Str) :
    ∃ X : Finset Str, Z ⊆ X ∧ ∀ r t, sessionInput (G.g ^ r % G.p) (G.g ^ t % G.p) ∈ X := by
  obtain ⟨Y, hY⟩ := session_strings hG
  exact ⟨Z ∪ Y, Finset.subset_union_left, fun r t => Finset.mem_union_right _ (hY r t)⟩

/-- The extended data of the two ballots of the example is secret, the nonces of the votes are known. -/
def exampleSplit : Fin 2 ⊕ Fin 2 ≃ Fin 2 × Bool where
  toFun := Sum.elim (fun j => (j, false)) (fun j => (j, true))
  invFun x := if x.2 then .inr x.1 else .inl x.1
  left_inv := by decide
  right_inv := by decide

/-- It applies: the two voters swap their write-ins. -/
example (C : Crypto) (A : Adversary (Fin 2) (Fin 2) 1000000) : ∃ X : Finset Str,
    |rate exampleLayout .std C exampleSplit (Finset.range Params.std.q) X 6 A
        ![Str.bytes "Mickey Mouse".toList, Str.bytes "Donald Duck".toList] -
      rate exampleLayout .std C exampleSplit (Finset.range Params.std.q) X 6 A
        ![Str.bytes "Donald Duck".toList, Str.bytes "Mickey Mouse".toList]| <
      lossOracle .std C X (average .std C X A) (pairs 6 ![Str.bytes "Mickey Mouse".toList, Str.bytes "Donald Duck".toList]
        ![Str.bytes "Donald Duck".toList, Str.bytes "Mickey Mouse".toList]) + 1 / 2 ^ 126 := by
  obtain ⟨X, h1, h2⟩ := strings_exist C54_std_valid (exampleLayout.strings .std C (Finset.range Params.std.q))
  exact ⟨X, C123_standard exampleLayout_proper exampleSplit (by decide) (by decide) (by decide) (by norm_num) h1 h2 6 A
    _ _⟩

/-- The items of the example that are secret are extended data. -/
example (i : Fin 2) : exampleLayout.item (exampleSplit (.inl i)) = .extended := rfl

/-- A ballot that is encrypted: all its contests have such records. -/
example (S : StdSort) : ∃ e w', World.Empty plainWorld ∧
    encryptBallot .std NonceUse.polyCrypto S exampleBallot (exampleIM 6) (exampleContext (gPowP .std 2) 6) 4 (some 8) 5 false
      plainWorld = (.ok e, w') ∧ ∀ c ∈ e.contests, ∃ x, c.extended = some x ∧ ∃ (message : Str) (r : ℕ),
        (item (exampleContext (gPowP .std 2) 6).extHash message.bytes).encrypt .std NonceUse.polyCrypto r
          (exampleContext (gPowP .std 2) 6).pub = .ok x := by
  obtain ⟨e, w, h⟩ := NonceUse.example_run S _ (residue_gPowP C54_std_valid 2 (by norm_num)) 8 (Or.inl rfl)
  refine ⟨e, w, ⟨rfl, rfl⟩, h, fun c hc => ?_⟩
  let E : Layout Unit Unit Unit := ⟨6, fun _ => exampleBallot.objectId, fun _ => (), fun _ => c.descHash, fun _ => c.seq,
    fun _ => (), fun _ => .extended⟩
  obtain ⟨x, -, pc, -, check, hx, -, -, -, -, -, -, hk⟩ :=
    C123_encrypts (E := E) (n := fun _ => 8) C54_std_valid ⟨rfl, rfl⟩ () h rfl rfl rfl c hc rfl rfl
  exact ⟨x, hx, _, _, hk⟩

end EG.Records
