import Verif.Props.ElectionRecords

/-!
# C124: votes and write-ins of an election stay secret together, although everything is published

C119 and C123 together.  The items of the layout are divided into `m` votes, `n` records of overvotes and write-ins, and
others, `T`, whose nonces are given away.
-/

namespace EG.Whole

open EG.Derived EG.Derive EG.WriteIns EG.Published
open EG.Secrecy (secrets)
open EG.Records (item)

variable {B K L T : Type} {m n k : ℕ}

/-- Whoever tries to find out something.  It sees what is published of the votes, and the hashed ciphertexts of the
records; then it may hash `k` strings. -/
abbrev Adversary (K T : Type) (m k : ℕ) : Type := View K T m → List (Res HashedCiphertext) → Prog Bool k

/-- How often it answers yes for the votes `ms` and the records `xs`: among all secret keys, all random numbers of the
proofs of selections, all nonces of ballots in `S`, and all functions in place of SHA-256. -/
noncomputable def rate (E : Layout B K L) (G : Params) (C : Crypto) (e : Fin m ⊕ (Fin n ⊕ T) ≃ L) (limit : K → ℕ) (h : ℕ)
    (S : Finset ℕ) (X : Finset Str) (A : Adversary K T m k) (ms : Fin m → ℕ) (xs : Fin n → List UInt8) : ℚ :=
  freq (fun p : (secrets G × (Fin m → Three G)) × (B → S) × Oracles X =>
    ∃ key, keyFromSecret G p.1.1 = .ok key ∧
      (A (view G (C.withOracle X p.2.2) (fun i => E.contest (e (.inl i))) limit h key.pub ms
        (fun i => E.nonce G (C.withOracle X p.2.2) (fun b => p.2.1 b) (e (.inl i)))
        (fun t => E.nonce G (C.withOracle X p.2.2) (fun b => p.2.1 b) (e (.inr (.inr t))))
        (E.proofSeed G (C.withOracle X p.2.2) (fun b => p.2.1 b)) p.1.2)
        (List.ofFn fun i => (item h (xs i)).encrypt G (C.withOracle X p.2.2)
          (E.nonce G (C.withOracle X p.2.2) (fun b => p.2.1 b) (e (.inr (.inl i)))) key.pub)).run
        (oracle C.sha256 X p.2.2) = true)

/-! ## The adversary against the votes -/

/-- What the encryption of a record makes of the digest from which the session key comes. -/
def sealed (G : Params) (C : Crypto) (m : Item) (Y d : ℕ) : Res HashedCiphertext := do
  let pt ← padMessage m.message m.maxLen m.truncate
  let nb := pt.length % 2 ^ 32 / 32
  let data ← xorBlocks (blockKey C (addModQ G d 0) m.seed nb) pt 0 nb
  .ok ⟨Y, data, macOf C (addModQ G d 0) m.seed nb Y data⟩

theorem sealed_eq {G : Params} {C : Crypto} {X : Finset Str} (m : Item) (r K : ℕ) (O : Oracles X) :
    sealed G C m (gPowP G r) (oracle C.sha256 X O (sessionInput (gPowP G r) (powModP G K r))) =
      m.encrypt G (C.withOracle X O) r K := by
  rw [encrypt_with]
  rfl

/-- The adversary of C119: it knows the nonces of the records and encrypts them. -/
def againstVotes (G : Params) (C : Crypto) (h : ℕ) (A : Adversary K T m k) (xs : Fin n → List UInt8) :
    Published.Adversary K (Fin n ⊕ T) m (k + n) := fun v =>
  askFin n (fun i => sessionInput (gPowP G (v.known (.inl i))) (powModP G v.pub (v.known (.inl i)))) fun ys =>
    A { pub := v.pub, known := fun t => v.known (.inr t), ciphertexts := v.ciphertexts, proofs := v.proofs }
      (List.ofFn fun i => sealed G C (item h (xs i)) (gPowP G (v.known (.inl i))) (ys i))

variable {E : Layout B K L} {G : Params} {C : Crypto} {X : Finset Str} {limit : K → ℕ} {h : ℕ} {S : Finset ℕ}

theorem votes_eq (e : Fin m ⊕ (Fin n ⊕ T) ≃ L) (A : Adversary K T m k) (ms : Fin m → ℕ) (xs : Fin n → List UInt8) :
    rate E G C e limit h S X A ms xs = Published.rate E G C e limit h S X (againstVotes G C h A xs) ms := by
  unfold rate Published.rate
  congr 1
  funext p
  refine propext (exists_congr fun key => and_congr_right fun _ => ?_)
  unfold againstVotes
  rw [askFin_run]
  simp only [view, sealed_eq]

/-! ## The adversary against the records -/

/-- The items, records first. -/
def recordsFirst (e : Fin m ⊕ (Fin n ⊕ T) ≃ L) : Fin n ⊕ (Fin m ⊕ T) ≃ L :=
  (Equiv.sumAssoc _ _ _).symm.trans (((Equiv.sumComm _ _).sumCongr (Equiv.refl _)).trans ((Equiv.sumAssoc _ _ _).trans e))

theorem recordsFirst_record (e : Fin m ⊕ (Fin n ⊕ T) ≃ L) (i : Fin n) : recordsFirst e (.inl i) = e (.inr (.inl i)) := rfl
theorem recordsFirst_vote (e : Fin m ⊕ (Fin n ⊕ T) ≃ L) (i : Fin m) : recordsFirst e (.inr (.inl i)) = e (.inl i) := rfl
theorem recordsFirst_other (e : Fin m ⊕ (Fin n ⊕ T) ≃ L) (t : T) :
    recordsFirst e (.inr (.inr t)) = e (.inr (.inr t)) := rfl

/-- The adversary of C123: it knows the nonces of the votes and the random numbers of the contests' proofs, encrypts the
votes and proves them with the random numbers `ws`. -/
noncomputable def againstRecords [Fintype K] [NeZero G.q] (κ : Fin m → K) (limit : K → ℕ) (h : ℕ) (A : Adversary K T m k)
    (ms : Fin m → ℕ) (ws : Fin m → Three G) :
    Records.Adversary K (Fin m ⊕ T) (k + Fintype.card (Fin m ⊕ K)) := fun pub us ts cs =>
  askEach (fun j => placeOf G κ limit h pub ms (fun i => ts (.inl i)) j (coins G ws us j)) fun ys =>
    A { pub := pub, known := fun t => ts (.inr t)
        ciphertexts := fun i => elgamalEncrypt G (ms i) (ts (.inl i)) pub
        proofs := fun j => proofOf G κ limit h pub ms (fun i => ts (.inl i)) j (coins G ws us j) (ys j) } cs

theorem records_iff [Fintype K] [NeZero G.q] (hG : G.Valid) (e : Fin m ⊕ (Fin n ⊕ T) ≃ L) (A : Adversary K T m k)
    {ms : Fin m → ℕ} (hms : Votes (fun i => E.contest (e (.inl i))) limit ms) (xs : Fin n → List UInt8) {s : ℕ}
    (hs : s ∈ secrets G) (ws : Fin m → Three G) (N : B → ℕ) (O : Oracles X) :
    (∃ key, keyFromSecret G s = .ok key ∧
      (A (view G (C.withOracle X O) (fun i => E.contest (e (.inl i))) limit h key.pub ms
        (fun i => E.nonce G (C.withOracle X O) N (e (.inl i)))
        (fun t => E.nonce G (C.withOracle X O) N (e (.inr (.inr t))))
        (E.proofSeed G (C.withOracle X O) N) ws)
        (List.ofFn fun i => (item h (xs i)).encrypt G (C.withOracle X O)
          (E.nonce G (C.withOracle X O) N (e (.inr (.inl i)))) key.pub)).run (oracle C.sha256 X O) = true) ↔
    Records.Yes G C X h (recordsFirst e) (againstRecords (fun i => E.contest (e (.inl i))) limit h A ms ws) xs s O
      (E.proofNonce G (C.withOracle X O) N) (E.nonce G (C.withOracle X O) N) := by
  obtain ⟨key, h1, h2⟩ := Secrecy.pub_eq hG hs
  refine exists_congr fun key' => and_congr_right fun hk => ?_
  rw [h1] at hk
  cases hk
  rw [h2]
  have hv := view_eq (D := C.withOracle X O) (κ := fun i => E.contest (e (.inl i))) (limit := limit) (h := h) hG
    (pub_residue hG s) hms
    (rs := fun i => E.nonce G (C.withOracle X O) N (e (.inl i))) (fun i => by rw [nonce_def]; exact hashElems_lt hG _)
    (fun t => E.nonce G (C.withOracle X O) N (e (.inr (.inr t)))) (seeds := E.proofSeed G (C.withOracle X O) N)
    (us := E.proofNonce G (C.withOracle X O) N) (fun c => rfl)
    (fun c => by rw [proofNonce_def]; exact hashElems_lt hG _) ws
  rw [hv]
  unfold againstRecords
  rw [askEach_run]
  rfl

/-- The rate, on average over the random numbers of the proofs of selections. -/
theorem records_eq [Fintype B] [Fintype K] [NeZero G.q] (hG : G.Valid) (e : Fin m ⊕ (Fin n ⊕ T) ≃ L)
    (A : Adversary K T m k) {ms : Fin m → ℕ} (hms : Votes (fun i => E.contest (e (.inl i))) limit ms)
    (xs : Fin n → List UInt8) :
    rate E G C e limit h S X A ms xs = mean (Finset.univ : Finset (Fin m → Three G)) (fun ws =>
      Records.rate E G C (recordsFirst e) S X h
        (againstRecords (fun i => E.contest (e (.inl i))) limit h A ms ws) xs) := by
  classical
  unfold rate Records.rate
  simp only [records_iff hG e A hms xs (Subtype.prop _)]
  rw [Records.freq_mean, Records.mean_univ_prod, Records.mean_univ_prod, mean_comm]
  refine mean_congr (fun ws _ => ?_)
  rw [Records.freq_mean, Records.mean_univ_prod]

/-! ## The theorem -/

/-- What the distinguishers gain: those of Diffie-Hellman triples for the votes, and those of Diffie-Hellman triples and
of HMAC with a random key for the records, on average over the random numbers of the proofs of selections. -/
noncomputable def gain [Fintype K] [Fintype T] [NeZero G.q] (E : Layout B K L) (C : Crypto) (e : Fin m ⊕ (Fin n ⊕ T) ≃ L)
    (limit : K → ℕ) (h : ℕ) (X : Finset Str) (A : Adversary K T m k) (ms ms' : Fin m → ℕ)
    (xs xs' : Fin n → List UInt8) : ℚ :=
  Published.ddhTotal G C (fun i => E.contest (e (.inl i))) limit h X (againstVotes G C h A xs) ms ms' +
    mean (Finset.univ : Finset (Fin m → Three G)) (fun ws => lossOracle G C X
      (Records.average G C X (againstRecords (fun i => E.contest (e (.inl i))) limit h A ms' ws))
      (Records.pairs h xs xs'))

/-- What is lost by the steps for the records. -/
noncomputable def lossRecords (G : Params) (b c l n k s : ℕ) : ℚ :=
  2 * n * (k + n) / G.q + 2 * ((b * (k + n : ℕ) : ℚ) / s +
    (5 * c + 2 * l) * ((k + n : ℕ) + (5 * c + 2 * l)) * fibre G / 2 ^ 256 + n * ((2 ^ 256 - G.q : ℚ) / 2 ^ 256))

/-- **C124.**  Whoever tells apart two elections with the same number of votes in each contest, by all that is published
of the ballots -- ciphertexts and proofs of the votes, and hashed ciphertexts of overvotes and write-ins, with all nonces
computed from the nonces of the ballots -- solves the decisional Diffie-Hellman problem, or tells HMAC with a random key
from random blocks, or guesses. -/
theorem C124_secrecy [Fintype B] [Fintype K] [Fintype L] [Fintype T] [NeZero G.q] (hG : G.Valid) (hq : 2 < G.q)
    (hE : E.Proper) (e : Fin m ⊕ (Fin n ⊕ T) ≃ L) (hκ : Function.Surjective fun i => E.contest (e (.inl i)))
    (hh : h < 2 ^ 256) (hne : S.Nonempty) (hS : ∀ s ∈ S, s < 2 ^ 256) (hX : E.strings G C S ⊆ X) (hX' : HasChallenges X)
    (hY : ∀ r t, sessionInput (G.g ^ r % G.p) (G.g ^ t % G.p) ∈ X) (A : Adversary K T m k) {ms ms' : Fin m → ℕ}
    (hms : Votes (fun i => E.contest (e (.inl i))) limit ms) (hms' : Votes (fun i => E.contest (e (.inl i))) limit ms')
    (xs xs' : Fin n → List UInt8) :
    |rate E G C e limit h S X A ms xs - rate E G C e limit h S X A ms' xs'| ≤
      gain (G := G) E C e limit h X A ms ms' xs xs' +
      (2 * Published.loss G (Fintype.card B) (Fintype.card K) (Fintype.card L) m (k + n) S.card +
        lossRecords G (Fintype.card B) (Fintype.card K) (Fintype.card L) n (k + (m + Fintype.card K)) S.card) := by
  have h1 := C119_secrecy (C := C) hG hq hE e hκ hh hne hS hX hX' (againstVotes G C h A xs) hms hms'
  rw [← votes_eq, ← votes_eq] at h1
  have h2 : |rate E G C e limit h S X A ms' xs - rate E G C e limit h S X A ms' xs'| ≤
      mean (Finset.univ : Finset (Fin m → Three G)) (fun ws => lossOracle G C X
        (Records.average G C X (againstRecords (fun i => E.contest (e (.inl i))) limit h A ms' ws))
        (Records.pairs h xs xs')) +
      lossRecords G (Fintype.card B) (Fintype.card K) (Fintype.card L) n (k + (m + Fintype.card K)) S.card := by
    rw [records_eq hG e A hms', records_eq hG e A hms', ← mean_sub]
    refine (abs_mean_le _ _).trans ?_
    refine (mean_mono (g := fun ws => lossOracle G C X
        (Records.average G C X (againstRecords (fun i => E.contest (e (.inl i))) limit h A ms' ws))
        (Records.pairs h xs xs') +
        lossRecords G (Fintype.card B) (Fintype.card K) (Fintype.card L) n (k + (m + Fintype.card K)) S.card)
      (fun ws _ => ?_)).trans_eq ?_
    · have hc : k + (m + Fintype.card K) = k + Fintype.card (Fin m ⊕ K) := by rw [Fintype.card_sum, Fintype.card_fin]
      rw [hc]
      refine (Records.C123_secrecy (E := E) (C := C) hG hq hE (recordsFirst e) hne hS hX hY h
        (againstRecords (fun i => E.contest (e (.inl i))) limit h A ms' ws) xs xs').trans_eq ?_
      unfold lossRecords
      rw [add_assoc]
    have := mean_const (s := (Finset.univ : Finset (Fin m → Three G))) Finset.univ_nonempty
      (lossRecords G (Fintype.card B) (Fintype.card K) (Fintype.card L) n (k + (m + Fintype.card K)) S.card)
    conv_rhs => rw [← this]
    unfold mean
    rw [← add_div, ← Finset.sum_add_distrib]
  unfold gain
  have t := abs_sub_le (rate E G C e limit h S X A ms xs) (rate E G C e limit h S X A ms' xs)
    (rate E G C e limit h S X A ms' xs')
  linarith

instance : NeZero Params.std.q := ⟨by decide +kernel⟩

/-- With the standard parameters, ballot nonces drawn from all exponents, up to 2^40 ballots, contests and items, and 2^78
hashes, only the advantages of the distinguishers are left, up to 2^-125. -/
theorem C124_standard [Fintype B] [Fintype K] [Fintype L] [Fintype T] (hE : E.Proper)
    (e : Fin m ⊕ (Fin n ⊕ T) ≃ L) (hκ : Function.Surjective fun i => E.contest (e (.inl i))) (hh : h < 2 ^ 256)
    (hB : Fintype.card B ≤ 2 ^ 40) (hK : Fintype.card K ≤ 2 ^ 40) (hL : Fintype.card L ≤ 2 ^ 40) (hk : k ≤ 2 ^ 78)
    (hX : E.strings .std C (Finset.range Params.std.q) ⊆ X) (hX' : HasChallenges X)
    (hY : ∀ r t, sessionInput (Params.std.g ^ r % Params.std.p) (Params.std.g ^ t % Params.std.p) ∈ X)
    (A : Adversary K T m k) {ms ms' : Fin m → ℕ} (hms : Votes (fun i => E.contest (e (.inl i))) limit ms)
    (hms' : Votes (fun i => E.contest (e (.inl i))) limit ms') (xs xs' : Fin n → List UInt8) :
    |rate E .std C e limit h (Finset.range Params.std.q) X A ms xs -
        rate E .std C e limit h (Finset.range Params.std.q) X A ms' xs'| <
      gain (G := .std) E C e limit h X A ms ms' xs xs' + 1 / 2 ^ 125 := by
  have hV := C54_std_valid
  have hq := hV.q_gt
  have hq2 : 2 < Params.std.q := by decide +kernel
  have h0 := C124_secrecy (C := C) hV hq2 hE e hκ hh ⟨0, Finset.mem_range.2 (by omega)⟩
    (fun s hs => (Finset.mem_range.1 hs).trans hV.q_lt) hX hX' hY A hms hms' xs xs'
  rw [Finset.card_range] at h0
  have hmn : m + (n + Fintype.card T) ≤ 2 ^ 40 := by
    rw [← Fintype.card_congr e, Fintype.card_sum, Fintype.card_sum, Fintype.card_fin, Fintype.card_fin] at hL
    exact hL
  have e40 : (2 : ℕ) ^ 40 = 1099511627776 := by norm_num
  have e78 : (2 : ℕ) ^ 78 = 302231454903657293676544 := by norm_num
  have e79 : (2 : ℕ) ^ 79 = 604462909807314587353088 := by norm_num
  have e80 : (2 : ℕ) ^ 80 = 1208925819614629174706176 := by norm_num
  have h1 := loss_standard (m := m) (k := k + n) hB hK hL (by omega) (by omega)
  have h2 := hashing_bound hB hK hL (show k + (m + Fintype.card K) + n ≤ 2 ^ 80 by omega)
  have hn' : (n : ℚ) ≤ 2 ^ 40 := by exact_mod_cast (show n ≤ 2 ^ 40 by omega)
  have hk' : ((k + (m + Fintype.card K) : ℕ) : ℚ) ≤ 2 ^ 79 := by
    exact_mod_cast (show k + (m + Fintype.card K) ≤ 2 ^ 79 by omega)
  have hc : (Params.std.q : ℚ) = 2 ^ 256 - 189 := by
    have : Params.std.q = 2 ^ 256 - 189 := by decide +kernel
    rw [this]
    norm_num
  have h3 : lossRecords .std (Fintype.card B) (Fintype.card K) (Fintype.card L) n (k + (m + Fintype.card K)) Params.std.q ≤
      2 * 2 ^ 40 * (2 ^ 79 + 2 ^ 40) / (2 ^ 256 - 189) +
        2 * (1 / 2 ^ 128 + 2 ^ 40 * ((2 ^ 256 - (2 ^ 256 - 189)) / 2 ^ 256)) := by
    unfold lossRecords
    rw [hc] at h2 ⊢
    generalize k + (m + Fintype.card K) = j at *
    have hj : (0 : ℚ) ≤ j := Nat.cast_nonneg _
    have hn0 : (0 : ℚ) ≤ n := Nat.cast_nonneg _
    have h4 : (2 * n * (j + n) : ℚ) / (2 ^ 256 - 189) ≤ 2 * 2 ^ 40 * (2 ^ 79 + 2 ^ 40) / (2 ^ 256 - 189) := by
      refine div_le_div_of_nonneg_right ?_ (by norm_num)
      exact mul_le_mul (by linarith) (by linarith) (by linarith) (by norm_num)
    have h5 : (n : ℚ) * ((2 ^ 256 - (2 ^ 256 - 189)) / 2 ^ 256) ≤ 2 ^ 40 * ((2 ^ 256 - (2 ^ 256 - 189)) / 2 ^ 256) :=
      mul_le_mul_of_nonneg_right hn' (by norm_num)
    linarith
  have h6 : (2 : ℚ) * (1 / 2 ^ 128 + 2 ^ 41 * (190 / 2 ^ 256) + 2 ^ 81 / (2 ^ 256 - 190)) +
      (2 * 2 ^ 40 * (2 ^ 79 + 2 ^ 40) / (2 ^ 256 - 189) +
        2 * (1 / 2 ^ 128 + 2 ^ 40 * ((2 ^ 256 - (2 ^ 256 - 189)) / 2 ^ 256))) < 1 / 2 ^ 125 := by norm_num
  linarith

/-! ## It applies -/

/-- The four votes of the example, then the two records; nothing else. -/
def fourAndTwo : Fin 4 ⊕ (Fin 2 ⊕ Empty) ≃ Fin 2 × Fin 3 :=
  ((Equiv.refl _).sumCongr (Equiv.sumEmpty _ _)).trans fourVotes

/-- Two voters, and who voted for what and wrote in whom. -/
example (C : Crypto) (A : Adversary (Fin 2) Empty 4 1000000) : ∃ X,
    |rate twoBallots .std C fourAndTwo (fun _ => 1) 5 (Finset.range Params.std.q) X A ![1, 0, 0, 1]
        ![Str.bytes "Mickey Mouse".toList, []] -
      rate twoBallots .std C fourAndTwo (fun _ => 1) 5 (Finset.range Params.std.q) X A ![0, 1, 1, 0]
        ![[], Str.bytes "Mickey Mouse".toList]| <
      gain (G := .std) twoBallots C fourAndTwo (fun _ => 1) 5 X A ![1, 0, 0, 1] ![0, 1, 1, 0]
        ![Str.bytes "Mickey Mouse".toList, []] ![[], Str.bytes "Mickey Mouse".toList] + 1 / 2 ^ 125 := by
  classical
  obtain ⟨X, hX⟩ := exists_challenges
  obtain ⟨Y, h1, h2⟩ := Records.strings_exist C54_std_valid (twoBallots.strings .std C (Finset.range Params.std.q) ∪ X)
  have k1 := fourVotes_votes ![1, 0, 0, 1] (by decide) rfl rfl
  have k2 := fourVotes_votes ![0, 1, 1, 0] (by decide) rfl rfl
  have c1 : Fintype.card (Fin 2) ≤ 2 ^ 40 := by rw [Fintype.card_fin]; norm_num
  have c2 : Fintype.card (Fin 2 × Fin 3) ≤ 2 ^ 40 := by rw [Fintype.card_prod, Fintype.card_fin, Fintype.card_fin]; norm_num
  exact ⟨Y, C124_standard twoBallots_proper fourAndTwo (by decide) (by norm_num) c1 c1 c2 (by norm_num)
    (Finset.subset_union_left.trans h1) (challenges_mono (Finset.subset_union_right.trans h1) hX) h2 A k1 k2 _ _⟩

end EG.Whole
