import Verif.Props.BallotSecrecy
import Verif.Props.ElectionStock

/-!
# C128: votes and write-ins of an election stay secret together, with values from the precompute buffers

C121 and C124 together: any of the selections, of the proofs of contests and of the records of overvotes and write-ins
may have taken values from the precompute buffers, while the others are computed.
-/

namespace EG.Records.Stock

open EG.Derived EG.Derive EG.WriteIns EG.Published
open EG.Secrecy (secrets)
open EG.Derived (Coins rate_iff secrets_nonempty hashing_bound)

variable {B K L T : Type} {m k : ℕ}

/-- The nonces of the records: those of `R` from the buffer, the others as they are. -/
def mix (R : Fin m → Bool) {α : Type} (zs rs : Fin m → α) (i : Fin m) : α := if R i then zs i else rs i

/-- The nonces of all items, if those records of `R` take theirs from the buffer. -/
def override (e : Fin m ⊕ T ≃ L) (R : Fin m → Bool) (zs : Fin m → ℕ) (ns : L → ℕ) (l : L) : ℕ :=
  match e.symm l with
  | .inl i => mix R zs (fun i => ns (e (.inl i))) i
  | .inr _ => ns l

theorem override_record (e : Fin m ⊕ T ≃ L) (R : Fin m → Bool) (zs : Fin m → ℕ) (ns : L → ℕ) (i : Fin m) :
    override e R zs ns (e (.inl i)) = mix R zs (fun i => ns (e (.inl i))) i := by
  unfold override
  rw [Equiv.symm_apply_apply]

theorem override_other (e : Fin m ⊕ T ≃ L) (R : Fin m → Bool) (zs : Fin m → ℕ) (ns : L → ℕ) (t : T) :
    override e R zs ns (e (.inr t)) = ns (e (.inr t)) := by
  unfold override
  rw [Equiv.symm_apply_apply]

/-- C123's rate, with records of `R` encrypted with nonces from the buffer. -/
noncomputable def rate (E : Layout B K L) (G : Params) (C : Crypto) (R : Fin m → Bool) (e : Fin m ⊕ T ≃ L) (S : Finset ℕ)
    (X : Finset Str) (ext : ℕ) (A : Adversary K T k) (ms : Fin m → List UInt8) : ℚ :=
  freq (fun p : ((Fin m → nonces G) × secrets G) × (B → S) × Oracles X =>
    Yes G C X ext e A ms p.1.2 p.2.2 (E.proofNonce G (C.withOracle X p.2.2) (fun b => p.2.1 b))
      (override e R (fun i => p.1.1 i) (E.nonce G (C.withOracle X p.2.2) (fun b => p.2.1 b))))

/-- The same with random digests. -/
noncomputable def rateRandom (G : Params) (C : Crypto) (R : Fin m → Bool) (e : Fin m ⊕ T ≃ L) (X : Finset Str) (ext : ℕ)
    (A : Adversary K T k) (ms : Fin m → List UInt8) : ℚ :=
  freq (fun p : ((Fin m → nonces G) × secrets G) × (Leaf K L → Fin (2 ^ 256)) × Oracles X =>
    Yes G C X ext e A ms p.1.2 p.2.2 (fun c => addModQ G (p.2.1 (.proof c)) 0)
      (override e R (fun i => p.1.1 i) fun i => addModQ G (p.2.1 (.item i)) 0))

variable {E : Layout B K L} {G : Params} {C : Crypto} {X : Finset Str} {ext : ℕ}

theorem nonces_nonempty (hG : G.Valid) : Nonempty (Fin m → nonces G) :=
  ⟨fun _ => ⟨0, Finset.mem_range.2 (by have := hG.q_gt; omega)⟩⟩

theorem rate_random [Fintype B] [Fintype K] [Fintype L] [Nonempty (secrets G)] (hG : G.Valid) (hE : E.Proper)
    (R : Fin m → Bool) (e : Fin m ⊕ T ≃ L) {S : Finset ℕ} (hne : S.Nonempty) (hS : ∀ s ∈ S, s < 2 ^ 256)
    (hX : E.strings G C S ⊆ X) (A : Adversary K T k) (ms : Fin m → List UInt8) :
    |rate E G C R e S X ext A ms - rateRandom G C R e X ext A ms| ≤ (Fintype.card B * (k + m : ℕ) : ℚ) / S.card +
      (5 * Fintype.card K + 2 * Fintype.card L) * ((k + m : ℕ) + (5 * Fintype.card K + 2 * Fintype.card L)) *
        fibre G / 2 ^ 256 := by
  classical
  have := nonces_nonempty (m := m) hG
  refine freq_average _ _ _ ?_
  rintro ⟨zs, s, hs⟩
  obtain ⟨A', hA'⟩ := asks G C X ext e A ms (G.g ^ s % G.p)
  have h := C117_random (E := E) (C := C) hG hE hne hS hX (fun us ns => A' us (override e R (fun i => (zs i : ℕ)) ns))
  simp only [hA'] at h
  simp only [yes_iff hG e A ms hs]
  exact h

/-- The records that found something in the buffer exchange their two values. -/
def swap (G : Params) (R : Fin m → Bool) (γ : Type) :
    (Fin m → nonces G) × (Fin m → nonces G) × γ ≃ (Fin m → nonces G) × (Fin m → nonces G) × γ where
  toFun p := (mix R p.2.1 p.1, mix R p.1 p.2.1, p.2.2)
  invFun p := (mix R p.2.1 p.1, mix R p.1 p.2.1, p.2.2)
  left_inv p := by
    refine Prod.ext ?_ (Prod.ext ?_ rfl) <;> funext i <;> simp only [mix] <;> split <;> rfl
  right_inv p := by
    refine Prod.ext ?_ (Prod.ext ?_ rfl) <;> funext i <;> simp only [mix] <;> split <;> rfl

theorem mix_swap (R : Fin m → Bool) (zs rs : Fin m → nonces G) :
    mix R (fun i => ((mix R rs zs i : nonces G) : ℕ)) (fun i => ((mix R zs rs i : nonces G) : ℕ)) = fun i => (rs i : ℕ) := by
  funext i
  simp only [mix]
  split <;> rfl

theorem random_ideal [Fintype K] [Fintype L] [Fintype T] [Nonempty (secrets G)] (hG : G.Valid) (R : Fin m → Bool)
    (e : Fin m ⊕ T ≃ L) (A : Adversary K T k) (ms : Fin m → List UInt8) :
    |rateRandom G C R e X ext A ms - rateIdeal G C X ext A ms| ≤ m * ((2 ^ 256 - G.q : ℚ) / 2 ^ 256) := by
  classical
  have := nonces_nonempty (m := m) hG
  let Q : ℕ → (K → ℕ) → (T → ℕ) → (Fin m → ℕ) → Oracles X → Prop := fun s us ts rs O => (A (G.g ^ s % G.p) us ts
    (List.ofFn fun i => (item ext (ms i)).encrypt G (C.withOracle X O) (rs i) (G.g ^ s % G.p))).run
      (oracle C.sha256 X O) = true
  have e1 : rateIdeal G C X ext A ms =
      freq (fun p : ((Fin m → nonces G) × secrets G) × (Fin m → nonces G) × Coins K T X =>
        Q p.1.2 (fun c => addModQ G (p.2.2.1 c) 0) (fun t => addModQ G (p.2.2.2.1 t) 0)
          (mix R (fun i => (p.1.1 i : ℕ)) (fun i => (p.2.1 i : ℕ))) p.2.2.2.2) := by
    let r : secrets G × ((Fin m → nonces G) × (Fin m → nonces G) × Coins K T X) ≃
        ((Fin m → nonces G) × secrets G) × (Fin m → nonces G) × Coins K T X :=
      { toFun := fun p => ((p.2.1, p.1), p.2.2), invFun := fun p => (p.1.2, (p.1.1, p.2))
        left_inv := fun _ => rfl, right_inv := fun _ => rfl }
    rw [← freq_equiv r]
    refine freq_congr _ _ fun s => ?_
    rw [← freq_equiv (swap G R (Coins K T X))]
    simp only [r, swap, Equiv.coe_fn_mk, mix_swap]
    rw [← freq_equiv (Equiv.prodComm ((Fin m → nonces G) × Coins K T X) (Fin m → nonces G))]
    simp only [Equiv.prodComm_apply, Prod.swap]
    exact (freq_forget (β := Fin m → nonces G) (fun d : (Fin m → nonces G) × Coins K T X =>
      Q s (fun c => addModQ G (d.2.1 c) 0) (fun t => addModQ G (d.2.2.1 t) 0) (fun i => (d.1 i : ℕ)) d.2.2.2)).symm
  rw [e1]
  refine freq_average _ _ _ ?_
  rintro ⟨zs, s, hs⟩
  simp only [yes_iff hG e A ms hs, override_record, override_other]
  exact embed hG e X (fun us ts rs O => Q s us ts (mix R (fun i => (zs i : ℕ)) rs) O)

/-- C123 with values from the buffer. -/
theorem secrecy [Fintype B] [Fintype K] [Fintype L] [Fintype T] (hG : G.Valid) (hq : 2 < G.q) (hE : E.Proper)
    (R : Fin m → Bool) (e : Fin m ⊕ T ≃ L) {S : Finset ℕ} (hne : S.Nonempty) (hS : ∀ s ∈ S, s < 2 ^ 256)
    (hX : E.strings G C S ⊆ X) (hY : ∀ r t, sessionInput (G.g ^ r % G.p) (G.g ^ t % G.p) ∈ X) (ext : ℕ)
    (A : Adversary K T k) (ms ms' : Fin m → List UInt8) :
    |rate E G C R e S X ext A ms - rate E G C R e S X ext A ms'| ≤
      lossOracle G C X (average G C X A) (pairs ext ms ms') + Whole.lossRecords G (Fintype.card B) (Fintype.card K)
        (Fintype.card L) m k S.card := by
  have := secrets_nonempty hq
  have h1 := rate_random (E := E) (C := C) (ext := ext) hG hE R e hne hS hX A ms
  have h1' := rate_random (E := E) (C := C) (ext := ext) hG hE R e hne hS hX A ms'
  have h2 := random_ideal (C := C) (X := X) (ext := ext) hG R e A ms
  have h2' := random_ideal (C := C) (X := X) (ext := ext) hG R e A ms'
  have h3 := oracle_secrecy (C := C) hG hY (pairs ext ms ms') (average G C X A) (average_slow A) (fun p hp => by
    obtain ⟨x, -, rfl⟩ := List.mem_map.1 hp
    exact ⟨16, by norm_num, fills_512 _ _, fills_512 _ _⟩)
  have l1 : (pairs ext ms ms').map Pair.one = List.ofFn fun i => item ext (ms i) := by
    unfold pairs records
    rw [List.map_map, List.map_ofFn]
    rfl
  have l2 : (pairs ext ms ms').map Pair.two = List.ofFn fun i => item ext (ms' i) := by
    unfold pairs records
    rw [List.map_map, List.map_ofFn]
    rfl
  have l3 : (pairs ext ms ms').length = m := by
    unfold pairs records
    rw [List.length_map, List.length_ofFn]
  rw [l1, l2, l3, ← ideal_eq hG, ← ideal_eq hG] at h3
  unfold Whole.lossRecords
  generalize rate E G C R e S X ext A ms = a at *
  generalize rate E G C R e S X ext A ms' = a' at *
  generalize rateRandom G C R e X ext A ms = b at *
  generalize rateRandom G C R e X ext A ms' = b' at *
  generalize rateIdeal G C X ext A ms = c at *
  generalize rateIdeal G C X ext A ms' = c' at *
  have t1 := abs_sub_le a b c
  have t2 := abs_sub_le a c c'
  have t3 := abs_sub_le a c' b'
  have t4 := abs_sub_le a b' a'
  rw [abs_sub_comm c' b'] at t3
  rw [abs_sub_comm b' a'] at t4
  linarith

end EG.Records.Stock

namespace EG.Whole.Stock

open EG.Derived EG.Derive EG.WriteIns EG.Published
open EG.Secrecy (secrets)
open EG.Records (item)
open EG.Records.Stock (mix override)
open EG.Published.Stock (Found Others)

variable {B K L T : Type} {m n k : ℕ}

/-- The record of overvotes and write-ins of a contest: with the triple taken from the buffer, or with the nonce `r`. -/
def sealRecord (G : Params) (D : Crypto) (ext pub : ℕ) (message : List UInt8) (r : ℕ) (t : Option Triple) :
    Res HashedCiphertext :=
  hashedEncrypt G D (t.map fun t => (t.gToExp, t.pubkeyToExp)) message r pub ext bytes512 true

/-- The triples, made by `populate` from the random numbers `zs`. -/
def recordTriples (R : Fin n → Bool) (G : Params) (pub : ℕ) (zs : Fin n → ℕ) (i : Fin n) : Option Triple :=
  if R i then some (genTriple G pub (zs i)) else none

/-- The adversary answers yes, with the nonces `fs` and `zs` in the buffers; the records of `R` found a triple. -/
def Yes (E : Layout B K L) (G : Params) (C : Crypto) (P : Found K m) (R : Fin n → Bool) (e : Fin m ⊕ (Fin n ⊕ T) ≃ L)
    (limit : K → ℕ) (h : ℕ) (S : Finset ℕ) (X : Finset Str) (A : Adversary K T m k) (ms : Fin m → ℕ)
    (xs : Fin n → List UInt8) (o : Others G B K m S X) (fs : Fin m → ℕ) (zs : Fin n → ℕ) : Prop :=
  ∃ key, keyFromSecret G o.1.1.1 = .ok key ∧
    (A (Published.Stock.view G (C.withOracle X o.2.2) (fun i => E.contest (e (.inl i))) limit h key.pub ms
      (fun i => E.nonce G (C.withOracle X o.2.2) (fun b => o.2.1 b) (e (.inl i)))
      (fun t => E.nonce G (C.withOracle X o.2.2) (fun b => o.2.1 b) (e (.inr (.inr t))))
      (E.proofSeed G (C.withOracle X o.2.2) (fun b => o.2.1 b)) o.1.1.2 (P.quads G key.pub fs o.1.1.2)
      (P.triples G key.pub fun c => o.1.2 c))
      (List.ofFn fun i => sealRecord G (C.withOracle X o.2.2) h key.pub (xs i)
        (E.nonce G (C.withOracle X o.2.2) (fun b => o.2.1 b) (e (.inr (.inl i))))
        (recordTriples R G key.pub zs i))).run (oracle C.sha256 X o.2.2) = true

/-- How often it answers yes for the votes `ms` and the records `xs`. -/
noncomputable def rate (E : Layout B K L) (G : Params) (C : Crypto) (P : Found K m) (R : Fin n → Bool)
    (e : Fin m ⊕ (Fin n ⊕ T) ≃ L) (limit : K → ℕ) (h : ℕ) (S : Finset ℕ) (X : Finset Str) (A : Adversary K T m k)
    (ms : Fin m → ℕ) (xs : Fin n → List UInt8) : ℚ :=
  freq (fun p : (Fin n → nonces G) × (Others G B K m S X × (Fin m → Fin G.q)) =>
    Yes E G C P R e limit h S X A ms xs p.2.1 (fun i => p.2.2 i) (fun i => p.1 i))

variable {E : Layout B K L} {G : Params} {C : Crypto} {X : Finset Str} {limit : K → ℕ} {h : ℕ} {S : Finset ℕ}

theorem record_eq (R : Fin n → Bool) (D : Crypto) (ext pub : ℕ) (message : List UInt8) (zs rs : Fin n → ℕ) (i : Fin n) :
    sealRecord G D ext pub message (rs i) (recordTriples R G pub zs i) =
      (item ext message).encrypt G D (mix R zs rs i) pub := by
  unfold sealRecord recordTriples mix Item.encrypt item
  split <;> rfl

theorem freq_prod {α β : Type} [Fintype α] [Fintype β] (Q : α × β → Prop) :
    freq Q = mean Finset.univ (fun a => freq fun b => Q (a, b)) := by
  classical
  rw [Records.freq_mean, Records.mean_univ_prod]
  exact mean_congr fun a _ => (Records.freq_mean _).symm

/-! ## The adversary against the votes -/

/-- The adversary of C121: it knows the nonces of the records, and those in the buffer, and encrypts the records. -/
def againstVotes (G : Params) (C : Crypto) (R : Fin n → Bool) (zs : Fin n → ℕ) (h : ℕ) (A : Adversary K T m k)
    (xs : Fin n → List UInt8) : Published.Adversary K (Fin n ⊕ T) m (k + n) := fun v =>
  askFin n (fun i => sessionInput (gPowP G (mix R zs (fun i => v.known (.inl i)) i))
      (powModP G v.pub (mix R zs (fun i => v.known (.inl i)) i))) fun ys =>
    A { pub := v.pub, known := fun t => v.known (.inr t), ciphertexts := v.ciphertexts, proofs := v.proofs }
      (List.ofFn fun i => sealed G C (item h (xs i)) (gPowP G (mix R zs (fun i => v.known (.inl i)) i)) (ys i))

theorem votes_iff (P : Found K m) (R : Fin n → Bool) (e : Fin m ⊕ (Fin n ⊕ T) ≃ L) (A : Adversary K T m k) (ms : Fin m → ℕ)
    (xs : Fin n → List UInt8) (o : Others G B K m S X) (fs : Fin m → ℕ) (zs : Fin n → ℕ) :
    Yes E G C P R e limit h S X A ms xs o fs zs ↔
      Published.Stock.Yes E G C P e limit h S X (againstVotes G C R zs h A xs) ms o fs := by
  unfold Yes Published.Stock.Yes
  refine exists_congr fun key => and_congr_right fun _ => ?_
  unfold againstVotes
  rw [askFin_run]
  simp only [Published.Stock.view, sealed_eq, record_eq R _ _ _ _ _
    (fun i => E.nonce G (C.withOracle X o.2.2) (fun b => o.2.1 b) (e (.inr (.inl i))))]

theorem votes_eq [Fintype B] [Fintype K] (P : Found K m) (R : Fin n → Bool) (e : Fin m ⊕ (Fin n ⊕ T) ≃ L)
    (A : Adversary K T m k) (ms : Fin m → ℕ) (xs : Fin n → List UInt8) :
    rate E G C P R e limit h S X A ms xs = mean (Finset.univ : Finset (Fin n → nonces G)) (fun zs =>
      Published.Stock.rate E G C P e limit h S X (againstVotes G C R (fun i => zs i) h A xs) ms) := by
  classical
  unfold rate
  simp only [votes_iff]
  exact freq_prod _

/-! ## The adversary against the records -/

/-- The adversary of C123: it knows the nonces of the votes and the random numbers of the proofs, also those in the buffers,
encrypts the votes and proves them. -/
noncomputable def againstRecords [Fintype K] [NeZero G.q] (P : Found K m) (κ : Fin m → K) (limit : K → ℕ) (h : ℕ)
    (A : Adversary K T m k) (ms : Fin m → ℕ) (ws : Fin m → Three G) (gs : K → ℕ) (fs : Fin m → ℕ) :
    Records.Adversary K (Fin m ⊕ T) (k + Fintype.card (Fin m ⊕ K)) := fun pub us ts cs =>
  askEach (fun j => placeOf G κ limit h pub ms (P.mix fs fun i => ts (.inl i)) j (coins G ws (P.mixC gs us) j)) fun ys =>
    A { pub := pub, known := fun t => ts (.inr t)
        ciphertexts := fun i => elgamalEncrypt G (ms i) (P.mix fs (fun i => ts (.inl i)) i) pub
        proofs := fun j => proofOf G κ limit h pub ms (P.mix fs fun i => ts (.inl i)) j (coins G ws (P.mixC gs us) j)
          (ys j) } cs

theorem records_iff [Fintype K] [NeZero G.q] (hG : G.Valid) (P : Found K m) (R : Fin n → Bool)
    (e : Fin m ⊕ (Fin n ⊕ T) ≃ L) (A : Adversary K T m k) {ms : Fin m → ℕ}
    (hms : Votes (fun i => E.contest (e (.inl i))) limit ms) (xs : Fin n → List UInt8) (o : Others G B K m S X)
    {fs : Fin m → ℕ} (hfs : ∀ i, fs i < G.q) (hf0 : ∀ i, fs i ≠ 0) (zs : Fin n → ℕ) :
    Yes E G C P R e limit h S X A ms xs o fs zs ↔
    Records.Yes G C X h (recordsFirst e) (againstRecords P (fun i => E.contest (e (.inl i))) limit h A ms o.1.1.2
      (fun c => o.1.2 c) fs) xs o.1.1.1 o.2.2 (E.proofNonce G (C.withOracle X o.2.2) (fun b => o.2.1 b))
      (override (recordsFirst e) R zs (E.nonce G (C.withOracle X o.2.2) (fun b => o.2.1 b))) := by
  obtain ⟨⟨⟨⟨s, hs⟩, ws⟩, gs⟩, N, O⟩ := o
  obtain ⟨key, h1, h2⟩ := Secrecy.pub_eq hG hs
  refine exists_congr fun key' => and_congr_right fun hk => ?_
  dsimp only at hk ⊢
  rw [h1] at hk
  cases hk
  rw [h2]
  have hv := Published.Stock.view_eq (h := h) hG P (D := C.withOracle X O) (pub_residue hG s) hms
    (rs := fun i => E.nonce G (C.withOracle X O) (fun b => N b) (e (.inl i))) (fs := fs)
    (fun i => by rw [nonce_def]; exact hashElems_lt hG _) hfs hf0
    (fun t => E.nonce G (C.withOracle X O) (fun b => N b) (e (.inr (.inr t))))
    (seeds := E.proofSeed G (C.withOracle X O) (fun b => N b))
    (us := E.proofNonce G (C.withOracle X O) (fun b => N b)) (gs := fun c => (gs c : ℕ)) (fun c => rfl)
    (fun c => by rw [proofNonce_def]; exact hashElems_lt hG _) (fun c => (gs c).isLt) ws
  rw [hv]
  unfold againstRecords
  rw [askEach_run]
  simp only [record_eq R _ _ _ _ _ (fun i => E.nonce G (C.withOracle X O) (fun b => N b) (e (.inr (.inl i)))),
    Records.Stock.override_record, Records.Stock.override_other]
  rfl

/-- With nonces in the buffer of the votes that are not zero. -/
noncomputable def rateNonzero (E : Layout B K L) (G : Params) (C : Crypto) (P : Found K m) (R : Fin n → Bool)
    (e : Fin m ⊕ (Fin n ⊕ T) ≃ L) (limit : K → ℕ) (h : ℕ) (S : Finset ℕ) (X : Finset Str) (A : Adversary K T m k)
    (ms : Fin m → ℕ) (xs : Fin n → List UInt8) : ℚ :=
  freq (fun p : (Fin n → nonces G) × (Others G B K m S X × (Fin m → Secrecy.nonces G)) =>
    Yes E G C P R e limit h S X A ms xs p.2.1 (fun i => p.2.2 i) (fun i => p.1 i))

theorem rate_nonzero [Fintype B] [Fintype K] [NeZero G.q] [Nonempty (secrets G)] (hG : G.Valid) (P : Found K m)
    (R : Fin n → Bool) (e : Fin m ⊕ (Fin n ⊕ T) ≃ L) (hne : S.Nonempty) (A : Adversary K T m k) (ms : Fin m → ℕ)
    (xs : Fin n → List UInt8) :
    |rate E G C P R e limit h S X A ms xs - rateNonzero E G C P R e limit h S X A ms xs| ≤ m / G.q := by
  classical
  have := Records.Stock.nonces_nonempty (m := n) hG
  have : Nonempty S := hne.coe_sort
  refine freq_average _ _ _ fun zs => ?_
  simp only [votes_iff]
  exact Published.Stock.rate_nonzero (C := C) hG E P e limit h hne X _ ms

/-- What is drawn for the votes and their proofs. -/
abbrev Drawn (G : Params) (K : Type) (m : ℕ) : Type := ((Fin m → Three G) × (K → Fin G.q)) × (Fin m → Secrecy.nonces G)

/-- The same draws in another order. -/
def reorder (G : Params) (B K : Type) (m n : ℕ) (S : Finset ℕ) (X : Finset Str) :
    Drawn G K m × (((Fin n → nonces G) × secrets G) × (B → S) × Oracles X) ≃
      (Fin n → nonces G) × (Others G B K m S X × (Fin m → Secrecy.nonces G)) where
  toFun p := (p.2.1.1, ((((p.2.1.2, p.1.1.1), p.1.1.2), p.2.2), p.1.2))
  invFun p := (((p.2.1.1.1.2, p.2.1.1.2), p.2.2), ((p.1, p.2.1.1.1.1), p.2.1.2))
  left_inv _ := rfl
  right_inv _ := rfl

open Classical in
theorem records_eq [Fintype B] [Fintype K] [NeZero G.q] (hG : G.Valid) (P : Found K m) (R : Fin n → Bool)
    (e : Fin m ⊕ (Fin n ⊕ T) ≃ L) (A : Adversary K T m k) {ms : Fin m → ℕ}
    (hms : Votes (fun i => E.contest (e (.inl i))) limit ms) (xs : Fin n → List UInt8) :
    rateNonzero E G C P R e limit h S X A ms xs = mean (Finset.univ : Finset (Drawn G K m)) (fun d =>
      Records.Stock.rate E G C R (recordsFirst e) S X h (againstRecords P (fun i => E.contest (e (.inl i))) limit h A ms
        d.1.1 (fun c => d.1.2 c) (fun i => d.2 i)) xs) := by
  classical
  unfold rateNonzero
  rw [← freq_equiv (reorder G B K m n S X), freq_prod]
  refine mean_congr fun d _ => ?_
  unfold Records.Stock.rate
  congr 1
  funext p
  refine propext ?_
  have hf : ∀ i, (d.2 i : ℕ) < G.q ∧ (d.2 i : ℕ) ≠ 0 := fun i => by
    have := Finset.mem_Ico.1 (d.2 i).2
    omega
  exact records_iff hG P R e A hms xs _ (fun i => (hf i).1) (fun i => (hf i).2) _

/-! ## The theorem -/

open Classical in
/-- What the distinguishers gain, on average over what is drawn besides. -/
noncomputable def gain [Fintype K] [Fintype T] [NeZero G.q] (E : Layout B K L) (C : Crypto) (P : Found K m)
    (R : Fin n → Bool) (e : Fin m ⊕ (Fin n ⊕ T) ≃ L) (limit : K → ℕ) (h : ℕ) (X : Finset Str) (A : Adversary K T m k)
    (ms ms' : Fin m → ℕ) (xs xs' : Fin n → List UInt8) : ℚ :=
  mean (Finset.univ : Finset (Fin n → nonces G)) (fun zs => Published.ddhTotal G C (fun i => E.contest (e (.inl i))) limit h
    X (againstVotes G C R (fun i => zs i) h A xs) ms ms') +
  mean (Finset.univ : Finset (Drawn G K m)) (fun d => lossOracle G C X (Records.average G C X
    (againstRecords P (fun i => E.contest (e (.inl i))) limit h A ms' d.1.1 (fun c => d.1.2 c) (fun i => d.2 i)))
    (Records.pairs h xs xs'))

/-- Differences of averages. -/
theorem mean_close {α : Type} [Fintype α] [Nonempty α] {f f' g : α → ℚ} {c : ℚ} (hc : ∀ a, |f a - f' a| ≤ g a + c) :
    |mean Finset.univ f - mean Finset.univ f'| ≤ mean Finset.univ g + c := by
  rw [← mean_sub]
  refine (abs_mean_le _ _).trans ((mean_mono (g := fun a => g a + c) fun a _ => hc a).trans_eq ?_)
  have := mean_const (s := (Finset.univ : Finset α)) Finset.univ_nonempty c
  conv_rhs => rw [← this]
  unfold mean
  rw [← add_div, ← Finset.sum_add_distrib]

open Classical in
/-- **C128.**  C124 for ballots of which some selections, proofs of contests and records have taken values from the
precompute buffers, while the others are computed: whoever tells apart two elections with the same number of votes in each
contest solves the decisional Diffie-Hellman problem, or tells HMAC with a random key from random blocks, or guesses. -/
theorem C128_secrecy [Fintype B] [Fintype K] [Fintype L] [Fintype T] [NeZero G.q] (hG : G.Valid) (hq : 2 < G.q)
    (hE : E.Proper) (P : Found K m) (R : Fin n → Bool) (e : Fin m ⊕ (Fin n ⊕ T) ≃ L)
    (hκ : Function.Surjective fun i => E.contest (e (.inl i))) (hh : h < 2 ^ 256) (hne : S.Nonempty)
    (hS : ∀ s ∈ S, s < 2 ^ 256) (hX : E.strings G C S ⊆ X) (hX' : HasChallenges X)
    (hY : ∀ r t, sessionInput (G.g ^ r % G.p) (G.g ^ t % G.p) ∈ X) (A : Adversary K T m k) {ms ms' : Fin m → ℕ}
    (hms : Votes (fun i => E.contest (e (.inl i))) limit ms) (hms' : Votes (fun i => E.contest (e (.inl i))) limit ms')
    (xs xs' : Fin n → List UInt8) :
    |rate E G C P R e limit h S X A ms xs - rate E G C P R e limit h S X A ms' xs'| ≤
      gain (G := G) E C P R e limit h X A ms ms' xs xs' +
      (2 * (Published.loss G (Fintype.card B) (Fintype.card K) (Fintype.card L) m (k + n) S.card + m / G.q) +
        (lossRecords G (Fintype.card B) (Fintype.card K) (Fintype.card L) n (k + (m + Fintype.card K)) S.card +
          2 * (m / G.q))) := by
  have := secrets_nonempty hq
  have := Records.Stock.nonces_nonempty (m := n) hG
  have hone : Nonempty (Fin m → Secrecy.nonces G) :=
    ⟨fun _ => ⟨1, Finset.mem_Ico.2 ⟨le_refl _, by omega⟩⟩⟩
  have h1 : |rate E G C P R e limit h S X A ms xs - rate E G C P R e limit h S X A ms' xs| ≤
      mean (Finset.univ : Finset (Fin n → nonces G)) (fun zs => Published.ddhTotal G C (fun i => E.contest (e (.inl i)))
        limit h X (againstVotes G C R (fun i => zs i) h A xs) ms ms') +
      2 * (Published.loss G (Fintype.card B) (Fintype.card K) (Fintype.card L) m (k + n) S.card + m / G.q) := by
    rw [votes_eq, votes_eq]
    exact mean_close fun zs => Published.Stock.C121_secrecy (C := C) hG hq hE P e hκ hh hne hS hX hX' _ hms hms'
  have h2 : |rateNonzero E G C P R e limit h S X A ms' xs - rateNonzero E G C P R e limit h S X A ms' xs'| ≤
      mean (Finset.univ : Finset (Drawn G K m)) (fun d => lossOracle G C X (Records.average G C X
        (againstRecords P (fun i => E.contest (e (.inl i))) limit h A ms' d.1.1 (fun c => d.1.2 c) (fun i => d.2 i)))
        (Records.pairs h xs xs')) +
      lossRecords G (Fintype.card B) (Fintype.card K) (Fintype.card L) n (k + (m + Fintype.card K)) S.card := by
    rw [records_eq hG P R e A hms', records_eq hG P R e A hms']
    refine mean_close fun d => ?_
    have hc : k + (m + Fintype.card K) = k + Fintype.card (Fin m ⊕ K) := by rw [Fintype.card_sum, Fintype.card_fin]
    rw [hc]
    exact Records.Stock.secrecy (E := E) (C := C) hG hq hE R (recordsFirst e) hne hS hX hY h _ xs xs'
  have h3 := rate_nonzero (E := E) (C := C) (X := X) (limit := limit) (h := h) hG P R e hne A ms' xs
  have h3' := rate_nonzero (E := E) (C := C) (X := X) (limit := limit) (h := h) hG P R e hne A ms' xs'
  unfold gain
  rw [abs_le] at *
  constructor <;> linarith [h1.1, h1.2, h2.1, h2.2, h3.1, h3.2, h3'.1, h3'.2]

/-- With the standard parameters, as for C124. -/
theorem C128_standard [Fintype B] [Fintype K] [Fintype L] [Fintype T] (hE : E.Proper) (P : Found K m) (R : Fin n → Bool)
    (e : Fin m ⊕ (Fin n ⊕ T) ≃ L) (hκ : Function.Surjective fun i => E.contest (e (.inl i))) (hh : h < 2 ^ 256)
    (hB : Fintype.card B ≤ 2 ^ 40) (hK : Fintype.card K ≤ 2 ^ 40) (hL : Fintype.card L ≤ 2 ^ 40) (hk : k ≤ 2 ^ 78)
    (hX : E.strings .std C (Finset.range Params.std.q) ⊆ X) (hX' : HasChallenges X)
    (hY : ∀ r t, sessionInput (Params.std.g ^ r % Params.std.p) (Params.std.g ^ t % Params.std.p) ∈ X)
    (A : Adversary K T m k) {ms ms' : Fin m → ℕ} (hms : Votes (fun i => E.contest (e (.inl i))) limit ms)
    (hms' : Votes (fun i => E.contest (e (.inl i))) limit ms') (xs xs' : Fin n → List UInt8) :
    |rate E .std C P R e limit h (Finset.range Params.std.q) X A ms xs -
        rate E .std C P R e limit h (Finset.range Params.std.q) X A ms' xs'| <
      gain (G := .std) E C P R e limit h X A ms ms' xs xs' + 1 / 2 ^ 125 := by
  have hV := C54_std_valid
  have hq := hV.q_gt
  have hq2 : 2 < Params.std.q := by decide +kernel
  have h0 := C128_secrecy (C := C) hV hq2 hE P R e hκ hh ⟨0, Finset.mem_range.2 (by omega)⟩
    (fun s hs => (Finset.mem_range.1 hs).trans hV.q_lt) hX hX' hY A hms hms' xs xs'
  rw [Finset.card_range] at h0
  have hmn : m + (n + Fintype.card T) ≤ 2 ^ 40 := by
    rw [← Fintype.card_congr e, Fintype.card_sum, Fintype.card_sum, Fintype.card_fin, Fintype.card_fin] at hL
    exact hL
  have e40 : (2 : ℕ) ^ 40 = 1099511627776 := by norm_num
  have e78 : (2 : ℕ) ^ 78 = 302231454903657293676544 := by norm_num
  have e79 : (2 : ℕ) ^ 79 = 604462909807314587353088 := by norm_num
  have e80 : (2 : ℕ) ^ 80 = 1208925819614629174706176 := by norm_num
  have h1 := loss_standard (m := m) (k := k + n) hB hK hL (by omega) (by omega)
  have h2 := hashing_bound hB hK hL (show k + (m + Fintype.card K) + n ≤ 2 ^ 80 by omega)
  have hm' : (m : ℚ) ≤ 2 ^ 40 := by exact_mod_cast (show m ≤ 2 ^ 40 by omega)
  have hn' : (n : ℚ) ≤ 2 ^ 40 := by exact_mod_cast (show n ≤ 2 ^ 40 by omega)
  have hk' : ((k + (m + Fintype.card K) : ℕ) : ℚ) ≤ 2 ^ 79 := by
    exact_mod_cast (show k + (m + Fintype.card K) ≤ 2 ^ 79 by omega)
  have hc : (Params.std.q : ℚ) = 2 ^ 256 - 189 := by
    have : Params.std.q = 2 ^ 256 - 189 := by decide +kernel
    rw [this]
    norm_num
  have h7 : (m : ℚ) / Params.std.q ≤ 2 ^ 40 / (2 ^ 256 - 189) := by
    rw [hc]
    exact div_le_div_of_nonneg_right hm' (by norm_num)
  have h3 : lossRecords .std (Fintype.card B) (Fintype.card K) (Fintype.card L) n (k + (m + Fintype.card K)) Params.std.q ≤
      2 * 2 ^ 40 * (2 ^ 79 + 2 ^ 40) / (2 ^ 256 - 189) +
        2 * (1 / 2 ^ 128 + 2 ^ 40 * ((2 ^ 256 - (2 ^ 256 - 189)) / 2 ^ 256)) := by
    unfold lossRecords
    rw [hc] at h2 ⊢
    generalize k + (m + Fintype.card K) = j at *
    have hj : (0 : ℚ) ≤ j := Nat.cast_nonneg _
    have hn0 : (0 : ℚ) ≤ n := Nat.cast_nonneg _
    have h4 : (2 * n * (j + n) : ℚ) / (2 ^ 256 - 189) ≤ 2 * 2 ^ 40 * (2 ^ 79 + 2 ^ 40) / (2 ^ 256 - 189) := by
      refine div_le_div_of_nonneg_right ?_ (by norm_num)
      exact mul_le_mul (by linarith) (by linarith) (by linarith) (by norm_num)
    have h5 : (n : ℚ) * ((2 ^ 256 - (2 ^ 256 - 189)) / 2 ^ 256) ≤ 2 ^ 40 * ((2 ^ 256 - (2 ^ 256 - 189)) / 2 ^ 256) :=
      mul_le_mul_of_nonneg_right hn' (by norm_num)
    linarith
  have h6 : (2 : ℚ) * (1 / 2 ^ 128 + 2 ^ 41 * (190 / 2 ^ 256) + 2 ^ 81 / (2 ^ 256 - 190)) +
      (2 * 2 ^ 40 * (2 ^ 79 + 2 ^ 40) / (2 ^ 256 - 189) +
        2 * (1 / 2 ^ 128 + 2 ^ 40 * ((2 ^ 256 - (2 ^ 256 - 189)) / 2 ^ 256))) + 4 * (2 ^ 40 / (2 ^ 256 - 189)) <
      1 / 2 ^ 125 := by norm_num
  linarith

/-! ## The ballots of the library -/

section

open EG.Published.Stock (After after_triple real_made placeholder_made contest_made)

variable {S : StdSort}

/-- The record of a contest is that of the theorem: made with the triple at place `I` of the buffer, or if there is none with
the nonce for its place. -/
def Recorded (G : Params) (C : Crypto) (S : StdSort) (m : IManifest) (pub ext seed : ℕ) (w : World) (I : ℕ) (c : PContest)
    (d : ContestDescP) (e : CContest) : Prop :=
  ∃ x check, e.extended = some x ∧ e.objectId = c.objectId ∧ d.desc.hash G C = .ok e.descHash ∧
    (check = .success ∨ check = .overvote) ∧
    sealRecord G C ext pub (overvoteAndWriteIns S m c check).bytes (hashElems G C [.q (hashElems G C
      [.q (hashElems G C [.q (hashElems G C [.q e.descHash, .q seed]), .u64 e.seq]),
        .str "constant-extended-data".toList]), .u64 0]) w.pre.triples[I]? = .ok x ∧
    c.isValid d.desc.objectId (d.desc.getSelections S).length d.desc.numberElected d.desc.votesAllowed true = check

theorem contest_recorded {c : PContest} {m : IManifest} {d : ContestDescP} {pub ext seed : ℕ}
    {v : Bool} {w w' : World} {e : CContest} (h : encryptContest G C S c m d pub ext seed v w = (.ok e, w')) :
    Recorded G C S m pub ext seed w 0 c d e ∧ After w e.selections.length 2 w' := by
  refine ⟨?_, (contest_made h).2⟩
  unfold encryptContest at h
  dsimp only at h
  split at h
  · simp [M.raise] at h
  rename_i hcheck
  rw [M.bind_eq_ok] at h
  obtain ⟨dh, w0, h0, h⟩ := h
  simp only [M.lift, Prod.mk.injEq] at h0
  obtain ⟨hdh, rfl⟩ := h0
  rw [M.bind_eq_ok] at h
  obtain ⟨rs, w1, h1, h⟩ := h
  rw [M.bind_eq_ok] at h
  obtain ⟨ps, w2, h2, h⟩ := h
  rw [M.bind_eq_ok] at h
  obtain ⟨x, w3, h3, h⟩ := h
  rw [M.bind_eq_ok] at h
  obtain ⟨e', w4, h4, h⟩ := h
  obtain ⟨-, b1⟩ := real_made _ h1
  obtain ⟨-, b2⟩ := placeholder_made _ h2
  have b12 := b1.trans b2
  have he : e = e' := by
    split at h
    · simp only [M.ret, Prod.mk.injEq, Res.ok.injEq] at h
      exact h.1.symm
    · rw [M.bind_eq_ok] at h
      obtain ⟨b, w5, h5, h⟩ := h
      simp only [M.lift, Prod.mk.injEq] at h5
      obtain ⟨-, rfl⟩ := h5
      split at h
      · simp only [M.ret, Prod.mk.injEq, Res.ok.injEq] at h
        exact h.1.symm
      · simp [M.raise] at h
  subst he
  unfold encryptExtended at h3
  rw [M.bind_eq_ok] at h3
  obtain ⟨t, w5, h5, h3⟩ := h3
  simp only [M.lift, Prod.mk.injEq] at h3
  obtain ⟨h3, -⟩ := h3
  obtain ⟨ht, -⟩ := after_triple h5
  rw [b12.triples, List.getElem?_drop] at ht
  unfold CContest.make at h4
  simp only [M.bind_eq_ok, M.lift, M.ret, Prod.mk.injEq, Res.ok.injEq] at h4
  obtain ⟨ch, w5, ⟨hch, rfl⟩, acc, w6, ⟨hacc, rfl⟩, agg, w7, ⟨hagg, rfl⟩, t', w8, -, π, w9, ⟨hπ, rfl⟩, rfl, rfl⟩ := h4
  refine ⟨x, _, rfl, rfl, hdh, by tauto, ?_, rfl⟩
  rw [ht] at h3
  exact h3

theorem contests_recorded {m : IManifest} {pub ext seed : ℕ} {nb : List PContest} {f : ContestDescP → M CContest}
    (hf : ∀ d w w' e, f d w = (.ok e, w') →
      (∃ pc ∈ nb, Recorded G C S m pub ext seed w 0 pc d e) ∧ After w e.selections.length 2 w') :
    ∀ (ds : List ContestDescP) {w w' : World} {es : List CContest}, M.forEach f ds w = (.ok es, w') →
    ∀ a (ha : a < es.length), ∃ d ∈ ds, ∃ pc ∈ nb, Recorded G C S m pub ext seed w (2 * a) pc d es[a]
  | [], w, w', es, h, a, ha => by
    simp only [M.forEach, M.ret, Prod.mk.injEq, Res.ok.injEq] at h
    obtain ⟨rfl, -⟩ := h
    exact absurd ha (by simp)
  | d :: ds, w, w', es, h, a, ha => by
    simp only [M.forEach, M.bind_eq_ok, M.ret, Prod.mk.injEq, Res.ok.injEq] at h
    obtain ⟨e, w1, h1, r, w2, h2, rfl, rfl⟩ := h
    obtain ⟨a1, a2⟩ := hf d w w1 e h1
    cases a with
    | zero => exact ⟨d, List.mem_cons_self .., a1⟩
    | succ a =>
      obtain ⟨d', hd', pc, hpc, x, check, k1, k2, k3, k4, k5, k6⟩ := contests_recorded hf ds h2 a (by simpa using ha)
      refine ⟨d', List.mem_cons_of_mem _ hd', pc, hpc, x, check, k1, k2, k3, k4, ?_, k6⟩
      rw [a2.triples, List.getElem?_drop] at k5
      rw [show 2 * (a + 1) = 2 + 2 * a by ring]
      exact k5

/-- **C128.**  The hashed ciphertexts of a ballot encrypted by the library are those of the theorem, whatever the buffers
hold.  That of the `a`-th contest encrypts its record of overvotes and write-ins with entry `2a` of the buffer of triples, or
if there is none with the nonce of its place in the layout.  (Entry `2a+1` belongs to the contest's proof, see C121.) -/
theorem C128_encrypts {b : PBallot} {m : IManifest} {ctx : Context} {seed : ℕ} {t : ℕ} {v : Bool}
    {w w' : World} {e : CBallot} {n : B → ℕ} (i : L)
    (h : encryptBallot G C S b m ctx seed (some (n (E.ballot (E.contest i)))) t v w = (.ok e, w'))
    (hm : m.manifestHash = E.manifestHash) (hid : b.objectId = E.ballotId (E.ballot (E.contest i)))
    (hi : E.item i = .extended) (a : ℕ) (ha : a < e.contests.length)
    (hd : e.contests[a].descHash = E.contestHash (E.contest i)) (hs : e.contests[a].seq = E.contestSeq (E.contest i)) :
    ∃ x nb pc, ∃ d : ContestDescP, ∃ check, e.contests[a].extended = some x ∧ emplaceBallot S b m = .ok nb ∧
      pc ∈ nb.contests ∧ e.contests[a].objectId = pc.objectId ∧ d.desc.hash G C = .ok e.contests[a].descHash ∧
      (check = .success ∨ check = .overvote) ∧
      pc.isValid d.desc.objectId (d.desc.getSelections S).length d.desc.numberElected d.desc.votesAllowed true = check ∧
      sealRecord G C ctx.extHash ctx.pub (overvoteAndWriteIns S m pc check).bytes (E.nonce G C n i)
        w.pre.triples[2 * a]? = .ok x := by
  obtain ⟨n', w1, w2, h1, h2, -⟩ := encryptBallot_steps G C S _ _ _ _ _ _ _ _ _ _ h
  simp only [nonceOr, M.ret, Prod.mk.injEq, Res.ok.injEq] at h1
  obtain ⟨rfl, rfl⟩ := h1
  unfold encryptContests at h2
  rw [M.bind_eq_ok] at h2
  obtain ⟨nb, w3, h7, h2⟩ := h2
  simp only [M.lift, Prod.mk.injEq] at h7
  obtain ⟨h7, rfl⟩ := h7
  cases hst : m.getBallotStyle b.styleId with
  | none => rw [hst] at h2; simp [M.lift] at h2
  | some style =>
    rw [hst] at h2
    dsimp only at h2
    rw [M.bind_eq_ok] at h2
    obtain ⟨ds, w4, h8, h2⟩ := h2
    simp only [M.lift, Prod.mk.injEq] at h8
    obtain ⟨h8, rfl⟩ := h8
    have key := contests_recorded (G := G) (C := C) (S := S) (m := m) (pub := ctx.pub) (ext := ctx.extHash)
      (seed := hashElems G C [.q m.manifestHash, .str b.objectId, .q (n (E.ballot (E.contest i)))]) (nb := nb.contests)
      ?_ ds h2 a ha
    · obtain ⟨d, -, pc, hpc, x, check, hx, ho, hdh, hch, hk, hv⟩ := key
      refine ⟨x, nb, pc, d, check, hx, h7, hpc, ho, hdh, hch, hv, ?_⟩
      rw [← hk]
      congr 1
      unfold Layout.nonce
      simp only [NonceUse.Place.nonce, NonceUse.Place.itemInput, NonceUse.Place.itemSeedInput, NonceUse.Place.contestInput, NonceUse.Place.contestSeedInput,
        NonceUse.Place.ballotInput, Layout.place, hi, hd, hs, hm, hid]
    · intro d w w' e hf
      cases hc : nb.contests.find? (fun c => c.objectId = d.desc.objectId) with
      | none => rw [hc] at hf; simp [M.raise] at hf
      | some pc =>
        rw [hc] at hf
        obtain ⟨a, b⟩ := contest_recorded hf
        exact ⟨⟨pc, List.mem_of_find?_eq_some hc, a⟩, b⟩

end

/-! ## It applies -/

/-- Two voters, of whom the first found precomputed values. -/
example (C : Crypto) (A : Adversary (Fin 2) Empty 4 1000000) : ∃ X,
    |rate twoBallots .std C ⟨![true, true, false, false], ![true, false]⟩ ![true, false] fourAndTwo (fun _ => 1) 5
        (Finset.range Params.std.q) X A ![1, 0, 0, 1] ![Str.bytes "Mickey Mouse".toList, []] -
      rate twoBallots .std C ⟨![true, true, false, false], ![true, false]⟩ ![true, false] fourAndTwo (fun _ => 1) 5
        (Finset.range Params.std.q) X A ![0, 1, 1, 0] ![[], Str.bytes "Mickey Mouse".toList]| <
      gain (G := .std) twoBallots C ⟨![true, true, false, false], ![true, false]⟩ ![true, false] fourAndTwo (fun _ => 1) 5 X A
        ![1, 0, 0, 1] ![0, 1, 1, 0] ![Str.bytes "Mickey Mouse".toList, []] ![[], Str.bytes "Mickey Mouse".toList] +
        1 / 2 ^ 125 := by
  classical
  obtain ⟨X, hX⟩ := exists_challenges
  obtain ⟨Y, h1, h2⟩ := Records.strings_exist C54_std_valid (twoBallots.strings .std C (Finset.range Params.std.q) ∪ X)
  have k1 := fourVotes_votes ![1, 0, 0, 1] (by decide) rfl rfl
  have k2 := fourVotes_votes ![0, 1, 1, 0] (by decide) rfl rfl
  have c1 : Fintype.card (Fin 2) ≤ 2 ^ 40 := by rw [Fintype.card_fin]; norm_num
  have c2 : Fintype.card (Fin 2 × Fin 3) ≤ 2 ^ 40 := by rw [Fintype.card_prod, Fintype.card_fin, Fintype.card_fin]; norm_num
  exact ⟨Y, C128_standard twoBallots_proper _ _ fourAndTwo (by decide) (by norm_num) c1 c1 c2 (by norm_num)
    (Finset.subset_union_left.trans h1) (challenges_mono (Finset.subset_union_right.trans h1) hX) h2 A k1 k2 _ _⟩

/-- A ballot that is encrypted with precomputed values: the record of its first contest uses the first triple. -/
example (S : StdSort) : ∃ e w', (NonceUse.stockedWorld (gPowP .std 2)).pre.triples ≠ [] ∧
    encryptBallot .std NonceUse.polyCrypto S exampleBallot (exampleIM 6) (exampleContext (gPowP .std 2) 6) 4 (some 8) 5 false
      (NonceUse.stockedWorld (gPowP .std 2)) = (.ok e, w') ∧ ∀ (ha : 0 < e.contests.length), ∃ x message r,
        e.contests[0].extended = some x ∧ sealRecord .std NonceUse.polyCrypto (exampleContext (gPowP .std 2) 6).extHash
          (exampleContext (gPowP .std 2) 6).pub message r (NonceUse.stockedWorld (gPowP .std 2)).pre.triples[0]? = .ok x := by
  have hK := residue_gPowP C54_std_valid 2 (by norm_num)
  obtain ⟨e, w, h⟩ := NonceUse.stocked_run S _ hK 8 (Or.inl rfl) _ (NonceUse.stockedWorld_ok hK)
  refine ⟨e, w, by simp [NonceUse.stockedWorld], h, fun ha => ?_⟩
  let E : Layout Unit Unit Unit := ⟨6, fun _ => exampleBallot.objectId, fun _ => (), fun _ => e.contests[0].descHash,
    fun _ => e.contests[0].seq, fun _ => (), fun _ => .extended⟩
  obtain ⟨x, -, pc, -, check, hx, -, -, -, -, -, -, hk⟩ :=
    C128_encrypts (E := E) (n := fun _ => 8) () h rfl rfl rfl 0 ha rfl rfl
  exact ⟨x, _, _, hx, hk⟩

end EG.Whole.Stock
