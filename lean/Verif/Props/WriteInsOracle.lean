import Verif.Props.WriteIns
import Verif.Props.Hash
import Verif.Spec.Oracle

/-!
# C122: hashed ciphertexts hide the write-ins, with a random hash function

With SHA-256 replaced by a function chosen at random on the strings from which session keys are made, the blocks of
`C122_secrecy` are as good as blocks made by HMAC with a random key: an adversary that calls the hash function `k` times
meets the string for the session key by chance only.
-/

namespace EG.WriteIns

open Secrecy (secrets)

/-! ## Averages -/

theorem mean_sub {α : Type} (s : Finset α) (f g : α → ℚ) : mean s (fun x => f x - g x) = mean s f - mean s g := by
  unfold mean
  rw [Finset.sum_sub_distrib, sub_div]

theorem mean_mono {α : Type} {s : Finset α} {f g : α → ℚ} (h : ∀ x ∈ s, f x ≤ g x) : mean s f ≤ mean s g := by
  unfold mean
  exact div_le_div_of_nonneg_right (Finset.sum_le_sum h) (by positivity)

theorem abs_mean_le {α : Type} (s : Finset α) (f : α → ℚ) : |mean s f| ≤ mean s (fun x => |f x|) := by
  unfold mean
  rw [abs_div, Nat.abs_cast]
  exact div_le_div_of_nonneg_right (Finset.abs_sum_le_sum_abs _ _) (by positivity)

theorem mean_nonneg {α : Type} {s : Finset α} {f : α → ℚ} (h : ∀ x ∈ s, 0 ≤ f x) : 0 ≤ mean s f := by
  unfold mean
  exact div_nonneg (Finset.sum_nonneg h) (by positivity)

theorem mean_le {α : Type} {s : Finset α} {f : α → ℚ} {c : ℚ} (hc : 0 ≤ c) (h : ∀ x ∈ s, f x ≤ c) : mean s f ≤ c := by
  rcases s.eq_empty_or_nonempty with rfl | hs
  · simpa [mean] using hc
  · unfold mean
    have : (0 : ℚ) < s.card := by exact_mod_cast Finset.card_pos.2 hs
    rw [div_le_iff₀ this]
    calc _ ≤ ∑ _x ∈ s, c := Finset.sum_le_sum h
      _ = _ := by rw [Finset.sum_const, nsmul_eq_mul, mul_comm]

theorem mean_const {α : Type} {s : Finset α} (hs : s.Nonempty) (c : ℚ) : mean s (fun _ => c) = c := by
  unfold mean
  have : (s.card : ℚ) ≠ 0 := by exact_mod_cast (Finset.card_pos.2 hs).ne'
  rw [Finset.sum_const, nsmul_eq_mul, mul_div_assoc, mul_comm, div_mul_cancel₀ _ this]

theorem mean_sum {α β : Type} (s : Finset α) (t : Finset β) (f : α → β → ℚ) :
    ∑ y ∈ t, mean s (fun x => f x y) = mean s (fun x => ∑ y ∈ t, f x y) := by
  unfold mean
  rw [← Finset.sum_div, Finset.sum_comm]

/-! ## Functions of an oracle that ask for few values -/

section
variable {X V : Type} [Fintype X] [DecidableEq X]

/-- A frequency that depends on at most `k` values of the oracle, on average: `S O x` is how often `x` is asked for, and
changing the oracle at `x` changes the frequency by no more. -/
def Slow (k : ℕ) (f : (X → V) → ℚ) : Prop :=
  (∀ O, 0 ≤ f O ∧ f O ≤ 1) ∧ ∃ S : (X → V) → X → ℚ, (∀ O x, 0 ≤ S O x) ∧ (∀ O, ∑ x, S O x ≤ k) ∧
    ∀ O x v, |f (Function.update O x v) - f O| ≤ S O x

theorem Slow.mono {k l : ℕ} {f : (X → V) → ℚ} (h : Slow k f) (hk : k ≤ l) : Slow l f := by
  obtain ⟨h1, S, h2, h3, h4⟩ := h
  exact ⟨h1, S, h2, fun O => (h3 O).trans (by exact_mod_cast hk), h4⟩

theorem Slow.const {c : ℚ} (h0 : 0 ≤ c) (h1 : c ≤ 1) : Slow 0 (fun _ : X → V => c) :=
  ⟨fun _ => ⟨h0, h1⟩, fun _ _ => 0, fun _ _ => le_rfl, fun _ => by simp, fun _ _ _ => by simp⟩

theorem Slow.mean {α : Type} {k : ℕ} (s : Finset α) {f : α → (X → V) → ℚ} (h : ∀ a, Slow k (f a)) :
    Slow k (fun O => mean s (fun a => f a O)) := by
  choose h1 S h2 h3 h4 using h
  refine ⟨fun O => ⟨mean_nonneg (fun a _ => (h1 a O).1), mean_le zero_le_one (fun a _ => (h1 a O).2)⟩,
    fun O x => WriteIns.mean s (fun a => S a O x), fun O x => mean_nonneg (fun a _ => h2 a O x), fun O => ?_, fun O x v => ?_⟩
  · rw [mean_sum]
    exact mean_le (by positivity) (fun a _ => h3 a O)
  · rw [← mean_sub]
    exact (abs_mean_le _ _).trans (mean_mono (fun a _ => h4 a O x v))

theorem Slow.ask {k : ℕ} (x : X) {f : V → (X → V) → ℚ} (h : ∀ v, Slow k (f v)) : Slow (k + 1) (fun O => f (O x) O) := by
  choose h1 S h2 h3 h4 using h
  refine ⟨fun O => h1 _ O, fun O y => (if y = x then 1 else 0) + S (O x) O y, fun O y => ?_, fun O => ?_, fun O y v => ?_⟩
  · have := h2 (O x) O y
    dsimp only
    split <;> linarith
  · rw [Finset.sum_add_distrib, Finset.sum_ite_eq' Finset.univ x, if_pos (Finset.mem_univ _)]
    have := h3 (O x) O
    push_cast
    linarith
  · by_cases e : y = x
    · subst e
      simp only [if_true]
      have a := h1 (Function.update O y v y) (Function.update O y v)
      have b := h1 (O y) O
      have c := h2 (O y) O y
      rw [abs_le]
      constructor <;> linarith [a.1, a.2, b.1, b.2]
    · simp only [if_neg e, Function.update_of_ne (Ne.symm e), zero_add]
      exact h4 (O x) O y v

variable [Fintype V]

/-- A value of the oracle may be drawn anew. -/
theorem resample [Nonempty V] (x : X) (F : (X → V) → V → ℚ) :
    mean Finset.univ (fun O => F O (O x)) =
      mean Finset.univ (fun O => mean Finset.univ (fun v => F (Function.update O x v) v)) := by
  let σ : ((X → V) × V) ≃ ((X → V) × V) :=
    ⟨fun p => (Function.update p.1 x p.2, p.1 x), fun p => (Function.update p.1 x p.2, p.1 x),
      fun p => by simp, fun p => by simp⟩
  have h1 : ∑ p : (X → V) × V, F (Function.update p.1 x p.2) p.2 = ∑ p : (X → V) × V, F p.1 (p.1 x) := by
    refine Fintype.sum_equiv σ _ _ (fun p => ?_)
    simp [σ]
  rw [Fintype.sum_prod_type, Fintype.sum_prod_type] at h1
  have hV : ((Finset.univ : Finset V).card : ℚ) ≠ 0 := by
    exact_mod_cast (Finset.card_pos.2 Finset.univ_nonempty).ne'
  unfold mean
  rw [← Finset.sum_div, h1]
  simp only [Finset.sum_const, nsmul_eq_mul]
  rw [← Finset.mul_sum, mul_div_assoc, mul_comm, div_mul_cancel₀ _ hV]

/-- A value at one of many places is as good as a new value. -/
theorem hidden [Nonempty V] {k : ℕ} {R : Finset ℕ} (hR : R.Nonempty) (x : ℕ → X) (hx : Set.InjOn x R)
    {D : V → (X → V) → ℚ} (hD : ∀ v, Slow k (D v)) :
    |mean Finset.univ (fun O => mean R (fun t => D (O (x t)) O)) -
      mean Finset.univ (fun O => mean Finset.univ (fun v => D v O))| ≤ k / R.card := by
  choose h1 S h2 h3 h4 using hD
  have e1 : mean Finset.univ (fun O => mean R (fun t => D (O (x t)) O)) =
      mean R (fun t => mean Finset.univ (fun O => mean Finset.univ (fun v => D v (Function.update O (x t) v)))) := by
    rw [mean_comm]
    exact mean_congr (fun t _ => resample (x t) (fun O v => D v O))
  rw [e1, ← mean_const hR (mean Finset.univ (fun O => mean Finset.univ (fun v => D v O))), ← mean_sub]
  refine (abs_mean_le _ _).trans ?_
  have e2 : ∀ t ∈ R, |mean Finset.univ (fun O => mean Finset.univ (fun v => D v (Function.update O (x t) v))) -
      mean Finset.univ (fun O => mean Finset.univ (fun v => D v O))| ≤
      mean Finset.univ (fun O => mean Finset.univ (fun v => S v O (x t))) := by
    intro t _
    rw [← mean_sub]
    refine (abs_mean_le _ _).trans (mean_mono (fun O _ => ?_))
    rw [← mean_sub]
    exact (abs_mean_le _ _).trans (mean_mono (fun v _ => h4 v O (x t) v))
  refine (mean_mono e2).trans ?_
  rw [mean_comm]
  refine mean_le (by positivity) (fun O _ => ?_)
  rw [mean_comm]
  refine mean_le (by positivity) (fun v _ => ?_)
  unfold mean
  refine div_le_div_of_nonneg_right ?_ (by positivity)
  rw [← Finset.sum_image (f := fun y => S v O y) hx]
  exact (Finset.sum_le_sum_of_subset_of_nonneg (Finset.subset_univ _) (fun y _ _ => h2 v O y)).trans (h3 v O)

end

/-! ## Session keys -/

/-- The string from which a session key is made. -/
def sessionInput (Y Z : ℕ) : List Char := hashInput [toHexP Y, toHexP Z]

variable (G : Params) (C : Crypto)

/-- The blocks made with a given digest. -/
def derivedFrom (seed nb digest : ℕ) : List (List UInt8) :=
  (List.range (nb + 1)).map (fun i => getHmac C (toBytesQ (addModQ G digest 0)) (toBytesQ seed) (lengthBits nb) i)

/-- The advantage in telling the blocks that HMAC makes with a random key from random blocks. -/
def prfAdvantage (seed nb : ℕ) (D : List (List UInt8) → ℚ) : ℚ :=
  |mean (Finset.univ : Finset (Fin (2 ^ 256))) (fun v => D (derivedFrom G C seed nb v)) -
    mean (Finset.univ : Finset (Blocks (nb + 1))) (fun F => D F.lists)|

variable (X : Finset (List Char))

/-- The hash functions that differ on the strings in `X`. -/
abbrev Oracles : Type := X → Fin (2 ^ 256)

/-- The average over the hash functions. -/
def meanO (f : Oracles X → ℚ) : ℚ := mean Finset.univ f

/-- The four distinguishers made from an adversary against one message. -/
def lossOracleOne (A : Oracles X → ℕ → Res HashedCiphertext → ℚ) (p : Pair) : ℚ :=
  ddhAdvantage G (fun x y z => meanO X (fun O => tripleDist G (C.withOracle X O) (A O) p.one x y z)) +
    ddhAdvantage G (fun x y z => meanO X (fun O => tripleDist G (C.withOracle X O) (A O) p.two x y z)) +
    (prfAdvantage G C p.seed (p.one.padded.length / 32) (fun keys => meanO X (fun O => mean (secrets G) (fun s =>
        mean (nonces G) (fun r => blockDist C (A O) p.one (G.g ^ s % G.p) (G.g ^ r % G.p) keys)))) +
      prfAdvantage G C p.seed (p.two.padded.length / 32) (fun keys => meanO X (fun O => mean (secrets G) (fun s =>
        mean (nonces G) (fun r => blockDist C (A O) p.two (G.g ^ s % G.p) (G.g ^ r % G.p) keys)))))

/-- For each place the four distinguishers, with the second messages before it and the first messages after it encrypted
with the public key. -/
def lossOracle : (Oracles X → ℕ → List (Res HashedCiphertext) → ℚ) → List Pair → ℚ
  | _, [] => 0
  | A, p :: ps =>
    lossOracleOne G C X
      (fun O K c => encrypted G (C.withOracle X O) K (ps.map Pair.one) (fun cs => A O K (c :: cs))) p +
      lossOracle (fun O K cs => mean (nonces G) (fun r => A O K (p.two.encrypt G (C.withOracle X O) r K :: cs))) ps

variable {G C X}

theorem derived_oracle (O : Oracles X) (seed nb Y Z : ℕ) :
    derived G (C.withOracle X O) seed nb Y Z = derivedFrom G C seed nb (oracle C.sha256 X O (sessionInput Y Z)) := rfl

theorem encryptWith_oracle (m : Item) (Y Z : ℕ) : ∃ h : ℕ → Res HashedCiphertext, ∀ O : Oracles X,
    m.encryptWith G (C.withOracle X O) (Y, Z) = h (oracle C.sha256 X O (sessionInput Y Z)) := by
  refine ⟨fun d => do
    let pt ← padMessage m.message m.maxLen m.truncate
    let nb := pt.length % 2 ^ 32 / 32
    let data ← xorBlocks (blockKey C (addModQ G d 0) m.seed nb) pt 0 nb
    .ok ⟨Y, data, macOf C (addModQ G d 0) m.seed nb Y data⟩, fun O => rfl⟩

/-- A step that looks at one string. -/
theorem Slow.string {k : ℕ} {f : ℕ → Oracles X → ℚ} (h : ∀ v, Slow k (f v)) (s : List Char) :
    Slow (k + 1) (fun O => f (oracle C.sha256 X O s) O) := by
  by_cases hs : s ∈ X
  · have := Slow.ask (⟨s, hs⟩ : X) (f := fun (v : Fin (2 ^ 256)) O => f v O) (fun v => h v)
    simpa only [oracle, hs, dite_true] using this
  · simp only [oracle, hs, dite_false]
    exact (h _).mono (Nat.le_succ k)

theorem encrypt_slow {k : ℕ} (m : Item) (r K : ℕ) {f : Oracles X → Res HashedCiphertext → ℚ}
    (h : ∀ c, Slow k (fun O => f O c)) : Slow (k + 1) (fun O => f O (m.encrypt G (C.withOracle X O) r K)) := by
  obtain ⟨e, he⟩ := encryptWith_oracle (G := G) (C := C) (X := X) m (gPowP G r) (powModP G K r)
  simp only [encrypt_with, he]
  exact Slow.string (f := fun v O => f O (e v)) (fun v => h _) _

theorem encrypted_slow (K : ℕ) : ∀ (ms : List Item) {k : ℕ} {f : Oracles X → List (Res HashedCiphertext) → ℚ}
    (_ : ∀ cs, Slow k (fun O => f O cs)),
    Slow (k + ms.length) (fun O => encrypted G (C.withOracle X O) K ms (f O))
  | [], k, f, h => h []
  | m :: ms, k, f, h => by
    simp only [encrypted]
    refine Slow.mean _ (fun r => ?_)
    have := encrypted_slow K ms (k := k + 1)
      (f := fun O cs => f O (m.encrypt G (C.withOracle X O) r K :: cs))
      (fun cs => encrypt_slow m r K (f := fun O c => f O (c :: cs)) (fun c => h _))
    refine this.mono ?_
    rw [List.length_cons]
    omega

theorem pow_inj (hG : G.Valid) {a b : ℕ} (ha : a < G.q) (hb : b < G.q) (h : G.g ^ a % G.p = G.g ^ b % G.p) : a = b := by
  have h4 : G.g ^ a ≡ G.g ^ b [MOD G.p] := h
  rw [modEq_cast] at h4
  have h5 := (g_pow_eq_iff hG a b).1 (by simpa using h4)
  rwa [Nat.mod_eq_of_lt ha, Nat.mod_eq_of_lt hb] at h5

theorem sessionInput_inj {Y Z Y' Z' : ℕ} (h1 : Y < 2 ^ 4096) (h2 : Z < 2 ^ 4096) (h3 : Y' < 2 ^ 4096)
    (h4 : Z' < 2 ^ 4096) (h : sessionInput Y Z = sessionInput Y' Z') : Y = Y' ∧ Z = Z' := by
  have := C26_encoding_injective_partial [.p Y, .p Z] [.p Y', .p Z'] (by simp [HAtom.Plain, h1, h2])
    (by simp [HAtom.Plain, h3, h4]) (by simp [HAtom.SameType]) h
  simpa using this

theorem kdf_oracle (hG : G.Valid) (hX : ∀ r t, sessionInput (G.g ^ r % G.p) (G.g ^ t % G.p) ∈ X) {k : ℕ} (seed nb : ℕ)
    {D : Oracles X → ℕ → ℕ → List (List UInt8) → ℚ} (hD : ∀ x y keys, Slow k (fun O => D O x y keys)) :
    |meanO X (fun O => kdfReal G (C.withOracle X O) seed nb (D O)) -
      mean (Finset.univ : Finset (Fin (2 ^ 256))) (fun v => meanO X (fun O => mean (secrets G) (fun s =>
        mean (nonces G) (fun r => D O (G.g ^ s % G.p) (G.g ^ r % G.p) (derivedFrom G C seed nb v)))))| ≤ k / G.q := by
  have hp0 : 0 < G.p := by have := hG.p_gt; omega
  have hp := hG.p_lt
  have hk : (0 : ℚ) ≤ k / G.q := div_nonneg (Nat.cast_nonneg _) (Nat.cast_nonneg _)
  have hq0 : 0 < G.q := by have := hG.q_gt; omega
  have e1 : meanO X (fun O => kdfReal G (C.withOracle X O) seed nb (D O)) =
      mean (secrets G) (fun s => mean (nonces G) (fun r => mean Finset.univ (fun O : Oracles X => mean (nonces G) (fun t =>
        D O (G.g ^ s % G.p) (G.g ^ r % G.p)
          (derivedFrom G C seed nb (O ⟨sessionInput (G.g ^ r % G.p) (G.g ^ t % G.p), hX r t⟩)))))) := by
    unfold meanO kdfReal
    rw [mean_comm]
    refine mean_congr (fun s _ => ?_)
    rw [mean_comm]
    refine mean_congr (fun r _ => mean_congr (fun O _ => mean_congr (fun t _ => ?_)))
    rw [derived_oracle, oracle, dif_pos (hX r t)]
  have e2 : mean (Finset.univ : Finset (Fin (2 ^ 256))) (fun v => meanO X (fun O => mean (secrets G) (fun s =>
        mean (nonces G) (fun r => D O (G.g ^ s % G.p) (G.g ^ r % G.p) (derivedFrom G C seed nb v))))) =
      mean (secrets G) (fun s => mean (nonces G) (fun r => mean Finset.univ (fun O : Oracles X =>
        mean (Finset.univ : Finset (Fin (2 ^ 256))) (fun v =>
          D O (G.g ^ s % G.p) (G.g ^ r % G.p) (derivedFrom G C seed nb v))))) := by
    unfold meanO
    have : ∀ O : Oracles X, mean (Finset.univ : Finset (Fin (2 ^ 256))) (fun v => mean (secrets G) (fun s =>
        mean (nonces G) (fun r => D O (G.g ^ s % G.p) (G.g ^ r % G.p) (derivedFrom G C seed nb v)))) =
        mean (secrets G) (fun s => mean (nonces G) (fun r => mean (Finset.univ : Finset (Fin (2 ^ 256))) (fun v =>
          D O (G.g ^ s % G.p) (G.g ^ r % G.p) (derivedFrom G C seed nb v)))) := by
      intro O
      rw [mean_comm]
      exact mean_congr (fun s _ => mean_comm _ _ _)
    rw [mean_comm, mean_congr (fun O _ => this O), mean_comm]
    exact mean_congr (fun s _ => mean_comm _ _ _)
  rw [e1, e2, ← mean_sub]
  refine (abs_mean_le _ _).trans (mean_le hk (fun s _ => ?_))
  rw [← mean_sub]
  refine (abs_mean_le _ _).trans (mean_le hk (fun r _ => ?_))
  have hR : (nonces G).Nonempty := ⟨0, Finset.mem_range.2 hq0⟩
  have hc : (nonces G).card = G.q := Finset.card_range _
  rw [← hc]
  refine hidden (V := Fin (2 ^ 256)) (k := k) hR
    (fun t => (⟨sessionInput (G.g ^ r % G.p) (G.g ^ t % G.p), hX r t⟩ : X)) ?_
    (D := fun v O => D O (G.g ^ s % G.p) (G.g ^ r % G.p) (derivedFrom G C seed nb v)) (fun v => hD _ _ _)
  intro a ha b hb hab
  have lt : ∀ n, G.g ^ n % G.p < 2 ^ 4096 := fun n => lt_trans (Nat.mod_lt _ hp0) hp
  exact pow_inj hG (Finset.mem_range.1 ha) (Finset.mem_range.1 hb)
    (sessionInput_inj (lt _) (lt _) (lt _) (lt _) (congrArg Subtype.val hab)).2

theorem mean_ddhReal {α : Type} (s : Finset α) (D : α → ℕ → ℕ → ℕ → ℚ) :
    mean s (fun a => ddhReal G (D a)) = ddhReal G (fun x y z => mean s (fun a => D a x y z)) := by
  unfold ddhReal
  rw [mean_comm]
  exact mean_congr (fun _ _ => mean_comm _ _ _)

theorem mean_ddhRandom {α : Type} (s : Finset α) (D : α → ℕ → ℕ → ℕ → ℚ) :
    mean s (fun a => ddhRandom G (D a)) = ddhRandom G (fun x y z => mean s (fun a => D a x y z)) := by
  unfold ddhRandom
  rw [mean_comm]
  refine mean_congr (fun _ _ => ?_)
  rw [mean_comm]
  exact mean_congr (fun _ _ => mean_comm _ _ _)

theorem mean_kdfRandom {α : Type} (s : Finset α) (nb : ℕ) (D : α → ℕ → ℕ → List (List UInt8) → ℚ) :
    mean s (fun a => kdfRandom G nb (D a)) = mean (Finset.univ : Finset (Blocks (nb + 1))) (fun F =>
      mean s (fun a => mean (secrets G) (fun x => mean (nonces G) (fun y =>
        D a (G.g ^ x % G.p) (G.g ^ y % G.p) F.lists)))) := by
  unfold kdfRandom
  rw [mean_comm (Finset.univ : Finset (Blocks (nb + 1)))]
  refine mean_congr (fun a _ => ?_)
  rw [mean_comm (Finset.univ : Finset (Blocks (nb + 1)))]
  exact mean_congr (fun _ _ => mean_comm _ _ _)

/-- From a Diffie-Hellman triple to random blocks. -/
theorem one_chain (hG : G.Valid) (hX : ∀ r t, sessionInput (G.g ^ r % G.p) (G.g ^ t % G.p) ∈ X) {k nb : ℕ} {m : Item}
    (hm : m.Fills nb) (hn : nb < 2 ^ 27) {A : Oracles X → ℕ → Res HashedCiphertext → ℚ}
    (hA : ∀ K c, Slow k (fun O => A O K c)) :
    |meanO X (fun O => ddhReal G (tripleDist G (C.withOracle X O) (A O) m)) -
      meanO X (fun O => kdfRandom G nb (blockDist C (A O) m))| ≤
      ddhAdvantage G (fun x y z => meanO X (fun O => tripleDist G (C.withOracle X O) (A O) m x y z)) +
      prfAdvantage G C m.seed nb (fun keys => meanO X (fun O => mean (secrets G) (fun s =>
        mean (nonces G) (fun r => blockDist C (A O) m (G.g ^ s % G.p) (G.g ^ r % G.p) keys)))) + k / G.q := by
  have e1 : meanO X (fun O => ddhReal G (tripleDist G (C.withOracle X O) (A O) m)) =
      ddhReal G (fun x y z => meanO X (fun O => tripleDist G (C.withOracle X O) (A O) m x y z)) := mean_ddhReal _ _
  have e2 : ddhRandom G (fun x y z => meanO X (fun O => tripleDist G (C.withOracle X O) (A O) m x y z)) =
      meanO X (fun O => kdfReal G (C.withOracle X O) m.seed nb (blockDist C (A O) m)) := by
    refine (mean_ddhRandom _ _).symm.trans (mean_congr (fun O _ => ?_))
    exact one_random (C := C.withOracle X O) hm hn
  have e3 := kdf_oracle (C := C) hG hX m.seed nb (D := fun O => blockDist C (A O) m) (k := k) (fun x y keys => hA _ _)
  have e4 : meanO X (fun O => kdfRandom G nb (blockDist C (A O) m)) = _ := mean_kdfRandom _ _ _
  unfold ddhAdvantage prfAdvantage
  rw [e1, e2, e4]
  generalize ddhReal G _ = a at *
  generalize meanO X (fun O => kdfReal G (C.withOracle X O) m.seed nb (blockDist C (A O) m)) = b at *
  generalize mean (Finset.univ : Finset (Fin (2 ^ 256))) _ = c at *
  change |a - mean (Finset.univ : Finset (Blocks (nb + 1))) (fun F => meanO X (fun O => mean (secrets G) (fun s =>
        mean (nonces G) (fun r => blockDist C (A O) m (G.g ^ s % G.p) (G.g ^ r % G.p) F.lists))))| ≤ _
  generalize mean (Finset.univ : Finset (Blocks (nb + 1))) _ = d
  have t1 := abs_sub_le a b d
  have t2 := abs_sub_le b c d
  linarith

theorem one_oracle (hG : G.Valid) (hX : ∀ r t, sessionInput (G.g ^ r % G.p) (G.g ^ t % G.p) ∈ X) {k nb : ℕ} {p : Pair}
    (h : p.one.Fills nb) (h' : p.two.Fills nb) (hn : nb < 2 ^ 27) {A : Oracles X → ℕ → Res HashedCiphertext → ℚ}
    (hA : ∀ K c, Slow k (fun O => A O K c)) :
    |meanO X (fun O => ddhReal G (tripleDist G (C.withOracle X O) (A O) p.one)) -
      meanO X (fun O => ddhReal G (tripleDist G (C.withOracle X O) (A O) p.two))| ≤
      lossOracleOne G C X A p + 2 * k / G.q := by
  have c1 := one_chain (C := C) hG hX h hn hA
  have c2 := one_chain (C := C) hG hX h' hn hA
  have e : meanO X (fun O => kdfRandom G nb (blockDist C (A O) p.one)) =
      meanO X (fun O => kdfRandom G nb (blockDist C (A O) p.two)) := mean_congr (fun O _ => one_ideal h h')
  rw [← e] at c2
  unfold lossOracleOne
  rw [h.2, h'.2, Nat.mul_div_cancel_left _ (by norm_num)]
  change _ ≤ _ + _ + (prfAdvantage G C p.one.seed nb _ + prfAdvantage G C p.two.seed nb _) + _
  have t := abs_sub_le (meanO X (fun O => ddhReal G (tripleDist G (C.withOracle X O) (A O) p.one)))
    (meanO X (fun O => kdfRandom G nb (blockDist C (A O) p.one)))
    (meanO X (fun O => ddhReal G (tripleDist G (C.withOracle X O) (A O) p.two)))
  rw [abs_sub_comm (meanO X (fun O => kdfRandom G nb (blockDist C (A O) p.one)))] at t
  have : (2 * k / G.q : ℚ) = k / G.q + k / G.q := by ring
  rw [this]
  linarith

theorem oracle_secrecy (hG : G.Valid) (hX : ∀ r t, sessionInput (G.g ^ r % G.p) (G.g ^ t % G.p) ∈ X) :
    ∀ (ps : List Pair) {k : ℕ} (A : Oracles X → ℕ → List (Res HashedCiphertext) → ℚ)
    (_ : ∀ K cs, Slow k (fun O => A O K cs)) (_ : ∀ p ∈ ps, ∃ nb < 2 ^ 27, p.one.Fills nb ∧ p.two.Fills nb),
    |meanO X (fun O => game G (C.withOracle X O) (A O) (ps.map Pair.one)) -
      meanO X (fun O => game G (C.withOracle X O) (A O) (ps.map Pair.two))| ≤
      lossOracle G C X A ps + 2 * ps.length * (k + ps.length) / G.q
  | [], k, A, _, _ => by simp [lossOracle]
  | p :: ps, k, A, hA, h => by
    obtain ⟨nb, hn, f1, f2⟩ := h p (List.mem_cons_self ..)
    let A' : Oracles X → ℕ → List (Res HashedCiphertext) → ℚ :=
      fun O K cs => mean (nonces G) (fun r => A O K (p.two.encrypt G (C.withOracle X O) r K :: cs))
    have hA' : ∀ K cs, Slow (k + 1) (fun O => A' O K cs) := fun K cs =>
      Slow.mean _ (fun r => encrypt_slow p.two r K (f := fun O c => A O K (c :: cs)) (fun c => hA _ _))
    have ih := oracle_secrecy hG hX ps A' hA' (fun x hx => h x (List.mem_cons_of_mem _ hx))
    let one : Oracles X → ℕ → Res HashedCiphertext → ℚ :=
      fun O K c => encrypted G (C.withOracle X O) K (ps.map Pair.one) (fun cs => A O K (c :: cs))
    have hone : ∀ K c, Slow (k + ps.length) (fun O => one O K c) := by
      intro K c
      have := encrypted_slow (G := G) (C := C) (X := X) K (ps.map Pair.one) (f := fun O cs => A O K (c :: cs))
        (fun cs => hA K (c :: cs))
      rwa [List.length_map] at this
    have h1 : ∀ v : Item, meanO X (fun O => game G (C.withOracle X O) (A O) (v :: ps.map Pair.one)) =
        meanO X (fun O => ddhReal G (tripleDist G (C.withOracle X O) (one O) v)) := by
      intro v
      refine mean_congr (fun O _ => ?_)
      rw [game_eq hG, ← one_real hG]
      rfl
    have h2 : ∀ l : List Item, meanO X (fun O => game G (C.withOracle X O) (A O) (p.two :: l)) =
        meanO X (fun O => game G (C.withOracle X O) (A' O) l) := by
      intro l
      refine mean_congr (fun O _ => ?_)
      rw [game_eq hG, game_eq hG]
      refine mean_congr (fun s _ => ?_)
      exact encrypted_mean _ l
        (fun r cs => A O (G.g ^ s % G.p) (p.two.encrypt G (C.withOracle X O) r (G.g ^ s % G.p) :: cs)) _
    have h3 := one_oracle (C := C) hG hX f1 f2 hn hone
    rw [← h1, ← h1, h2] at h3
    rw [← h2 (ps.map Pair.two)] at ih
    have h4 : lossOracle G C X A (p :: ps) = lossOracleOne G C X one p + lossOracle G C X A' ps := rfl
    rw [h4, List.map_cons, List.map_cons]
    have h6 := abs_sub_le (meanO X (fun O => game G (C.withOracle X O) (A O) (p.one :: ps.map Pair.one)))
      (meanO X (fun O => game G (C.withOracle X O) (A' O) (ps.map Pair.one)))
      (meanO X (fun O => game G (C.withOracle X O) (A O) (p.two :: ps.map Pair.two)))
    have hq : (0 : ℚ) ≤ 1 / G.q := by positivity
    have h7 : (2 * ((p :: ps).length : ℕ) * (k + ((p :: ps).length : ℕ)) / G.q : ℚ) =
        2 * ((k + ps.length : ℕ) : ℚ) / G.q + 2 * ps.length * ((k + 1 : ℕ) + ps.length) / G.q + 2 * (1 / G.q) := by
      rw [List.length_cons]
      push_cast
      ring
    rw [h7]
    linarith

theorem prog_slow : ∀ {k : ℕ} (P : Prog Bool k),
    Slow k (fun O : Oracles X => if P.run (oracle C.sha256 X O) then (1 : ℚ) else 0)
  | k, .done a => by
    simp only [Prog.run]
    cases a
    · exact (Slow.const le_rfl zero_le_one).mono (Nat.zero_le k)
    · exact (Slow.const zero_le_one le_rfl).mono (Nat.zero_le k)
  | _, .ask s next => by
    simp only [Prog.run]
    exact Slow.string (f := fun v O => if (next v).run (oracle C.sha256 X O) then (1 : ℚ) else 0)
      (fun v => prog_slow (next v)) s

variable (C X) in
/-- Whether a program that is shown the public key and the ciphertexts answers yes, with a given hash function. -/
def answer {k : ℕ} (A : ℕ → List (Res HashedCiphertext) → Prog Bool k) :
    Oracles X → ℕ → List (Res HashedCiphertext) → ℚ :=
  fun O K cs => if (A K cs).run (oracle C.sha256 X O) then 1 else 0

/-- C122.  With a hash function that is random on the strings from which session keys are made, a program that calls it
`k` times tells lists of records apart only with the advantage of two Diffie-Hellman distinguishers and two
distinguishers of HMAC with a random key for each record, and a term for guessing. -/
theorem C122_oracle (hG : G.Valid) (hX : ∀ r t, sessionInput (G.g ^ r % G.p) (G.g ^ t % G.p) ∈ X) {k : ℕ}
    (l : List (List UInt8 × List UInt8 × ℕ)) (A : ℕ → List (Res HashedCiphertext) → Prog Bool k) :
    |meanO X (fun O => game G (C.withOracle X O) (answer C X A O) ((records l).map Pair.one)) -
      meanO X (fun O => game G (C.withOracle X O) (answer C X A O) ((records l).map Pair.two))| ≤
      lossOracle G C X (answer C X A) (records l) + 2 * l.length * (k + l.length) / G.q := by
  have h := oracle_secrecy (C := C) hG hX (records l) (answer C X A) (fun K cs => prog_slow (A K cs)) (fun p hp => by
    obtain ⟨x, -, rfl⟩ := List.mem_map.1 hp
    exact ⟨16, by norm_num, fills_512 _ _, fills_512 _ _⟩)
  have e : (records l).length = l.length := List.length_map _
  rwa [e] at h

/-- C122 for the standard parameters: with `2^40` records and `2^80` calls the term for guessing is below `2^-130`. -/
theorem C122_standard (hX : ∀ r t, sessionInput (Params.std.g ^ r % Params.std.p) (Params.std.g ^ t % Params.std.p) ∈ X)
    {k : ℕ} (hk : k ≤ 2 ^ 80) (l : List (List UInt8 × List UInt8 × ℕ)) (hl : l.length ≤ 2 ^ 40)
    (A : ℕ → List (Res HashedCiphertext) → Prog Bool k) :
    |meanO X (fun O => game .std (C.withOracle X O) (answer C X A O) ((records l).map Pair.one)) -
      meanO X (fun O => game .std (C.withOracle X O) (answer C X A O) ((records l).map Pair.two))| ≤
      lossOracle .std C X (answer C X A) (records l) + 1 / 2 ^ 130 := by
  refine (C122_oracle (C := C) C54_std_valid hX l A).trans (add_le_add_right ?_ _)
  have hq : (2 ^ 255 : ℚ) ≤ (Params.std.q : ℚ) := by
    have : 2 ^ 255 ≤ Params.std.q := by decide +kernel
    exact_mod_cast this
  have hk' : (k : ℚ) ≤ 2 ^ 80 := by exact_mod_cast hk
  have hl' : (l.length : ℚ) ≤ 2 ^ 40 := by exact_mod_cast hl
  have h0 : (0 : ℚ) < Params.std.q := lt_of_lt_of_le (by positivity) hq
  rw [div_le_iff₀ h0]
  have h1 : (2 * l.length * (k + l.length) : ℚ) ≤ 2 * 2 ^ 40 * (2 ^ 80 + 2 ^ 40) := by
    refine mul_le_mul (by linarith) (by linarith) (by positivity) (by positivity)
  refine h1.trans (le_trans ?_ (mul_le_mul_of_nonneg_left hq (by positivity)))
  norm_num

open Classical in
/-- There are only finitely many strings from which session keys are made. -/
theorem session_strings (hG : G.Valid) : ∃ X : Finset (List Char), ∀ r t, sessionInput (G.g ^ r % G.p) (G.g ^ t % G.p) ∈ X := by
  have hp0 : 0 < G.p := by have := hG.p_gt; omega
  refine ⟨(Finset.range G.p ×ˢ Finset.range G.p).image (fun y => sessionInput y.1 y.2), fun r t => ?_⟩
  exact Finset.mem_image.2 ⟨(_, _), Finset.mem_product.2 ⟨Finset.mem_range.2 (Nat.mod_lt _ hp0),
    Finset.mem_range.2 (Nat.mod_lt _ hp0)⟩, rfl⟩

/-- A program that asks for the session key of the first ciphertext with a guess. -/
example : ∃ A : ℕ → List (Res HashedCiphertext) → Prog Bool 1, ∀ K c,
    (A K [.ok c]).asked (fun _ => 0) = [sessionInput c.pad K] :=
  ⟨fun K cs => match cs with
    | [.ok c] => .ask (sessionInput c.pad K) (fun v => .done (v == 0))
    | _ => .done false, fun _ _ => rfl⟩

end EG.WriteIns
