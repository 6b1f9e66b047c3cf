import Verif.Props.Derived
import Verif.Props.Secrecy
import Verif.Lemmas.Freq
import Mathlib.Data.Fintype.BigOperators
import Mathlib.Logic.Equiv.Fin.Basic

/-!
# C118: the votes of an election stay secret with nonces computed from the nonces of the ballots

C117 and C110 together.  The items of the layout are divided into `m` whose votes are to be secret, and others, `T`.
-/

namespace EG.Derived

open EG.Secrecy EG.Derive

variable {B K L T : Type} {m k : ℕ}

/-- Whoever tries to find out something on the votes.  It sees the public key, the random numbers of the proofs of all
contests, the nonces of the items `T` and the ciphertexts of the others; then it may hash `k` strings. -/
abbrev Adversary (K T : Type) (k : ℕ) : Type := ℕ → (K → ℕ) → (T → ℕ) → List (Res Ciphertext) → Prog Bool k

/-- It answers yes, for the votes `ms`, with the secret key `s`, the hash function `H`, and given random numbers of the
proofs and nonces. -/
def Yes (G : Params) (e : Fin m ⊕ T ≃ L) (A : Adversary K T k) (ms : Fin m → ℕ) (s : ℕ) (H : List Char → ℕ) (us : K → ℕ)
    (ns : L → ℕ) : Prop :=
  ∃ key, keyFromSecret G s = .ok key ∧
    (A key.pub us (fun t => ns (e (.inr t)))
      (List.ofFn fun i => elgamalEncrypt G (ms i) (ns (e (.inl i))) key.pub)).run H = true

/-- How often it answers yes for the votes `ms`, among all secret keys, all nonces of ballots in `S`, and all functions in
place of SHA-256. -/
noncomputable def rate (E : Layout B K L) (G : Params) (C : Crypto) (e : Fin m ⊕ T ≃ L) (S : Finset ℕ) (X : Finset Str)
    (A : Adversary K T k) (ms : Fin m → ℕ) : ℚ :=
  freq (fun p : secrets G × (B → S) × (X → Fin (2 ^ 256)) =>
    Yes G e A ms p.1 (oracle C.sha256 X p.2.2) (E.proofNonce G (C.withOracle X p.2.2) (fun b => p.2.1 b))
      (E.nonce G (C.withOracle X p.2.2) (fun b => p.2.1 b)))

/-- What a distinguisher draws to run the adversary: digests in place of the random numbers of the proofs and the nonces
of `T`, and a function in place of SHA-256. -/
abbrev Coins (K T : Type) (X : Finset Str) : Type := (K → Fin (2 ^ 256)) × (T → Fin (2 ^ 256)) × (X → Fin (2 ^ 256))

/-- The number of draws for which the adversary answers yes. -/
noncomputable def draws (G : Params) (C : Crypto) (X : Finset Str) (A : Adversary K T k) : ℕ → List (Res Ciphertext) → ℤ :=
  fun pub cs => (Nat.card { o : Coins K T X //
    (A pub (fun c => addModQ G (o.1 c) 0) (fun t => addModQ G (o.2.1 t) 0) cs).run (oracle C.sha256 X o.2.2) = true } : ℤ)

/-- The advantage of all distinguishers of C110 together, as a frequency. -/
noncomputable def ddhTotal (G : Params) (C : Crypto) (X : Finset Str) (A : Adversary K T k) (ms ms' : Fin m → ℕ) : ℚ :=
  (((hybrids G (draws G C X A) (List.ofFn fun i => (ms i, ms' i))).map (ddhAdvantage G)).sum : ℚ) /
    (G.q * (secrets G).card * (nonces G).card ^ m * Nat.card (Coins K T X))

theorem encrypted_ofFn (G : Params) (pub : ℕ) : ∀ {m : ℕ} (ms : Fin m → ℕ) (f : List (Res Ciphertext) → ℤ),
    encrypted G pub (List.ofFn ms) f =
      ∑ r : Fin m → nonces G, f (List.ofFn fun i => elgamalEncrypt G (ms i) (r i) pub)
  | 0, ms, f => by
    rw [Fintype.sum_unique]
    simp [encrypted]
  | m + 1, ms, f => by
    rw [List.ofFn_succ, encrypted, ← Fintype.sum_equiv (Fin.consEquiv fun _ => nonces G) (fun x =>
      f (elgamalEncrypt G (ms 0) x.1 pub :: List.ofFn fun i => elgamalEncrypt G (ms i.succ) (x.2 i) pub)) _ (by
        intro x
        rw [List.ofFn_succ]
        rfl), Fintype.sum_prod_type, ← Finset.sum_coe_sort]
    refine Finset.sum_congr rfl fun x _ => ?_
    rw [encrypted_ofFn]

variable {E : Layout B K L} {G : Params} {C : Crypto}

theorem rate_iff (hG : G.Valid) (e : Fin m ⊕ T ≃ L) (A : Adversary K T k) (ms : Fin m → ℕ) {s : ℕ} (hs : s ∈ secrets G)
    (H : List Char → ℕ) (us : K → ℕ) (ns : L → ℕ) :
    Yes G e A ms s H us ns ↔ (A (G.g ^ s % G.p) us (fun t => ns (e (.inr t)))
      (List.ofFn fun i => elgamalEncrypt G (ms i) (ns (e (.inl i))) (G.g ^ s % G.p))).run H = true := by
  obtain ⟨key, h1, h2⟩ := pub_eq hG hs
  unfold Yes
  rw [← h2]
  constructor
  · rintro ⟨key', h3, h4⟩
    rw [h1] at h3
    cases h3
    exact h4
  · exact fun h => ⟨key, h1, h⟩

/-- The same with random digests in place of the random numbers of the proofs and the nonces. -/
noncomputable def rateRandom (G : Params) (C : Crypto) (e : Fin m ⊕ T ≃ L) (X : Finset Str) (A : Adversary K T k)
    (ms : Fin m → ℕ) : ℚ :=
  freq (fun p : secrets G × (Leaf K L → Fin (2 ^ 256)) × (X → Fin (2 ^ 256)) =>
    Yes G e A ms p.1 (oracle C.sha256 X p.2.2) (fun c => addModQ G (p.2.1 (.proof c)) 0)
      (fun i => addModQ G (p.2.1 (.item i)) 0))

/-- The same with nonces that are accepted for the secret votes. -/
noncomputable def rateIdeal (G : Params) (C : Crypto) (X : Finset Str) (A : Adversary K T k) (ms : Fin m → ℕ) : ℚ :=
  freq (fun p : secrets G × (Fin m → nonces G) × Coins K T X =>
    (A (G.g ^ (p.1 : ℕ) % G.p) (fun c => addModQ G (p.2.2.1 c) 0) (fun t => addModQ G (p.2.2.2.1 t) 0)
      (List.ofFn fun i => elgamalEncrypt G (ms i) (p.2.1 i) (G.g ^ (p.1 : ℕ) % G.p))).run
        (oracle C.sha256 X p.2.2.2.2) = true)

theorem secrets_nonempty (h : 2 < G.q) : Nonempty (secrets G) :=
  ⟨⟨2, Finset.mem_Ico.2 ⟨le_refl _, h⟩⟩⟩

/-- Step 1: C117. -/
theorem rate_random [Fintype B] [Fintype K] [Fintype L] [Nonempty (secrets G)] (hG : G.Valid) (hE : E.Proper) (e : Fin m ⊕ T ≃ L) {S : Finset ℕ}
    (hne : S.Nonempty) (hS : ∀ s ∈ S, s < 2 ^ 256) {X : Finset Str} (hX : E.strings G C S ⊆ X) (A : Adversary K T k)
    (ms : Fin m → ℕ) :
    |rate E G C e S X A ms - rateRandom G C e X A ms| ≤ (Fintype.card B * k : ℚ) / S.card +
      (5 * Fintype.card K + 2 * Fintype.card L) * (k + (5 * Fintype.card K + 2 * Fintype.card L)) * fibre G / 2 ^ 256 := by
  classical
  refine freq_average _ _ _ ?_
  rintro ⟨s, hs⟩
  simp only [rate_iff hG e A ms hs]
  exact C117_random hG hE hne hS hX (fun us ns => A (G.g ^ s % G.p) us (fun t => ns (e (.inr t)))
      (List.ofFn fun i => elgamalEncrypt G (ms i) (ns (e (.inl i))) (G.g ^ s % G.p)))

/-- Step 2: the digests that are not nonces already. -/
theorem random_ideal [Fintype K] [Fintype L] [Fintype T] [Nonempty (secrets G)] (hG : G.Valid) (e : Fin m ⊕ T ≃ L) {X : Finset Str}
    (A : Adversary K T k) (ms : Fin m → ℕ) :
    |rateRandom G C e X A ms - rateIdeal G C X A ms| ≤ m * ((2 ^ 256 - (nonces G).card : ℚ) / 2 ^ 256) := by
  classical
  refine freq_average _ _ _ ?_
  rintro ⟨s, hs⟩
  simp only [rate_iff hG e A ms hs]
  have hlt : ∀ r : nonces G, (r : ℕ) < G.q := fun r => (Finset.mem_Ico.1 r.2).2
  have hq := hG.q_lt
  let φ : (Fin m → nonces G) × Coins K T X → (Leaf K L → Fin (2 ^ 256)) × (X → Fin (2 ^ 256)) := fun p =>
    (fun x => match x with
      | .proof c => p.2.1 c
      | .item i => match e.symm i with
        | .inl j => ⟨p.1 j, (hlt _).trans hq⟩
        | .inr t => p.2.2.1 t, p.2.2.2)
  have hφ : Function.Injective φ := by
    rintro ⟨r, x, y, O⟩ ⟨r', x', y', O'⟩ h
    have h1 := fun z => congrFun (congrArg Prod.fst h) z
    have h2 : O = O' := congrArg Prod.snd h
    have h3 : x = x' := funext fun c => h1 (.proof c)
    have h4 : y = y' := by
      funext t
      have := h1 (.item (e (.inr t)))
      simpa [φ] using this
    have h5 : r = r' := by
      funext j
      have := h1 (.item (e (.inl j)))
      simp only [φ, Equiv.symm_apply_apply, Fin.mk.injEq] at this
      exact Subtype.ext this
    rw [h2, h3, h4, h5]
  have hone : Nonempty ((Fin m → nonces G) × Coins K T X) :=
    ⟨fun _ => ⟨1, Finset.mem_Ico.2 ⟨le_refl _, by have := hG.q_gt; omega⟩⟩, fun _ => 0, fun _ => 0, fun _ => 0⟩
  have key := freq_embed φ hφ (fun p => (A (G.g ^ s % G.p) (fun c => addModQ G (p.1 (.proof c)) 0)
    (fun t => addModQ G (p.1 (.item (e (.inr t)))) 0) (List.ofFn fun i => elgamalEncrypt G (ms i)
      (addModQ G (p.1 (.item (e (.inl i)))) 0) (G.g ^ s % G.p))).run (oracle C.sha256 X p.2) = true)
  have hred : ∀ r : nonces G, addModQ G r 0 = r := by
    intro r
    rw [addModQ_zero hG _ (by have := hlt r; omega), Nat.mod_eq_of_lt (hlt r)]
  simp only [φ, Equiv.symm_apply_apply, hred] at key
  refine key.trans ?_
  have hL : Fintype.card L = m + Fintype.card T := by
    rw [← Fintype.card_congr e, Fintype.card_sum, Fintype.card_fin]
  have hLeaf : Fintype.card (Leaf K L) = Fintype.card K + (m + Fintype.card T) := by
    rw [← Fintype.card_congr leafEquiv, Fintype.card_sum, hL]
  have hn : Fintype.card (nonces G) = (nonces G).card := Fintype.card_coe _
  have hle : (nonces G).card ≤ 2 ^ 256 := by
    rw [nonces, Nat.card_Ico]; omega
  rw [Fintype.card_prod, Fintype.card_prod, Fintype.card_prod, Fintype.card_prod]
  simp only [-Nat.reducePow, Fintype.card_fun, Fintype.card_fin, hLeaf, hn]
  have hle : ((nonces G).card : ℚ) ≤ 2 ^ 256 := by exact_mod_cast hle
  have h0 : (0 : ℚ) ≤ (nonces G).card := Nat.cast_nonneg _
  generalize (nonces G).card = a at *
  simp only [-Nat.reducePow, Nat.cast_mul, Nat.cast_pow, Nat.cast_ofNat]
  have hN : (0 : ℚ) < 2 ^ 256 := by positivity
  generalize (2 : ℚ) ^ 256 = N at *
  have e1 : (a : ℚ) ^ m * (N ^ Fintype.card K * (N ^ Fintype.card T * N ^ Fintype.card X)) /
      (N ^ (Fintype.card K + (m + Fintype.card T)) * N ^ Fintype.card X) = (1 + -((N - a) / N)) ^ m := by
    have : 1 + -((N - (a : ℚ)) / N) = a / N := by field_simp; ring
    rw [this, div_pow, pow_add, pow_add]
    field_simp
  rw [e1]
  have h1 : -2 ≤ -((N - (a : ℚ)) / N) := by
    have : (N - (a : ℚ)) / N ≤ 1 := (div_le_one hN).2 (by linarith)
    linarith
  have := one_add_mul_le_pow h1 m
  linarith

/-- Step 3: the sums of C110. -/
theorem ideal_eq [Fintype K] [Fintype T] (hG : G.Valid) {X : Finset Str} (A : Adversary K T k) (ms : Fin m → ℕ) :
    rateIdeal G C X A ms = (game G (draws G C X A) (List.ofFn ms) : ℚ) /
      ((secrets G).card * (nonces G).card ^ m * Nat.card (Coins K T X)) := by
  classical
  rw [rateIdeal, freq_eq, cnt_prod, game_eq hG, Fintype.card_prod, Fintype.card_prod, Fintype.card_fun, Fintype.card_fin,
    Fintype.card_coe, Fintype.card_coe, ← Nat.card_eq_fintype_card (α := Coins K T X)]
  push_cast
  rw [mul_assoc]
  congr 1
  rw [← Finset.sum_coe_sort (secrets G) (fun s => (encrypted G (G.g ^ s % G.p) (List.ofFn ms) (draws G C X A (G.g ^ s % G.p)) : ℚ))]
  refine Finset.sum_congr rfl fun s _ => ?_
  rw [encrypted_ofFn, cnt_prod]
  push_cast
  refine Finset.sum_congr rfl fun r _ => ?_
  rw [draws, Derive.cnt_eq, Nat.card_eq_fintype_card, Fintype.card_subtype]
  rfl

/-- **C118.**  Whoever tells two ways to vote apart, by the ciphertexts of any ballots whose nonces are computed from the
nonces of the ballots, solves the decisional Diffie-Hellman problem, or guesses: the advantage is at most that of two
distinguishers per vote and twice the bounds for hashing. -/
theorem C118_secrecy [Fintype B] [Fintype K] [Fintype L] [Fintype T] (hG : G.Valid) (hq : 2 < G.q) (hE : E.Proper)
    (e : Fin m ⊕ T ≃ L) {S : Finset ℕ} (hne : S.Nonempty) (hS : ∀ s ∈ S, s < 2 ^ 256) {X : Finset Str}
    (hX : E.strings G C S ⊆ X) (A : Adversary K T k) (ms ms' : Fin m → ℕ) :
    |rate E G C e S X A ms - rate E G C e S X A ms'| ≤ ddhTotal G C X A ms ms' +
      2 * ((Fintype.card B * k : ℚ) / S.card +
        (5 * Fintype.card K + 2 * Fintype.card L) * (k + (5 * Fintype.card K + 2 * Fintype.card L)) * fibre G / 2 ^ 256 +
        m * ((2 ^ 256 - (nonces G).card : ℚ) / 2 ^ 256)) := by
  have := secrets_nonempty hq
  have h1 := rate_random (E := E) (C := C) hG hE e hne hS hX A ms
  have h1' := rate_random (E := E) (C := C) hG hE e hne hS hX A ms'
  have h2 := random_ideal (C := C) hG e (X := X) A ms
  have h2' := random_ideal (C := C) hG e (X := X) A ms'
  have h3 : |rateIdeal G C X A ms - rateIdeal G C X A ms'| ≤ ddhTotal G C X A ms ms' := by
    rw [ideal_eq hG, ideal_eq hG, ← sub_div, abs_div]
    have hc := C110_secrecy hG (List.ofFn fun i => (ms i, ms' i)) (draws G C X A)
    rw [List.map_ofFn, List.map_ofFn] at hc
    have hq0 : (0 : ℚ) < G.q := by exact_mod_cast (by omega : 0 < G.q)
    have hd : (0 : ℚ) ≤ (secrets G).card * (nonces G).card ^ m * Nat.card (Coins K T X) := by positivity
    have ha : (G.q * (secrets G).card * (nonces G).card ^ m * Nat.card (Coins K T X) : ℚ) =
        G.q * ((secrets G).card * (nonces G).card ^ m * Nat.card (Coins K T X)) := by ring
    rw [abs_of_nonneg hd, ddhTotal, ha, ← div_div _ (G.q : ℚ)]
    refine div_le_div_of_nonneg_right ?_ hd
    rw [le_div_iff₀ hq0, mul_comm]
    exact_mod_cast hc
  rw [abs_le] at *
  constructor <;> linarith [h1.1, h1.2, h1'.1, h1'.2, h2.1, h2.2, h2'.1, h2'.2, h3.1, h3.2]

/-- With the standard parameters, ballot nonces drawn from all exponents, up to 2^40 ballots, contests and items, and 2^80
hashes, only the advantage of the distinguishers is left, up to 2^-126. -/
theorem C118_standard [Fintype B] [Fintype K] [Fintype L] [Fintype T] (hE : E.Proper) (e : Fin m ⊕ T ≃ L)
    (hB : Fintype.card B ≤ 2 ^ 40) (hK : Fintype.card K ≤ 2 ^ 40) (hL : Fintype.card L ≤ 2 ^ 40) (hk : k ≤ 2 ^ 80)
    {X : Finset Str} (hX : E.strings .std C (Finset.range Params.std.q) ⊆ X) (A : Adversary K T k) (ms ms' : Fin m → ℕ) :
    |rate E .std C e (Finset.range Params.std.q) X A ms - rate E .std C e (Finset.range Params.std.q) X A ms'| <
      ddhTotal .std C X A ms ms' + 1 / 2 ^ 126 := by
  have hV := C54_std_valid
  have hq := hV.q_gt
  have hq2 : 2 < Params.std.q := by decide +kernel
  have h := C118_secrecy (C := C) hV hq2 hE e ⟨0, Finset.mem_range.2 (by omega)⟩
    (fun s hs => (Finset.mem_range.1 hs).trans hV.q_lt) hX A ms ms'
  rw [Finset.card_range] at h
  have h1 := hashing_bound hB hK hL hk
  have hm : m ≤ 2 ^ 40 := by
    rw [← Fintype.card_congr e, Fintype.card_sum, Fintype.card_fin] at hL
    omega
  have hm' : (m : ℚ) ≤ 2 ^ 40 := by exact_mod_cast hm
  have hc : ((nonces .std).card : ℚ) = 2 ^ 256 - 190 := by
    have : (nonces .std).card = 2 ^ 256 - 190 := by
      rw [nonces, Nat.card_Ico]
      decide +kernel
    rw [this]
    norm_num
  rw [hc] at h
  have h2 : (m : ℚ) * ((2 ^ 256 - (2 ^ 256 - 190)) / 2 ^ 256) ≤ 2 ^ 40 * ((2 ^ 256 - (2 ^ 256 - 190)) / 2 ^ 256) :=
    mul_le_mul_of_nonneg_right hm' (by norm_num)
  have h3 : (2 : ℚ) * (1 / 2 ^ 128 + 2 ^ 40 * ((2 ^ 256 - (2 ^ 256 - 190)) / 2 ^ 256)) < 1 / 2 ^ 126 := by norm_num
  linarith

/-! ## The ciphertexts of the library -/

section

open EG.NonceUse

variable {S : StdSort}

/-- The ciphertext of a selection is that of a vote, with the nonce for its place. -/
def Ciphered (G : Params) (C : Crypto) (pub cn : ℕ) (e : CSelection) : Prop :=
  ∃ v ≤ 1, elgamalEncrypt G v (selNonce G C cn e.descHash e.seq) pub = .ok e.ciphertext

theorem selection_ciphered {s : PSelection} {d : SelectionDesc} {pub ext cn : ℕ} {p v : Bool} {w w' : World}
    {e : CSelection} (hw : w.Empty) (h : encryptSelection G C s d pub ext cn p v w = (.ok e, w')) :
    Ciphered G C pub cn e ∧ w'.Empty := by
  have hE : w'.Empty := (derived_selection G C s d pub ext cn p v w w w' w' e e hw hw h h).2.1
  refine ⟨?_, hE⟩
  unfold encryptSelection at h
  split at h
  · simp [M.raise] at h
  rename_i hvalid
  have hvote : s.vote ≤ 1 := by
    simp [PSelection.isValid] at hvalid
    omega
  rw [M.bind_eq_ok] at h
  obtain ⟨y, wy, hy, hx⟩ := h
  have hxy : e = y := by
    split at hx
    · simp only [M.ret, Prod.mk.injEq, Res.ok.injEq] at hx
      exact hx.1.symm
    · split at hx
      · simp only [M.ret, Prod.mk.injEq, Res.ok.injEq] at hx
        exact hx.1.symm
      · simp [M.raise] at hx
  subst hxy
  unfold encryptSelectionCore at hy
  rw [M.bind_eq_ok] at hy
  obtain ⟨pre, w5, h5, hy⟩ := hy
  simp only [M.getQuad, PreState.getQuad, hw.2, Prod.mk.injEq, Res.ok.injEq] at h5
  obtain ⟨rfl, rfl⟩ := h5
  dsimp only at hy
  rw [M.bind_eq_ok] at hy
  obtain ⟨c, w6, h6, hy⟩ := hy
  simp only [M.lift, Prod.mk.injEq] at h6
  obtain ⟨h6, rfl⟩ := h6
  unfold CSelection.make at hy
  rw [M.bind_eq_ok] at hy
  obtain ⟨π, w7, -, hy⟩ := hy
  simp only [M.ret, Prod.mk.injEq, Res.ok.injEq] at hy
  obtain ⟨rfl, -⟩ := hy
  exact ⟨s.vote, hvote, h6⟩

theorem real_ciphered {pub ext cn : ℕ} {v over : Bool} {l : List PSelection} (ds : List SelectionDesc) :
    ∀ {count : ℕ} {w w' : World} {r : List CSelection × ℕ}, w.Empty →
      encryptReal G C pub ext cn v over l ds count w = (.ok r, w') →
      (∀ e ∈ r.1, Ciphered G C pub cn e) ∧ w'.Empty := by
  induction ds with
  | nil =>
    intro count w w' r hw h
    simp only [encryptReal, M.ret, Prod.mk.injEq, Res.ok.injEq] at h
    obtain ⟨rfl, rfl⟩ := h
    exact ⟨by simp, hw⟩
  | cons d ds ih =>
    intro count w w' r hw h
    unfold encryptReal at h
    cases hf : l.find? (fun s => s.objectId = d.objectId) with
    | none => rw [hf] at h; simp [M.raise] at h
    | some s =>
      rw [hf] at h
      dsimp only at h
      rw [M.bind_eq_ok] at h
      obtain ⟨e, w1, h1, h⟩ := h
      rw [M.bind_eq_ok] at h
      obtain ⟨r', w2, h2, h⟩ := h
      simp only [M.ret, Prod.mk.injEq, Res.ok.injEq] at h
      obtain ⟨rfl, rfl⟩ := h
      obtain ⟨a, b⟩ := selection_ciphered hw h1
      obtain ⟨a', b'⟩ := ih b h2
      exact ⟨by simpa using ⟨a, a'⟩, b'⟩

theorem placeholder_ciphered {pub ext cn k : ℕ} {v over : Bool} (ds : List SelectionDesc) :
    ∀ {count : ℕ} {w w' : World} {r : List CSelection}, w.Empty →
      encryptPlaceholders G C pub ext cn v over k ds count w = (.ok r, w') →
      (∀ e ∈ r, Ciphered G C pub cn e) ∧ w'.Empty := by
  induction ds with
  | nil =>
    intro count w w' r hw h
    simp only [encryptPlaceholders, M.ret, Prod.mk.injEq, Res.ok.injEq] at h
    obtain ⟨rfl, rfl⟩ := h
    exact ⟨by simp, hw⟩
  | cons d ds ih =>
    intro count w w' r hw h
    unfold encryptPlaceholders at h
    dsimp only at h
    rw [M.bind_eq_ok] at h
    obtain ⟨e, w1, h1, h⟩ := h
    rw [M.bind_eq_ok] at h
    obtain ⟨r', w2, h2, h⟩ := h
    simp only [M.ret, Prod.mk.injEq, Res.ok.injEq] at h
    obtain ⟨rfl, rfl⟩ := h
    obtain ⟨a, b⟩ := selection_ciphered hw h1
    obtain ⟨a', b'⟩ := ih b h2
    exact ⟨by simpa using ⟨a, a'⟩, b'⟩

theorem contest_ciphered (hG : G.Valid) {c : PContest} {m : IManifest} {d : ContestDescP} {pub ext seed : ℕ}
    {v : Bool} {w w' : World} {e : CContest} (hw : w.Empty)
    (h : encryptContest G C S c m d pub ext seed v w = (.ok e, w')) :
    (∀ s ∈ e.selections, Ciphered G C pub
      (hashElems G C [.q (hashElems G C [.q e.descHash, .q seed]), .u64 e.seq]) s) ∧ w'.Empty := by
  refine ⟨?_, (contest_nonces hG hw h).2⟩
  unfold encryptContest at h
  dsimp only at h
  split at h
  · simp [M.raise] at h
  rw [M.bind_eq_ok] at h
  obtain ⟨dh, w0, h0, h⟩ := h
  simp only [M.lift, Prod.mk.injEq] at h0
  obtain ⟨hdh, rfl⟩ := h0
  rw [M.bind_eq_ok] at h
  obtain ⟨rs, w1, h1, h⟩ := h
  rw [M.bind_eq_ok] at h
  obtain ⟨ps, w2, h2, h⟩ := h
  rw [M.bind_eq_ok] at h
  obtain ⟨x, w3, h3, h⟩ := h
  rw [M.bind_eq_ok] at h
  obtain ⟨e', w4, h4, h⟩ := h
  obtain ⟨a1, b1⟩ := real_ciphered _ hw h1
  obtain ⟨a2, b2⟩ := placeholder_ciphered _ b1 h2
  have he : e = e' := by
    split at h
    · simp only [M.ret, Prod.mk.injEq, Res.ok.injEq] at h
      exact h.1.symm
    · rw [M.bind_eq_ok] at h
      obtain ⟨b, w5, h5, h⟩ := h
      simp only [M.lift, Prod.mk.injEq] at h5
      obtain ⟨-, rfl⟩ := h5
      split at h
      · simp only [M.ret, Prod.mk.injEq, Res.ok.injEq] at h
        exact h.1.symm
      · simp [M.raise] at h
  subst he
  unfold CContest.make at h4
  simp only [M.bind_eq_ok, M.lift, M.getTriple, PreState.getTriple, M.ret, Prod.mk.injEq, Res.ok.injEq] at h4
  obtain ⟨ch, w5, ⟨hch, rfl⟩, acc, w6, ⟨hacc, rfl⟩, agg, w7, ⟨hagg, rfl⟩, t, w8, ⟨rfl, rfl⟩, π, w9,
    ⟨hπ, rfl⟩, rfl, rfl⟩ := h4
  intro s hs
  rcases List.mem_append.1 hs with hs | hs
  · exact a1 s hs
  · exact a2 s hs

/-- **C118.**  The ciphertexts of a ballot encrypted by the library are those of the theorem: each is `elgamalEncrypt` of a
vote with the nonce of its place in the layout. -/
theorem C118_encrypts (hG : G.Valid) {b : PBallot} {m : IManifest} {ctx : Context} {seed : ℕ} {t : ℕ} {v : Bool}
    {w w' : World} {e : CBallot} {n : B → ℕ} (hw : w.Empty) (i : L)
    (h : encryptBallot G C S b m ctx seed (some (n (E.ballot (E.contest i)))) t v w = (.ok e, w'))
    (hm : m.manifestHash = E.manifestHash) (hid : b.objectId = E.ballotId (E.ballot (E.contest i))) :
    ∀ c ∈ e.contests, c.descHash = E.contestHash (E.contest i) → c.seq = E.contestSeq (E.contest i) →
      ∀ s ∈ c.selections, E.item i = .selection s.descHash s.seq →
        ∃ vote ≤ 1, elgamalEncrypt G vote (E.nonce G C n i) ctx.pub = .ok s.ciphertext := by
  obtain ⟨n', w1, w2, h1, h2, -⟩ := encryptBallot_steps G C S _ _ _ _ _ _ _ _ _ _ h
  simp only [nonceOr, M.ret, Prod.mk.injEq, Res.ok.injEq] at h1
  obtain ⟨rfl, rfl⟩ := h1
  unfold encryptContests at h2
  rw [M.bind_eq_ok] at h2
  obtain ⟨nb, w3, h7, h2⟩ := h2
  simp only [M.lift, Prod.mk.injEq] at h7
  obtain ⟨h7, rfl⟩ := h7
  cases hst : m.getBallotStyle b.styleId with
  | none => rw [hst] at h2; simp [M.lift] at h2
  | some style =>
    rw [hst] at h2
    dsimp only at h2
    rw [M.bind_eq_ok] at h2
    obtain ⟨ds, w4, h8, h2⟩ := h2
    simp only [M.lift, Prod.mk.injEq] at h8
    obtain ⟨h8, rfl⟩ := h8
    have key := (forEach_spec _ World.Empty (fun _ c => ∀ s ∈ c.selections, Ciphered G C ctx.pub
      (hashElems G C [.q (hashElems G C [.q c.descHash, .q (hashElems G C [.q m.manifestHash, .str b.objectId,
        .q (n (E.ballot (E.contest i)))])]), .u64 c.seq]) s) ds ?_ w w2 e.contests hw h2).1
    · intro c hc hd hs s hsm hi
      obtain ⟨_, -, hk⟩ := forall₂_right key hc
      have := hk s hsm
      unfold Ciphered at this
      have hn : E.nonce G C n i = selNonce G C (hashElems G C [.q (hashElems G C [.q c.descHash,
          .q (hashElems G C [.q m.manifestHash, .str b.objectId, .q (n (E.ballot (E.contest i)))])]), .u64 c.seq])
          s.descHash s.seq := by
        unfold Layout.nonce
        simp only [Place.nonce, Place.itemInput, Place.itemSeedInput, Place.contestInput, Place.contestSeedInput,
          Place.ballotInput, Layout.place, hi, selNonce, hd, hs, hm, hid]
      rw [hn]
      exact this
    · intro d hd w w' c hw hf
      cases hc : nb.contests.find? (fun c => c.objectId = d.desc.objectId) with
      | none => rw [hc] at hf; simp [M.raise] at hf
      | some pc =>
        rw [hc] at hf
        exact contest_ciphered hG hw hf

end

/-- The selections of the two ballots of the example are secret, their extended data is known. -/
def exampleSplit : Fin 2 ⊕ Fin 2 ≃ Fin 2 × Bool where
  toFun := Sum.elim (fun j => (j, true)) (fun j => (j, false))
  invFun x := if x.2 then .inl x.1 else .inr x.1
  left_inv := by decide
  right_inv := by decide

/-- It applies: one voter swaps their vote with the other. -/
example (C : Crypto) (A : Adversary (Fin 2) (Fin 2) 1000000) :
    |rate exampleLayout .std C exampleSplit (Finset.range Params.std.q)
        (exampleLayout.strings .std C (Finset.range Params.std.q)) A ![0, 1] -
      rate exampleLayout .std C exampleSplit (Finset.range Params.std.q)
        (exampleLayout.strings .std C (Finset.range Params.std.q)) A ![1, 0]| <
      ddhTotal .std C (exampleLayout.strings .std C (Finset.range Params.std.q)) A ![0, 1] ![1, 0] + 1 / 2 ^ 126 :=
  C118_standard exampleLayout_proper exampleSplit (by decide) (by decide) (by decide) (by norm_num)
    (Finset.Subset.refl _) A _ _

end EG.Derived
