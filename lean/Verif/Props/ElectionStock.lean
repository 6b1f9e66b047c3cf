import Verif.Props.NonceBuffer
import Verif.Props.ElectionProofs

/-!
# C121: the votes of an election stay secret, with values from the precompute buffers

C119 with ballots of which some selections and contests take values from the precompute buffers while the others are
computed, as it happens when the buffers run empty.
-/

namespace EG.Published.Stock

open EG.Secrecy EG.Derive EG.Derived EG.Sim EG.NonceUse

variable {B K L T : Type} {m k : ℕ}

/-! ## What is published -/

/-- The ciphertext of a vote `x`: with the entry taken from the buffer, or with the nonce `n`. -/
def cipher (G : Params) (pub x n : ℕ) : Option TwoTriplesQuad → Res Ciphertext
  | some t => .ok (elgamalEncryptPrecomputed G x t.triple1.gToExp t.triple1.pubkeyToExp)
  | none => elgamalEncrypt G x n pub

/-- The nonce with which it was made. -/
def nonceOf (n : ℕ) : Option TwoTriplesQuad → ℕ
  | some t => t.triple1.exp
  | none => n

/-- The proof of a selection: with the entry taken from the buffer, or with the nonce and random numbers `w`. -/
def prove (G : Params) (D : Crypto) (h pub x n : ℕ) (w : Three G) (c : Ciphertext) : Option TwoTriplesQuad → Res DisjProof
  | some t => disjMakePrecomputed G D c t h x
  | none => disjMake G D c n pub h x w.1 w.2.1 w.2.2

/-- The view of an election with the votes `ms`, as the functions of the library make it.  The selections of `quads` and the
contests of `triples` have taken values from the buffers. -/
noncomputable def view (G : Params) (D : Crypto) (κ : Fin m → K) (limit : K → ℕ) (h pub : ℕ) (ms rs : Fin m → ℕ) (ts : T → ℕ)
    (seeds : K → ℕ) (ws : Fin m → Three G) (quads : Fin m → Option TwoTriplesQuad) (triples : K → Option Triple) :
    View K T m where
  pub := pub
  known := ts
  ciphertexts i := cipher G pub (ms i) (rs i) (quads i)
  proofs
    | .inl i => .selection (cipher G pub (ms i) (rs i) (quads i) >>= fun c =>
        prove G D h pub (ms i) (rs i) (ws i) c (quads i))
    | .inr c => .contest (sumUp G κ (fun i => cipher G pub (ms i) (rs i) (quads i)) c >>= fun acc =>
        addModQVec G ((members κ c).map fun i => nonceOf (rs i) (quads i)) >>= fun R =>
          constMake G D (triples c) acc R pub (seeds c) h (limit c))

/-- An entry of the first buffer, made by `populate` from four random numbers. -/
def entry (G : Params) (pub r : ℕ) (w : Three G) : TwoTriplesQuad :=
  { triple1 := genTriple G pub r, triple2 := genTriple G pub w.1, quad := genQuadruple G pub w.2.1 w.2.2 }

/-- Which selections and contests found something in the buffers. -/
structure Found (K : Type) (m : ℕ) where
  votes : Fin m → Bool
  contests : K → Bool

/-- The entries. -/
def Found.quads (P : Found K m) (G : Params) (pub : ℕ) (fs : Fin m → ℕ) (ws : Fin m → Three G) (i : Fin m) :
    Option TwoTriplesQuad := if P.votes i then some (entry G pub (fs i) (ws i)) else none

def Found.triples (P : Found K m) (G : Params) (pub : ℕ) (gs : K → ℕ) (c : K) : Option Triple :=
  if P.contests c then some (genTriple G pub (gs c)) else none

/-- What is drawn besides the nonces in the buffer: the secret key, the random numbers of the proofs, the nonces of the ballots
in `S`, and a function in place of SHA-256. -/
abbrev Others (G : Params) (B K : Type) (m : ℕ) (S : Finset ℕ) (X : Finset Str) : Type :=
  ((secrets G × (Fin m → Three G)) × (K → Fin G.q)) × (B → S) × (X → Fin (2 ^ 256))

/-- The adversary answers yes, with the nonces `fs` in the buffer. -/
def Yes (E : Layout B K L) (G : Params) (C : Crypto) (P : Found K m) (e : Fin m ⊕ T ≃ L) (limit : K → ℕ) (h : ℕ)
    (S : Finset ℕ) (X : Finset Str) (A : Adversary K T m k) (ms : Fin m → ℕ) (o : Others G B K m S X) (fs : Fin m → ℕ) : Prop :=
  ∃ key, keyFromSecret G o.1.1.1 = .ok key ∧
    (A (view G (C.withOracle X o.2.2) (fun i => E.contest (e (.inl i))) limit h key.pub ms
      (fun i => E.nonce G (C.withOracle X o.2.2) (fun b => o.2.1 b) (e (.inl i)))
      (fun t => E.nonce G (C.withOracle X o.2.2) (fun b => o.2.1 b) (e (.inr t)))
      (E.proofSeed G (C.withOracle X o.2.2) (fun b => o.2.1 b)) o.1.1.2 (P.quads G key.pub fs o.1.1.2)
      (P.triples G key.pub fun c => o.1.2 c))).run (oracle C.sha256 X o.2.2) = true

/-- How often the adversary answers yes for the votes `ms`. -/
noncomputable def rate (E : Layout B K L) (G : Params) (C : Crypto) (P : Found K m) (e : Fin m ⊕ T ≃ L) (limit : K → ℕ) (h : ℕ)
    (S : Finset ℕ) (X : Finset Str) (A : Adversary K T m k) (ms : Fin m → ℕ) : ℚ :=
  freq (fun p : Others G B K m S X × (Fin m → Fin G.q) => Yes E G C P e limit h S X A ms p.1 (fun i => p.2 i))

/-! ## The view is that of the provers -/

variable {G : Params} {C : Crypto}

/-- The nonces of the votes: from the buffer or computed. -/
def Found.mix (P : Found K m) {α : Type} (fs rs : Fin m → α) (i : Fin m) : α := if P.votes i then fs i else rs i

/-- The random numbers of the contests' proofs. -/
def Found.mixC (P : Found K m) {α : Type} (gs us : K → α) (c : K) : α := if P.contests c then gs c else us c

theorem cipher_eq (P : Found K m) {pub : ℕ} {ms rs fs : Fin m → ℕ} {ws : Fin m → Three G} (hfs : ∀ i, fs i ≠ 0) (i : Fin m) :
    cipher G pub (ms i) (rs i) (P.quads G pub fs ws i) = elgamalEncrypt G (ms i) (P.mix fs rs i) pub := by
  unfold Found.quads Found.mix
  split
  · exact (C14_precomputed_eq_direct G _ _ _ (hfs i)).symm
  · rfl

theorem nonceOf_eq (P : Found K m) {pub : ℕ} {rs fs : Fin m → ℕ} {ws : Fin m → Three G} (i : Fin m) :
    nonceOf (rs i) (P.quads G pub fs ws i) = P.mix fs rs i := by
  unfold Found.quads Found.mix
  split <;> rfl

theorem prove_eq (P : Found K m) (D : Crypto) {h pub : ℕ} {ms rs fs : Fin m → ℕ} {ws : Fin m → Three G} (c : Ciphertext)
    (i : Fin m) : prove G D h pub (ms i) (rs i) (ws i) c (P.quads G pub fs ws i) =
      disjMake G D c (P.mix fs rs i) pub h (ms i) (ws i).1 (ws i).2.1 (ws i).2.2 := by
  unfold Found.quads Found.mix
  split <;> rfl

/-- The view is made of the provers' proofs. -/
theorem view_eq [NeZero G.q] (hG : G.Valid) (P : Found K m) {D : Crypto} {κ : Fin m → K} {limit : K → ℕ} {h pub : ℕ}
    (hK : Residue G pub) {ms rs fs : Fin m → ℕ} (hms : Votes κ limit ms) (hrs : ∀ i, rs i < G.q) (hfs : ∀ i, fs i < G.q)
    (hf0 : ∀ i, fs i ≠ 0) (ts : T → ℕ) {seeds us gs : K → ℕ}
    (hus : ∀ c, us c = ((Nonces.makeWith G D (seeds c) (.str constHeader)).get G D 0).1) (hu : ∀ c, us c < G.q)
    (hg : ∀ c, gs c < G.q) (ws : Fin m → Three G) :
    view G D κ limit h pub ms rs ts seeds ws (P.quads G pub fs ws) (P.triples G pub gs) =
      seen G D.sha256 κ limit h pub ms (P.mix fs rs) ts (coins G ws (P.mixC gs us)) := by
  have hmix : ∀ i, P.mix fs rs i < G.q := fun i => by
    unfold Found.mix
    split
    · exact hfs i
    · exact hrs i
  have hmixC : ∀ c, P.mixC gs us c < G.q := fun c => by
    unfold Found.mixC
    split
    · exact hg c
    · exact hu c
  unfold view seen
  simp only [cipher_eq P hf0, nonceOf_eq, prove_eq]
  congr 1
  funext j
  rcases j with i | c
  · simp only [proofOf, placeOf, coins]
    cases he : elgamalEncrypt G (ms i) (P.mix fs rs i) pub with
    | throw e => rfl
    | ub => rfl
    | ok c =>
      have hi := encrypt_ok hG hK (hms.vote i) (hmix i) he
      exact disjMake_sim D hG hK hi (hms.vote i) (hmix i) (nums_mem (ws i))
  · simp only [proofOf, placeOf, coins]
    cases he : sumUp G κ (fun i => elgamalEncrypt G (ms i) (P.mix fs rs i) pub) c with
    | throw e => rfl
    | ub => rfl
    | ok acc =>
      obtain ⟨hne, hi⟩ := sumUp_ok hG hK hms hmix he
      have hq0 : 0 < G.q := NeZero.pos _
      have hR : addModQVec G ((members κ c).map (P.mix fs rs)) = .ok (((members κ c).map (P.mix fs rs)).sum % G.q) := by
        rw [C01_add_mod_q_vector G hG _ (by
          intro r hr
          obtain ⟨a, ha, rfl⟩ := List.mem_map.1 hr
          exact le_of_lt (hmix a)), if_neg (by simpa using hne)]
      rw [Res.bind_ok, hR, Res.bind_ok]
      have hs := constMake_sim D hG (h := h) hK hi (Nat.mod_lt _ hq0) (seeds c) (hmixC c)
      have e : constMake G D (P.triples G pub gs c) acc (((members κ c).map (P.mix fs rs)).sum % G.q) pub (seeds c) h
          (limit c) = constMake G D (some (genTriple G pub (P.mixC gs us c))) acc
            (((members κ c).map (P.mix fs rs)).sum % G.q) pub (seeds c) h (limit c) := by
        unfold Found.triples Found.mixC
        split
        · rfl
        · rw [hus]
          rfl
      dsimp only
      rw [e, hs, Nat.mod_eq_of_lt (hmixC c)]

/-! ## First step: nonces in the buffer that are not zero -/

/-- With nonces in the buffer that are not zero. -/
noncomputable def rateNonzero (E : Layout B K L) (G : Params) (C : Crypto) (P : Found K m) (e : Fin m ⊕ T ≃ L) (limit : K → ℕ)
    (h : ℕ) (S : Finset ℕ) (X : Finset Str) (A : Adversary K T m k) (ms : Fin m → ℕ) : ℚ :=
  freq (fun p : Others G B K m S X × (Fin m → nonces G) => Yes E G C P e limit h S X A ms p.1 (fun i => p.2 i))

theorem rate_nonzero [Fintype B] [Fintype K] [NeZero G.q] [Nonempty (secrets G)] (hG : G.Valid) (E : Layout B K L)
    (P : Found K m) (e : Fin m ⊕ T ≃ L) (limit : K → ℕ) (h : ℕ) {S : Finset ℕ} (hne : S.Nonempty) (X : Finset Str)
    (A : Adversary K T m k) (ms : Fin m → ℕ) :
    |rate E G C P e limit h S X A ms - rateNonzero E G C P e limit h S X A ms| ≤ m / G.q := by
  classical
  have : Nonempty S := hne.coe_sort
  refine freq_average _ _ _ fun o => ?_
  have hlt : ∀ r : nonces G, (r : ℕ) < G.q := fun r => (Finset.mem_Ico.1 r.2).2
  let φ : (Fin m → nonces G) → (Fin m → Fin G.q) := fun f i => ⟨f i, hlt _⟩
  have hφ : Function.Injective φ := by
    intro f f' h
    funext i
    have := congrFun h i
    simp only [φ, Fin.mk.injEq] at this
    exact Subtype.ext this
  have hone : Nonempty (Fin m → nonces G) :=
    ⟨fun _ => ⟨1, Finset.mem_Ico.2 ⟨le_refl _, by have := hG.q_gt; omega⟩⟩⟩
  have key := freq_embed φ hφ (fun f => Yes E G C P e limit h S X A ms o (fun i => f i))
  refine key.trans ?_
  have hn : (Fintype.card (nonces G) : ℚ) = G.q - 1 := by
    rw [Fintype.card_coe, nonces, Nat.card_Ico, Nat.cast_sub (by have := hG.q_gt; omega)]
    norm_num
  have hq : (1 : ℚ) ≤ G.q := by exact_mod_cast (by have := hG.q_gt; omega : 1 ≤ G.q)
  rw [Fintype.card_fun, Fintype.card_fun, Fintype.card_fin, Fintype.card_fin]
  push_cast
  rw [hn, ← div_pow]
  have e1 : ((G.q : ℚ) - 1) / G.q = 1 + -(1 / G.q) := by
    field_simp
    ring
  have h1 : -2 ≤ -(1 / (G.q : ℚ)) := by
    have : 1 / (G.q : ℚ) ≤ 1 := by rw [div_le_one (by linarith)]; exact hq
    linarith
  have := one_add_mul_le_pow h1 m
  rw [e1]
  have e2 : (m : ℚ) * -(1 / G.q) = -(m / G.q) := by ring
  linarith

/-! ## Second step: random numbers in place of hashes -/

/-- With digests that are drawn. -/
noncomputable def rateRandom [NeZero G.q] (C : Crypto) (P : Found K m) (e : Fin m ⊕ T ≃ L) (κ : Fin m → K) (limit : K → ℕ)
    (h : ℕ) (X : Finset Str) (A : Adversary K T m k) (ms : Fin m → ℕ) : ℚ :=
  freq (fun p : ((secrets G × (Fin m → Three G)) × ((Fin m → nonces G) × (K → Fin G.q))) ×
      (Leaf K L → Fin (2 ^ 256)) × (X → Fin (2 ^ 256)) =>
    (A (seen G (oracle C.sha256 X p.2.2) κ limit h (G.g ^ (p.1.1.1 : ℕ) % G.p) ms
      (P.mix (fun i => (p.1.2.1 i : ℕ)) (fun i => addModQ G (p.2.1 (.item (e (.inl i)))) 0))
      (fun t => addModQ G (p.2.1 (.item (e (.inr t)))) 0)
      (coins G p.1.1.2 (P.mixC (fun c => (p.1.2.2 c : ℕ)) (fun c => addModQ G (p.2.1 (.proof c)) 0))))).run
      (oracle C.sha256 X p.2.2) = true)

/-- The same draws in another order. -/
def reorder (G : Params) (B K : Type) (m : ℕ) (S : Finset ℕ) (X : Finset Str) :
    (((secrets G × (Fin m → Three G)) × ((Fin m → nonces G) × (K → Fin G.q))) × (B → S) × (X → Fin (2 ^ 256))) ≃
      Others G B K m S X × (Fin m → nonces G) where
  toFun p := (((p.1.1, p.1.2.2), p.2), p.1.2.1)
  invFun p := ((p.1.1.1, (p.2, p.1.1.2)), p.1.2)
  left_inv _ := rfl
  right_inv _ := rfl

theorem nonzero_random [Fintype B] [Fintype K] [Fintype L] [NeZero G.q] [Nonempty (secrets G)] (hG : G.Valid)
    {E : Layout B K L} (hE : E.Proper) (P : Found K m) (e : Fin m ⊕ T ≃ L) {limit : K → ℕ} {h : ℕ} {S : Finset ℕ}
    (hne : S.Nonempty) (hS : ∀ s ∈ S, s < 2 ^ 256) {X : Finset Str} (hX : E.strings G C S ⊆ X) (A : Adversary K T m k)
    {ms : Fin m → ℕ} (hms : Votes (fun i => E.contest (e (.inl i))) limit ms) :
    |rateNonzero E G C P e limit h S X A ms -
        rateRandom (G := G) C P e (fun i => E.contest (e (.inl i))) limit h X A ms| ≤
      (Fintype.card B * (k + (m + Fintype.card K)) : ℚ) / S.card +
      (5 * Fintype.card K + 2 * Fintype.card L) * (k + (m + Fintype.card K) + (5 * Fintype.card K + 2 * Fintype.card L)) *
        fibre G / 2 ^ 256 := by
  classical
  have hone : Nonempty (Fin m → nonces G) :=
    ⟨fun _ => ⟨1, Finset.mem_Ico.2 ⟨le_refl _, by have := hG.q_gt; omega⟩⟩⟩
  unfold rateNonzero
  rw [← freq_equiv (reorder G B K m S X)]
  refine freq_average _ _ _ ?_
  rintro ⟨⟨⟨s, hs⟩, ws⟩, fs, gs⟩
  have hf : ∀ i, (fs i : ℕ) < G.q ∧ (fs i : ℕ) ≠ 0 := fun i => by
    have := Finset.mem_Ico.1 (fs i).2
    omega
  have key := C117_random (C := C) hG hE hne hS hX (fun us ns => askEach
    (fun j : Fin m ⊕ K => placeOf G (fun i => E.contest (e (.inl i))) limit h (G.g ^ s % G.p) ms
      (P.mix (fun i => (fs i : ℕ)) (fun i => ns (e (.inl i)))) j (coins G ws (P.mixC (fun c => (gs c : ℕ)) us) j))
    (fun ys => A { pub := G.g ^ s % G.p, known := fun t => ns (e (.inr t))
                   ciphertexts := fun i => elgamalEncrypt G (ms i)
                     (P.mix (fun i => (fs i : ℕ)) (fun i => ns (e (.inl i))) i) (G.g ^ s % G.p)
                   proofs := fun j => proofOf G (fun i => E.contest (e (.inl i))) limit h (G.g ^ s % G.p) ms
                     (P.mix (fun i => (fs i : ℕ)) (fun i => ns (e (.inl i)))) j
                     (coins G ws (P.mixC (fun c => (gs c : ℕ)) us) j) (ys j) }))
  simp only [askEach_run] at key
  rw [Fintype.card_sum, Fintype.card_fin] at key
  obtain ⟨pk, k1, k2⟩ := pub_eq hG hs
  have hyes : ∀ p : (B → S) × (X → Fin (2 ^ 256)),
      Yes E G C P e limit h S X A ms ((((⟨s, hs⟩, ws), gs), p) : Others G B K m S X) (fun i => (fs i : ℕ)) ↔
      (A (seen G (oracle C.sha256 X p.2) (fun i => E.contest (e (.inl i))) limit h (G.g ^ s % G.p) ms
        (P.mix (fun i => (fs i : ℕ)) (fun i => E.nonce G (C.withOracle X p.2) (fun b => p.1 b) (e (.inl i))))
        (fun t => E.nonce G (C.withOracle X p.2) (fun b => p.1 b) (e (.inr t)))
        (coins G ws (P.mixC (fun c => (gs c : ℕ)) (E.proofNonce G (C.withOracle X p.2) (fun b => p.1 b)))))).run
        (oracle C.sha256 X p.2) = true := by
    intro p
    have e2 := view_eq (h := h) hG P (D := C.withOracle X p.2) (pub_residue hG s) hms
      (rs := fun i => E.nonce G (C.withOracle X p.2) (fun b => p.1 b) (e (.inl i))) (fs := fun i => (fs i : ℕ))
      (fun i => by rw [nonce_def]; exact hashElems_lt hG _) (fun i => (hf i).1) (fun i => (hf i).2)
      (fun t => E.nonce G (C.withOracle X p.2) (fun b => p.1 b) (e (.inr t)))
      (seeds := E.proofSeed G (C.withOracle X p.2) (fun b => p.1 b))
      (us := E.proofNonce G (C.withOracle X p.2) (fun b => p.1 b)) (gs := fun c => (gs c : ℕ)) (fun c => rfl)
      (fun c => by rw [proofNonce_def]; exact hashElems_lt hG _) (fun c => (gs c).isLt) ws
    unfold Yes
    constructor
    · rintro ⟨key', h3, h4⟩
      dsimp only at h3 h4
      rw [k1] at h3
      cases h3
      rw [k2, e2] at h4
      exact h4
    · intro h4
      refine ⟨pk, k1, ?_⟩
      dsimp only
      rw [k2, e2]
      exact h4
  have hyes' : (fun p : (B → S) × (X → Fin (2 ^ 256)) =>
      Yes E G C P e limit h S X A ms ((((⟨s, hs⟩, ws), gs), p) : Others G B K m S X) (fun i => (fs i : ℕ))) = _ :=
    funext fun p => propext (hyes p)
  dsimp only [reorder, Equiv.coe_fn_mk]
  rw [hyes']
  refine key.trans_eq ?_
  push_cast
  ring

/-! ## Third step: nonces that are accepted -/

/-- What is in the buffer, and what is drawn in place of hashes. -/
abbrev Twice (G : Params) (K T : Type) (m : ℕ) (X : Finset Str) : Type :=
  ((Fin m → nonces G) × (K → Fin G.q)) × Drawn G K T m X

/-- The places that found something in the buffer exchange their two values. -/
def Found.swap (P : Found K m) (G : Params) (T : Type) (X : Finset Str) : Twice G K T m X ≃ Twice G K T m X where
  toFun p := ((P.mix p.2.1 p.1.1, P.mixC p.2.2.1 p.1.2), (P.mix p.1.1 p.2.1, P.mixC p.1.2 p.2.2.1, p.2.2.2))
  invFun p := ((P.mix p.2.1 p.1.1, P.mixC p.2.2.1 p.1.2), (P.mix p.1.1 p.2.1, P.mixC p.1.2 p.2.2.1, p.2.2.2))
  left_inv p := by
    refine Prod.ext (Prod.ext ?_ ?_) (Prod.ext ?_ (Prod.ext ?_ rfl)) <;> funext i <;>
      simp only [Found.mix, Found.mixC] <;> split <;> rfl
  right_inv p := by
    refine Prod.ext (Prod.ext ?_ ?_) (Prod.ext ?_ (Prod.ext ?_ rfl)) <;> funext i <;>
      simp only [Found.mix, Found.mixC] <;> split <;> rfl

theorem random_ideal [Fintype K] [Fintype L] [Fintype T] [NeZero G.q] [Nonempty (secrets G)] (hG : G.Valid) (P : Found K m)
    (e : Fin m ⊕ T ≃ L) (κ : Fin m → K) (limit : K → ℕ) (h : ℕ) {X : Finset Str} (A : Adversary K T m k) (ms : Fin m → ℕ) :
    |rateRandom (G := G) C P e κ limit h X A ms - rateIdeal (G := G) C κ limit h X A ms| ≤
      (m + Fintype.card K) * ((2 ^ 256 - (nonces G).card : ℚ) / 2 ^ 256) := by
  classical
  have hone : Nonempty (Fin m → nonces G) :=
    ⟨fun _ => ⟨1, Finset.mem_Ico.2 ⟨le_refl _, by have := hG.q_gt; omega⟩⟩⟩
  let Q : secrets G × (Fin m → Three G) → (Fin m → ℕ) → (T → ℕ) → (K → ℕ) → (X → Fin (2 ^ 256)) → Prop :=
    fun a rs ts us O => (A (seen G (oracle C.sha256 X O) κ limit h (G.g ^ (a.1 : ℕ) % G.p) ms rs ts
      (coins G a.2 us))).run (oracle C.sha256 X O) = true
  have e1 : rateIdeal (G := G) C κ limit h X A ms =
      freq (fun p : ((secrets G × (Fin m → Three G)) × ((Fin m → nonces G) × (K → Fin G.q))) × Drawn G K T m X =>
        Q p.1.1 (P.mix (fun i => (p.1.2.1 i : ℕ)) (fun i => (p.2.1 i : ℕ))) (fun t => addModQ G (p.2.2.2.1 t) 0)
          (P.mixC (fun c => (p.1.2.2 c : ℕ)) (fun c => (p.2.2.1 c : ℕ))) p.2.2.2.2) := by
    rw [← freq_equiv (Equiv.prodAssoc _ _ _).symm]
    refine freq_congr _ _ fun a => ?_
    rw [← freq_equiv (P.swap G T X)]
    have hm1 : ∀ (f r : Fin m → nonces G) i, P.mix (fun i => ((P.mix r f i : nonces G) : ℕ))
        (fun i => ((P.mix f r i : nonces G) : ℕ)) i = r i := by
      intro f r i
      simp only [Found.mix]
      split <;> rfl
    have hm2 : ∀ (f r : K → Fin G.q) c, P.mixC (fun c => ((P.mixC r f c : Fin G.q) : ℕ))
        (fun c => ((P.mixC f r c : Fin G.q) : ℕ)) c = r c := by
      intro f r c
      simp only [Found.mixC]
      split <;> rfl
    simp only [Equiv.prodAssoc_symm_apply, Found.swap, Equiv.coe_fn_mk]
    have hm1' : ∀ (f r : Fin m → nonces G), P.mix (fun i => ((P.mix r f i : nonces G) : ℕ))
        (fun i => ((P.mix f r i : nonces G) : ℕ)) = fun i => (r i : ℕ) := fun f r => funext (hm1 f r)
    have hm2' : ∀ (f r : K → Fin G.q), P.mixC (fun c => ((P.mixC r f c : Fin G.q) : ℕ))
        (fun c => ((P.mixC f r c : Fin G.q) : ℕ)) = fun c => (r c : ℕ) := fun f r => funext (hm2 f r)
    simp only [hm1', hm2']
    rw [← freq_equiv (Equiv.prodComm (Drawn G K T m X) ((Fin m → nonces G) × (K → Fin G.q)))]
    simp only [Equiv.prodComm_apply, Prod.swap]
    exact (freq_forget (β := (Fin m → nonces G) × (K → Fin G.q)) (fun d : Drawn G K T m X => Q a (fun i => (d.1 i : ℕ))
      (fun t => addModQ G (d.2.2.1 t) 0) (fun c => (d.2.1 c : ℕ)) d.2.2.2)).symm
  rw [e1]
  refine freq_average _ _ _ ?_
  rintro ⟨a, fs, gs⟩
  exact digests_ideal hG e (fun rs ts us O => Q a (P.mix (fun i => (fs i : ℕ)) rs) ts
    (P.mixC (fun c => (gs c : ℕ)) us) O)

/-! ## The theorem -/

/-- **C121.**  Whoever tells two ways to vote apart, with the same number of votes in each contest, by all that is published
of the ballots of an election, solves the decisional Diffie-Hellman problem, or guesses -- whichever selections and contests
took values from the precompute buffers, for which all numbers were drawn by `populate`. -/
theorem C121_secrecy [Fintype B] [Fintype K] [Fintype L] [Fintype T] (hG : G.Valid) (hq : 2 < G.q) {E : Layout B K L}
    (hE : E.Proper) (P : Found K m) (e : Fin m ⊕ T ≃ L) (hκ : Function.Surjective fun i => E.contest (e (.inl i)))
    {limit : K → ℕ} {h : ℕ} (hh : h < 2 ^ 256) {S : Finset ℕ} (hne : S.Nonempty) (hS : ∀ s ∈ S, s < 2 ^ 256) {X : Finset Str}
    (hX : E.strings G C S ⊆ X) (hX' : HasChallenges X) (A : Adversary K T m k) {ms ms' : Fin m → ℕ}
    (hms : Votes (fun i => E.contest (e (.inl i))) limit ms) (hms' : Votes (fun i => E.contest (e (.inl i))) limit ms') :
    |rate E G C P e limit h S X A ms - rate E G C P e limit h S X A ms'| ≤
      ddhTotal G C (fun i => E.contest (e (.inl i))) limit h X A ms ms' +
      2 * (loss G (Fintype.card B) (Fintype.card K) (Fintype.card L) m k S.card + m / G.q) := by
  have : NeZero G.q := ⟨by omega⟩
  have := secrets_nonempty hq
  have h0 := rate_nonzero (C := C) hG E P e limit h hne X A ms
  have h0' := rate_nonzero (C := C) hG E P e limit h hne X A ms'
  have h1 := nonzero_random (C := C) (h := h) hG hE P e hne hS hX A hms
  have h1' := nonzero_random (C := C) (h := h) hG hE P e hne hS hX A hms'
  have h2 := random_ideal (C := C) hG P e (fun i => E.contest (e (.inl i))) limit h (X := X) A ms
  have h2' := random_ideal (C := C) hG P e (fun i => E.contest (e (.inl i))) limit h (X := X) A ms'
  have h3 := ideal_secrecy (C := C) hG hq hκ hh hX' A hms hms'
  unfold loss
  rw [abs_le] at *
  constructor <;> linarith [h0.1, h0.2, h0'.1, h0'.2, h1.1, h1.2, h1'.1, h1'.2, h2.1, h2.2, h2'.1, h2'.2, h3.1, h3.2]

/-- With the standard parameters, as for C119. -/
theorem C121_standard [Fintype B] [Fintype K] [Fintype L] [Fintype T] {E : Layout B K L} (hE : E.Proper) (P : Found K m)
    (e : Fin m ⊕ T ≃ L) (hκ : Function.Surjective fun i => E.contest (e (.inl i))) {limit : K → ℕ} {h : ℕ} (hh : h < 2 ^ 256)
    (hB : Fintype.card B ≤ 2 ^ 40) (hK : Fintype.card K ≤ 2 ^ 40) (hL : Fintype.card L ≤ 2 ^ 40) (hk : k ≤ 2 ^ 79)
    {X : Finset Str} (hX : E.strings .std C (Finset.range Params.std.q) ⊆ X) (hX' : HasChallenges X) (A : Adversary K T m k)
    {ms ms' : Fin m → ℕ} (hms : Votes (fun i => E.contest (e (.inl i))) limit ms)
    (hms' : Votes (fun i => E.contest (e (.inl i))) limit ms') :
    |rate E .std C P e limit h (Finset.range Params.std.q) X A ms -
        rate E .std C P e limit h (Finset.range Params.std.q) X A ms'| <
      ddhTotal .std C (fun i => E.contest (e (.inl i))) limit h X A ms ms' + 1 / 2 ^ 126 := by
  have hV := C54_std_valid
  have hq2 : 2 < Params.std.q := by decide +kernel
  have h := C121_secrecy (C := C) hV hq2 hE P e hκ hh ⟨0, Finset.mem_range.2 (by omega)⟩
    (fun s hs => (Finset.mem_range.1 hs).trans hV.q_lt) hX hX' A hms hms'
  rw [Finset.card_range] at h
  have hm : m ≤ 2 ^ 40 := by
    rw [← Fintype.card_congr e, Fintype.card_sum, Fintype.card_fin] at hL
    omega
  have h1 := loss_standard hB hK hL hm hk
  have hq : (Params.std.q : ℚ) = 2 ^ 256 - 189 := by
    have : Params.std.q = 2 ^ 256 - 189 := by decide +kernel
    rw [this]
    norm_num
  have h2 : (m : ℚ) / Params.std.q ≤ 2 ^ 40 / (2 ^ 256 - 189) := by
    rw [hq]
    exact div_le_div_of_nonneg_right (by exact_mod_cast hm) (by norm_num)
  have h3 : (2 : ℚ) * ((1 / 2 ^ 128 + 2 ^ 41 * (190 / 2 ^ 256) + 2 ^ 81 / (2 ^ 256 - 190)) + 2 ^ 40 / (2 ^ 256 - 189)) <
      1 / 2 ^ 126 := by norm_num
  linarith

/-! ## The ballots of the library -/

section

variable {S : StdSort}

/-- What `J` selections and `I` uses of a triple leave: so many entries are gone from the buffers, and if they did not suffice,
three random numbers are used for each selection without an entry. -/
structure After (w : World) (J I : ℕ) (w' : World) : Prop where
  quads : w'.pre.quads = w.pre.quads.drop J
  triples : w'.pre.triples = w.pre.triples.drop I
  rng : w'.rng = fun n => w.rng (n + 3 * (J - w.pre.quads.length))

theorem After.refl (w : World) : After w 0 0 w := ⟨rfl, rfl, by simp⟩

theorem After.trans {w w1 w2 : World} {J I J' I' : ℕ} (h : After w J I w1) (h' : After w1 J' I' w2) :
    After w (J + J') (I + I') w2 where
  quads := by rw [h'.quads, h.quads, List.drop_drop]
  triples := by rw [h'.triples, h.triples, List.drop_drop]
  rng := by
    rw [h'.rng, h.rng, h.quads]
    funext n
    dsimp only
    rw [List.length_drop]
    congr 1
    omega

/-- The `J`-th selection: with the `J`-th entry of the buffer if there is one, and as in C119 otherwise. -/
def Made (G : Params) (C : Crypto) (pub ext : ℕ) (w : World) (J nonce : ℕ) (e : CSelection) : Prop :=
  match w.pre.quads[J]? with
  | some t => e.nonce = some t.triple1.exp ∧ ∃ v ≤ 1,
      e.ciphertext = elgamalEncryptPrecomputed G v t.triple1.gToExp t.triple1.pubkeyToExp ∧
      ∃ π, disjMakePrecomputed G C e.ciphertext t ext v = .ok π ∧ e.proof = some π
  | none => Proved G C pub ext nonce (fun n => w.rng (n + 3 * (J - w.pre.quads.length))) e

theorem Made.shift {pub ext J I J' nonce : ℕ} {w w' : World} {e : CSelection} (h : After w J I w')
    (he : Made G C pub ext w' J' nonce e) : Made G C pub ext w (J + J') nonce e := by
  unfold Made at *
  rw [h.quads, List.getElem?_drop] at he
  split at he
  · exact he
  · rw [h.rng, List.length_drop] at he
    dsimp only at he ⊢
    have : (fun n => w.rng (n + 3 * (J' - (w.pre.quads.length - J)) + 3 * (J - w.pre.quads.length))) =
        fun n => w.rng (n + 3 * (J + J' - w.pre.quads.length)) := by
      funext n
      congr 1
      omega
    rw [this] at he
    exact he

theorem selection_made {s : PSelection} {d : SelectionDesc} {pub ext cn : ℕ} {p v : Bool} {w w' : World}
    {e : CSelection} (h : encryptSelection G C s d pub ext cn p v w = (.ok e, w')) :
    Made G C pub ext w 0 (selNonce G C cn e.descHash e.seq) e ∧ After w 1 0 w' := by
  unfold encryptSelection at h
  split at h
  · simp [M.raise] at h
  rename_i hvalid
  have hvote : s.vote ≤ 1 := by
    simp [PSelection.isValid] at hvalid
    omega
  rw [M.bind_eq_ok] at h
  obtain ⟨y, wy, hy, hx⟩ := h
  have hxy : e = y ∧ wy = w' := by
    split at hx
    · simp only [M.ret, Prod.mk.injEq, Res.ok.injEq] at hx
      exact ⟨hx.1.symm, hx.2⟩
    · split at hx
      · simp only [M.ret, Prod.mk.injEq, Res.ok.injEq] at hx
        exact ⟨hx.1.symm, hx.2⟩
      · simp [M.raise] at hx
  obtain ⟨rfl, rfl⟩ := hxy
  unfold encryptSelectionCore at hy
  rw [M.bind_eq_ok] at hy
  obtain ⟨pre, w5, h5, hy⟩ := hy
  cases hq : w.pre.quads with
  | nil =>
    simp only [M.getQuad, PreState.getQuad, hq, Prod.mk.injEq, Res.ok.injEq] at h5
    obtain ⟨rfl, rfl⟩ := h5
    dsimp only at hy
    rw [M.bind_eq_ok] at hy
    obtain ⟨c, w6, h6, hy⟩ := hy
    simp only [M.lift, Prod.mk.injEq] at h6
    obtain ⟨h6, rfl⟩ := h6
    unfold CSelection.make at hy
    rw [M.bind_eq_ok] at hy
    obtain ⟨π, w7, h7, hy⟩ := hy
    simp only [M.ret, Prod.mk.injEq, Res.ok.injEq] at hy
    obtain ⟨rfl, rfl⟩ := hy
    unfold disjMakeM at h7
    rw [if_neg (by omega)] at h7
    simp only [M.bind_eq_ok, M.rand, M.lift, Prod.mk.injEq, Res.ok.injEq] at h7
    obtain ⟨u, w8, ⟨rfl, rfl⟩, v', w9, ⟨rfl, rfl⟩, z, w10, ⟨rfl, rfl⟩, h7, rfl⟩ := h7
    refine ⟨?_, ?_, rfl, ?_⟩
    · unfold Made
      rw [hq]
      exact ⟨rfl, s.vote, hvote, h6, π, h7, rfl⟩
    · simp [hq]
    · simp [hq, Nat.add_assoc]
  | cons t ts =>
    simp only [M.getQuad, PreState.getQuad, hq, Prod.mk.injEq, Res.ok.injEq] at h5
    obtain ⟨rfl, rfl⟩ := h5
    simp only [M.lift, Prod.mk.injEq] at hy
    obtain ⟨hy, rfl⟩ := hy
    unfold CSelection.makePrecomputed at hy
    rw [Res.bind_eq_ok] at hy
    obtain ⟨π, hπ, hy⟩ := hy
    rw [Res.ok.injEq] at hy
    subst hy
    refine ⟨?_, ?_, rfl, ?_⟩
    · unfold Made
      rw [hq]
      exact ⟨rfl, s.vote, hvote, rfl, π, hπ, rfl⟩
    · simp [hq]
    · simp [hq]

theorem made_cons {pub ext : ℕ} {f : CSelection → ℕ} {w w1 : World} {e : CSelection} {l : List CSelection}
    (he : Made G C pub ext w 0 (f e) e) (h : After w 1 0 w1)
    (hl : ∀ j (hj : j < l.length), Made G C pub ext w1 j (f l[j]) l[j]) :
    ∀ j (hj : j < (e :: l).length), Made G C pub ext w j (f (e :: l)[j]) (e :: l)[j] := by
  intro j hj
  cases j with
  | zero => exact he
  | succ j =>
    have := (hl j (by simpa using hj)).shift h
    rw [Nat.add_comm 1 j] at this
    exact this

theorem real_made {pub ext cn : ℕ} {v over : Bool} {l : List PSelection} (ds : List SelectionDesc) :
    ∀ {count : ℕ} {w w' : World} {r : List CSelection × ℕ},
      encryptReal G C pub ext cn v over l ds count w = (.ok r, w') →
      (∀ j (hj : j < r.1.length), Made G C pub ext w j (selNonce G C cn r.1[j].descHash r.1[j].seq) r.1[j]) ∧
        After w r.1.length 0 w' := by
  induction ds with
  | nil =>
    intro count w w' r h
    simp only [encryptReal, M.ret, Prod.mk.injEq, Res.ok.injEq] at h
    obtain ⟨rfl, rfl⟩ := h
    exact ⟨fun j hj => absurd hj (by simp), After.refl w⟩
  | cons d ds ih =>
    intro count w w' r h
    unfold encryptReal at h
    cases hf : l.find? (fun s => s.objectId = d.objectId) with
    | none => rw [hf] at h; simp [M.raise] at h
    | some s =>
      rw [hf] at h
      dsimp only at h
      rw [M.bind_eq_ok] at h
      obtain ⟨e, w1, h1, h⟩ := h
      rw [M.bind_eq_ok] at h
      obtain ⟨r', w2, h2, h⟩ := h
      simp only [M.ret, Prod.mk.injEq, Res.ok.injEq] at h
      obtain ⟨rfl, rfl⟩ := h
      obtain ⟨a, b⟩ := selection_made h1
      obtain ⟨a', b'⟩ := ih h2
      refine ⟨made_cons (f := fun e => selNonce G C cn e.descHash e.seq) a b a', ?_⟩
      have := b.trans b'
      rw [Nat.add_comm 1] at this
      exact this

theorem placeholder_made {pub ext cn k : ℕ} {v over : Bool} (ds : List SelectionDesc) :
    ∀ {count : ℕ} {w w' : World} {r : List CSelection},
      encryptPlaceholders G C pub ext cn v over k ds count w = (.ok r, w') →
      (∀ j (hj : j < r.length), Made G C pub ext w j (selNonce G C cn r[j].descHash r[j].seq) r[j]) ∧
        After w r.length 0 w' := by
  induction ds with
  | nil =>
    intro count w w' r h
    simp only [encryptPlaceholders, M.ret, Prod.mk.injEq, Res.ok.injEq] at h
    obtain ⟨rfl, rfl⟩ := h
    exact ⟨fun j hj => absurd hj (by simp), After.refl w⟩
  | cons d ds ih =>
    intro count w w' r h
    unfold encryptPlaceholders at h
    dsimp only at h
    rw [M.bind_eq_ok] at h
    obtain ⟨e, w1, h1, h⟩ := h
    rw [M.bind_eq_ok] at h
    obtain ⟨r', w2, h2, h⟩ := h
    simp only [M.ret, Prod.mk.injEq, Res.ok.injEq] at h
    obtain ⟨rfl, rfl⟩ := h
    obtain ⟨a, b⟩ := selection_made h1
    obtain ⟨a', b'⟩ := ih h2
    refine ⟨made_cons (f := fun e => selNonce G C cn e.descHash e.seq) a b a', ?_⟩
    have := b.trans b'
    rw [Nat.add_comm 1] at this
    exact this

/-- The proof of a contest, with a triple from the buffer or a number computed from the seed. -/
def ContestShown (G : Params) (C : Crypto) (S : StdSort) (pub ext seed : ℕ) (t : Option Triple) (e : CContest) : Prop :=
  ∃ acc R limit π, accumulate G (e.getSelections S) = .ok acc ∧ aggregateNonce G (e.getSelections S) = .ok R ∧
    constMake G C t acc R pub seed ext limit = .ok π ∧ e.proof = some π

/-- A contest of a ballot, from the `J`-th entry of the first buffer and the `I`-th of the second on. -/
def ContestMade (G : Params) (C : Crypto) (S : StdSort) (pub ext seed : ℕ) (w : World) (J I : ℕ) (e : CContest) : Prop :=
  (∀ j (hj : j < e.selections.length), Made G C pub ext w (J + j) (selNonce G C
    (hashElems G C [.q (hashElems G C [.q e.descHash, .q seed]), .u64 e.seq]) e.selections[j].descHash e.selections[j].seq)
    e.selections[j]) ∧
  ContestShown G C S pub ext (((Nonces.makeWith G C e.descHash (.q seed)).get G C e.seq).2.next G C).1
    w.pre.triples[I + 1]? e

theorem ContestMade.shift {pub ext seed J I J' I' : ℕ} {w w' : World} {e : CContest} (h : After w J I w')
    (he : ContestMade G C S pub ext seed w' J' I' e) : ContestMade G C S pub ext seed w (J + J') (I + I') e := by
  refine ⟨fun j hj => ?_, ?_⟩
  · rw [Nat.add_assoc]
    exact (he.1 j hj).shift h
  · have := he.2
    rw [h.triples, List.getElem?_drop] at this
    rw [Nat.add_assoc]
    exact this

theorem after_triple {w : World} {t : Option Triple} {w' : World} (h : M.getTriple w = (.ok t, w')) :
    t = w.pre.triples[0]? ∧ After w 0 1 w' := by
  cases hq : w.pre.triples with
  | nil =>
    simp only [M.getTriple, PreState.getTriple, hq, Prod.mk.injEq, Res.ok.injEq] at h
    obtain ⟨rfl, rfl⟩ := h
    exact ⟨rfl, rfl, by simp [hq], by simp⟩
  | cons x xs =>
    simp only [M.getTriple, PreState.getTriple, hq, Prod.mk.injEq, Res.ok.injEq] at h
    obtain ⟨rfl, rfl⟩ := h
    exact ⟨rfl, rfl, by simp [hq], by simp⟩

theorem contest_made {c : PContest} {m : IManifest} {d : ContestDescP} {pub ext seed : ℕ}
    {v : Bool} {w w' : World} {e : CContest} (h : encryptContest G C S c m d pub ext seed v w = (.ok e, w')) :
    ContestMade G C S pub ext seed w 0 0 e ∧ After w e.selections.length 2 w' := by
  unfold encryptContest at h
  dsimp only at h
  split at h
  · simp [M.raise] at h
  rw [M.bind_eq_ok] at h
  obtain ⟨dh, w0, h0, h⟩ := h
  simp only [M.lift, Prod.mk.injEq] at h0
  obtain ⟨hdh, rfl⟩ := h0
  rw [M.bind_eq_ok] at h
  obtain ⟨rs, w1, h1, h⟩ := h
  rw [M.bind_eq_ok] at h
  obtain ⟨ps, w2, h2, h⟩ := h
  rw [M.bind_eq_ok] at h
  obtain ⟨x, w3, h3, h⟩ := h
  rw [M.bind_eq_ok] at h
  obtain ⟨e', w4, h4, h⟩ := h
  obtain ⟨a1, b1⟩ := real_made _ h1
  obtain ⟨a2, b2⟩ := placeholder_made _ h2
  have b3 : After w2 0 1 w3 := by
    unfold encryptExtended at h3
    rw [M.bind_eq_ok] at h3
    obtain ⟨t, w5, h5, h3⟩ := h3
    simp only [M.lift, Prod.mk.injEq] at h3
    obtain ⟨-, rfl⟩ := h3
    exact (after_triple h5).2
  have he : e = e' ∧ w4 = w' := by
    split at h
    · simp only [M.ret, Prod.mk.injEq, Res.ok.injEq] at h
      exact ⟨h.1.symm, h.2⟩
    · rw [M.bind_eq_ok] at h
      obtain ⟨b, w5, h5, h⟩ := h
      simp only [M.lift, Prod.mk.injEq] at h5
      obtain ⟨-, rfl⟩ := h5
      split at h
      · simp only [M.ret, Prod.mk.injEq, Res.ok.injEq] at h
        exact ⟨h.1.symm, h.2⟩
      · simp [M.raise] at h
  obtain ⟨rfl, rfl⟩ := he
  unfold CContest.make at h4
  rw [M.bind_eq_ok] at h4
  obtain ⟨ch, w5, h5, h4⟩ := h4
  simp only [M.lift, Prod.mk.injEq] at h5
  obtain ⟨hch, rfl⟩ := h5
  rw [M.bind_eq_ok] at h4
  obtain ⟨acc, w6, h6, h4⟩ := h4
  simp only [M.lift, Prod.mk.injEq] at h6
  obtain ⟨hacc, rfl⟩ := h6
  rw [M.bind_eq_ok] at h4
  obtain ⟨agg, w7, h7, h4⟩ := h4
  simp only [M.lift, Prod.mk.injEq] at h7
  obtain ⟨hagg, rfl⟩ := h7
  rw [M.bind_eq_ok] at h4
  obtain ⟨t, w8, h8, h4⟩ := h4
  obtain ⟨ht, b4⟩ := after_triple h8
  rw [M.bind_eq_ok] at h4
  obtain ⟨π, w9, h9, h4⟩ := h4
  simp only [M.lift, Prod.mk.injEq] at h9
  obtain ⟨hπ, rfl⟩ := h9
  simp only [M.ret, Prod.mk.injEq, Res.ok.injEq] at h4
  obtain ⟨rfl, rfl⟩ := h4
  have b12 := b1.trans b2
  have b123 := b12.trans b3
  refine ⟨⟨?_, acc, agg, d.desc.numberElected, π, hacc, hagg, ?_, rfl⟩, ?_⟩
  · intro j hj
    rw [Nat.zero_add]
    dsimp only at hj ⊢
    by_cases hlt : j < rs.1.length
    · rw [List.getElem_append_left hlt]
      exact a1 j hlt
    · rw [List.getElem_append_right (by omega)]
      have hj' : j - rs.1.length < ps.length := by
        rw [List.length_append] at hj
        omega
      have := (a2 _ hj').shift b1
      rw [show rs.1.length + (j - rs.1.length) = j by omega] at this
      exact this
  · rw [← hπ, ht, b123.triples, List.getElem?_drop]
  · have := b123.trans b4
    simpa [List.length_append] using this

theorem contests_made {pub ext seed : ℕ} {f : ContestDescP → M CContest}
    (hf : ∀ d w w' e, f d w = (.ok e, w') → ContestMade G C S pub ext seed w 0 0 e ∧ After w e.selections.length 2 w') :
    ∀ (ds : List ContestDescP) {w w' : World} {es : List CContest}, M.forEach f ds w = (.ok es, w') →
    ∀ a (ha : a < es.length),
      ContestMade G C S pub ext seed w ((es.take a).map fun c => c.selections.length).sum (2 * a) es[a]
  | [], w, w', es, h, a, ha => by
    simp only [M.forEach, M.ret, Prod.mk.injEq, Res.ok.injEq] at h
    obtain ⟨rfl, -⟩ := h
    exact absurd ha (by simp)
  | d :: ds, w, w', es, h, a, ha => by
    simp only [M.forEach, M.bind_eq_ok, M.ret, Prod.mk.injEq, Res.ok.injEq] at h
    obtain ⟨e, w1, h1, r, w2, h2, rfl, rfl⟩ := h
    obtain ⟨a1, a2⟩ := hf d w w1 e h1
    cases a with
    | zero => exact a1
    | succ a =>
      have := (contests_made hf ds h2 a (by simpa using ha)).shift a2
      simp only [List.getElem_cons_succ, List.take_succ_cons, List.map_cons, List.sum_cons]
      rw [show 2 * (a + 1) = 2 + 2 * a by ring]
      exact this

/-- **C121.**  The selections and proofs of a ballot encrypted by the library are those of the theorem, whatever the buffers
hold.  The `j`-th selection of the `a`-th contest uses the entry of the buffer at its place among all selections of the
ballot, and for nothing else; if there is none, it is made as in C119.  The proof of the `a`-th contest uses entry `2a+1` of
the other buffer, or if there is none the seed of its place. -/
theorem C121_encrypts {E : Layout B K L} {b : PBallot} {m : IManifest} {ctx : Context} {seed : ℕ} {t : ℕ}
    {v : Bool} {w w' : World} {e : CBallot} {n : B → ℕ} (c : K)
    (h : encryptBallot G C S b m ctx seed (some (n (E.ballot c))) t v w = (.ok e, w'))
    (hm : m.manifestHash = E.manifestHash) (hid : b.objectId = E.ballotId (E.ballot c)) (a : ℕ) (ha : a < e.contests.length)
    (hd : e.contests[a].descHash = E.contestHash c) (hs : e.contests[a].seq = E.contestSeq c) :
    (∀ j (hj : j < e.contests[a].selections.length), ∀ i, E.contest i = c →
      E.item i = .selection e.contests[a].selections[j].descHash e.contests[a].selections[j].seq →
      Made G C ctx.pub ctx.extHash w (((e.contests.take a).map fun c => c.selections.length).sum + j) (E.nonce G C n i)
        e.contests[a].selections[j]) ∧
    ContestShown G C S ctx.pub ctx.extHash (E.proofSeed G C n c) w.pre.triples[2 * a + 1]? e.contests[a] := by
  obtain ⟨n', w1, w2, h1, h2, -⟩ := encryptBallot_steps G C S _ _ _ _ _ _ _ _ _ _ h
  simp only [nonceOr, M.ret, Prod.mk.injEq, Res.ok.injEq] at h1
  obtain ⟨rfl, rfl⟩ := h1
  unfold encryptContests at h2
  rw [M.bind_eq_ok] at h2
  obtain ⟨nb, w3, h7, h2⟩ := h2
  simp only [M.lift, Prod.mk.injEq] at h7
  obtain ⟨h7, rfl⟩ := h7
  cases hst : m.getBallotStyle b.styleId with
  | none => rw [hst] at h2; simp [M.lift] at h2
  | some style =>
    rw [hst] at h2
    dsimp only at h2
    rw [M.bind_eq_ok] at h2
    obtain ⟨ds, w4, h8, h2⟩ := h2
    simp only [M.lift, Prod.mk.injEq] at h8
    obtain ⟨h8, rfl⟩ := h8
    have key := contests_made (G := G) (C := C) (S := S) (pub := ctx.pub) (ext := ctx.extHash)
      (seed := nonceSeedOf G C m.manifestHash b.objectId (n (E.ballot c))) ?_ ds h2 a ha
    · obtain ⟨k1, k2⟩ := key
      refine ⟨?_, ?_⟩
      · intro j hj i hi hitem
        have := k1 j hj
        have hn : E.nonce G C n i = selNonce G C (hashElems G C [.q (hashElems G C [.q e.contests[a].descHash,
            .q (nonceSeedOf G C m.manifestHash b.objectId (n (E.ballot c)))]), .u64 e.contests[a].seq])
            e.contests[a].selections[j].descHash e.contests[a].selections[j].seq := by
          unfold Layout.nonce
          subst hi
          simp only [Place.nonce, Place.itemInput, Place.itemSeedInput, Place.contestInput, Place.contestSeedInput,
            Place.ballotInput, Layout.place, hitem, selNonce, hd, hs, hm, hid, nonceSeedOf]
        rw [hn]
        exact this
      · unfold Layout.proofSeed
        rw [← hd, ← hs, ← hm, ← hid]
        exact k2
    · intro d w w' e hf
      cases hc : nb.contests.find? (fun c => c.objectId = d.desc.objectId) with
      | none => rw [hc] at hf; simp [M.raise] at hf
      | some pc =>
        rw [hc] at hf
        exact contest_made hf

/-- What `populate` has put into the buffers after `n` rounds. -/
def Stocked (G : Params) (pub : ℕ) (draws : ℕ → Draws) (n : ℕ) (s : PreState) : Prop :=
  s.quads = (List.range n).map (fun i =>
    ⟨genTriple G pub (draws i).t1, genTriple G pub (draws i).t2, genQuadruple G pub (draws i).q1 (draws i).q2⟩) ∧
  s.triples = (List.range n).flatMap (fun i =>
    if i % 3 = 0 then [genTriple G pub (draws i).c1, genTriple G pub (draws i).c2] else [])

theorem loop_stocked {pub : ℕ} {draws : ℕ → Draws} {s' : PreState} : ∀ (l it : ℕ) (s : PreState),
    s.max - s.quads.length = l → Stocked G pub draws it s → PreState.populateLoop G pub draws it s = .ok s' →
    ∃ n, Stocked G pub draws n s' := by
  intro l
  induction l using Nat.strong_induction_on with
  | _ l ih =>
    intro it s hl hs h
    rw [PreState.populateLoop] at h
    have hs' : Stocked G pub draws (it + 1) (s.iterate G pub it (draws it)) := by
      obtain ⟨h1, h2⟩ := hs
      constructor
      · simp only [PreState.iterate, List.range_succ, List.map_append, h1]
        rfl
      · simp only [PreState.iterate, List.range_succ, List.flatMap_append, h2]
        split <;> simp [*]
    split at h
    · split at h
      · cases h
      · split at h
        · rename_i hlt
          have hl1 : (s.iterate G pub it (draws it)).quads.length = s.quads.length + 1 := by simp [PreState.iterate]
          have hl2 : (s.iterate G pub it (draws it)).max = s.max := rfl
          exact ih _ (by omega) (it + 1) _ rfl hs' h
        · cases h
          exact ⟨_, hs'⟩
    · cases h
      exact ⟨_, hs⟩

/-- **C121.**  The entries are those of the theorem: after `populate` with empty buffers, each entry is made from numbers of
`rand_q` that are in no other entry. -/
theorem C121_populate {pub : ℕ} {draws : ℕ → Draws} {s s' : PreState} (h1 : s.quads = []) (h2 : s.triples = [])
    (h : s.populate G pub draws = .ok s') : Stocked G pub draws s'.quads.length s' := by
  obtain ⟨n, hn⟩ := loop_stocked _ 0 s rfl ⟨by simp [h1], by simp [h2]⟩ h
  have : s'.quads.length = n := by rw [hn.1]; simp
  rw [this]
  exact hn

end

/-- It applies: two voters, of whom the first found precomputed values. -/
example (C : Crypto) (A : Adversary (Fin 2) (Fin 2) 4 1000000) : ∃ X,
    |rate twoBallots .std C ⟨![true, true, false, false], ![true, false]⟩ fourVotes (fun _ => 1) 5
        (Finset.range Params.std.q) X A ![1, 0, 0, 1] -
      rate twoBallots .std C ⟨![true, true, false, false], ![true, false]⟩ fourVotes (fun _ => 1) 5
        (Finset.range Params.std.q) X A ![0, 1, 1, 0]| <
      ddhTotal .std C (fun i => twoBallots.contest (fourVotes (.inl i))) (fun _ => 1) 5 X A ![1, 0, 0, 1] ![0, 1, 1, 0] +
        1 / 2 ^ 126 := by
  classical
  obtain ⟨X, hX⟩ := exists_challenges
  have k1 := fourVotes_votes ![1, 0, 0, 1] (by decide) rfl rfl
  have k2 := fourVotes_votes ![0, 1, 1, 0] (by decide) rfl rfl
  have c1 : Fintype.card (Fin 2) ≤ 2 ^ 40 := by rw [Fintype.card_fin]; norm_num
  have c2 : Fintype.card (Fin 2 × Fin 3) ≤ 2 ^ 40 := by rw [Fintype.card_prod, Fintype.card_fin, Fintype.card_fin]; norm_num
  exact ⟨twoBallots.strings .std C (Finset.range Params.std.q) ∪ X,
    C121_standard twoBallots_proper _ fourVotes (by decide) (by norm_num) c1 c1 c2 (by norm_num)
      Finset.subset_union_left
      (challenges_mono Finset.subset_union_right hX) A k1 k2⟩

/-- A ballot that is encrypted with precomputed values. -/
example (S : StdSort) : ∃ e w', (stockedWorld (gPowP .std 2)).pre.quads ≠ [] ∧
    encryptBallot .std polyCrypto S exampleBallot (exampleIM 6) (exampleContext (gPowP .std 2) 6) 4 (some 8) 5 false
      (stockedWorld (gPowP .std 2)) = (.ok e, w') := by
  have hK := residue_gPowP C54_std_valid 2 (by norm_num)
  obtain ⟨e, w, h⟩ := stocked_run S _ hK 8 (Or.inl rfl) _ (stockedWorld_ok hK)
  exact ⟨e, w, by simp [stockedWorld], h⟩

/-- Buffers that were filled. -/
example (draws : ℕ → Draws) : ∃ s', (PreState.initial.init 2).populate .std 3 draws = .ok s' ∧ s'.quads.length = 2 := by
  obtain ⟨s', h, h1, -⟩ := C29_populate_size .std (PreState.initial.init 2) 3 draws rfl (by decide)
  exact ⟨s', h, h1⟩

end EG.Published.Stock
