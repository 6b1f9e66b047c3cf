import Verif.Props.ElectionSecrecy
import Verif.Props.ProofSecrecy
import Verif.Lemmas.SimFamily
import Mathlib.Data.Fintype.BigOperators

/-!
# C119: the votes of an election stay secret although the proofs are published

C115 for all ballots of an election, with nonces and random numbers of the contests' proofs computed from the nonces of the
ballots (C117).  The random numbers of the proofs of the selections are drawn.
-/

namespace EG.Published

open EG.Secrecy EG.Derive EG.Derived EG.Sim EG.NonceUse

variable {B K L T : Type} {m k : ℕ}

/-! ## What is published -/

/-- The votes of a contest, in their order; `κ` tells to which contest a vote belongs. -/
noncomputable def members (κ : Fin m → K) (c : K) : List (Fin m) :=
  open Classical in (List.finRange m).filter (fun i => κ i = c)

/-- The ciphertexts of a contest, added up. -/
noncomputable def sumUp (G : Params) (κ : Fin m → K) (cts : Fin m → Res Ciphertext) (c : K) : Res Ciphertext :=
  allOk ((members κ c).map cts) >>= elgamalAdd G

/-- What is seen of an election: the public key, the nonces of the items `T` (the extended data, say), the ciphertexts of
the votes, and the proofs of all votes and contests. -/
structure View (K T : Type) (m : ℕ) where
  pub : ℕ
  known : T → ℕ
  ciphertexts : Fin m → Res Ciphertext
  proofs : Fin m ⊕ K → Shown

/-- Whoever tries to find out something on the votes: it may hash `k` strings. -/
abbrev Adversary (K T : Type) (m k : ℕ) : Type := View K T m → Prog Bool k

/-- The random numbers of the proof of a selection. -/
abbrev Three (G : Params) : Type := Fin G.q × Fin G.q × Fin G.q

/-- The view of an election with the votes `ms`, as the functions of the library make it from the nonces `rs`, the seeds of
the proofs of the contests, and the random numbers `ws`. -/
noncomputable def view (G : Params) (D : Crypto) (κ : Fin m → K) (limit : K → ℕ) (h pub : ℕ) (ms rs : Fin m → ℕ) (ts : T → ℕ)
    (seeds : K → ℕ) (ws : Fin m → Three G) : View K T m where
  pub := pub
  known := ts
  ciphertexts i := elgamalEncrypt G (ms i) (rs i) pub
  proofs
    | .inl i => .selection (elgamalEncrypt G (ms i) (rs i) pub >>= fun c =>
        disjMake G D c (rs i) pub h (ms i) (ws i).1 (ws i).2.1 (ws i).2.2)
    | .inr c => .contest (sumUp G κ (fun i => elgamalEncrypt G (ms i) (rs i) pub) c >>= fun acc =>
        addModQVec G ((members κ c).map rs) >>= fun R => constMake G D none acc R pub (seeds c) h (limit c))

/-- How often the adversary answers yes for the votes `ms`: among all secret keys, all random numbers of the proofs of
selections, all nonces of ballots in `S`, and all functions in place of SHA-256. -/
noncomputable def rate (E : Layout B K L) (G : Params) (C : Crypto) (e : Fin m ⊕ T ≃ L) (limit : K → ℕ) (h : ℕ) (S : Finset ℕ)
    (X : Finset Str) (A : Adversary K T m k) (ms : Fin m → ℕ) : ℚ :=
  freq (fun p : (secrets G × (Fin m → Three G)) × (B → S) × (X → Fin (2 ^ 256)) =>
    ∃ key, keyFromSecret G p.1.1 = .ok key ∧
      (A (view G (C.withOracle X p.2.2) (fun i => E.contest (e (.inl i))) limit h key.pub ms
        (fun i => E.nonce G (C.withOracle X p.2.2) (fun b => p.2.1 b) (e (.inl i)))
        (fun t => E.nonce G (C.withOracle X p.2.2) (fun b => p.2.1 b) (e (.inr t)))
        (E.proofSeed G (C.withOracle X p.2.2) (fun b => p.2.1 b)) p.1.2)).run (oracle C.sha256 X p.2.2) = true)

/-! ## The provers -/

/-- The random numbers of a proof: three for a selection, one for a contest. -/
def Random (G : Params) : Fin m ⊕ K → Type
  | .inl _ => Three G
  | .inr _ => Fin G.q

instance (G : Params) : ∀ j : Fin m ⊕ K, Fintype (Random G j)
  | .inl _ => inferInstanceAs (Fintype (Three G))
  | .inr _ => inferInstanceAs (Fintype (Fin G.q))

instance (G : Params) [NeZero G.q] : ∀ j : Fin m ⊕ K, Nonempty (Random G j)
  | .inl _ => inferInstanceAs (Nonempty (Three G))
  | .inr _ => inferInstanceAs (Nonempty (Fin G.q))

def nums {G : Params} (t : Three G) : ℕ × ℕ × ℕ := (t.1, t.2.1, t.2.2)

theorem nums_mem {G : Params} (t : Three G) : nums t ∈ three G := by
  simp [nums, three]

/-- The string for which the prover asks. -/
noncomputable def placeOf (G : Params) (κ : Fin m → K) (limit : K → ℕ) (h pub : ℕ) (ms rs : Fin m → ℕ) :
    (j : Fin m ⊕ K) → Random G j → Str
  | .inl i, t => match elgamalEncrypt G (ms i) (rs i) pub with
    | .ok c => (disjProver G h pub (ms i, rs i, c)).place (nums t)
    | _ => []
  | .inr c, u => match sumUp G κ (fun i => elgamalEncrypt G (ms i) (rs i) pub) c with
    | .ok acc => (constProver G h pub (limit c) (((members κ c).map rs).sum % G.q) acc).place (u : Fin G.q).val
    | _ => []

/-- Its proof, from the answer. -/
noncomputable def proofOf (G : Params) (κ : Fin m → K) (limit : K → ℕ) (h pub : ℕ) (ms rs : Fin m → ℕ) :
    (j : Fin m ⊕ K) → Random G j → ℕ → Shown
  | .inl i, t, y => match elgamalEncrypt G (ms i) (rs i) pub with
    | .ok c => (disjProver G h pub (ms i, rs i, c)).proof (nums t) y
    | .throw e => .selection (.throw e)
    | .ub => .selection .ub
  | .inr c, u, y => match sumUp G κ (fun i => elgamalEncrypt G (ms i) (rs i) pub) c with
    | .ok acc => (constProver G h pub (limit c) (((members κ c).map rs).sum % G.q) acc).proof (u : Fin G.q).val y
    | .throw e => .contest (.throw e)
    | .ub => .contest .ub

/-- The random numbers together. -/
def coins (G : Params) [NeZero G.q] (ws : Fin m → Three G) (us : K → ℕ) : (j : Fin m ⊕ K) → Random G j
  | .inl i => ws i
  | .inr c => (⟨us c % G.q, Nat.mod_lt _ (NeZero.pos _)⟩ : Fin G.q)

variable {G : Params}

theorem members_sum (κ : Fin m → K) (c : K) (f : Fin m → ℕ) :
    ((members κ c).map f).sum = open Classical in ∑ i with κ i = c, f i := by
  classical
  unfold members
  rw [← List.sum_toFinset _ ((List.nodup_finRange m).filter _)]
  refine Finset.sum_congr ?_ fun _ _ => rfl
  ext i
  simp

theorem allOk_ok : ∀ {rs : List (Res Ciphertext)} {l : List Ciphertext}, allOk rs = .ok l → rs = l.map .ok
  | [], l, h => by
    cases h
    rfl
  | r :: rs, l, h => by
    rw [allOk] at h
    cases r with
    | ok c =>
      rw [Res.bind_ok] at h
      cases hr : allOk rs with
      | ok cs =>
        rw [hr, Res.bind_ok] at h
        cases h
        rw [allOk_ok hr]
        rfl
      | throw e => rw [hr] at h; cases h
      | ub => rw [hr] at h; cases h
    | throw e => cases h
    | ub => cases h

theorem encrypt_ok (hG : G.Valid) {pub x r : ℕ} (hK : Residue G pub) (hx : x < 2) (hr : r < G.q) {c : Ciphertext}
    (h : elgamalEncrypt G x r pub = .ok c) : IsEncryption G pub x r c := by
  have hq := hG.q_lt
  have h0 : r ≠ 0 := by
    rintro rfl
    simp [elgamalEncrypt] at h
  obtain ⟨c', h1, h2⟩ := encrypt_isEncryption G hG x r pub hx (hr.trans hq) h0 (hK.lt hG)
  rw [h1] at h
  cases h
  exact h2

/-- What is known of the votes of an election. -/
structure Votes (κ : Fin m → K) (limit : K → ℕ) (ms : Fin m → ℕ) : Prop where
  vote : ∀ i, ms i < 2
  full : ∀ c, ((members κ c).map ms).sum = limit c

theorem sumUp_ok (hG : G.Valid) {κ : Fin m → K} {limit : K → ℕ} {pub : ℕ} (hK : Residue G pub) {ms rs : Fin m → ℕ}
    (hms : Votes κ limit ms) (hrs : ∀ i, rs i < G.q) {c : K} {acc : Ciphertext}
    (h : sumUp G κ (fun i => elgamalEncrypt G (ms i) (rs i) pub) c = .ok acc) :
    members κ c ≠ [] ∧ IsEncryption G pub (limit c) (((members κ c).map rs).sum % G.q) acc := by
  unfold sumUp at h
  cases ha : allOk ((members κ c).map fun i => elgamalEncrypt G (ms i) (rs i) pub) with
  | throw e => rw [ha] at h; cases h
  | ub => rw [ha] at h; cases h
  | ok l =>
    rw [ha, Res.bind_ok] at h
    have hl := allOk_ok ha
    have hne : members κ c ≠ [] := by
      intro h0
      rw [h0] at ha
      cases ha
      cases h
    refine ⟨hne, ?_⟩
    let ct : Fin m → Ciphertext := fun i => match elgamalEncrypt G (ms i) (rs i) pub with
      | .ok c => c
      | _ => ⟨0, 0⟩
    have hct : ∀ i ∈ members κ c, elgamalEncrypt G (ms i) (rs i) pub = .ok (ct i) := by
      intro i hi
      have : elgamalEncrypt G (ms i) (rs i) pub ∈ l.map Res.ok := hl ▸ List.mem_map_of_mem hi
      obtain ⟨x, -, hx⟩ := List.mem_map.1 this
      simp only [ct, ← hx]
    have hl' : l = (members κ c).map ct := by
      have : l.map Res.ok = ((members κ c).map ct).map Res.ok := by
        rw [← hl, List.map_map]
        exact List.map_congr_left hct
      exact (List.map_injective_iff.2 fun _ _ => Res.ok.inj) this
    obtain ⟨t, h1, h2⟩ := C12_add_encrypts_sum G hG pub ((members κ c).map fun i => (ms i, rs i, ct i))
      (by simpa using hne) (by
        intro x hx
        obtain ⟨i, hi, rfl⟩ := List.mem_map.1 hx
        exact encrypt_ok hG hK (hms.vote i) (hrs i) (hct i hi))
    rw [List.map_map] at h1
    rw [List.map_map, List.map_map] at h2
    have e1 : elgamalAdd G l = .ok t := by
      rw [hl']
      exact h1
    rw [h] at e1
    cases e1
    have h3 := h2.mod hG hK
    have e2 : ((members κ c).map ((fun x : ℕ × ℕ × Ciphertext => x.1) ∘ fun i => (ms i, rs i, ct i))).sum = limit c :=
      hms.full c
    rw [e2] at h3
    exact h3

variable (C : Crypto)

/-- The view is made of the provers' proofs. -/
theorem view_eq [NeZero G.q] (hG : G.Valid) {D : Crypto} {κ : Fin m → K} {limit : K → ℕ} {h pub : ℕ} (hK : Residue G pub)
    {ms rs : Fin m → ℕ} (hms : Votes κ limit ms) (hrs : ∀ i, rs i < G.q) (ts : T → ℕ) {seeds us : K → ℕ}
    (hus : ∀ c, us c = ((Nonces.makeWith G D (seeds c) (.str constHeader)).get G D 0).1) (hu : ∀ c, us c < G.q)
    (ws : Fin m → Three G) :
    view G D κ limit h pub ms rs ts seeds ws =
      { pub := pub, known := ts, ciphertexts := fun i => elgamalEncrypt G (ms i) (rs i) pub
        proofs := fun j => proofOf G κ limit h pub ms rs j (coins G ws us j)
          (D.sha256 (placeOf G κ limit h pub ms rs j (coins G ws us j))) } := by
  unfold view
  congr 1
  funext j
  rcases j with i | c
  · simp only [proofOf, placeOf, coins]
    cases he : elgamalEncrypt G (ms i) (rs i) pub with
    | throw e => rfl
    | ub => rfl
    | ok c =>
      have hi := encrypt_ok hG hK (hms.vote i) (hrs i) he
      exact disjMake_sim D hG hK hi (hms.vote i) (hrs i) (nums_mem (ws i))
  · simp only [proofOf, placeOf, coins]
    cases he : sumUp G κ (fun i => elgamalEncrypt G (ms i) (rs i) pub) c with
    | throw e => rfl
    | ub => rfl
    | ok acc =>
      obtain ⟨hne, hi⟩ := sumUp_ok hG hK hms hrs he
      have hq0 : 0 < G.q := NeZero.pos _
      have hR : addModQVec G ((members κ c).map rs) = .ok (((members κ c).map rs).sum % G.q) := by
        rw [C01_add_mod_q_vector G hG _ (by
          intro r hr
          obtain ⟨a, ha, rfl⟩ := List.mem_map.1 hr
          exact le_of_lt (hrs a)), if_neg (by simpa using hne)]
      rw [Res.bind_ok, hR, Res.bind_ok]
      have hs := constMake_sim D hG (h := h) hK hi (Nat.mod_lt _ hq0) (seeds c) (hu c)
      have e : constMake G D none acc (((members κ c).map rs).sum % G.q) pub (seeds c) h (limit c) =
          constMake G D (some (genTriple G pub (us c))) acc (((members κ c).map rs).sum % G.q) pub (seeds c) h (limit c) := by
        rw [hus]
        rfl
      dsimp only
      rw [e, hs, Nat.mod_eq_of_lt (hu c)]

/-! ## Programs -/

/-- A program that hashes some strings first. -/
def askFin {α : Type} : (N : ℕ) → (Fin N → Str) → ((Fin N → ℕ) → Prog α k) → Prog α (k + N)
  | 0, _, f => f Fin.elim0
  | N + 1, s, f => .ask (s 0) fun y => askFin N (fun i => s i.succ) fun ys => f (Fin.cons y ys)

theorem askFin_run {α : Type} (H : Str → ℕ) : ∀ (N : ℕ) (s : Fin N → Str) (f : (Fin N → ℕ) → Prog α k),
    (askFin N s f).run H = (f (fun i => H (s i))).run H
  | 0, s, f => by
    rw [askFin, show (Fin.elim0 : Fin 0 → ℕ) = fun i => H (s i) from funext fun i => i.elim0]
  | N + 1, s, f => by
    rw [askFin, Prog.run, askFin_run H N]
    congr 2
    funext i
    refine Fin.cases ?_ (fun i => ?_) i <;> rfl

noncomputable def askEach {α I : Type} [Fintype I] (s : I → Str) (f : (I → ℕ) → Prog α k) : Prog α (k + Fintype.card I) :=
  askFin (Fintype.card I) (fun n => s ((Fintype.equivFin I).symm n)) fun ys => f fun i => ys (Fintype.equivFin I i)

theorem askEach_run {α I : Type} [Fintype I] (H : Str → ℕ) (s : I → Str) (f : (I → ℕ) → Prog α k) :
    (askEach s f).run H = (f (fun i => H (s i))).run H := by
  unfold askEach
  rw [askFin_run]
  simp only [Equiv.symm_apply_apply]

/-! ## First step: random numbers in place of hashes -/

/-- The view, by the provers' proofs. -/
noncomputable def seen (G : Params) (f : Str → ℕ) (κ : Fin m → K) (limit : K → ℕ) (h pub : ℕ) (ms rs : Fin m → ℕ) (ts : T → ℕ)
    (t : ∀ j : Fin m ⊕ K, Random G j) : View K T m :=
  { pub := pub, known := ts, ciphertexts := fun i => elgamalEncrypt G (ms i) (rs i) pub
    proofs := fun j => proofOf G κ limit h pub ms rs j (t j) (f (placeOf G κ limit h pub ms rs j (t j))) }

theorem yes_iff (hG : G.Valid) {s : ℕ} (hs : s ∈ secrets G) (D : Crypto) (κ : Fin m → K) (limit : K → ℕ) (h : ℕ)
    (ms rs : Fin m → ℕ) (ts : T → ℕ) (seeds : K → ℕ) (ws : Fin m → Three G) (A : Adversary K T m k) (H : Str → ℕ) :
    (∃ key, keyFromSecret G s = .ok key ∧ (A (view G D κ limit h key.pub ms rs ts seeds ws)).run H = true) ↔
      (A (view G D κ limit h (G.g ^ s % G.p) ms rs ts seeds ws)).run H = true := by
  obtain ⟨key, h1, h2⟩ := pub_eq hG hs
  rw [← h2]
  constructor
  · rintro ⟨key', h3, h4⟩
    rw [h1] at h3
    cases h3
    exact h4
  · exact fun h => ⟨key, h1, h⟩

theorem pub_residue (hG : G.Valid) (s : ℕ) : Residue G (G.g ^ s % G.p) := by
  refine residue_mod hG ?_
  push_cast
  rw [← pow_mul, mul_comm, pow_mul, g_pow_q hG, one_pow]

/-- With random digests in place of the nonces and the random numbers of the contests' proofs. -/
noncomputable def rateRandom [NeZero G.q] (e : Fin m ⊕ T ≃ L) (κ : Fin m → K) (limit : K → ℕ) (h : ℕ) (X : Finset Str)
    (A : Adversary K T m k) (ms : Fin m → ℕ) : ℚ :=
  freq (fun p : (secrets G × (Fin m → Three G)) × (Leaf K L → Fin (2 ^ 256)) × (X → Fin (2 ^ 256)) =>
    (A (seen G (oracle C.sha256 X p.2.2) κ limit h (G.g ^ (p.1.1 : ℕ) % G.p) ms
      (fun i => addModQ G (p.2.1 (.item (e (.inl i)))) 0) (fun t => addModQ G (p.2.1 (.item (e (.inr t)))) 0)
      (coins G p.1.2 (fun c => addModQ G (p.2.1 (.proof c)) 0)))).run (oracle C.sha256 X p.2.2) = true)

variable {C}

theorem rate_random [Fintype B] [Fintype K] [Fintype L] [NeZero G.q] [Nonempty (secrets G)] (hG : G.Valid)
    {E : Layout B K L} (hE : E.Proper) (e : Fin m ⊕ T ≃ L) {limit : K → ℕ} {h : ℕ} {S : Finset ℕ} (hne : S.Nonempty)
    (hS : ∀ s ∈ S, s < 2 ^ 256) {X : Finset Str} (hX : E.strings G C S ⊆ X) (A : Adversary K T m k) {ms : Fin m → ℕ}
    (hms : Votes (fun i => E.contest (e (.inl i))) limit ms) :
    |rate E G C e limit h S X A ms - rateRandom (G := G) C e (fun i => E.contest (e (.inl i))) limit h X A ms| ≤
      (Fintype.card B * (k + (m + Fintype.card K)) : ℚ) / S.card +
      (5 * Fintype.card K + 2 * Fintype.card L) * (k + (m + Fintype.card K) + (5 * Fintype.card K + 2 * Fintype.card L)) *
        fibre G / 2 ^ 256 := by
  classical
  refine freq_average _ _ _ ?_
  rintro ⟨⟨s, hs⟩, ws⟩
  simp only [yes_iff hG hs]
  have key := C117_random (C := C) hG hE hne hS hX (fun us ns => askEach
    (fun j : Fin m ⊕ K => placeOf G (fun i => E.contest (e (.inl i))) limit h (G.g ^ s % G.p) ms (fun i => ns (e (.inl i))) j
      (coins G ws us j))
    (fun ys => A { pub := G.g ^ s % G.p, known := fun t => ns (e (.inr t))
                   ciphertexts := fun i => elgamalEncrypt G (ms i) (ns (e (.inl i))) (G.g ^ s % G.p)
                   proofs := fun j => proofOf G (fun i => E.contest (e (.inl i))) limit h (G.g ^ s % G.p) ms
                     (fun i => ns (e (.inl i))) j (coins G ws us j) (ys j) }))
  simp only [askEach_run] at key
  rw [Fintype.card_sum, Fintype.card_fin] at key
  have e2 : ∀ p : (B → S) × (X → Fin (2 ^ 256)),
      view G (C.withOracle X p.2) (fun i => E.contest (e (.inl i))) limit h (G.g ^ s % G.p) ms
        (fun i => E.nonce G (C.withOracle X p.2) (fun b => p.1 b) (e (.inl i)))
        (fun t => E.nonce G (C.withOracle X p.2) (fun b => p.1 b) (e (.inr t)))
        (E.proofSeed G (C.withOracle X p.2) (fun b => p.1 b)) ws = _ := fun p =>
    view_eq hG (pub_residue hG s) hms (fun i => by rw [nonce_def]; exact hashElems_lt hG _) _
      (us := E.proofNonce G (C.withOracle X p.2) (fun b => p.1 b)) (fun c => rfl)
      (fun c => by rw [proofNonce_def]; exact hashElems_lt hG _) ws
  simp only [e2]
  refine key.trans_eq ?_
  push_cast
  ring

/-! ## Second step: nonces that are accepted -/

/-- What is drawn. -/
abbrev Drawn (G : Params) (K T : Type) (m : ℕ) (X : Finset Str) : Type :=
  (Fin m → nonces G) × (K → Fin G.q) × (T → Fin (2 ^ 256)) × (X → Fin (2 ^ 256))

/-- With nonces that are accepted, and random numbers below `q`. -/
noncomputable def rateIdeal [NeZero G.q] (C : Crypto) (κ : Fin m → K) (limit : K → ℕ) (h : ℕ) (X : Finset Str)
    (A : Adversary K T m k) (ms : Fin m → ℕ) : ℚ :=
  freq (fun p : (secrets G × (Fin m → Three G)) × Drawn G K T m X =>
    (A (seen G (oracle C.sha256 X p.2.2.2.2) κ limit h (G.g ^ (p.1.1 : ℕ) % G.p) ms (fun i => p.2.1 i)
      (fun t => addModQ G (p.2.2.2.1 t) 0) (coins G p.1.2 (fun c => p.2.2.1 c)))).run (oracle C.sha256 X p.2.2.2.2) = true)

/-- Nonces that are accepted in place of digests, for any use of them. -/
theorem digests_ideal [Fintype K] [Fintype L] [Fintype T] [NeZero G.q] (hG : G.Valid) (e : Fin m ⊕ T ≃ L) {X : Finset Str}
    (Q : (Fin m → ℕ) → (T → ℕ) → (K → ℕ) → (X → Fin (2 ^ 256)) → Prop) :
    |freq (fun p : (Leaf K L → Fin (2 ^ 256)) × (X → Fin (2 ^ 256)) => Q (fun i => addModQ G (p.1 (.item (e (.inl i)))) 0)
        (fun t => addModQ G (p.1 (.item (e (.inr t)))) 0) (fun c => addModQ G (p.1 (.proof c)) 0) p.2) -
      freq (fun p : Drawn G K T m X => Q (fun i => p.1 i) (fun t => addModQ G (p.2.2.1 t) 0) (fun c => p.2.1 c) p.2.2.2)| ≤
      (m + Fintype.card K) * ((2 ^ 256 - (nonces G).card : ℚ) / 2 ^ 256) := by
  classical
  have hlt : ∀ r : nonces G, (r : ℕ) < G.q := fun r => (Finset.mem_Ico.1 r.2).2
  have hq := hG.q_lt
  let φ : Drawn G K T m X → (Leaf K L → Fin (2 ^ 256)) × (X → Fin (2 ^ 256)) := fun p =>
    (fun x => match x with
      | .proof c => ⟨p.2.1 c, (p.2.1 c).isLt.trans hq⟩
      | .item i => match e.symm i with
        | .inl j => ⟨p.1 j, (hlt _).trans hq⟩
        | .inr t => p.2.2.1 t, p.2.2.2)
  have hφ : Function.Injective φ := by
    rintro ⟨r, x, y, O⟩ ⟨r', x', y', O'⟩ h
    have h1 := fun z => congrFun (congrArg Prod.fst h) z
    have h2 : O = O' := congrArg Prod.snd h
    have h3 : x = x' := by
      funext c
      have := h1 (.proof c)
      simp only [φ, Fin.mk.injEq] at this
      exact Fin.ext this
    have h4 : y = y' := by
      funext t
      have := h1 (.item (e (.inr t)))
      simpa [φ] using this
    have h5 : r = r' := by
      funext j
      have := h1 (.item (e (.inl j)))
      simp only [φ, Equiv.symm_apply_apply, Fin.mk.injEq] at this
      exact Subtype.ext this
    rw [h2, h3, h4, h5]
  have hone : Nonempty (Drawn G K T m X) :=
    ⟨fun _ => ⟨1, Finset.mem_Ico.2 ⟨le_refl _, by have := hG.q_gt; omega⟩⟩, fun _ => 0, fun _ => 0, fun _ => 0⟩
  have key := freq_embed φ hφ (fun p => Q (fun i => addModQ G (p.1 (.item (e (.inl i)))) 0)
    (fun t => addModQ G (p.1 (.item (e (.inr t)))) 0) (fun c => addModQ G (p.1 (.proof c)) 0) p.2)
  have hred : ∀ r : ℕ, r < G.q → addModQ G r 0 = r := by
    intro r hr
    rw [addModQ_zero hG _ (by omega), Nat.mod_eq_of_lt hr]
  have hred1 : ∀ r : nonces G, addModQ G r 0 = r := fun r => hred _ (hlt r)
  have hred2 : ∀ r : Fin G.q, addModQ G r 0 = r := fun r => hred _ r.isLt
  simp only [φ, Equiv.symm_apply_apply, hred1, hred2] at key
  refine key.trans ?_
  have hL : Fintype.card L = m + Fintype.card T := by
    rw [← Fintype.card_congr e, Fintype.card_sum, Fintype.card_fin]
  have hLeaf : Fintype.card (Leaf K L) = Fintype.card K + (m + Fintype.card T) := by
    rw [← Fintype.card_congr leafEquiv, Fintype.card_sum, hL]
  have hn : Fintype.card (nonces G) = (nonces G).card := Fintype.card_coe _
  have hle : (nonces G).card ≤ 2 ^ 256 := by
    rw [nonces, Nat.card_Ico]; omega
  have hle' : (nonces G).card ≤ G.q := by
    rw [nonces, Nat.card_Ico]; omega
  rw [Fintype.card_prod, Fintype.card_prod, Fintype.card_prod, Fintype.card_prod]
  simp only [-Nat.reducePow, Fintype.card_fun, Fintype.card_fin, hLeaf, hn]
  have hle : ((nonces G).card : ℚ) ≤ 2 ^ 256 := by exact_mod_cast hle
  have hle' : ((nonces G).card : ℚ) ≤ G.q := by exact_mod_cast hle'
  have h0 : (0 : ℚ) ≤ (nonces G).card := Nat.cast_nonneg _
  generalize (nonces G).card = a at *
  clear key hφ
  generalize G.q = q at hle' ⊢
  simp only [-Nat.reducePow, Nat.cast_mul, Nat.cast_pow, Nat.cast_ofNat]
  have hN : (0 : ℚ) < 2 ^ 256 := by positivity
  generalize (2 : ℚ) ^ 256 = N at *
  have e1 : (1 + -((N - a) / N)) ^ (m + Fintype.card K) ≤
      (a : ℚ) ^ m * ((q : ℚ) ^ Fintype.card K * (N ^ Fintype.card T * N ^ Fintype.card X)) /
      (N ^ (Fintype.card K + (m + Fintype.card T)) * N ^ Fintype.card X) := by
    have : 1 + -((N - (a : ℚ)) / N) = a / N := by field_simp; ring
    have e2 : (a : ℚ) ^ m * ((q : ℚ) ^ Fintype.card K * (N ^ Fintype.card T * N ^ Fintype.card X)) /
      (N ^ (Fintype.card K + (m + Fintype.card T)) * N ^ Fintype.card X) = (a / N) ^ m * (q / N) ^ Fintype.card K := by
      rw [div_pow, div_pow, pow_add, pow_add]
      field_simp
    rw [this, e2, pow_add]
    have : (a : ℚ) / N ≤ q / N := div_le_div_of_nonneg_right hle' hN.le
    have h3 : (0 : ℚ) ≤ a / N := by positivity
    exact mul_le_mul_of_nonneg_left (pow_le_pow_left₀ h3 this _) (pow_nonneg h3 _)
  have h1 : -2 ≤ -((N - (a : ℚ)) / N) := by
    have : (N - (a : ℚ)) / N ≤ 1 := (div_le_one hN).2 (by linarith)
    linarith
  have := one_add_mul_le_pow h1 (m + Fintype.card K)
  push_cast at this
  linarith

theorem random_ideal [Fintype K] [Fintype L] [Fintype T] [NeZero G.q] [Nonempty (secrets G)] (hG : G.Valid)
    (e : Fin m ⊕ T ≃ L) (κ : Fin m → K) (limit : K → ℕ) (h : ℕ) {X : Finset Str} (A : Adversary K T m k) (ms : Fin m → ℕ) :
    |rateRandom (G := G) C e κ limit h X A ms - rateIdeal (G := G) C κ limit h X A ms| ≤
      (m + Fintype.card K) * ((2 ^ 256 - (nonces G).card : ℚ) / 2 ^ 256) := by
  classical
  refine freq_average _ _ _ ?_
  rintro ⟨⟨s, hs⟩, ws⟩
  exact digests_ideal hG e (fun rs ts us O => (A (seen G (oracle C.sha256 X O) κ limit h (G.g ^ s % G.p) ms rs ts
    (coins G ws us))).run (oracle C.sha256 X O) = true)

/-! ## Third step: coincidences -/

/-- Two ciphertexts are the same, or those of two contests add up to the same. -/
def Clash (G : Params) (κ : Fin m → K) (cts : Fin m → Res Ciphertext) : Prop :=
  ¬ Function.Injective cts ∨ ¬ Function.Injective (sumUp G κ cts)

/-- The random numbers of all proofs. -/
def both {G : Params} (ws : Fin m → Three G) (us : K → Fin G.q) : (j : Fin m ⊕ K) → Random G j
  | .inl i => ws i
  | .inr c => us c

theorem coins_both [NeZero G.q] (ws : Fin m → Three G) (us : K → Fin G.q) : coins G ws (fun c => us c) = both ws us := by
  funext j
  rcases j with i | c
  · rfl
  · exact Fin.ext (Nat.mod_eq_of_lt (us c).isLt)

/-- The same draws in another order. -/
def reorder (G : Params) (K T : Type) (m : ℕ) (X : Finset Str) : (secrets G × (Fin m → Three G)) × Drawn G K T m X ≃
    (secrets G × (Fin m → nonces G) × (T → Fin (2 ^ 256))) × ((X → Fin (2 ^ 256)) × (∀ j : Fin m ⊕ K, Random G j)) where
  toFun p := ((p.1.1, p.2.1, p.2.2.2.1), (p.2.2.2.2, both p.1.2 p.2.2.1))
  invFun p := ((p.1.1, fun i => p.2.2 (.inl i)), (p.1.2.1, fun c => p.2.2 (.inr c), p.1.2.2, p.2.1))
  left_inv _ := rfl
  right_inv p := by
    refine Prod.ext rfl (Prod.ext rfl (funext fun j => ?_))
    rcases j with i | c <;> rfl

/-- With a condition on the draws. -/
noncomputable def rateIf (G : Params) (P : (Fin m → Res Ciphertext) → Prop) (C : Crypto) (κ : Fin m → K) (limit : K → ℕ) (h : ℕ)
    (X : Finset Str) (A : Adversary K T m k) (ms : Fin m → ℕ) : ℚ :=
  freq (fun p : (secrets G × (Fin m → nonces G) × (T → Fin (2 ^ 256))) ×
      ((X → Fin (2 ^ 256)) × (∀ j : Fin m ⊕ K, Random G j)) =>
    ¬ P (fun i => elgamalEncrypt G (ms i) (p.1.2.1 i) (G.g ^ (p.1.1 : ℕ) % G.p)) ∧
    (A (seen G (oracle C.sha256 X p.2.1) κ limit h (G.g ^ (p.1.1 : ℕ) % G.p) ms (fun i => p.1.2.1 i)
      (fun t => addModQ G (p.1.2.2 t) 0) p.2.2)).run (oracle C.sha256 X p.2.1) = true)

theorem ideal_if [NeZero G.q] (κ : Fin m → K) (limit : K → ℕ) (h : ℕ) (X : Finset Str) (A : Adversary K T m k)
    (ms : Fin m → ℕ) :
    rateIdeal (G := G) C κ limit h X A ms = rateIf G (fun _ => False) C κ limit h X A ms := by
  unfold rateIdeal rateIf
  rw [← freq_equiv (reorder G K T m X)]
  simp only [coins_both, not_false_eq_true, true_and]
  rfl

theorem freq_false {α : Type} : freq (fun _ : α => False) = 0 := by
  simp [freq]

theorem freq_le {α β : Type} [Fintype α] [Fintype β] [Nonempty α] (P : α × β → Prop) (ε : ℚ)
    (h : ∀ a, freq (fun b => P (a, b)) ≤ ε) : freq P ≤ ε := by
  have key := freq_average P (fun _ : α × β => False) ε (fun a => by
    rw [freq_false, sub_zero, abs_of_nonneg (by unfold freq; positivity)]
    exact h a)
  rw [freq_false, sub_zero] at key
  exact (le_abs_self _).trans key

theorem encrypt_some (hG : G.Valid) {x r pub : ℕ} (hK : Residue G pub) (hx : x < 2) (hr : r ∈ nonces G) :
    ∃ c, elgamalEncrypt G x r pub = .ok c ∧ IsEncryption G pub x r c := by
  have hq := hG.q_lt
  have := Finset.mem_Ico.1 hr
  exact encrypt_isEncryption G hG x r pub hx (this.2.trans hq) (by omega) (hK.lt hG)

theorem allOk_some : ∀ (l : List (Res Ciphertext)), (∀ r ∈ l, ∃ c, r = .ok c) → ∃ cs, allOk l = .ok cs ∧ cs.length = l.length
  | [], _ => ⟨[], rfl, rfl⟩
  | r :: l, h => by
    obtain ⟨c, rfl⟩ := h r (by simp)
    obtain ⟨cs, h1, h2⟩ := allOk_some l fun r hr => h r (List.mem_cons_of_mem _ hr)
    refine ⟨c :: cs, ?_, by simp [h2]⟩
    rw [allOk, Res.bind_ok, h1, Res.bind_ok]

theorem sumUp_some (hG : G.Valid) {κ : Fin m → K} {limit : K → ℕ} {pub : ℕ} (hK : Residue G pub) {ms : Fin m → ℕ}
    (hms : Votes κ limit ms) (rs : Fin m → nonces G) {c : K} (hc : ∃ i, κ i = c) :
    ∃ acc, sumUp G κ (fun i => elgamalEncrypt G (ms i) (rs i) pub) c = .ok acc ∧
      IsEncryption G pub (limit c) (((members κ c).map fun i => (rs i : ℕ)).sum % G.q) acc := by
  have hrs : ∀ i, (rs i : ℕ) < G.q := fun i => (Finset.mem_Ico.1 (rs i).2).2
  have hne : members κ c ≠ [] := by
    obtain ⟨i, hi⟩ := hc
    refine List.ne_nil_of_mem (a := i) ?_
    unfold members
    simp [hi]
  obtain ⟨cs, h1, h2⟩ := allOk_some ((members κ c).map fun i => elgamalEncrypt G (ms i) (rs i) pub) (by
    intro r hr
    obtain ⟨i, -, rfl⟩ := List.mem_map.1 hr
    obtain ⟨ct, h, -⟩ := encrypt_some hG hK (hms.vote i) (rs i).2
    exact ⟨ct, h⟩)
  have hok : ∃ acc, sumUp G κ (fun i => elgamalEncrypt G (ms i) (rs i) pub) c = .ok acc := by
    unfold sumUp
    rw [h1, Res.bind_ok]
    cases cs with
    | nil => exact absurd (List.map_eq_nil_iff.1 (List.length_eq_zero_iff.1 h2.symm)) hne
    | cons a l => exact ⟨_, rfl⟩
  obtain ⟨acc, h3⟩ := hok
  exact ⟨acc, h3, (sumUp_ok hG hK hms hrs h3).2⟩

open Classical in
/-- One nonce decides whether the ciphertexts of two contests add up to the same. -/
theorem count_sums (hG : G.Valid) {κ : Fin m → K} {limit : K → ℕ} {pub : ℕ} (hK : Residue G pub) {ms : Fin m → ℕ}
    (hms : Votes κ limit ms) (hκ : Function.Surjective κ) (c c' : K) :
    cnt (fun rs : Fin m → nonces G => c ≠ c' ∧ sumUp G κ (fun i => elgamalEncrypt G (ms i) (rs i) pub) c =
      sumUp G κ (fun i => elgamalEncrypt G (ms i) (rs i) pub) c') * (nonces G).card ≤
      1 * Fintype.card (Fin m → nonces G) := by
  obtain ⟨i, hi⟩ := hκ c
  have := cnt_coord (A := nonces G) (ι := Fin m) i (fun rs => c ≠ c' ∧
    sumUp G κ (fun i => elgamalEncrypt G (ms i) (rs i) pub) c =
      sumUp G κ (fun i => elgamalEncrypt G (ms i) (rs i) pub) c') 1 (by
    intro v
    rw [cnt_eq]
    refine Finset.card_le_one.2 ?_
    intro y hy y' hy'
    obtain ⟨hne, h1⟩ := (Finset.mem_filter.1 hy).2
    obtain ⟨-, h2⟩ := (Finset.mem_filter.1 hy').2
    have h3 : ∀ z, sumUp G κ (fun j => elgamalEncrypt G (ms j) (Function.update v i z j) pub) c' =
        sumUp G κ (fun j => elgamalEncrypt G (ms j) (v j) pub) c' := by
      intro z
      unfold sumUp
      congr 2
      refine List.map_congr_left fun j hj => ?_
      have hj : κ j = c' := by
        unfold members at hj
        simpa using hj
      rw [Function.update_of_ne]
      rintro rfl
      exact hne (hi.symm.trans hj)
    rw [h3] at h1 h2
    obtain ⟨acc, a1, a2⟩ := sumUp_some hG hK hms (Function.update v i y) (hκ c)
    obtain ⟨acc', b1, b2⟩ := sumUp_some hG hK hms (Function.update v i y') (hκ c)
    rw [h1] at a1
    rw [h2, a1] at b1
    cases b1
    have h4 : (G.g : ZMod G.p) ^ (((members κ c).map fun j => ((Function.update v i y j : nonces G) : ℕ)).sum % G.q) =
        (G.g : ZMod G.p) ^ (((members κ c).map fun j => ((Function.update v i y' j : nonces G) : ℕ)).sum % G.q) := by
      have e := a2.2.2.1.symm.trans b2.2.2.1
      rw [modEq_cast] at e
      simpa using e
    rw [g_pow_eq_iff hG, Nat.mod_mod, Nat.mod_mod, members_sum, members_sum] at h4
    have h5 : ∀ z : nonces G, ∑ j with κ j = c, ((Function.update v i z j : nonces G) : ℕ) =
        z + ∑ j ∈ (Finset.univ.filter fun j => κ j = c).erase i, (v j : ℕ) := by
      intro z
      rw [← Finset.add_sum_erase _ _ (Finset.mem_filter.2 ⟨Finset.mem_univ i, hi⟩), Function.update_self]
      congr 1
      refine Finset.sum_congr rfl fun j hj => ?_
      rw [Function.update_of_ne (Finset.ne_of_mem_erase hj)]
    rw [h5, h5] at h4
    exact Subtype.ext (add_mod_inj (Finset.mem_Ico.1 y.2).2 (Finset.mem_Ico.1 y'.2).2 h4))
  rwa [Fintype.card_coe] at this

/-- One nonce decides whether two ciphertexts are the same. -/
theorem count_pairs (hG : G.Valid) (s : ℕ) (ms : Fin m → ℕ) (i j : Fin m) :
    cnt (fun rs : Fin m → nonces G => i ≠ j ∧ elgamalEncrypt G (ms i) (rs i) (G.g ^ s % G.p) =
      elgamalEncrypt G (ms j) (rs j) (G.g ^ s % G.p)) * (nonces G).card ≤ 1 * Fintype.card (Fin m → nonces G) := by
  classical
  have := cnt_coord (A := nonces G) (ι := Fin m) i (fun rs => i ≠ j ∧ elgamalEncrypt G (ms i) (rs i) (G.g ^ s % G.p) =
      elgamalEncrypt G (ms j) (rs j) (G.g ^ s % G.p)) 1 (by
    intro v
    rw [cnt_eq]
    refine Finset.card_le_one.2 ?_
    intro y hy y' hy'
    obtain ⟨hne, h1⟩ := (Finset.mem_filter.1 hy).2
    obtain ⟨-, h2⟩ := (Finset.mem_filter.1 hy').2
    rw [Function.update_self, Function.update_of_ne (Ne.symm hne)] at h1 h2
    exact Subtype.ext (encrypt_ne hG y.2 y'.2 (h1.trans h2.symm)).1)
  rwa [Fintype.card_coe] at this

theorem clash_rare [Fintype K] (hG : G.Valid) {κ : Fin m → K} {limit : K → ℕ} (s : ℕ) {ms : Fin m → ℕ}
    (hms : Votes κ limit ms) (hκ : Function.Surjective κ) :
    freq (fun rs : Fin m → nonces G => Clash G κ (fun i => elgamalEncrypt G (ms i) (rs i) (G.g ^ s % G.p))) ≤
      (m ^ 2 + Fintype.card K ^ 2 : ℚ) / (nonces G).card := by
  classical
  let I := (Fin m × Fin m) ⊕ (K × K)
  let P : I → (Fin m → nonces G) → Prop := fun x rs => match x with
    | .inl a => a.1 ≠ a.2 ∧ elgamalEncrypt G (ms a.1) (rs a.1) (G.g ^ s % G.p) =
        elgamalEncrypt G (ms a.2) (rs a.2) (G.g ^ s % G.p)
    | .inr a => a.1 ≠ a.2 ∧ sumUp G κ (fun i => elgamalEncrypt G (ms i) (rs i) (G.g ^ s % G.p)) a.1 =
      sumUp G κ (fun i => elgamalEncrypt G (ms i) (rs i) (G.g ^ s % G.p)) a.2
  have h1 : ∀ rs, Clash G κ (fun i => elgamalEncrypt G (ms i) (rs i) (G.g ^ s % G.p)) → ∃ x : I, P x rs := by
    rintro rs (h | h)
    · simp only [Function.Injective, not_forall] at h
      obtain ⟨i, j, h, hne⟩ := h
      exact ⟨.inl (i, j), hne, h⟩
    · simp only [Function.Injective, not_forall] at h
      obtain ⟨c, c', h, hne⟩ := h
      exact ⟨.inr (c, c'), hne, h⟩
  refine (freq_mono h1).trans ?_
  have h2 := cnt_exists P (nonces G).card 1 (Fintype.card (Fin m → nonces G)) (by
    rintro (⟨i, j⟩ | ⟨c, c'⟩)
    · exact count_pairs hG s ms i j
    · exact count_sums hG (pub_residue hG s) hms hκ c c')
  have hI : Fintype.card I = m ^ 2 + Fintype.card K ^ 2 := by
    simp only [I, Fintype.card_sum, Fintype.card_prod, Fintype.card_fin]
    ring
  rw [hI, Nat.mul_one] at h2
  have hn : 0 < (nonces G).card := by
    rw [nonces, Nat.card_Ico]
    have := hG.q_gt
    omega
  have hn' : (0 : ℚ) < (nonces G).card := by exact_mod_cast hn
  have : Nonempty (nonces G) := (Finset.card_pos.1 hn).to_subtype
  have hT : (0 : ℚ) < Fintype.card (Fin m → nonces G) := by exact_mod_cast Fintype.card_pos
  rw [freq_eq, div_le_div_iff₀ hT hn']
  exact_mod_cast h2

theorem if_clear [Fintype K] [Fintype T] [NeZero G.q] [Nonempty (secrets G)] (hG : G.Valid) {κ : Fin m → K} {limit : K → ℕ}
    (h : ℕ) (X : Finset Str) (A : Adversary K T m k) {ms : Fin m → ℕ} (hms : Votes κ limit ms)
    (hκ : Function.Surjective κ) :
    |rateIf G (fun _ => False) C κ limit h X A ms - rateIf G (Clash G κ) C κ limit h X A ms| ≤
      (m ^ 2 + Fintype.card K ^ 2 : ℚ) / (nonces G).card := by
  classical
  unfold rateIf
  simp only [not_false_eq_true, true_and]
  refine (freq_except _ (fun p : (secrets G × (Fin m → nonces G) × (T → Fin (2 ^ 256))) ×
      ((X → Fin (2 ^ 256)) × (∀ j : Fin m ⊕ K, Random G j)) =>
    Clash G κ (fun i => elgamalEncrypt G (ms i) (p.1.2.1 i) (G.g ^ (p.1.1 : ℕ) % G.p)))).trans ?_
  rw [freq_forget (β := (X → Fin (2 ^ 256)) × (∀ j : Fin m ⊕ K, Random G j))
    (fun p : secrets G × (Fin m → nonces G) × (T → Fin (2 ^ 256)) =>
      Clash G κ (fun i => elgamalEncrypt G (ms i) (p.2.1 i) (G.g ^ (p.1 : ℕ) % G.p)))]
  refine freq_le _ _ fun s => ?_
  rw [freq_forget (β := T → Fin (2 ^ 256)) (fun rs : Fin m → nonces G =>
      Clash G κ (fun i => elgamalEncrypt G (ms i) (rs i) (G.g ^ (s : ℕ) % G.p)))]
  exact clash_rare hG s hms hκ

/-! ## Fourth step: the simulator -/

/-- The string whose answer the simulator chooses. -/
noncomputable def simPlace (G : Params) (κ : Fin m → K) (limit : K → ℕ) (h pub : ℕ) (cts : Fin m → Res Ciphertext) :
    (j : Fin m ⊕ K) → ℕ → Random G j → Str
  | .inl i, y, t => match cts i with
    | .ok c => (disjSimulator G h pub c).place y (nums t)
    | _ => []
  | .inr c, y, u => match sumUp G κ cts c with
    | .ok acc => (constSimulator G h pub acc (limit c)).place y (u : Fin G.q).val
    | _ => []

/-- Its proof. -/
noncomputable def simProof (G : Params) (κ : Fin m → K) (limit : K → ℕ) (h pub : ℕ) (cts : Fin m → Res Ciphertext) :
    (j : Fin m ⊕ K) → ℕ → Random G j → Shown
  | .inl i, y, t => match cts i with
    | .ok c => (disjSimulator G h pub c).proof y (nums t)
    | .throw e => .selection (.throw e)
    | .ub => .selection .ub
  | .inr c, y, u => match sumUp G κ cts c with
    | .ok acc => (constSimulator G h pub acc (limit c)).proof y (u : Fin G.q).val
    | .throw e => .contest (.throw e)
    | .ub => .contest .ub

/-- What the simulator draws beside the nonces of `T`: a function in place of SHA-256, answers of its own, and the random
numbers of the proofs. -/
abbrev SimCoins (G : Params) (K T : Type) (m : ℕ) (X : Finset Str) : Type :=
  (T → Fin (2 ^ 256)) × ((X → Fin (2 ^ 256)) × (Fin m ⊕ K → Fin (2 ^ 256))) × (∀ j : Fin m ⊕ K, Random G j)

/-- The adversary answers yes with simulated proofs. -/
def Wins (G : Params) (C : Crypto) (κ : Fin m → K) (limit : K → ℕ) (h : ℕ) (X : Finset Str) (A : Adversary K T m k) (pub : ℕ)
    (cts : Fin m → Res Ciphertext) (d : SimCoins G K T m X) : Prop :=
  ¬ Clash G κ cts ∧ (A { pub := pub, known := fun t => addModQ G (d.1 t) 0, ciphertexts := cts
                         proofs := fun j => simProof G κ limit h pub cts j (d.2.1.2 j) (d.2.2 j) }).run
    (oracle C.sha256 X (answers d.2.1.1 (fun j => simPlace G κ limit h pub cts j (d.2.1.2 j) (d.2.2 j)) d.2.1.2)) = true

def pack (G : Params) [NeZero G.q] (t : ℕ × ℕ × ℕ) : Three G :=
  (⟨t.1 % G.q, Nat.mod_lt _ (NeZero.pos _)⟩, ⟨t.2.1 % G.q, Nat.mod_lt _ (NeZero.pos _)⟩,
    ⟨t.2.2 % G.q, Nat.mod_lt _ (NeZero.pos _)⟩)

theorem nums_pack [NeZero G.q] {t : ℕ × ℕ × ℕ} (ht : t ∈ three G) : nums (pack G t) = t := by
  simp only [three, Finset.mem_product, Finset.mem_range] at ht
  obtain ⟨h1, h2, h3⟩ := ht
  simp only [nums, pack, Nat.mod_eq_of_lt h1, Nat.mod_eq_of_lt h2, Nat.mod_eq_of_lt h3]

theorem nums_inj {t t' : Three G} (h : nums t = nums t') : t = t' := by
  obtain ⟨a, b, c⟩ := t
  obtain ⟨a', b', c'⟩ := t'
  simp only [nums, Prod.mk.injEq] at h
  rw [Fin.ext h.1, Fin.ext h.2.1, Fin.ext h.2.2]

theorem disj_equiv [NeZero G.q] (hG : G.Valid) (x r c : ℕ) : ∃ φ : Three G ≃ Three G, ∀ t, nums (φ t) = choice G x r c (nums t) := by
  have hb := choice_bij hG x r c
  have he : ∀ t : Three G, nums (pack G (choice G x r c (nums t))) = choice G x r c (nums t) :=
    fun t => nums_pack (hb.mapsTo (nums_mem t))
  have hi : Function.Injective fun t : Three G => pack G (choice G x r c (nums t)) := by
    intro t t' h
    have h1 := congrArg nums h
    dsimp only at h1
    rw [he, he] at h1
    exact nums_inj (hb.injOn (nums_mem t) (nums_mem t') h1)
  exact ⟨Equiv.ofBijective _ (Finite.injective_iff_bijective.1 hi), he⟩

theorem const_equiv [NeZero G.q] (d : ℕ) : ∃ φ : Fin G.q ≃ Fin G.q, ∀ u, (φ u).val = (u.val + d) % G.q := by
  have hi : Function.Injective fun u : Fin G.q => (⟨(u.val + d) % G.q, Nat.mod_lt _ (NeZero.pos _)⟩ : Fin G.q) := by
    intro u u' h
    exact Fin.ext (add_mod_inj u.isLt u'.isLt (congrArg Fin.val h))
  exact ⟨Equiv.ofBijective _ (Finite.injective_iff_bijective.1 hi), fun _ => rfl⟩

/-- Contests with different sums ask for different strings. -/
theorem const_const_apart {h K1 L1 R1 L2 R2 : ℕ} (hh : h < 2 ^ 256) (hG : G.Valid) {a b : Ciphertext}
    (ha : IsEncryption G K1 L1 R1 a) (hb : IsEncryption G K1 L2 R2 b) (hne : a ≠ b) (u u' : ℕ) :
    (constProver G h K1 L1 R1 a).place u ≠ (constProver G h K1 L2 R2 b).place u' := by
  have hp := hG.p_lt
  have hp0 : 0 < G.p := by have := hG.p_gt; omega
  have hl : ∀ n, n % G.p < 2 ^ 4096 := fun n => lt_trans (Nat.mod_lt _ hp0) hp
  have a1 := lt_trans ha.1 hp
  have a2 := lt_trans ha.2.1 hp
  have b1 := lt_trans hb.1 hp
  have b2 := lt_trans hb.2.1 hp
  intro e
  have e := C26_encoding_injective_partial [.q _, .p _, .p _, .p _, .p _] [.q _, .p _, .p _, .p _, .p _]
    (by simp only [List.mem_cons, List.not_mem_nil, or_false, forall_eq_or_imp, forall_eq]
        exact ⟨hh, a1, a2, hl _, hl _⟩)
    (by simp only [List.mem_cons, List.not_mem_nil, or_false, forall_eq_or_imp, forall_eq]
        exact ⟨hh, b1, b2, hl _, hl _⟩)
    (by simp [HAtom.SameType]) e
  simp only [List.cons.injEq, HAtom.p.injEq] at e
  apply hne
  obtain ⟨p1, d1⟩ := a
  obtain ⟨p2, d2⟩ := b
  have e1 : p1 = p2 := e.2.1
  have e2 : d1 = d2 := e.2.2.1
  subst e1 e2
  rfl

/-- The proofs are distributed like the simulated ones. -/
theorem clear_simulated [Fintype K] [Fintype T] [NeZero G.q] [Nonempty (secrets G)] (hG : G.Valid) {κ : Fin m → K}
    {limit : K → ℕ} {h : ℕ} (hh : h < 2 ^ 256) {X : Finset Str} (hX : HasChallenges X) (A : Adversary K T m k) {ms : Fin m → ℕ}
    (hms : Votes κ limit ms) (hκ : Function.Surjective κ) :
    rateIf G (Clash G κ) C κ limit h X A ms =
      freq (fun p : (secrets G × (Fin m → nonces G) × (T → Fin (2 ^ 256))) ×
          (((X → Fin (2 ^ 256)) × (Fin m ⊕ K → Fin (2 ^ 256))) × (∀ j : Fin m ⊕ K, Random G j)) =>
        Wins G C κ limit h X A (G.g ^ (p.1.1 : ℕ) % G.p)
          (fun i => elgamalEncrypt G (ms i) (p.1.2.1 i) (G.g ^ (p.1.1 : ℕ) % G.p)) (p.1.2.2, p.2)) := by
  classical
  unfold rateIf
  have hone : Nonempty (nonces G) := ⟨⟨1, Finset.mem_Ico.2 ⟨le_refl _, by have := hG.q_gt; omega⟩⟩⟩
  refine freq_congr _ _ ?_
  rintro ⟨⟨s, hs⟩, rs, ts⟩
  dsimp only
  unfold Wins
  by_cases hc : Clash G κ (fun i => elgamalEncrypt G (ms i) (rs i) (G.g ^ s % G.p))
  · simp only [hc, not_true_eq_false, false_and]
    rw [freq_false, freq_false]
  · simp only [hc, not_false_eq_true, true_and]
    have hK := pub_residue hG s
    generalize G.g ^ s % G.p = pub at *
    have hc1 : Function.Injective fun i => elgamalEncrypt G (ms i) (rs i) pub := by
      by_contra h'
      exact hc (Or.inl h')
    have hc2 : Function.Injective (sumUp G κ fun i => elgamalEncrypt G (ms i) (rs i) pub) := by
      by_contra h'
      exact hc (Or.inr h')
    choose ct hct henc using fun i => encrypt_some hG hK (hms.vote i) (rs i).2
    choose acc hacc hsum using fun c => sumUp_some hG hK hms rs (hκ c)
    have hφ : ∀ (j : Fin m ⊕ K) (y : ℕ), ∃ φ : Random G j ≃ Random G j,
        (∀ t, simPlace G κ limit h pub (fun i => elgamalEncrypt G (ms i) (rs i) pub) j y (φ t) =
          placeOf G κ limit h pub ms (fun i => rs i) j t) ∧
        (∀ t, simProof G κ limit h pub (fun i => elgamalEncrypt G (ms i) (rs i) pub) j y (φ t) =
          proofOf G κ limit h pub ms (fun i => rs i) j t y) := by
      rintro (i | c) y
      · obtain ⟨φ, hφ⟩ := disj_equiv (G := G) hG (ms i) (rs i) (addModQ G y 0)
        refine ⟨φ, fun t => ?_, fun t => ?_⟩
        · simp only [simPlace, placeOf, hct]
          refine Eq.trans ?_ (disj_string hG hK (henc i) (hms.vote i) (addModQ_lt hG y 0) (nums_mem (t : Three G)))
          exact congrArg (fun z => disjString h (ct i) (simDisj G pub (ct i) (addModQ G y 0) z)) (hφ t)
        · simp only [simProof, proofOf, hct]
          exact congrArg (fun z => Shown.selection (.ok (simDisj G pub (ct i) (addModQ G y 0) z))) (hφ t)
      · obtain ⟨φ, hφ⟩ := const_equiv (G := G) (addModQ G y 0 * (((members κ c).map fun i => (rs i : ℕ)).sum % G.q))
        refine ⟨φ, fun t => ?_, fun t => ?_⟩
        · simp only [simPlace, placeOf, hacc]
          refine Eq.trans ?_ (const_string hG hK (hsum c) (addModQ_lt hG y 0) (t : Fin G.q).isLt)
          exact congrArg (fun z => constString h (acc c) (simConst G pub (acc c) (limit c) (addModQ G y 0) z)) (hφ t)
        · simp only [simProof, proofOf, hacc]
          exact congrArg (fun z => Shown.contest (.ok (simConst G pub (acc c) (limit c) (addModQ G y 0) z))) (hφ t)
    choose φ hφ1 hφ2 using hφ
    refine (family (I := Fin m ⊕ K) (T := Random G) C.sha256 (placeOf G κ limit h pub ms (fun i => rs i))
      (proofOf G κ limit h pub ms (fun i => rs i))
      (simPlace G κ limit h pub (fun i => elgamalEncrypt G (ms i) (rs i) pub))
      (simProof G κ limit h pub (fun i => elgamalEncrypt G (ms i) (rs i) pub)) φ (fun j y _ t => hφ1 j y t)
      (fun j y _ t => hφ2 j y t) ?_ ?_
      (fun O πs => (A { pub := pub, known := fun t => addModQ G (ts t) 0,
                        ciphertexts := fun i => elgamalEncrypt G (ms i) (rs i) pub, proofs := πs }).run
        (oracle C.sha256 X O) = true)).symm
    · rintro (i | c) t
      · simp only [placeOf, hct]
        exact disj_mem hG hX hh (henc i) 0 _
      · simp only [placeOf, hacc]
        exact const_mem hG hX hh (hsum c) (limit c) 0 _
    · rintro t (i | c) (j | c') e
      · dsimp only at e
        simp only [placeOf, hct] at e
        by_contra hne
        have hij : i ≠ j := fun h => hne (congrArg _ h)
        refine disj_apart hh hG (a := (ms i, (rs i : ℕ), ct i)) (b := (ms j, (rs j : ℕ), ct j)) (henc i) (henc j) ?_ _
          (nums_mem _) _ (nums_mem _) e
        intro h'
        have h' : ct i = ct j := h'
        refine hij (hc1 ?_)
        dsimp only
        rw [hct, hct, h']
      · dsimp only at e
        simp only [placeOf, hacc] at e
        simp only [hct] at e
        exact (const_apart _ _ (Finset.mem_range.2 (t (.inr c') : Fin G.q).isLt) _ (nums_mem _) e.symm).elim
      · dsimp only at e
        simp only [placeOf, hacc] at e
        simp only [hct] at e
        exact (const_apart _ _ (Finset.mem_range.2 (t (.inr c) : Fin G.q).isLt) _ (nums_mem _) e).elim
      · dsimp only at e
        simp only [placeOf, hacc] at e
        by_contra hne
        have hij : c ≠ c' := fun h => hne (congrArg _ h)
        refine const_const_apart hh hG (hsum c) (hsum c') ?_ _ _ e
        intro h'
        refine hij (hc2 ?_)
        rw [hacc, hacc, h']

/-! ## Fifth step: the sums of C110 -/

def nth (cs : List (Res Ciphertext)) : Fin m → Res Ciphertext := fun i => cs.getD i .ub

theorem nth_ofFn (cts : Fin m → Res Ciphertext) : nth (List.ofFn cts) = cts := by
  funext i
  simp [nth]

/-- The number of draws for which the adversary with simulated proofs answers yes. -/
noncomputable def draws (G : Params) (C : Crypto) (κ : Fin m → K) (limit : K → ℕ) (h : ℕ) (X : Finset Str)
    (A : Adversary K T m k) : ℕ → List (Res Ciphertext) → ℤ :=
  fun pub cs => (Nat.card { d : SimCoins G K T m X // Wins G C κ limit h X A pub (nth cs) d } : ℤ)

/-- The advantage of all distinguishers of C110 together, as a frequency. -/
noncomputable def ddhTotal (G : Params) (C : Crypto) (κ : Fin m → K) (limit : K → ℕ) (h : ℕ) (X : Finset Str)
    (A : Adversary K T m k) (ms ms' : Fin m → ℕ) : ℚ :=
  (((hybrids G (draws G C κ limit h X A) (List.ofFn fun i => (ms i, ms' i))).map (ddhAdvantage G)).sum : ℚ) /
    (G.q * (secrets G).card * (nonces G).card ^ m * Nat.card (SimCoins G K T m X))

theorem simulated_eq [Fintype K] [Fintype T] (hG : G.Valid) (κ : Fin m → K) (limit : K → ℕ) (h : ℕ) {X : Finset Str}
    (A : Adversary K T m k) (ms : Fin m → ℕ) :
    freq (fun p : (secrets G × (Fin m → nonces G) × (T → Fin (2 ^ 256))) ×
          (((X → Fin (2 ^ 256)) × (Fin m ⊕ K → Fin (2 ^ 256))) × (∀ j : Fin m ⊕ K, Random G j)) =>
        Wins G C κ limit h X A (G.g ^ (p.1.1 : ℕ) % G.p)
          (fun i => elgamalEncrypt G (ms i) (p.1.2.1 i) (G.g ^ (p.1.1 : ℕ) % G.p)) (p.1.2.2, p.2)) =
      (game G (draws G C κ limit h X A) (List.ofFn ms) : ℚ) /
      ((secrets G).card * (nonces G).card ^ m * Nat.card (SimCoins G K T m X)) := by
  classical
  let r : secrets G × (Fin m → nonces G) × SimCoins G K T m X ≃ (secrets G × (Fin m → nonces G) × (T → Fin (2 ^ 256))) ×
      (((X → Fin (2 ^ 256)) × (Fin m ⊕ K → Fin (2 ^ 256))) × (∀ j : Fin m ⊕ K, Random G j)) :=
    { toFun := fun p => ((p.1, p.2.1, p.2.2.1), p.2.2.2)
      invFun := fun p => (p.1.1, p.1.2.1, p.1.2.2, p.2)
      left_inv := fun _ => rfl
      right_inv := fun _ => rfl }
  rw [← freq_equiv r, freq_eq, cnt_prod, game_eq hG, Fintype.card_prod, Fintype.card_prod, Fintype.card_fun, Fintype.card_fin,
    Fintype.card_coe, Fintype.card_coe, ← Nat.card_eq_fintype_card (α := SimCoins G K T m X)]
  push_cast
  rw [mul_assoc]
  congr 1
  rw [← Finset.sum_coe_sort (secrets G) (fun s => (encrypted G (G.g ^ s % G.p) (List.ofFn ms)
    (draws G C κ limit h X A (G.g ^ s % G.p)) : ℚ))]
  refine Finset.sum_congr rfl fun s _ => ?_
  rw [encrypted_ofFn, cnt_prod]
  push_cast
  refine Finset.sum_congr rfl fun rs _ => ?_
  rw [draws, nth_ofFn, Derive.cnt_eq, Nat.card_eq_fintype_card, Fintype.card_subtype]
  rfl

/-! ## The theorem -/

/-- The votes are secret when nonces are drawn among those accepted. -/
theorem ideal_secrecy [Fintype K] [Fintype T] [NeZero G.q] (hG : G.Valid) (hq : 2 < G.q) {κ : Fin m → K}
    (hκ : Function.Surjective κ) {limit : K → ℕ} {h : ℕ} (hh : h < 2 ^ 256) {X : Finset Str} (hX' : HasChallenges X)
    (A : Adversary K T m k) {ms ms' : Fin m → ℕ} (hms : Votes κ limit ms) (hms' : Votes κ limit ms') :
    |rateIdeal (G := G) C κ limit h X A ms - rateIdeal (G := G) C κ limit h X A ms'| ≤
      ddhTotal G C κ limit h X A ms ms' + 2 * ((m ^ 2 + Fintype.card K ^ 2 : ℚ) / (nonces G).card) := by
  have := secrets_nonempty hq
  rw [ideal_if, ideal_if]
  have h3 := if_clear (C := C) hG h X A hms hκ
  have h3' := if_clear (C := C) hG h X A hms' hκ
  have h4 : |rateIf G (Clash G κ) C κ limit h X A ms - rateIf G (Clash G κ) C κ limit h X A ms'| ≤
      ddhTotal G C κ limit h X A ms ms' := by
    rw [clear_simulated hG hh hX' A hms hκ, clear_simulated hG hh hX' A hms' hκ, simulated_eq hG, simulated_eq hG, ← sub_div,
      abs_div]
    have hc := C110_secrecy hG (List.ofFn fun i => (ms i, ms' i)) (draws G C κ limit h X A)
    rw [List.map_ofFn, List.map_ofFn] at hc
    have hq0 : (0 : ℚ) < G.q := by exact_mod_cast (by omega : 0 < G.q)
    have hd : (0 : ℚ) ≤ (secrets G).card * (nonces G).card ^ m * Nat.card (SimCoins G K T m X) := by positivity
    have ha : (G.q * (secrets G).card * (nonces G).card ^ m * Nat.card (SimCoins G K T m X) : ℚ) =
        G.q * ((secrets G).card * (nonces G).card ^ m * Nat.card (SimCoins G K T m X)) := by ring
    rw [abs_of_nonneg hd, ddhTotal, ha, ← div_div _ (G.q : ℚ)]
    refine div_le_div_of_nonneg_right ?_ hd
    rw [le_div_iff₀ hq0, mul_comm]
    exact_mod_cast hc
  rw [abs_le] at *
  constructor <;> linarith [h3.1, h3.2, h3'.1, h3'.2, h4.1, h4.2]

/-- What is lost by the steps before. -/
noncomputable def loss (G : Params) (b c l m k s : ℕ) : ℚ :=
  (b * (k + (m + c)) : ℚ) / s + (5 * c + 2 * l) * (k + (m + c) + (5 * c + 2 * l)) * fibre G / 2 ^ 256 +
    (m + c) * ((2 ^ 256 - (nonces G).card : ℚ) / 2 ^ 256) + (m ^ 2 + c ^ 2 : ℚ) / (nonces G).card

/-- **C119.**  Whoever tells two ways to vote apart, with the same number of votes in each contest, by all that is published
of the ballots of an election -- ciphertexts and proofs, with nonces computed from the nonces of the ballots -- solves the
decisional Diffie-Hellman problem, or guesses. -/
theorem C119_secrecy [Fintype B] [Fintype K] [Fintype L] [Fintype T] (hG : G.Valid) (hq : 2 < G.q) {E : Layout B K L}
    (hE : E.Proper) (e : Fin m ⊕ T ≃ L) (hκ : Function.Surjective fun i => E.contest (e (.inl i))) {limit : K → ℕ} {h : ℕ}
    (hh : h < 2 ^ 256) {S : Finset ℕ} (hne : S.Nonempty) (hS : ∀ s ∈ S, s < 2 ^ 256) {X : Finset Str}
    (hX : E.strings G C S ⊆ X) (hX' : HasChallenges X) (A : Adversary K T m k) {ms ms' : Fin m → ℕ}
    (hms : Votes (fun i => E.contest (e (.inl i))) limit ms) (hms' : Votes (fun i => E.contest (e (.inl i))) limit ms') :
    |rate E G C e limit h S X A ms - rate E G C e limit h S X A ms'| ≤
      ddhTotal G C (fun i => E.contest (e (.inl i))) limit h X A ms ms' +
      2 * loss G (Fintype.card B) (Fintype.card K) (Fintype.card L) m k S.card := by
  have : NeZero G.q := ⟨by omega⟩
  have := secrets_nonempty hq
  have h1 := rate_random (C := C) (h := h) hG hE e hne hS hX A hms
  have h1' := rate_random (C := C) (h := h) hG hE e hne hS hX A hms'
  have h2 := random_ideal (C := C) hG e (fun i => E.contest (e (.inl i))) limit h (X := X) A ms
  have h2' := random_ideal (C := C) hG e (fun i => E.contest (e (.inl i))) limit h (X := X) A ms'
  have h3 := ideal_secrecy (C := C) hG hq hκ hh hX' A hms hms'
  unfold loss
  rw [abs_le] at *
  constructor <;> linarith [h1.1, h1.2, h1'.1, h1'.2, h2.1, h2.2, h2'.1, h2'.2, h3.1, h3.2]

/-- What is lost with the standard parameters. -/
theorem loss_standard [Fintype B] [Fintype K] [Fintype L] (hB : Fintype.card B ≤ 2 ^ 40) (hK : Fintype.card K ≤ 2 ^ 40)
    (hL : Fintype.card L ≤ 2 ^ 40) (hm : m ≤ 2 ^ 40) (hk : k ≤ 2 ^ 79) :
    loss .std (Fintype.card B) (Fintype.card K) (Fintype.card L) m k Params.std.q ≤
      1 / 2 ^ 128 + 2 ^ 41 * (190 / 2 ^ 256) + 2 ^ 81 / (2 ^ 256 - 190) := by
  have h1 := hashing_bound hB hK hL (k := k + (m + Fintype.card K)) (by omega)
  have hm' : (m : ℚ) ≤ 2 ^ 40 := by exact_mod_cast hm
  have hK' : (Fintype.card K : ℚ) ≤ 2 ^ 40 := by exact_mod_cast hK
  have hc : ((nonces .std).card : ℚ) = 2 ^ 256 - 190 := by
    have : (nonces .std).card = 2 ^ 256 - 190 := by
      rw [nonces, Nat.card_Ico]
      decide +kernel
    rw [this]
    norm_num
  unfold loss
  rw [hc]
  push_cast at h1
  have h2 : (m + Fintype.card K : ℚ) * ((2 ^ 256 - (2 ^ 256 - 190)) / 2 ^ 256) ≤
      2 ^ 41 * ((2 ^ 256 - (2 ^ 256 - 190)) / 2 ^ 256) :=
    mul_le_mul_of_nonneg_right (by linarith) (by norm_num)
  have h3 : (m ^ 2 + Fintype.card K ^ 2 : ℚ) / (2 ^ 256 - 190) ≤ 2 ^ 81 / (2 ^ 256 - 190) := by
    refine div_le_div_of_nonneg_right ?_ (by norm_num)
    have a1 : (m : ℚ) ^ 2 ≤ (2 ^ 40) ^ 2 := pow_le_pow_left₀ (Nat.cast_nonneg _) hm' 2
    have a2 : (Fintype.card K : ℚ) ^ 2 ≤ (2 ^ 40) ^ 2 := pow_le_pow_left₀ (Nat.cast_nonneg _) hK' 2
    refine (add_le_add a1 a2).trans ?_
    norm_num
  have h4 : (2 : ℚ) ^ 41 * ((2 ^ 256 - (2 ^ 256 - 190)) / 2 ^ 256) = 2 ^ 41 * (190 / 2 ^ 256) := by norm_num
  rw [h4] at h2
  linarith

/-- With the standard parameters, ballot nonces drawn from all exponents, up to 2^40 ballots, contests and items, and 2^79
hashes, only the advantage of the distinguishers is left, up to 2^-126. -/
theorem C119_standard [Fintype B] [Fintype K] [Fintype L] [Fintype T] {E : Layout B K L} (hE : E.Proper) (e : Fin m ⊕ T ≃ L)
    (hκ : Function.Surjective fun i => E.contest (e (.inl i))) {limit : K → ℕ} {h : ℕ} (hh : h < 2 ^ 256)
    (hB : Fintype.card B ≤ 2 ^ 40) (hK : Fintype.card K ≤ 2 ^ 40) (hL : Fintype.card L ≤ 2 ^ 40) (hk : k ≤ 2 ^ 79)
    {X : Finset Str} (hX : E.strings .std C (Finset.range Params.std.q) ⊆ X) (hX' : HasChallenges X) (A : Adversary K T m k)
    {ms ms' : Fin m → ℕ} (hms : Votes (fun i => E.contest (e (.inl i))) limit ms)
    (hms' : Votes (fun i => E.contest (e (.inl i))) limit ms') :
    |rate E .std C e limit h (Finset.range Params.std.q) X A ms - rate E .std C e limit h (Finset.range Params.std.q) X A ms'| <
      ddhTotal .std C (fun i => E.contest (e (.inl i))) limit h X A ms ms' + 1 / 2 ^ 126 := by
  have hV := C54_std_valid
  have hq := hV.q_gt
  have hq2 : 2 < Params.std.q := by decide +kernel
  have h := C119_secrecy (C := C) hV hq2 hE e hκ hh ⟨0, Finset.mem_range.2 (by omega)⟩
    (fun s hs => (Finset.mem_range.1 hs).trans hV.q_lt) hX hX' A hms hms'
  rw [Finset.card_range] at h
  have hm : m ≤ 2 ^ 40 := by
    rw [← Fintype.card_congr e, Fintype.card_sum, Fintype.card_fin] at hL
    omega
  have h1 := loss_standard hB hK hL hm hk
  have h2 : (2 : ℚ) * (1 / 2 ^ 128 + 2 ^ 41 * (190 / 2 ^ 256) + 2 ^ 81 / (2 ^ 256 - 190)) < 1 / 2 ^ 126 := by norm_num
  linarith

/-! ## The ballots of the library -/

section

variable {S : StdSort}

/-- A selection with its proof: a vote encrypted with the nonce for its place, and proved with the numbers `ρ 0`, `ρ 1` and
`ρ 2`. -/
def Proved (G : Params) (C : Crypto) (pub ext nonce : ℕ) (ρ : ℕ → ℕ) (e : CSelection) : Prop :=
  e.nonce = some nonce ∧ ∃ v ≤ 1, elgamalEncrypt G v nonce pub = .ok e.ciphertext ∧
    ∃ π, disjMake G C e.ciphertext nonce pub ext v (ρ 0) (ρ 1) (ρ 2) = .ok π ∧ e.proof = some π

theorem selection_proved {s : PSelection} {d : SelectionDesc} {pub ext cn : ℕ} {p v : Bool} {w w' : World}
    {e : CSelection} (hw : w.Empty) (h : encryptSelection G C s d pub ext cn p v w = (.ok e, w')) :
    Proved G C pub ext (selNonce G C cn e.descHash e.seq) w.rng e ∧ w'.Empty ∧ w'.rng = fun n => w.rng (n + 3) := by
  have hE : w'.Empty := (derived_selection G C s d pub ext cn p v w w w' w' e e hw hw h h).2.1
  unfold encryptSelection at h
  split at h
  · simp [M.raise] at h
  rename_i hvalid
  have hvote : s.vote ≤ 1 := by
    simp [PSelection.isValid] at hvalid
    omega
  rw [M.bind_eq_ok] at h
  obtain ⟨y, wy, hy, hx⟩ := h
  have hxy : e = y ∧ wy = w' := by
    split at hx
    · simp only [M.ret, Prod.mk.injEq, Res.ok.injEq] at hx
      exact ⟨hx.1.symm, hx.2⟩
    · split at hx
      · simp only [M.ret, Prod.mk.injEq, Res.ok.injEq] at hx
        exact ⟨hx.1.symm, hx.2⟩
      · simp [M.raise] at hx
  obtain ⟨rfl, rfl⟩ := hxy
  unfold encryptSelectionCore at hy
  rw [M.bind_eq_ok] at hy
  obtain ⟨pre, w5, h5, hy⟩ := hy
  simp only [M.getQuad, PreState.getQuad, hw.2, Prod.mk.injEq, Res.ok.injEq] at h5
  obtain ⟨rfl, rfl⟩ := h5
  dsimp only at hy
  rw [M.bind_eq_ok] at hy
  obtain ⟨c, w6, h6, hy⟩ := hy
  simp only [M.lift, Prod.mk.injEq] at h6
  obtain ⟨h6, rfl⟩ := h6
  unfold CSelection.make at hy
  rw [M.bind_eq_ok] at hy
  obtain ⟨π, w7, h7, hy⟩ := hy
  simp only [M.ret, Prod.mk.injEq, Res.ok.injEq] at hy
  obtain ⟨rfl, rfl⟩ := hy
  unfold disjMakeM at h7
  rw [if_neg (by omega)] at h7
  simp only [M.bind_eq_ok, M.rand, M.lift, Prod.mk.injEq, Res.ok.injEq] at h7
  obtain ⟨u, w8, ⟨rfl, rfl⟩, v', w9, ⟨rfl, rfl⟩, z, w10, ⟨rfl, rfl⟩, h7, rfl⟩ := h7
  exact ⟨⟨rfl, s.vote, hvote, h6, π, h7, rfl⟩, hE, rfl⟩

/-- The selections of a list take their random numbers one after the other. -/
def Run (P : (ℕ → ℕ) → CSelection → Prop) (ρ : ℕ → ℕ) (l : List CSelection) : Prop :=
  ∀ j (hj : j < l.length), P (fun n => ρ (n + 3 * j)) l[j]

theorem Run.cons {P : (ℕ → ℕ) → CSelection → Prop} {ρ : ℕ → ℕ} {e : CSelection} {l : List CSelection} (he : P ρ e)
    (hl : Run P (fun n => ρ (n + 3)) l) : Run P ρ (e :: l) := by
  intro j hj
  cases j with
  | zero => exact he
  | succ j =>
    have := hl j (by simpa using hj)
    simp only [List.getElem_cons_succ]
    have e1 : (fun n => ρ (n + 3 * (j + 1))) = fun n => ρ (n + 3 * j + 3) := by
      funext n
      rw [Nat.mul_add, Nat.add_assoc]
    rw [e1]
    exact this

theorem Run.append {P : (ℕ → ℕ) → CSelection → Prop} : ∀ {ρ : ℕ → ℕ} {l l' : List CSelection}, Run P ρ l →
    Run P (fun n => ρ (n + 3 * l.length)) l' → Run P ρ (l ++ l')
  | ρ, [], l', _, h => h
  | ρ, e :: l, l', h, h' => by
    refine Run.cons (h 0 (by simp)) (Run.append (l := l) ?_ ?_)
    · intro j hj
      have := h (j + 1) (by simpa using hj)
      simp only [List.getElem_cons_succ] at this
      have e1 : (fun n => ρ (n + 3 * j + 3)) = fun n => ρ (n + 3 * (j + 1)) := by
        funext n
        rw [Nat.mul_add, Nat.add_assoc]
      dsimp only
      rw [e1]
      exact this
    · have e1 : (fun n => ρ (n + 3 * (e :: l).length)) = fun n => ρ (n + 3 * l.length + 3) := by
        funext n
        rw [List.length_cons, Nat.mul_add, Nat.add_assoc]
      rw [e1] at h'
      exact h'

theorem real_proved {pub ext cn : ℕ} {v over : Bool} {l : List PSelection} (ds : List SelectionDesc) :
    ∀ {count : ℕ} {w w' : World} {r : List CSelection × ℕ}, w.Empty →
      encryptReal G C pub ext cn v over l ds count w = (.ok r, w') →
      Run (fun ρ e => Proved G C pub ext (selNonce G C cn e.descHash e.seq) ρ e) w.rng r.1 ∧ w'.Empty ∧
        w'.rng = fun n => w.rng (n + 3 * r.1.length) := by
  induction ds with
  | nil =>
    intro count w w' r hw h
    simp only [encryptReal, M.ret, Prod.mk.injEq, Res.ok.injEq] at h
    obtain ⟨rfl, rfl⟩ := h
    exact ⟨fun j hj => absurd hj (by simp), hw, rfl⟩
  | cons d ds ih =>
    intro count w w' r hw h
    unfold encryptReal at h
    cases hf : l.find? (fun s => s.objectId = d.objectId) with
    | none => rw [hf] at h; simp [M.raise] at h
    | some s =>
      rw [hf] at h
      dsimp only at h
      rw [M.bind_eq_ok] at h
      obtain ⟨e, w1, h1, h⟩ := h
      rw [M.bind_eq_ok] at h
      obtain ⟨r', w2, h2, h⟩ := h
      simp only [M.ret, Prod.mk.injEq, Res.ok.injEq] at h
      obtain ⟨rfl, rfl⟩ := h
      obtain ⟨a, b, c⟩ := selection_proved hw h1
      obtain ⟨a', b', c'⟩ := ih b h2
      rw [c] at a' c'
      refine ⟨Run.cons a a', b', ?_⟩
      rw [c']
      funext n
      simp only [List.length_cons, Nat.mul_add, Nat.add_assoc]

theorem placeholder_proved {pub ext cn k : ℕ} {v over : Bool} (ds : List SelectionDesc) :
    ∀ {count : ℕ} {w w' : World} {r : List CSelection}, w.Empty →
      encryptPlaceholders G C pub ext cn v over k ds count w = (.ok r, w') →
      Run (fun ρ e => Proved G C pub ext (selNonce G C cn e.descHash e.seq) ρ e) w.rng r ∧ w'.Empty ∧
        w'.rng = fun n => w.rng (n + 3 * r.length) := by
  induction ds with
  | nil =>
    intro count w w' r hw h
    simp only [encryptPlaceholders, M.ret, Prod.mk.injEq, Res.ok.injEq] at h
    obtain ⟨rfl, rfl⟩ := h
    exact ⟨fun j hj => absurd hj (by simp), hw, rfl⟩
  | cons d ds ih =>
    intro count w w' r hw h
    unfold encryptPlaceholders at h
    dsimp only at h
    rw [M.bind_eq_ok] at h
    obtain ⟨e, w1, h1, h⟩ := h
    rw [M.bind_eq_ok] at h
    obtain ⟨r', w2, h2, h⟩ := h
    simp only [M.ret, Prod.mk.injEq, Res.ok.injEq] at h
    obtain ⟨rfl, rfl⟩ := h
    obtain ⟨a, b, c⟩ := selection_proved hw h1
    obtain ⟨a', b', c'⟩ := ih b h2
    rw [c] at a' c'
    refine ⟨Run.cons a a', b', ?_⟩
    rw [c']
    funext n
    simp only [List.length_cons, Nat.mul_add, Nat.add_assoc]

/-- The proofs of a contest: those of its selections, with random numbers from `ρ`, and its own, with a number computed from
the seed. -/
def ContestProved (G : Params) (C : Crypto) (S : StdSort) (pub ext seed : ℕ) (ρ : ℕ → ℕ) (e : CContest) : Prop :=
  Run (fun ρ s => Proved G C pub ext (selNonce G C
    (hashElems G C [.q (hashElems G C [.q e.descHash, .q seed]), .u64 e.seq]) s.descHash s.seq) ρ s) ρ e.selections ∧
  ∃ acc R limit π, accumulate G (e.getSelections S) = .ok acc ∧ aggregateNonce G (e.getSelections S) = .ok R ∧
    constMake G C none acc R pub (((Nonces.makeWith G C e.descHash (.q seed)).get G C e.seq).2.next G C).1 ext limit = .ok π ∧
    e.proof = some π

theorem contest_proved (hG : G.Valid) {c : PContest} {m : IManifest} {d : ContestDescP} {pub ext seed : ℕ}
    {v : Bool} {w w' : World} {e : CContest} (hw : w.Empty)
    (h : encryptContest G C S c m d pub ext seed v w = (.ok e, w')) :
    ContestProved G C S pub ext seed w.rng e ∧ w'.Empty ∧ w'.rng = fun n => w.rng (n + 3 * e.selections.length) := by
  have hE := (contest_nonces hG hw h).2
  unfold encryptContest at h
  dsimp only at h
  split at h
  · simp [M.raise] at h
  rw [M.bind_eq_ok] at h
  obtain ⟨dh, w0, h0, h⟩ := h
  simp only [M.lift, Prod.mk.injEq] at h0
  obtain ⟨hdh, rfl⟩ := h0
  rw [M.bind_eq_ok] at h
  obtain ⟨rs, w1, h1, h⟩ := h
  rw [M.bind_eq_ok] at h
  obtain ⟨ps, w2, h2, h⟩ := h
  rw [M.bind_eq_ok] at h
  obtain ⟨x, w3, h3, h⟩ := h
  rw [M.bind_eq_ok] at h
  obtain ⟨e', w4, h4, h⟩ := h
  obtain ⟨a1, b1, c1⟩ := real_proved _ hw h1
  obtain ⟨a2, b2, c2⟩ := placeholder_proved _ b1 h2
  have c3 : w3.rng = w2.rng ∧ w3.Empty := by
    unfold encryptExtended at h3
    simp only [M.bind_eq_ok, M.getTriple, PreState.getTriple, b2.1, M.lift, Prod.mk.injEq, Res.ok.injEq] at h3
    obtain ⟨_, _, ⟨-, rfl⟩, -, rfl⟩ := h3
    exact ⟨rfl, b2.1, b2.2⟩
  have he : e = e' ∧ w4 = w' := by
    split at h
    · simp only [M.ret, Prod.mk.injEq, Res.ok.injEq] at h
      exact ⟨h.1.symm, h.2⟩
    · rw [M.bind_eq_ok] at h
      obtain ⟨b, w5, h5, h⟩ := h
      simp only [M.lift, Prod.mk.injEq] at h5
      obtain ⟨-, rfl⟩ := h5
      split at h
      · simp only [M.ret, Prod.mk.injEq, Res.ok.injEq] at h
        exact ⟨h.1.symm, h.2⟩
      · simp [M.raise] at h
  obtain ⟨rfl, rfl⟩ := he
  unfold CContest.make at h4
  rw [M.bind_eq_ok] at h4
  obtain ⟨ch, w5, h5, h4⟩ := h4
  simp only [M.lift, Prod.mk.injEq] at h5
  obtain ⟨hch, rfl⟩ := h5
  rw [M.bind_eq_ok] at h4
  obtain ⟨acc, w6, h6, h4⟩ := h4
  simp only [M.lift, Prod.mk.injEq] at h6
  obtain ⟨hacc, rfl⟩ := h6
  rw [M.bind_eq_ok] at h4
  obtain ⟨agg, w7, h7, h4⟩ := h4
  simp only [M.lift, Prod.mk.injEq] at h7
  obtain ⟨hagg, rfl⟩ := h7
  rw [M.bind_eq_ok] at h4
  obtain ⟨t, w8, h8, h4⟩ := h4
  simp only [M.getTriple, PreState.getTriple, c3.2.1, Prod.mk.injEq, Res.ok.injEq] at h8
  obtain ⟨rfl, rfl⟩ := h8
  rw [M.bind_eq_ok] at h4
  obtain ⟨π, w9, h9, h4⟩ := h4
  simp only [M.lift, Prod.mk.injEq] at h9
  obtain ⟨hπ, rfl⟩ := h9
  simp only [M.ret, Prod.mk.injEq, Res.ok.injEq] at h4
  obtain ⟨rfl, rfl⟩ := h4
  refine ⟨⟨?_, acc, agg, _, π, hacc, hagg, hπ, rfl⟩, hE, ?_⟩
  · refine Run.append a1 ?_
    rw [c1] at a2
    exact a2
  · dsimp only
    rw [c3.1, c2, c1]
    funext n
    rw [List.length_append, Nat.mul_add, Nat.add_comm (3 * rs.1.length), ← Nat.add_assoc]

theorem contests_proved {pub ext seed : ℕ} {f : ContestDescP → M CContest}
    (hf : ∀ d w w' e, w.Empty → f d w = (.ok e, w') → ContestProved G C S pub ext seed w.rng e ∧ w'.Empty ∧
      w'.rng = fun n => w.rng (n + 3 * e.selections.length)) : ∀ (ds : List ContestDescP) {w w' : World} {es : List CContest},
    w.Empty → M.forEach f ds w = (.ok es, w') → ∀ a (ha : a < es.length),
      ContestProved G C S pub ext seed (fun n => w.rng (n + 3 * ((es.take a).map fun c => c.selections.length).sum)) es[a]
  | [], w, w', es, hw, h, a, ha => by
    simp only [M.forEach, M.ret, Prod.mk.injEq, Res.ok.injEq] at h
    obtain ⟨rfl, -⟩ := h
    exact absurd ha (by simp)
  | d :: ds, w, w', es, hw, h, a, ha => by
    simp only [M.forEach, M.bind_eq_ok, M.ret, Prod.mk.injEq, Res.ok.injEq] at h
    obtain ⟨e, w1, h1, r, w2, h2, rfl, rfl⟩ := h
    obtain ⟨a1, a2, a3⟩ := hf d w w1 e hw h1
    cases a with
    | zero => exact a1
    | succ a =>
      have := contests_proved hf ds a2 h2 a (by simpa using ha)
      rw [a3] at this
      simp only [List.getElem_cons_succ, List.take_succ_cons, List.map_cons, List.sum_cons]
      have e1 : (fun n => w.rng (n + 3 * (e.selections.length + ((r.take a).map fun c => c.selections.length).sum))) =
          fun n => w.rng (n + 3 * ((r.take a).map fun c => c.selections.length).sum + 3 * e.selections.length) := by
        funext n
        congr 1
        ring
      rw [e1]
      exact this

/-- **C119.**  The selections and proofs of a ballot encrypted by the library are those of the theorem.  The `j`-th selection
of the `a`-th contest is a vote encrypted with the nonce of its place, and its proof is made with the three numbers that
`rand_q` gives next, other ones for each selection; the proof of the contest is made with the seed of its place. -/
theorem C119_encrypts (hG : G.Valid) {E : Layout B K L} {b : PBallot} {m : IManifest} {ctx : Context} {seed : ℕ} {t : ℕ}
    {v : Bool} {w w' : World} {e : CBallot} {n : B → ℕ} (hw : w.Empty) (c : K)
    (h : encryptBallot G C S b m ctx seed (some (n (E.ballot c))) t v w = (.ok e, w'))
    (hm : m.manifestHash = E.manifestHash) (hid : b.objectId = E.ballotId (E.ballot c)) (a : ℕ) (ha : a < e.contests.length)
    (hd : e.contests[a].descHash = E.contestHash c) (hs : e.contests[a].seq = E.contestSeq c) :
    (∀ j (hj : j < e.contests[a].selections.length), ∀ i, E.contest i = c →
      E.item i = .selection e.contests[a].selections[j].descHash e.contests[a].selections[j].seq →
      Proved G C ctx.pub ctx.extHash (E.nonce G C n i)
        (fun n => w.rng (n + 3 * (((e.contests.take a).map fun c => c.selections.length).sum + j)))
        e.contests[a].selections[j]) ∧
    ∃ acc R limit π, accumulate G (e.contests[a].getSelections S) = .ok acc ∧
      aggregateNonce G (e.contests[a].getSelections S) = .ok R ∧
      constMake G C none acc R ctx.pub (E.proofSeed G C n c) ctx.extHash limit = .ok π ∧ e.contests[a].proof = some π := by
  obtain ⟨n', w1, w2, h1, h2, -⟩ := encryptBallot_steps G C S _ _ _ _ _ _ _ _ _ _ h
  simp only [nonceOr, M.ret, Prod.mk.injEq, Res.ok.injEq] at h1
  obtain ⟨rfl, rfl⟩ := h1
  unfold encryptContests at h2
  rw [M.bind_eq_ok] at h2
  obtain ⟨nb, w3, h7, h2⟩ := h2
  simp only [M.lift, Prod.mk.injEq] at h7
  obtain ⟨h7, rfl⟩ := h7
  cases hst : m.getBallotStyle b.styleId with
  | none => rw [hst] at h2; simp [M.lift] at h2
  | some style =>
    rw [hst] at h2
    dsimp only at h2
    rw [M.bind_eq_ok] at h2
    obtain ⟨ds, w4, h8, h2⟩ := h2
    simp only [M.lift, Prod.mk.injEq] at h8
    obtain ⟨h8, rfl⟩ := h8
    have key := contests_proved (G := G) (C := C) (S := S) (pub := ctx.pub) (ext := ctx.extHash)
      (seed := nonceSeedOf G C m.manifestHash b.objectId (n (E.ballot c))) ?_ ds hw h2 a ha
    · obtain ⟨k1, acc, R, limit, π, k2, k3, k4, k5⟩ := key
      refine ⟨?_, acc, R, limit, π, k2, k3, ?_, k5⟩
      · intro j hj i hi hitem
        have := k1 j hj
        have hn : E.nonce G C n i = selNonce G C (hashElems G C [.q (hashElems G C [.q e.contests[a].descHash,
            .q (nonceSeedOf G C m.manifestHash b.objectId (n (E.ballot c)))]), .u64 e.contests[a].seq])
            e.contests[a].selections[j].descHash e.contests[a].selections[j].seq := by
          unfold Layout.nonce
          subst hi
          simp only [Place.nonce, Place.itemInput, Place.itemSeedInput, Place.contestInput, Place.contestSeedInput,
            Place.ballotInput, Layout.place, hitem, selNonce, hd, hs, hm, hid, nonceSeedOf]
        rw [hn]
        have e1 : (fun n => w.rng (n + 3 * (((e.contests.take a).map fun c => c.selections.length).sum + j))) =
            fun n => w.rng (n + 3 * j + 3 * ((e.contests.take a).map fun c => c.selections.length).sum) := by
          funext n
          congr 1
          ring
        rw [e1]
        exact this
      · rw [← k4]
        unfold Layout.proofSeed
        rw [hd, hs, hm, hid]
    · intro d w w' e hw hf
      cases hc : nb.contests.find? (fun c => c.objectId = d.desc.objectId) with
      | none => rw [hc] at hf; simp [M.raise] at hf
      | some pc =>
        rw [hc] at hf
        exact contest_proved hG hw hf

end

theorem challenges_mono {X Y : Finset Str} (h : X ⊆ Y) (hX : HasChallenges X) : HasChallenges Y :=
  ⟨fun _ _ _ a b c d => h (hX.disj _ _ _ a b c d), fun _ _ _ a b c d => h (hX.const _ _ _ a b c d)⟩

/-- Two ballots, each with a contest of two selections and its extended data. -/
def twoBallots : Layout (Fin 2) (Fin 2) (Fin 2 × Fin 3) where
  manifestHash := 6
  ballotId b := if b = 0 then "ballot-1".toList else "ballot-2".toList
  ballot c := c
  contestHash _ := 7
  contestSeq _ := 0
  contest i := i.1
  item i := match i.2 with
    | 0 => .selection 9 3
    | 1 => .selection 10 4
    | 2 => .extended

theorem twoBallots_proper : twoBallots.Proper where
  manifestHash := by norm_num [twoBallots]
  ballotId := by decide
  ballots := by decide
  contestHash _ := by norm_num [twoBallots]
  contestSeq _ := by norm_num [twoBallots]
  contests _ _ h _ := h
  itemHash := by
    rintro ⟨c, i⟩ h s hi
    have key : h = 9 ∨ h = 10 := by
      match i, hi with
      | 0, hi => exact Or.inl (Item.selection.inj hi).1.symm
      | 1, hi => exact Or.inr (Item.selection.inj hi).1.symm
      | 2, hi => cases hi
    rcases key with rfl | rfl <;> norm_num
  items := by decide

/-- The selections first, then the extended data. -/
def fourVotes : Fin 4 ⊕ Fin 2 ≃ Fin 2 × Fin 3 where
  toFun := Sum.elim ![(0, 0), (0, 1), (1, 0), (1, 1)] ![(0, 2), (1, 2)]
  invFun x := if x = (0, 0) then .inl 0 else if x = (0, 1) then .inl 1 else if x = (1, 0) then .inl 2 else
    if x = (1, 1) then .inl 3 else if x = (0, 2) then .inr 0 else .inr 1
  left_inv := by decide
  right_inv := by decide

theorem fourVotes_votes (ms : Fin 4 → ℕ) (h0 : ∀ i, ms i < 2) (h1 : ms 0 + ms 1 = 1) (h2 : ms 2 + ms 3 = 1) :
    Votes (fun i => twoBallots.contest (fourVotes (.inl i))) (fun _ => 1) ms := by
  have hκ : (fun i => twoBallots.contest (fourVotes (.inl i))) = ![0, 0, 1, 1] := by
    funext i
    fin_cases i <;> rfl
  rw [hκ]
  refine ⟨h0, fun c => ?_⟩
  rw [members_sum, Finset.sum_filter, Fin.sum_univ_four]
  fin_cases c
  · simpa using h1
  · simpa using h2

/-- It applies: two voters, and who voted for what. -/
example (C : Crypto) (A : Adversary (Fin 2) (Fin 2) 4 1000000) : ∃ X,
    |rate twoBallots .std C fourVotes (fun _ => 1) 5 (Finset.range Params.std.q) X A ![1, 0, 0, 1] -
      rate twoBallots .std C fourVotes (fun _ => 1) 5 (Finset.range Params.std.q) X A ![0, 1, 1, 0]| <
      ddhTotal .std C (fun i => twoBallots.contest (fourVotes (.inl i))) (fun _ => 1) 5 X A ![1, 0, 0, 1] ![0, 1, 1, 0] +
        1 / 2 ^ 126 := by
  classical
  obtain ⟨X, hX⟩ := exists_challenges
  have k1 := fourVotes_votes ![1, 0, 0, 1] (by decide) rfl rfl
  have k2 := fourVotes_votes ![0, 1, 1, 0] (by decide) rfl rfl
  have c1 : Fintype.card (Fin 2) ≤ 2 ^ 40 := by rw [Fintype.card_fin]; norm_num
  have c2 : Fintype.card (Fin 2 × Fin 3) ≤ 2 ^ 40 := by rw [Fintype.card_prod, Fintype.card_fin, Fintype.card_fin]; norm_num
  exact ⟨twoBallots.strings .std C (Finset.range Params.std.q) ∪ X,
    C119_standard twoBallots_proper fourVotes (by decide) (by norm_num) c1 c1 c2 (by norm_num)
      Finset.subset_union_left
      (challenges_mono Finset.subset_union_right hX) A k1 k2⟩

/-- A ballot that is encrypted, as `C119_encrypts` demands. -/
example (S : StdSort) : ∃ e w', World.Empty plainWorld ∧
    encryptBallot .std polyCrypto S exampleBallot (exampleIM 6) (exampleContext (gPowP .std 2) 6) 4 (some 8) 5 false
      plainWorld = (.ok e, w') := by
  obtain ⟨e, w, h⟩ := example_run S _ (residue_gPowP C54_std_valid 2 (by norm_num)) 8 (Or.inl rfl)
  exact ⟨e, w, ⟨rfl, rfl⟩, h⟩

end EG.Published
