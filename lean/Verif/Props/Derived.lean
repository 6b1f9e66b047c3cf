import Verif.Spec.Derived
import Verif.Lemmas.Derive
import Verif.Props.Forgery

/-!
# C117: nonces computed from the ballot nonces are as good as independent random ones

SHA-256 is replaced by a function on a finite set of strings, as in C112.
-/

namespace EG.Derived

open EG.NonceUse EG.Derive

variable {B K L : Type}

/-! ## What is hashed -/

/-- The values that are hashed again. -/
inductive Hid (B K L : Type)
  | ballot (b : B)
  | seed (c : K)
  | nonce (c : K)
  | proofSeed (c : K)
  | proofHead (c : K)
  | item (i : L)

def hidEquiv : B ⊕ K ⊕ K ⊕ K ⊕ K ⊕ L ≃ Hid B K L where
  toFun
    | .inl b => .ballot b
    | .inr (.inl c) => .seed c
    | .inr (.inr (.inl c)) => .nonce c
    | .inr (.inr (.inr (.inl c))) => .proofSeed c
    | .inr (.inr (.inr (.inr (.inl c)))) => .proofHead c
    | .inr (.inr (.inr (.inr (.inr i)))) => .item i
  invFun
    | .ballot b => .inl b
    | .seed c => .inr (.inl c)
    | .nonce c => .inr (.inr (.inl c))
    | .proofSeed c => .inr (.inr (.inr (.inl c)))
    | .proofHead c => .inr (.inr (.inr (.inr (.inl c))))
    | .item i => .inr (.inr (.inr (.inr (.inr i))))
  left_inv := by rintro (_ | _ | _ | _ | _ | _) <;> rfl
  right_inv := by rintro (_ | _ | _ | _ | _ | _) <;> rfl

instance [Fintype B] [Fintype K] [Fintype L] : Fintype (Hid B K L) := Fintype.ofEquiv _ hidEquiv

theorem card_inner [Fintype K] [Fintype L] :
    Fintype.card (Inner K L) = 5 * Fintype.card K + 2 * Fintype.card L := by
  rw [← Fintype.card_congr innerEquiv]
  simp only [Fintype.card_sum]
  ring

/-- All values. -/
abbrev Node (B K L : Type) : Type := Hid B K L ⊕ Leaf K L

def node : Inner K L → Node B K L
  | .seed c => .inl (.seed c)
  | .nonce c => .inl (.nonce c)
  | .itemSeed i => .inl (.item i)
  | .proofSeed c => .inl (.proofSeed c)
  | .proofHead c => .inl (.proofHead c)
  | .proof c => .inr (.proof c)
  | .item i => .inr (.item i)

theorem node_injective : Function.Injective (node : Inner K L → Node B K L) := by
  intro a b h
  cases a <;> cases b <;> simp_all [node]

theorem node_cases (x : Node B K L) : (∃ b, x = .inl (.ballot b)) ∨ ∃ j, x = node j := by
  rcases x with (b | c | c | c | c | i) | (c | i)
  · exact Or.inl ⟨b, rfl⟩
  · exact Or.inr ⟨.seed c, rfl⟩
  · exact Or.inr ⟨.nonce c, rfl⟩
  · exact Or.inr ⟨.proofSeed c, rfl⟩
  · exact Or.inr ⟨.proofHead c, rfl⟩
  · exact Or.inr ⟨.itemSeed i, rfl⟩
  · exact Or.inr ⟨.proof c, rfl⟩
  · exact Or.inr ⟨.item i, rfl⟩

variable (E : Layout B K L) (G : Params) (C : Crypto)

/-- From which value another one is computed. -/
def parent : Inner K L → Hid B K L
  | .seed c => .ballot (E.ballot c)
  | .nonce c => .seed c
  | .itemSeed i => .nonce (E.contest i)
  | .proofSeed c => .seed c
  | .proofHead c => .proofSeed c
  | .proof c => .proofHead c
  | .item i => .item i

/-- The digest as exponent. -/
def red (y : Fin (2 ^ 256)) : ℕ := addModQ G y 0

/-- What is hashed for each value, from the other values. -/
def str (n : B → ℕ) (v : Node B K L → Fin (2 ^ 256)) : Node B K L → Str
  | .inl (.ballot b) => rootText E G C (n b) b
  | .inl (.seed c) => text E G C (red G (v (.inl (parent E (.seed c))))) (.seed c)
  | .inl (.nonce c) => text E G C (red G (v (.inl (parent E (.nonce c))))) (.nonce c)
  | .inl (.item i) => text E G C (red G (v (.inl (parent E (.itemSeed i))))) (.itemSeed i)
  | .inl (.proofSeed c) => text E G C (red G (v (.inl (parent E (.proofSeed c))))) (.proofSeed c)
  | .inl (.proofHead c) => text E G C (red G (v (.inl (parent E (.proofHead c))))) (.proofHead c)
  | .inr (.proof c) => text E G C (red G (v (.inl (parent E (.proof c))))) (.proof c)
  | .inr (.item i) => text E G C (red G (v (.inl (parent E (.item i))))) (.item i)

variable {E G C}

theorem str_node (n : B → ℕ) (v : Node B K L → Fin (2 ^ 256)) (j : Inner K L) :
    str E G C n v (node j) = text E G C (red G (v (.inl (parent E j)))) j := by
  cases j <;> rfl

/-! ## Different strings -/

theorem head_no_delim : '|' ∉ (HElem.str "constant-chaum-pedersen-proof".toList).render G C := by
  rw [show (HElem.str "constant-chaum-pedersen-proof".toList).render G C = "constant-chaum-pedersen-proof".toList from rfl]
  decide

theorem two_fields {a b : List Char} (ha : '|' ∉ a) (hb : '|' ∉ b) : (hashInput [a, b]).count '|' = 3 := by
  simp [hashInput, List.count_append, List.count_eq_zero.2 ha, List.count_eq_zero.2 hb]

theorem text_two (a : ℕ) (j : Inner K L) : ∃ x y, '|' ∉ x ∧ '|' ∉ y ∧ text E G C a j = hashInput [x, y] := by
  cases j with
  | seed c => exact ⟨_, _, q_no_delim (G := G) (C := C) _, q_no_delim (G := G) (C := C) _, rfl⟩
  | nonce c => exact ⟨_, _, q_no_delim (G := G) (C := C) _, u64_no_delim (G := G) (C := C) _, rfl⟩
  | proofSeed c => exact ⟨_, _, q_no_delim (G := G) (C := C) _, u64_no_delim (G := G) (C := C) _, rfl⟩
  | proofHead c => exact ⟨_, _, q_no_delim (G := G) (C := C) _, head_no_delim (G := G) (C := C), rfl⟩
  | proof c => exact ⟨_, _, q_no_delim (G := G) (C := C) _, u64_no_delim (G := G) (C := C) _, rfl⟩
  | itemSeed i =>
    simp only [text, elems]
    cases E.item i with
    | selection h s => exact ⟨_, _, q_no_delim (G := G) (C := C) _, q_no_delim (G := G) (C := C) _, rfl⟩
    | extended => exact ⟨_, _, q_no_delim (G := G) (C := C) _, header_no_delim (G := G) (C := C), rfl⟩
  | item i =>
    simp only [text, elems]
    cases E.item i with
    | selection h s => exact ⟨_, _, q_no_delim (G := G) (C := C) _, u64_no_delim (G := G) (C := C) _, rfl⟩
    | extended => exact ⟨_, _, q_no_delim (G := G) (C := C) _, u64_no_delim (G := G) (C := C) _, rfl⟩

theorem root_ne_text (n a : ℕ) (b : B) (j : Inner K L) : rootText E G C n b ≠ text E G C a j := by
  intro h
  obtain ⟨x, y, hx, hy, ht⟩ := text_two (E := E) (G := G) (C := C) a j
  have h1 := congrArg (List.count '|') h
  rw [ht, two_fields hx hy] at h1
  simp only [rootText, List.map_cons, List.map_nil, hashInput, List.flatMap_cons, List.flatMap_nil, List.count_cons,
    List.count_append, List.count_nil] at h1
  simp at h1
  omega

theorem root_inj (hE : E.Proper) {n n' : ℕ} {b b' : B} (hn : n < 2 ^ 256) (hn' : n' < 2 ^ 256)
    (h : rootText E G C n b = rootText E G C n' b') : n = n' ∧ b = b' := by
  obtain ⟨-, h2, h3⟩ := qsq_eq hE.manifestHash hn hE.manifestHash hn' (hE.ballotId b) (hE.ballotId b') h
  exact ⟨h3, hE.ballots h2⟩

theorem text_inj (hE : E.Proper) {a a' : ℕ} (ha : a < 2 ^ 256) (ha' : a' < 2 ^ 256) (j : Inner K L)
    (h : text E G C a j = text E G C a' j) : a = a' := by
  unfold text at h
  cases j with
  | seed c => exact (qq_eq (hE.contestHash c) ha (hE.contestHash c) ha' h).2
  | nonce c => exact (qu_eq ha ha' h).1
  | proofSeed c => exact (qu_eq ha ha' h).1
  | proofHead c => exact toHexQ_inj _ _ ha ha' (two_eq (q_no_delim a) head_no_delim (q_no_delim a') head_no_delim h).1
  | proof c => exact (qu_eq ha ha' h).1
  | itemSeed i =>
    simp only [elems] at h
    cases hi : E.item i with
    | selection x s =>
      rw [hi] at h
      exact (qq_eq (hE.itemHash _ _ _ hi) ha (hE.itemHash _ _ _ hi) ha' h).2
    | extended =>
      rw [hi] at h
      exact qs_eq ha ha' h
  | item i =>
    simp only [elems] at h
    cases hi : E.item i with
    | selection x s => rw [hi] at h; exact (qu_eq ha ha' h).1
    | extended => rw [hi] at h; exact (qu_eq ha ha' h).1

theorem text_ne (hE : E.Proper) {a : ℕ} (ha : a < 2 ^ 256) {j j' : Inner K L} (hp : parent E j = parent E j')
    (h : text E G C a j = text E G C a j') : j = j' := by
  have wrap : ∀ s < 2 ^ 64, (s + 1) % 2 ^ 64 ≠ s := by
    intro s hs h
    have := Nat.mod_add_div (s + 1) (2 ^ 64)
    omega
  unfold text at h
  cases j <;> cases j' <;> simp only [parent, reduceCtorEq, Hid.ballot.injEq, Hid.seed.injEq, Hid.nonce.injEq,
    Hid.proofSeed.injEq, Hid.proofHead.injEq, Hid.item.injEq] at hp
  · rename_i c c'
    rw [hE.contests c c' hp (qq_eq (hE.contestHash _) ha (hE.contestHash _) ha h).1]
  · rw [hp]
  · subst hp
    rename_i c
    exact absurd (qu_eq ha ha h).2 (Ne.symm (wrap _ (hE.contestSeq c)))
  · rename_i i i'
    simp only [elems] at h
    rw [hE.items i i' hp ?_]
    cases hi : E.item i with
    | selection x s =>
      cases hi' : E.item i' with
      | selection x' s' =>
        rw [hi, hi'] at h
        rw [itemKey, itemKey, (qq_eq (hE.itemHash _ _ _ hi) ha (hE.itemHash _ _ _ hi') ha h).1]
      | extended =>
        rw [hi, hi'] at h
        exact (qq_ne_qs h).elim
    | extended =>
      cases hi' : E.item i' with
      | selection x' s' =>
        rw [hi, hi'] at h
        exact (qq_ne_qs h.symm).elim
      | extended => rfl
  · subst hp
    rename_i c
    exact absurd (qu_eq ha ha h).2 (wrap _ (hE.contestSeq c))
  · rw [hp]
  · rw [hp]
  · rw [hp]
  · rw [hp]

/-! ## The values that the hash function gives -/

variable (E G C) in
/-- The answer to a string. -/
noncomputable def ans {X : Finset Str} (O : X → Fin (2 ^ 256)) (s : Str) : Fin (2 ^ 256) :=
  open Classical in if h : s ∈ X then O ⟨s, h⟩ else ⟨0, by norm_num⟩

theorem ans_mem {X : Finset Str} (O : X → Fin (2 ^ 256)) {s : Str} (h : s ∈ X) : ans O s = O ⟨s, h⟩ := by
  unfold ans
  rw [dif_pos h]

variable (E G C) in
noncomputable def ballotValue {X : Finset Str} (O : X → Fin (2 ^ 256)) (n : B → ℕ) (b : B) : Fin (2 ^ 256) :=
  ans O (rootText E G C (n b) b)

variable (E G C) in
noncomputable def seedValue {X : Finset Str} (O : X → Fin (2 ^ 256)) (n : B → ℕ) (c : K) : Fin (2 ^ 256) :=
  ans O (text E G C (red G (ballotValue E G C O n (E.ballot c))) (.seed c))

variable (E G C) in
noncomputable def nonceValue {X : Finset Str} (O : X → Fin (2 ^ 256)) (n : B → ℕ) (c : K) : Fin (2 ^ 256) :=
  ans O (text E G C (red G (seedValue E G C O n c)) (.nonce c))

variable (E G C) in
noncomputable def itemValue {X : Finset Str} (O : X → Fin (2 ^ 256)) (n : B → ℕ) (i : L) : Fin (2 ^ 256) :=
  ans O (text E G C (red G (nonceValue E G C O n (E.contest i))) (.itemSeed i))

variable (E G C) in
noncomputable def proofSeedValue {X : Finset Str} (O : X → Fin (2 ^ 256)) (n : B → ℕ) (c : K) : Fin (2 ^ 256) :=
  ans O (text E G C (red G (seedValue E G C O n c)) (.proofSeed c))

variable (E G C) in
noncomputable def proofHeadValue {X : Finset Str} (O : X → Fin (2 ^ 256)) (n : B → ℕ) (c : K) : Fin (2 ^ 256) :=
  ans O (text E G C (red G (proofSeedValue E G C O n c)) (.proofHead c))

variable (E G C) in
/-- All values. -/
noncomputable def values {X : Finset Str} (n : B → ℕ) (O : X → Fin (2 ^ 256)) : Node B K L → Fin (2 ^ 256)
  | .inl (.ballot b) => ballotValue E G C O n b
  | .inl (.seed c) => seedValue E G C O n c
  | .inl (.nonce c) => nonceValue E G C O n c
  | .inl (.proofSeed c) => proofSeedValue E G C O n c
  | .inl (.proofHead c) => proofHeadValue E G C O n c
  | .inl (.item i) => itemValue E G C O n i
  | .inr (.proof c) => ans O (text E G C (red G (proofHeadValue E G C O n c)) (.proof c))
  | .inr (.item i) => ans O (text E G C (red G (itemValue E G C O n i)) (.item i))

theorem values_iff {X : Finset Str} {n : B → ℕ} (hX : ∀ v x, str E G C n v x ∈ X) (O : X → Fin (2 ^ 256))
    (v : Node B K L → Fin (2 ^ 256)) :
    (∀ x, O ⟨str E G C n v x, hX v x⟩ = v x) ↔ v = values E G C n O := by
  have hO : (∀ x, O ⟨str E G C n v x, hX v x⟩ = v x) ↔ ∀ x, v x = ans O (str E G C n v x) :=
    forall_congr' fun x => by rw [ans_mem O (hX v x)]; exact eq_comm
  rw [hO]
  constructor
  · intro h
    have h1 : ∀ b, v (.inl (.ballot b)) = ballotValue E G C O n b := fun b => h _
    have h2 : ∀ c, v (.inl (.seed c)) = seedValue E G C O n c := by
      intro c
      rw [h]
      change ans O (text E G C (red G (v (.inl (.ballot (E.ballot c))))) (.seed c)) = _
      rw [h1]
      rfl
    have h3 : ∀ c, v (.inl (.nonce c)) = nonceValue E G C O n c := by
      intro c
      rw [h]
      change ans O (text E G C (red G (v (.inl (.seed c)))) (.nonce c)) = _
      rw [h2]
      rfl
    have h4 : ∀ i, v (.inl (.item i)) = itemValue E G C O n i := by
      intro i
      rw [h]
      change ans O (text E G C (red G (v (.inl (.nonce (E.contest i))))) (.itemSeed i)) = _
      rw [h3]
      rfl
    have h5 : ∀ c, v (.inl (.proofSeed c)) = proofSeedValue E G C O n c := by
      intro c
      rw [h]
      change ans O (text E G C (red G (v (.inl (.seed c)))) (.proofSeed c)) = _
      rw [h2]
      rfl
    have h6 : ∀ c, v (.inl (.proofHead c)) = proofHeadValue E G C O n c := by
      intro c
      rw [h]
      change ans O (text E G C (red G (v (.inl (.proofSeed c)))) (.proofHead c)) = _
      rw [h5]
      rfl
    funext x
    rcases x with (b | c | c | c | c | i) | (c | i)
    · exact h1 b
    · exact h2 c
    · exact h3 c
    · exact h5 c
    · exact h6 c
    · exact h4 i
    · rw [h]
      change ans O (text E G C (red G (v (.inl (.proofHead c)))) (.proof c)) = _
      rw [h6]
      rfl
    · rw [h]
      change ans O (text E G C (red G (v (.inl (.item i)))) (.item i)) = _
      rw [h4]
      rfl
  · rintro rfl x
    rcases x with (b | c | c | c | c | i) | (c | i) <;> rfl

theorem sha_oracle {X : Finset Str} (O : X → Fin (2 ^ 256)) {s : Str} (h : s ∈ X) :
    addModQ G ((C.withOracle X O).sha256 s) 0 = red G (ans O s) := by
  change addModQ G (oracle C.sha256 X O s) 0 = addModQ G (ans O s) 0
  congr 1
  unfold oracle
  rw [dif_pos h, ans_mem O h]

theorem hash_oracle {X : Finset Str} (O : X → Fin (2 ^ 256)) (xs : List HElem) (hne : xs.isEmpty = false)
    (hr : xs.map (HElem.render G (C.withOracle X O)) = xs.map (HElem.render G C))
    (h : hashInput (xs.map (HElem.render G C)) ∈ X) :
    hashElems G (C.withOracle X O) xs = red G (ans O (hashInput (xs.map (HElem.render G C)))) := by
  unfold hashElems digestQ
  rw [hne, hr]
  exact sha_oracle O h

theorem hash_text {X : Finset Str} (O : X → Fin (2 ^ 256)) {a : ℕ} {j : Inner K L} (h : text E G C a j ∈ X) :
    hashElems G (C.withOracle X O) (elems E a j) = red G (ans O (text E G C a j)) := by
  refine hash_oracle O _ ?_ ?_ h
  · cases j <;> simp only [elems] <;> try rfl
    all_goals (rename_i i; cases E.item i <;> rfl)
  · cases j <;> simp only [elems, List.map_cons, List.map_nil, HElem.render]
    all_goals (rename_i i; cases E.item i <;> simp only [List.map_cons, List.map_nil, HElem.render])

theorem hash_root {X : Finset Str} (O : X → Fin (2 ^ 256)) {n : ℕ} {b : B} (h : rootText E G C n b ∈ X) :
    hashElems G (C.withOracle X O) [.q E.manifestHash, .str (E.ballotId b), .q n] = red G (ans O (rootText E G C n b)) :=
  hash_oracle O _ rfl (by simp only [List.map_cons, List.map_nil, HElem.render]) h

variable (E G) in
/-- The values as hashes. -/
theorem proofNonce_def (D : Crypto) (n : B → ℕ) (c : K) : E.proofNonce G D n c =
    hashElems G D (elems E (hashElems G D (elems E (hashElems G D (elems E (hashElems G D (elems E (hashElems G D
      [.q E.manifestHash, .str (E.ballotId (E.ballot c)), .q (n (E.ballot c))]) (.seed c))) (.proofSeed c)))
      (.proofHead c))) (.proof c)) := rfl

variable (E G) in
theorem nonce_def (D : Crypto) (n : B → ℕ) (i : L) : E.nonce G D n i =
    hashElems G D (elems E (hashElems G D (elems E (hashElems G D (elems E (hashElems G D (elems E (hashElems G D
      [.q E.manifestHash, .str (E.ballotId (E.ballot (E.contest i))), .q (n (E.ballot (E.contest i)))])
      (.seed (E.contest i)))) (.nonce (E.contest i)))) (.itemSeed i))) (.item i)) := by
  unfold Layout.nonce Place.nonce Place.itemInput Place.itemSeedInput Layout.place
  simp only [elems]
  cases E.item i <;> rfl

theorem proofNonce_eq {X : Finset Str} {n : B → ℕ} (hX : ∀ v x, str E G C n v x ∈ X) (O : X → Fin (2 ^ 256)) (c : K) :
    E.proofNonce G (C.withOracle X O) n c = red G (values E G C n O (.inr (.proof c))) := by
  have h1 : rootText E G C (n (E.ballot c)) (E.ballot c) ∈ X := hX (values E G C n O) (.inl (.ballot (E.ballot c)))
  have h2 : text E G C (red G (ballotValue E G C O n (E.ballot c))) (.seed c) ∈ X := hX (values E G C n O) (.inl (.seed c))
  have h3 : text E G C (red G (seedValue E G C O n c)) (.proofSeed c) ∈ X := hX (values E G C n O) (.inl (.proofSeed c))
  have h4 : text E G C (red G (proofSeedValue E G C O n c)) (.proofHead c) ∈ X :=
    hX (values E G C n O) (.inl (.proofHead c))
  have h5 : text E G C (red G (proofHeadValue E G C O n c)) (.proof c) ∈ X := hX (values E G C n O) (.inr (.proof c))
  unfold values
  unfold proofHeadValue proofSeedValue seedValue ballotValue at *
  rw [proofNonce_def, hash_root O h1, hash_text O h2, hash_text O h3, hash_text O h4, hash_text O h5]

theorem nonce_eq {X : Finset Str} {n : B → ℕ} (hX : ∀ v x, str E G C n v x ∈ X) (O : X → Fin (2 ^ 256)) (i : L) :
    E.nonce G (C.withOracle X O) n i = red G (values E G C n O (.inr (.item i))) := by
  have h1 : rootText E G C (n (E.ballot (E.contest i))) (E.ballot (E.contest i)) ∈ X :=
    hX (values E G C n O) (.inl (.ballot (E.ballot (E.contest i))))
  have h2 : text E G C (red G (ballotValue E G C O n (E.ballot (E.contest i)))) (.seed (E.contest i)) ∈ X :=
    hX (values E G C n O) (.inl (.seed (E.contest i)))
  have h3 : text E G C (red G (seedValue E G C O n (E.contest i))) (.nonce (E.contest i)) ∈ X :=
    hX (values E G C n O) (.inl (.nonce (E.contest i)))
  have h4 : text E G C (red G (nonceValue E G C O n (E.contest i))) (.itemSeed i) ∈ X :=
    hX (values E G C n O) (.inl (.item i))
  have h5 : text E G C (red G (itemValue E G C O n i)) (.item i) ∈ X := hX (values E G C n O) (.inr (.item i))
  unfold values
  unfold itemValue nonceValue seedValue ballotValue at *
  rw [nonce_def, hash_root O h1, hash_text O h2, hash_text O h3, hash_text O h4, hash_text O h5]

/-! ## Counting -/

theorem red_lt (hG : G.Valid) (y : Fin (2 ^ 256)) : red G y < 2 ^ 256 := by
  unfold red
  exact (addModQ_lt hG _ _).trans_le hG.q_lt.le

/-- Few digests lead to a given string. -/
theorem card_text (hG : G.Valid) (hE : E.Proper) (j : Inner K L) (t : Str) :
    (Finset.univ.filter (fun y : Fin (2 ^ 256) => text E G C (red G y) j = t)).card ≤ fibre G := by
  by_cases h : ∃ y : Fin (2 ^ 256), text E G C (red G y) j = t
  · obtain ⟨y, hy⟩ := h
    refine (Finset.card_le_card ?_).trans (card_digest hG (red G y))
    intro z hz
    rw [Finset.mem_filter] at hz ⊢
    exact ⟨Finset.mem_univ _, text_inj hE (red_lt hG z) (red_lt hG y) j (hz.2.trans hy.symm)⟩
  · rw [Finset.filter_eq_empty_iff.2 fun y _ hy => h ⟨y, hy⟩]
    exact Nat.zero_le _

/-- Few digests lead to one of some strings. -/
theorem card_texts (hG : G.Valid) (hE : E.Proper) (j : Inner K L) : ∀ l : List Str,
    (Finset.univ.filter (fun y : Fin (2 ^ 256) => text E G C (red G y) j ∈ l)).card ≤ l.length * fibre G
  | [] => by
    rw [Finset.filter_eq_empty_iff.2 fun y _ => List.not_mem_nil]
    exact Nat.zero_le _
  | t :: l => by
    have h : Finset.univ.filter (fun y : Fin (2 ^ 256) => text E G C (red G y) j ∈ t :: l) ⊆
        Finset.univ.filter (fun y : Fin (2 ^ 256) => text E G C (red G y) j = t) ∪
        Finset.univ.filter (fun y : Fin (2 ^ 256) => text E G C (red G y) j ∈ l) := by
      intro y hy
      rw [Finset.mem_union, Finset.mem_filter, Finset.mem_filter]
      rcases List.mem_cons.1 (Finset.mem_filter.1 hy).2 with h | h
      · exact Or.inl ⟨Finset.mem_univ _, h⟩
      · exact Or.inr ⟨Finset.mem_univ _, h⟩
    refine (Finset.card_le_card h).trans ((Finset.card_union_le _ _).trans ?_)
    rw [List.length_cons, Nat.add_one_mul, Nat.add_comm]
    exact Nat.add_le_add (card_texts hG hE j l) (card_text hG hE j t)

/-- Few secrets lead to one of some strings. -/
theorem card_roots (hE : E.Proper) {S : Finset ℕ} (hS : ∀ s ∈ S, s < 2 ^ 256) (b : B) (l : List Str) :
    (Finset.univ.filter (fun s : S => rootText E G C s b ∈ l)).card ≤ l.length := by
  classical
  refine le_trans ?_ (List.toFinset_card_le l)
  refine Finset.card_le_card_of_injOn (fun s : S => rootText E G C s b) ?_ ?_
  · intro s hs
    exact List.mem_toFinset.2 (Finset.mem_filter.1 (Finset.mem_coe.1 hs)).2
  · intro s _ t _ h
    exact Subtype.ext (root_inj hE (hS _ s.2) (hS _ t.2) h).1

theorem text_mem [Fintype B] [Fintype K] [Fintype L] (S : Finset ℕ) {a : ℕ} (ha : a < 2 ^ 256) (j : Inner K L) :
    text E G C a j ∈ E.strings G C S := by
  unfold Layout.strings
  generalize 2 ^ 256 = N at *
  exact Finset.mem_union_right _ (Finset.mem_image.2 ⟨(a, j), Finset.mem_product.2 ⟨Finset.mem_range.2 ha,
    Finset.mem_univ _⟩, rfl⟩)

theorem root_mem [Fintype B] [Fintype K] [Fintype L] {S : Finset ℕ} {s : ℕ} (hs : s ∈ S) (b : B) :
    rootText E G C s b ∈ E.strings G C S := by
  unfold Layout.strings
  generalize 2 ^ 256 = N at *
  exact Finset.mem_union_left _ (Finset.mem_image.2 ⟨(s, b), Finset.mem_product.2 ⟨hs, Finset.mem_univ _⟩, rfl⟩)

theorem str_mem [Fintype B] [Fintype K] [Fintype L] (hG : G.Valid) {S : Finset ℕ} {X : Finset Str}
    (hX : E.strings G C S ⊆ X) {n : B → ℕ} (hn : ∀ b, n b ∈ S) (v : Node B K L → Fin (2 ^ 256)) (x : Node B K L) :
    str E G C n v x ∈ X := by
  refine hX ?_
  rcases node_cases x with ⟨b, rfl⟩ | ⟨j, rfl⟩
  · exact root_mem (hn b) b
  · rw [str_node]
    exact text_mem S (red_lt hG _) j

theorem count_roots [Fintype B] [DecidableEq B] (hE : E.Proper) {S : Finset ℕ} (hS : ∀ s ∈ S, s < 2 ^ 256) (l : List Str)
    (k : ℕ) (hl : l.length ≤ k) :
    cnt (fun n : B → S => ∃ b, rootText E G C (n b) b ∈ l) * S.card ≤ Fintype.card B * k * Fintype.card (B → S) := by
  refine cnt_exists (κ := B) (fun b (n : B → S) => rootText E G C (n b) b ∈ l) _ _ _ fun b => ?_
  have := cnt_coord (A := S) (ι := B) b (fun n => rootText E G C (n b) b ∈ l) k (by
    intro n
    simp only [Function.update_self]
    rw [cnt_eq]
    exact (card_roots (G := G) (C := C) hE hS b l).trans hl)
  rwa [Fintype.card_coe] at this

theorem count_texts [Fintype B] [Fintype K] [Fintype L] [DecidableEq (Hid B K L)] [DecidableEq (Leaf K L)] (hG : G.Valid)
    (hE : E.Proper) (l : (Leaf K L → Fin (2 ^ 256)) → List Str) (k : ℕ) (hl : ∀ y, (l y).length ≤ k) :
    cnt (fun v : Node B K L → Fin (2 ^ 256) => ∃ j, text E G C (red G (v (.inl (parent E j)))) j ∈ l (v ∘ Sum.inr)) *
      2 ^ 256 ≤
    (5 * Fintype.card K + 2 * Fintype.card L) * (k * fibre G) * Fintype.card (Node B K L → Fin (2 ^ 256)) := by
  rw [← card_inner]
  refine cnt_exists (fun j (v : Node B K L → Fin (2 ^ 256)) =>
    text E G C (red G (v (.inl (parent E j)))) j ∈ l (v ∘ Sum.inr)) _ _ _ fun j => ?_
  have := cnt_coord (A := Fin (2 ^ 256)) (ι := Node B K L) (.inl (parent E j)) (fun v =>
    text E G C (red G (v (.inl (parent E j)))) j ∈ l (v ∘ Sum.inr)) (k * fibre G) (by
      intro v
      have hv : ∀ y, Function.update v (.inl (parent E j)) y ∘ Sum.inr = v ∘ Sum.inr := fun y => by
        funext x
        simp
      simp only [Function.update_self, hv]
      rw [cnt_eq]
      exact (card_texts (C := C) hG hE j _).trans (Nat.mul_le_mul_right _ (hl _)))
  rwa [Fintype.card_fin] at this

theorem count_coll [Fintype B] [Fintype K] [Fintype L] [DecidableEq (Hid B K L)] [DecidableEq (Leaf K L)] (hG : G.Valid)
    (hE : E.Proper) :
    cnt (fun v : Node B K L → Fin (2 ^ 256) => ∃ j j', parent E j ≠ parent E j' ∧
      text E G C (red G (v (.inl (parent E j)))) j = text E G C (red G (v (.inl (parent E j')))) j') * 2 ^ 256 ≤
    (5 * Fintype.card K + 2 * Fintype.card L) ^ 2 * fibre G * Fintype.card (Node B K L → Fin (2 ^ 256)) := by
  rw [← card_inner, pow_two, Nat.mul_assoc (Fintype.card (Inner K L)) _ (fibre G)]
  refine cnt_exists (fun j (v : Node B K L → Fin (2 ^ 256)) => ∃ j', parent E j ≠ parent E j' ∧
    text E G C (red G (v (.inl (parent E j)))) j = text E G C (red G (v (.inl (parent E j')))) j') _ _ _ fun j => ?_
  refine cnt_exists (fun j' (v : Node B K L → Fin (2 ^ 256)) => parent E j ≠ parent E j' ∧
    text E G C (red G (v (.inl (parent E j)))) j = text E G C (red G (v (.inl (parent E j')))) j') _ _ _ fun j' => ?_
  have := cnt_coord (A := Fin (2 ^ 256)) (ι := Node B K L) (.inl (parent E j)) (fun v =>
    parent E j ≠ parent E j' ∧
    text E G C (red G (v (.inl (parent E j)))) j = text E G C (red G (v (.inl (parent E j')))) j') (fibre G) (by
      intro v
      by_cases hp : parent E j = parent E j'
      · simp [hp, cnt]
      · have hne : (Sum.inl (parent E j') : Node B K L) ≠ .inl (parent E j) := fun h => hp (Sum.inl.inj h).symm
        simp only [Function.update_self, ne_eq, hp, not_false_eq_true, true_and, Function.update_of_ne hne]
        rw [cnt_eq]
        exact card_text (C := C) hG hE j _)
  rwa [Fintype.card_fin] at this

/-! ## The theorem -/

/-- **C117.**  Whoever sees the random numbers of the proofs of the contests and the nonces of all items of all ballots, and may hash `k` strings,
cannot tell them from independent random ones -- up to the chance of guessing the nonce of a ballot, and of a few
coincidences. -/
theorem C117_random [Fintype B] [Fintype K] [Fintype L] (hG : G.Valid) (hE : E.Proper) {S : Finset ℕ} (hne : S.Nonempty)
    (hS : ∀ s ∈ S, s < 2 ^ 256) {X : Finset Str} (hX : E.strings G C S ⊆ X) {k : ℕ}
    (A : (K → ℕ) → (L → ℕ) → Prog Bool k) :
    |freq (fun p : (B → S) × (X → Fin (2 ^ 256)) =>
        (A (E.proofNonce G (C.withOracle X p.2) (fun b => p.1 b)) (E.nonce G (C.withOracle X p.2) (fun b => p.1 b))).run
          (oracle C.sha256 X p.2) = true) -
      freq (fun p : (Leaf K L → Fin (2 ^ 256)) × (X → Fin (2 ^ 256)) =>
        (A (fun c => addModQ G (p.1 (.proof c)) 0) (fun i => addModQ G (p.1 (.item i)) 0)).run
          (oracle C.sha256 X p.2) = true)| ≤
    (Fintype.card B * k : ℚ) / S.card +
      (5 * Fintype.card K + 2 * Fintype.card L) * (k + (5 * Fintype.card K + 2 * Fintype.card L)) * fibre G / 2 ^ 256 := by
  classical
  have hmem := fun (n : B → S) => str_mem (E := E) (C := C) (K := K) (L := L) hG hX (n := fun b => n b) (fun b => (n b).2)
  have : Nonempty S := ⟨⟨_, hne.choose_spec⟩⟩
  have h := exchange_freq (Ω := B → S) (Y := X) (A := Fin (2 ^ 256)) (H := Hid B K L) (Lf := Leaf K L)
    (fun n v x => ⟨str E G C (fun b => n b) v x, hmem n v x⟩) (fun n O => values E G C (fun b => n b) O)
    (fun n O v => values_iff (hmem n) O v)
    (fun y O => (A (fun c => red G (y (.proof c))) (fun i => red G (y (.item i)))).run (oracle C.sha256 X O) = true)
    (fun n O y => ∃ b, rootText E G C (n b) b ∈
      (A (fun c => red G (y (.proof c))) (fun i => red G (y (.item i)))).asked (oracle C.sha256 X O))
    (fun O v => ∃ j, text E G C (red G (v (.inl (parent E j)))) j ∈
      (A (fun c => red G (v (.inr (.proof c)))) (fun i => red G (v (.inr (.item i))))).asked (oracle C.sha256 X O))
    (fun v => ∃ j j', parent E j ≠ parent E j' ∧
      text E G C (red G (v (.inl (parent E j)))) j = text E G C (red G (v (.inl (parent E j')))) j')
    ?_ ?_ S.card (2 ^ 256) (Fintype.card B * k) ((5 * Fintype.card K + 2 * Fintype.card L) * (k * fibre G))
    ((5 * Fintype.card K + 2 * Fintype.card L) ^ 2 * fibre G) (Finset.card_pos.2 hne) (Nat.two_pow_pos _) ?_ ?_ ?_
  · have e1 : ∀ p : (B → S) × (X → Fin (2 ^ 256)), E.proofNonce G (C.withOracle X p.2) (fun b => p.1 b) =
        fun c => red G ((values E G C (fun b => p.1 b) p.2 ∘ Sum.inr) (.proof c)) := fun p =>
      funext (proofNonce_eq (hmem p.1) p.2)
    have e2 : ∀ p : (B → S) × (X → Fin (2 ^ 256)), E.nonce G (C.withOracle X p.2) (fun b => p.1 b) =
        fun i => red G ((values E G C (fun b => p.1 b) p.2 ∘ Sum.inr) (.item i)) := fun p =>
      funext (nonce_eq (hmem p.1) p.2)
    simp only [e1, e2]
    refine h.trans_eq ?_
    push_cast
    ring
  · intro n O v hinj h1 h2
    have hr := run_congr (H := oracle C.sha256 X O) (H' := oracle C.sha256 X (Function.extend
      (fun x => (⟨str E G C (fun b => n b) v x, hmem n v x⟩ : X)) v O))
      (A (fun c => red G ((v ∘ Sum.inr) (.proof c))) (fun i => red G ((v ∘ Sum.inr) (.item i)))) (by
        intro s hs
        unfold oracle
        by_cases hx : s ∈ X
        · rw [dif_pos hx, dif_pos hx, Function.extend_apply' _ _ _ ?_]
          rintro ⟨x, hx'⟩
          have hx'' : str E G C (fun b => n b) v x = s := congrArg Subtype.val hx'
          rw [← hx''] at hs
          rcases node_cases x with ⟨b, rfl⟩ | ⟨j, rfl⟩
          · exact h1 ⟨b, hs⟩
          · rw [str_node] at hs
            exact h2 ⟨j, hs⟩
        · rw [dif_neg hx, dif_neg hx])
    rw [hr]
  · intro n v hinj
    by_contra hc
    refine hinj ?_
    intro x x' hxx
    have hxx' : str E G C (fun b => n b) v x = str E G C (fun b => n b) v x' := congrArg Subtype.val hxx
    rcases node_cases x with ⟨b, rfl⟩ | ⟨j, rfl⟩
    · rcases node_cases x' with ⟨b', rfl⟩ | ⟨j', rfl⟩
      · rw [(root_inj hE (hS _ (n b).2) (hS _ (n b').2) hxx').2]
      · rw [str_node] at hxx'
        exact (root_ne_text _ _ _ _ hxx').elim
    · rw [str_node] at hxx'
      rcases node_cases x' with ⟨b', rfl⟩ | ⟨j', rfl⟩
      · exact (root_ne_text _ _ _ _ hxx'.symm).elim
      · rw [str_node] at hxx'
        by_cases hp : parent E j = parent E j'
        · rw [← hp] at hxx'
          rw [text_ne hE (red_lt hG _) hp hxx']
        · exact (hc ⟨j, j', hp, hxx'⟩).elim
  · intro O y
    exact count_roots hE hS _ k (asked_length _)
  · intro O
    exact count_texts hG hE (fun y => (A (fun c => red G (y (.proof c))) (fun i => red G (y (.item i)))).asked
      (oracle C.sha256 X O)) k fun _ => asked_length _
  · exact count_coll hG hE

/-- The bound for the standard parameters. -/
theorem hashing_bound {b c l k : ℕ} (hB : b ≤ 2 ^ 40) (hK : c ≤ 2 ^ 40) (hL : l ≤ 2 ^ 40) (hk : k ≤ 2 ^ 80) :
    (b * k : ℚ) / Params.std.q + (5 * c + 2 * l) * (k + (5 * c + 2 * l)) * fibre .std / 2 ^ 256 < 1 / 2 ^ 128 := by
  have hq : (2 : ℕ) ^ 255 ≤ Params.std.q := by decide +kernel
  have hf : fibre .std = 3 := by decide +kernel
  rw [hf]
  generalize Params.std.q = q at hq
  have hB' : (b : ℚ) ≤ 2 ^ 40 := by exact_mod_cast hB
  have hK' : (c : ℚ) ≤ 2 ^ 40 := by exact_mod_cast hK
  have hL' : (l : ℚ) ≤ 2 ^ 40 := by exact_mod_cast hL
  have hk' : (k : ℚ) ≤ 2 ^ 80 := by exact_mod_cast hk
  have hq' : (2 : ℚ) ^ 255 ≤ q := by exact_mod_cast hq
  have h0 : (0 : ℚ) ≤ k := Nat.cast_nonneg _
  have h1 : (b * k : ℚ) / q ≤ 2 ^ 40 * 2 ^ 80 / 2 ^ 255 :=
    div_le_div₀ (by positivity) (mul_le_mul hB' hk' h0 (by positivity)) (by positivity) hq'
  have h2 : (5 * c + 2 * l : ℚ) ≤ 7 * 2 ^ 40 := by linarith
  have h3 : (0 : ℚ) ≤ 5 * c + 2 * l := by positivity
  have h4 : (5 * c + 2 * l : ℚ) * (k + (5 * c + 2 * l)) * (3 : ℕ) / 2 ^ 256 ≤
      7 * 2 ^ 40 * (2 ^ 80 + 7 * 2 ^ 40) * 3 / 2 ^ 256 := by
    refine div_le_div_of_nonneg_right ?_ (by positivity)
    have : (5 * c + 2 * l : ℚ) * (k + (5 * c + 2 * l)) ≤
        7 * 2 ^ 40 * (2 ^ 80 + 7 * 2 ^ 40) := mul_le_mul h2 (add_le_add hk' h2) (by positivity) (by positivity)
    push_cast
    linarith
  refine (add_le_add h1 h4).trans_lt ?_
  norm_num

/-- With the standard parameters, ballot nonces drawn from all exponents, up to 2^40 ballots, contests and items, and 2^80
hashes, the difference is below 2^-128. -/
theorem C117_standard [Fintype B] [Fintype K] [Fintype L] (hE : E.Proper) (hB : Fintype.card B ≤ 2 ^ 40)
    (hK : Fintype.card K ≤ 2 ^ 40) (hL : Fintype.card L ≤ 2 ^ 40) {X : Finset Str}
    (hX : E.strings .std C (Finset.range Params.std.q) ⊆ X) {k : ℕ} (hk : k ≤ 2 ^ 80)
    (A : (K → ℕ) → (L → ℕ) → Prog Bool k) :
    |freq (fun p : (B → Finset.range Params.std.q) × (X → Fin (2 ^ 256)) =>
        (A (E.proofNonce .std (C.withOracle X p.2) (fun b => p.1 b))
          (E.nonce .std (C.withOracle X p.2) (fun b => p.1 b))).run (oracle C.sha256 X p.2) = true) -
      freq (fun p : (Leaf K L → Fin (2 ^ 256)) × (X → Fin (2 ^ 256)) =>
        (A (fun c => addModQ .std (p.1 (.proof c)) 0) (fun i => addModQ .std (p.1 (.item i)) 0)).run
          (oracle C.sha256 X p.2) = true)| < 1 / 2 ^ 128 := by
  have hV := C54_std_valid
  refine (C117_random hV hE ⟨0, Finset.mem_range.2 (by have := hV.q_gt; omega)⟩
    (fun s hs => (Finset.mem_range.1 hs).trans hV.q_lt) hX A).trans_lt ?_
  rw [Finset.card_range]
  exact hashing_bound hB hK hL hk

/-! ## The ballots of an election -/

theorem Layout.of_proper {mh : ℕ} {ids : B → Str} {cs : B → List Shape} (hm : mh < 2 ^ 256)
    (hid : ∀ b, ids b ≠ "null".toList) (hinj : Function.Injective ids)
    (hc : ∀ b, ∀ c ∈ cs b, c.descHash < 2 ^ 256 ∧ c.seq < 2 ^ 64 ∧ (∀ s ∈ c.selections, s.1 < 2 ^ 256) ∧
      (c.selections.map Prod.fst).Nodup) (hd : ∀ b, ((cs b).map (·.descHash)).Nodup) :
    (Layout.of mh ids cs).Proper where
  manifestHash := hm
  ballotId := hid
  ballots := hinj
  contestHash c := (hc c.1 _ (List.getElem_mem _)).1
  contestSeq c := (hc c.1 _ (List.getElem_mem _)).2.1
  contests := by
    rintro ⟨b, i⟩ ⟨b', i'⟩ h1 h2
    change b = b' at h1
    subst h1
    change (cs b)[(i : ℕ)].descHash = (cs b)[(i' : ℕ)].descHash at h2
    have := (List.nodup_iff_injective_get.1 (hd b)) (a₁ := ⟨i, by simp⟩) (a₂ := ⟨i', by simp⟩) (by simpa using h2)
    have : (i : ℕ) = i' := by simpa using this
    rw [Fin.ext this]
  itemHash := by
    rintro ⟨⟨b, i⟩, j⟩ h s hi
    cases j with
    | none => cases hi
    | some j =>
      cases hi
      exact (hc b _ (List.getElem_mem _)).2.2.1 _ (List.getElem_mem _)
  items := by
    rintro ⟨⟨b, i⟩, j⟩ ⟨⟨b', i'⟩, j'⟩ h1 h2
    change (⟨b, i⟩ : (b : B) × Fin (cs b).length) = ⟨b', i'⟩ at h1
    cases h1
    cases j with
    | none =>
      cases j' with
      | none => rfl
      | some j' => cases h2
    | some j =>
      cases j' with
      | none => cases h2
      | some j' =>
        have h3 : ((cs b)[i].selections[j]).1 = ((cs b)[i].selections[j']).1 := Option.some.inj h2
        have := (List.nodup_iff_injective_get.1 (hc b _ (List.getElem_mem i.2)).2.2.2) (a₁ := ⟨j, by simp⟩)
          (a₂ := ⟨j', by simp⟩) (by simpa using h3)
        have : (j : ℕ) = j' := by simpa using this
        rw [Fin.ext this]

theorem flatMap_finRange {α β : Type} (l : List α) (f : α → List β) :
    (List.finRange l.length).flatMap (fun i => f l[i]) = l.flatMap f := by
  conv_rhs => rw [← List.map_getElem_finRange l]
  rw [List.flatMap_map]
  rfl

theorem map_finRange {α β : Type} (l : List α) (f : α → β) : (List.finRange l.length).map (fun i => f l[i]) = l.map f := by
  conv_rhs => rw [← List.map_getElem_finRange l]
  rw [List.map_map]
  rfl

/-- **C117.**  The nonces in the layout of ballots are those with which the library encrypts them. -/
theorem C117_encrypts (hG : G.Valid) {S : StdSort} {b : PBallot} {m : IManifest} {ctx : Context} {seed : ℕ} {t : ℕ} {v : Bool}
    {w w' : World} {e : CBallot} {ids : B → Str} {cs : B → List Shape} {n : B → ℕ} {i : B} (hw : w.Empty)
    (h : encryptBallot G C S b m ctx seed (some (n i)) t v w = (.ok e, w')) (hid : b.objectId = ids i)
    (hs : shapes e = cs i) :
    pads e = (itemsOf cs i).map (fun x => G.g ^ (Layout.of m.manifestHash ids cs).nonce G C n x % G.p) := by
  rw [C111_pads hG hw h]
  obtain ⟨n', ds, h1, h2, -, h3, h4, -, -⟩ := ballot_nonces hG hw h
  have hp : places e = (itemsOf cs i).map ((Layout.of m.manifestHash ids cs).place n) := by
    have hn : n' = n i := h2 _ rfl
    subst hn
    let f : Shape → List Place := fun c =>
      c.selections.map (fun s => ⟨m.manifestHash, ids i, n i, c.descHash, c.seq, .selection s.1 s.2⟩) ++
        [⟨m.manifestHash, ids i, n i, c.descHash, c.seq, .extended⟩]
    have hl : places e = (cs i).flatMap f := by
      unfold places
      rw [h1, ← hs, h3, h4, hid]
      unfold shapes
      rw [List.flatMap_map]
      refine List.flatMap_congr fun c _ => ?_
      dsimp only [f, contestPlaces]
      rw [List.map_map]
      rfl
    rw [hl, ← flatMap_finRange]
    unfold itemsOf
    rw [List.map_flatMap]
    refine List.flatMap_congr fun k _ => ?_
    rw [List.map_append, List.map_map]
    dsimp only [f]
    rw [← map_finRange (cs i)[k].selections]
    rfl
  rw [hp, List.map_map]
  rfl

/-- Two ballots with a contest each, with a selection and extended data each. -/
def exampleLayout : Layout (Fin 2) (Fin 2) (Fin 2 × Bool) where
  manifestHash := 6
  ballotId b := if b = 0 then "ballot-1".toList else "ballot-2".toList
  ballot c := c
  contestHash _ := 7
  contestSeq _ := 0
  contest i := i.1
  item i := match i.2 with
    | true => .selection 9 3
    | false => .extended

theorem exampleLayout_proper : exampleLayout.Proper where
  manifestHash := by norm_num [exampleLayout]
  ballotId := by decide
  ballots := by decide
  contestHash _ := by norm_num [exampleLayout]
  contestSeq _ := by norm_num [exampleLayout]
  contests _ _ h _ := h
  itemHash := by
    rintro ⟨c, i⟩ h s hi
    have key : h = 9 := by
      cases i
      · cases hi
      · cases hi; rfl
    rw [key]
    norm_num
  items := by decide

/-- It applies. -/
example (C : Crypto) : exampleLayout.Proper ∧ Fintype.card (Fin 2) ≤ 2 ^ 40 ∧ Fintype.card (Fin 2 × Bool) ≤ 2 ^ 40 ∧
    ∃ X : Finset Str, exampleLayout.strings .std C (Finset.range Params.std.q) ⊆ X :=
  ⟨exampleLayout_proper, by decide, by decide, _, Finset.Subset.refl _⟩

/-- A ballot that is encrypted, as `C117_encrypts` demands. -/
example (S : StdSort) : ∃ e w', World.Empty plainWorld ∧
    encryptBallot .std polyCrypto S exampleBallot (exampleIM 6) (exampleContext (gPowP .std 2) 6) 4 (some 8) 5 false
      plainWorld = (.ok e, w') ∧ (pads e).length = 8 := by
  obtain ⟨e, w, h⟩ := example_run S _ (residue_gPowP C54_std_valid 2 (by norm_num)) 8 (Or.inl rfl)
  refine ⟨e, w, ⟨rfl, rfl⟩, h, ?_⟩
  rw [C111_pads C54_std_valid ⟨rfl, rfl⟩ h, (example_places S _ 8 h).1, List.length_map]
  rfl

end EG.Derived
