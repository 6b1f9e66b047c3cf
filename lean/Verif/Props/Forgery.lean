import Verif.Props.ProofKey
import Verif.Lemmas.Oracle

/-!
# C112: wrong votes are not accepted, but by luck

Whoever makes proofs may call SHA-256 as often as they like, and the strings may depend on earlier answers (`Prog`).
SHA-256 is replaced by a function on a finite set of strings that holds all strings from which challenges are made; the
functions for which a wrong vote is accepted are counted.  The public key is fixed before.
-/

namespace EG

variable (G : Params) (C : Crypto) (S : StdSort)

/-- What is hashed for the challenge of a disjunctive proof. -/
def disjString (h : ℕ) (m : Ciphertext) (π : DisjProof) : Str :=
  hashInput ([.q h, .p m.pad, .p m.data, .p π.zeroPad, .p π.zeroData, .p π.onePad, .p π.oneData].map HAtom.render)

/-- What is hashed for the challenge of a constant proof. -/
def constString (h : ℕ) (m : Ciphertext) (π : ConstProof) : Str :=
  hashInput ([.q h, .p m.pad, .p m.data, .p π.pad, .p π.data].map HAtom.render)

/-- All strings from which challenges are made are in the set. -/
structure HasChallenges (X : Finset Str) : Prop where
  disj : ∀ h m π, h < 2 ^ 256 → m.pad < 2 ^ 4096 → m.data < 2 ^ 4096 → DisjProof.Typed π → disjString h m π ∈ X
  const : ∀ h m π, h < 2 ^ 256 → m.pad < 2 ^ 4096 → m.data < 2 ^ 4096 → ConstProof.Typed π → constString h m π ∈ X

/-- How many digests at most give the same challenge: 3 for the standard parameters. -/
def fibre : ℕ := 2 ^ 256 / G.q + 2

variable {G}

theorem card_digest (hG : G.Valid) (c : ℕ) :
    (Finset.univ.filter (fun y : Fin (2 ^ 256) => addModQ G y 0 = c)).card ≤ fibre G := by
  have hq := hG.q_gt
  have key : ∀ N : ℕ, 0 < N → (∀ y, y < N - 1 → addModQ G y 0 = y % G.q) →
      (Finset.univ.filter (fun y : Fin N => addModQ G y 0 = c)).card ≤ N / G.q + 2 := by
    intro N hN hy
    have h1 : (Finset.univ.filter (fun y : Fin N => addModQ G y 0 = c)).card ≤
        (insert (N - 1) ((Finset.range N).filter (fun y => y % G.q = c))).card := by
      refine Finset.card_le_card_of_injOn (fun y : Fin N => (y : ℕ)) ?_ (fun a _ b _ h => Fin.ext h)
      intro y hm
      have hm := (Finset.mem_filter.1 hm).2
      rw [Finset.mem_coe, Finset.mem_insert, Finset.mem_filter, Finset.mem_range]
      by_cases h : (y : ℕ) = N - 1
      · exact Or.inl h
      · right
        have := y.isLt
        refine ⟨this, ?_⟩
        rw [← hy y (by omega)]
        exact hm
    refine h1.trans ((Finset.card_insert_le _ _).trans ?_)
    have h2 : ((Finset.range N).filter (fun y => y % G.q = c)).card ≤ (Finset.range (N / G.q + 1)).card := by
      refine Finset.card_le_card_of_injOn (fun y => y / G.q) ?_ ?_
      · intro y hm
        have := Finset.mem_range.1 (Finset.mem_filter.1 hm).1
        rw [Finset.mem_coe, Finset.mem_range]
        exact Nat.lt_succ_of_le (Nat.div_le_div_right (le_of_lt this))
      · intro a ha b hb h
        have ha := (Finset.mem_filter.1 ha).2
        have hb := (Finset.mem_filter.1 hb).2
        have h : a / G.q = b / G.q := h
        rw [← Nat.div_add_mod a G.q, ← Nat.div_add_mod b G.q, h, ha, hb]
    rw [Finset.card_range] at h2
    omega
  refine key (2 ^ 256) (by positivity) ?_
  intro y hy
  rw [addModQ_small hG y 0 (by omega), Nat.add_zero]

/-- The answer `y` to `s` makes an accepted proof for a ciphertext of neither 0 nor 1. -/
def BadDisj (G : Params) (K : ℕ) (s : Str) (y : Fin (2 ^ 256)) : Prop :=
  ∃ (C' : Crypto) (h : ℕ) (m : Ciphertext) (π : DisjProof), h < 2 ^ 256 ∧ m.pad < 2 ^ 4096 ∧ m.data < 2 ^ 4096 ∧
    π.Typed ∧ s = disjString h m π ∧ C'.sha256 s = y ∧ π.isValid G C' m K h = true ∧
    ¬ ∃ x r, x < 2 ∧ IsEncryption G K x r m

/-- The answer `y` to `s` makes an accepted proof of the constant `L` for a ciphertext of something else. -/
def BadConst (G : Params) (K L : ℕ) (s : Str) (y : Fin (2 ^ 256)) : Prop :=
  ∃ (C' : Crypto) (h : ℕ) (m : Ciphertext) (π : ConstProof), h < 2 ^ 256 ∧ m.pad < 2 ^ 4096 ∧ m.data < 2 ^ 4096 ∧
    π.Typed ∧ s = constString h m π ∧ C'.sha256 s = y ∧ π.isValid G C' m K h = .ok true ∧ π.constant = L ∧
    ¬ ∃ r, IsEncryption G K L r m

theorem disj_challenge (hG : G.Valid) {K h : ℕ} {m : Ciphertext} {π : DisjProof} (hK : K < 2 ^ 4096) (hp : m.pad < 2 ^ 4096)
    (hd : m.data < 2 ^ 4096) (hπ : π.Typed) (hv : π.isValid G C m K h = true) :
    π.challenge = addModQ G (C.sha256 (disjString h m π)) 0 :=
  ((C23_disjunctive_iff G C hG π hπ m hp hd K h hK).1 hv).c_hash

theorem const_challenge (hG : G.Valid) (hL : G.Large) {K h : ℕ} {m : Ciphertext} {π : ConstProof} (hK : K < 2 ^ 4096)
    (hp : m.pad < 2 ^ 4096) (hd : m.data < 2 ^ 4096) (hπ : π.Typed) (hv : π.isValid G C m K h = .ok true) :
    π.challenge = addModQ G (C.sha256 (constString h m π)) 0 := by
  obtain ⟨b, hb, hiff⟩ := C23_constant_iff G C hG hL π hπ m hp hd K h hK
  rw [hv, Res.ok.injEq] at hb
  exact (hiff.1 hb.symm).c_hash

open Classical in
theorem card_badDisj (hG : G.Valid) {K : ℕ} (hK : K < 2 ^ 4096) (s : Str) :
    (Finset.univ.filter (BadDisj G K s)).card ≤ fibre G := by
  by_cases hne : ∃ y, BadDisj G K s y
  · obtain ⟨y, C1, h, m, π, hh, hp, hd, hπ, hs, hy, hv, hw⟩ := hne
    refine (Finset.card_le_card ?_).trans (card_digest hG π.challenge)
    intro y' hy'
    obtain ⟨C2, h', m', π', hh', hp', hd', hπ', hs', hy', hv', -⟩ := (Finset.mem_filter.1 hy').2
    refine Finset.mem_filter.2 ⟨Finset.mem_univ _, ?_⟩
    have e := C26_encoding_injective_partial
      [.q h, .p m.pad, .p m.data, .p π.zeroPad, .p π.zeroData, .p π.onePad, .p π.oneData]
      [.q h', .p m'.pad, .p m'.data, .p π'.zeroPad, .p π'.zeroData, .p π'.onePad, .p π'.oneData]
      (by
        have := hπ.zp; have := hπ.zd; have := hπ.op; have := hπ.od
        simp [HAtom.Plain, *]; exact hh)
      (by
        have := hπ'.zp; have := hπ'.zd; have := hπ'.op; have := hπ'.od
        simp [HAtom.Plain, *]; exact hh')
      (by simp [HAtom.SameType]) (hs.symm.trans hs')
    simp only [List.cons.injEq, HAtom.q.injEq, HAtom.p.injEq, and_true] at e
    obtain ⟨-, e1, e2, e3, e4, e5, e6⟩ := e
    have em : m = m' := by
      obtain ⟨p1, d1⟩ := m
      obtain ⟨p2, d2⟩ := m'
      exact congr (congrArg _ e1) e2
    subst em
    have c1 := disj_challenge C2 hG hK hp hd hπ' hv'
    rw [← hs', hy'] at c1
    rw [← c1]
    by_contra hne
    exact hw (C20_special_soundness G C1 C2 hG π π' hπ hπ' m hp hd K h h' hK hv hv' e3 e4 e5 e6 (fun e => hne e.symm))
  · have : Finset.univ.filter (BadDisj G K s) = ∅ := Finset.filter_eq_empty_iff.2 (fun y _ h => hne ⟨y, h⟩)
    rw [this]
    simp

open Classical in
theorem card_badConst (hG : G.Valid) (hL : G.Large) {K : ℕ} (hK : K < 2 ^ 4096) (L : ℕ) (s : Str) :
    (Finset.univ.filter (BadConst G K L s)).card ≤ fibre G := by
  by_cases hne : ∃ y, BadConst G K L s y
  · obtain ⟨y, C1, h, m, π, hh, hp, hd, hπ, hs, hy, hv, rfl, hw⟩ := hne
    refine (Finset.card_le_card ?_).trans (card_digest hG π.challenge)
    intro y' hy'
    obtain ⟨C2, h', m', π', hh', hp', hd', hπ', hs', hy', hv', hc', -⟩ := (Finset.mem_filter.1 hy').2
    refine Finset.mem_filter.2 ⟨Finset.mem_univ _, ?_⟩
    have e := C26_encoding_injective_partial
      [.q h, .p m.pad, .p m.data, .p π.pad, .p π.data] [.q h', .p m'.pad, .p m'.data, .p π'.pad, .p π'.data]
      (by have := hπ.pad; have := hπ.data; simp [HAtom.Plain, *]; exact hh)
      (by have := hπ'.pad; have := hπ'.data; simp [HAtom.Plain, *]; exact hh')
      (by simp [HAtom.SameType]) (hs.symm.trans hs')
    simp only [List.cons.injEq, HAtom.q.injEq, HAtom.p.injEq, and_true] at e
    obtain ⟨-, e1, e2, e3, e4⟩ := e
    have em : m = m' := by
      obtain ⟨p1, d1⟩ := m
      obtain ⟨p2, d2⟩ := m'
      exact congr (congrArg _ e1) e2
    subst em
    have c1 := const_challenge C2 hG hL hK hp hd hπ' hv'
    rw [← hs', hy'] at c1
    rw [← c1]
    by_contra hne
    exact hw (C22_special_soundness G C1 C2 hG hL π π' hπ hπ' m hp hd K h h' hK hv hv' e3 e4 hc'.symm
      (fun e => hne e.symm))
  · have : Finset.univ.filter (BadConst G K L s) = ∅ := Finset.filter_eq_empty_iff.2 (fun y _ h => hne ⟨y, h⟩)
    rw [this]
    simp

/-- The answer makes an accepted proof of one kind or the other, with a constant below `M`. -/
def Bad (G : Params) (K M : ℕ) (s : Str) (y : Fin (2 ^ 256)) : Prop :=
  BadDisj G K s y ∨ ∃ L < M, BadConst G K L s y

open Classical in
theorem card_bad (hG : G.Valid) (hL : G.Large) {K : ℕ} (hK : K < 2 ^ 4096) (M : ℕ) (s : Str) :
    (Finset.univ.filter (Bad G K M s)).card ≤ fibre G * (M + 1) := by
  have h1 : Finset.univ.filter (Bad G K M s) ⊆ Finset.univ.filter (BadDisj G K s) ∪
      (Finset.range M).biUnion (fun L => Finset.univ.filter (BadConst G K L s)) := by
    intro y hy
    rw [Finset.mem_union, Finset.mem_filter, Finset.mem_biUnion]
    rcases (Finset.mem_filter.1 hy).2 with h | ⟨L, hl, h⟩
    · exact Or.inl ⟨Finset.mem_univ _, h⟩
    · exact Or.inr ⟨L, Finset.mem_range.2 hl, Finset.mem_filter.2 ⟨Finset.mem_univ _, h⟩⟩
  have h2 := (Finset.card_le_card h1).trans ((Finset.card_union_le _ _).trans
    (Nat.add_le_add_left Finset.card_biUnion_le _))
  have h3 : ∑ L ∈ Finset.range M, (Finset.univ.filter (BadConst G K L s)).card ≤ ∑ _L ∈ Finset.range M, fibre G :=
    Finset.sum_le_sum (fun L _ => card_badConst hG hL hK L s)
  rw [Finset.sum_const, Finset.card_range, nsmul_eq_mul, Nat.cast_id] at h3
  have h4 := card_badDisj hG hK s
  have h5 : fibre G * (M + 1) = fibre G + M * fibre G := by ring
  omega

theorem piFinset_univ_card (X : Finset Str) (N : ℕ) :
    (Fintype.piFinset (fun _ : X => (Finset.univ : Finset (Fin N)))).card = Fintype.card (X → Fin N) := by
  rw [Fintype.piFinset_univ, Finset.card_univ]

open Classical in
/-- What is counted, once every win means a bad answer. -/
theorem count_wins {α : Type} {X : Finset Str} {n v β : ℕ} (P : Prog α n) (B : Str → Fin (2 ^ 256) → Prop)
    (hB : ∀ s, (Finset.univ.filter (B s)).card ≤ β) (V : α → List Str) (Win : (X → Fin (2 ^ 256)) → Prop)
    (hW : ∀ O, Win O → (V (P.run (C.withOracle X O).sha256)).length ≤ v ∧
      ∃ s ∈ V (P.run (C.withOracle X O).sha256), s ∈ X ∧ ∀ y : Fin (2 ^ 256), (y : ℕ) = (C.withOracle X O).sha256 s → B s y) :
    (Finset.univ.filter Win).card * 2 ^ 256 ≤ β * (n + v) * Fintype.card (X → Fin (2 ^ 256)) := by
  have h1 := count_prog (X := X) (v := v) C.sha256 B hB V P (fun _ => Finset.univ) (fun _ => Or.inl rfl)
  rw [piFinset_univ_card] at h1
  refine (Nat.mul_le_mul_right _ (Finset.card_le_card ?_)).trans h1
  intro O hO
  obtain ⟨h2, s, hs, hx, hb⟩ := hW O (Finset.mem_filter.1 hO).2
  refine Finset.mem_filter.2 ⟨by simp, h2, s, List.mem_append_right _ hs, hx, hb _ ?_⟩
  show _ = oracle C.sha256 X O s
  unfold oracle
  rw [dif_pos hx]

open Classical in
/-- C112, disjunctive proofs: of the hash functions, the part for which a program with `n` calls ends in an accepted
proof for a ciphertext of neither 0 nor 1 is at most `3 (n + 1) / 2 ^ 256` (for the standard parameters). -/
theorem C112_disjunctive (hG : G.Valid) {K : ℕ} (hK : K < 2 ^ 4096) {X : Finset Str} (hX : HasChallenges X) {n : ℕ}
    (P : Prog (ℕ × Ciphertext × DisjProof) n) :
    (Finset.univ.filter (fun O : X → Fin (2 ^ 256) =>
      ∃ h m π, P.run (C.withOracle X O).sha256 = (h, m, π) ∧ h < 2 ^ 256 ∧ m.pad < 2 ^ 4096 ∧ m.data < 2 ^ 4096 ∧
        DisjProof.Typed π ∧ π.isValid G (C.withOracle X O) m K h = true ∧
        ¬ ∃ x r, x < 2 ∧ IsEncryption G K x r m)).card * 2 ^ 256 ≤
      fibre G * (n + 1) * Fintype.card (X → Fin (2 ^ 256)) := by
  refine count_wins C P (BadDisj G K) (card_badDisj hG hK) (fun r => [disjString r.1 r.2.1 r.2.2]) _ ?_
  rintro O ⟨h, m, π, hr, hh, hp, hd, hπ, hv, hw⟩
  rw [hr]
  refine ⟨by simp, _, List.mem_singleton.2 rfl, hX.disj h m π hh hp hd hπ, ?_⟩
  intro y hy
  exact ⟨C.withOracle X O, h, m, π, hh, hp, hd, hπ, rfl, hy.symm, hv, hw⟩

open Classical in
/-- C112, constant proofs for a given constant. -/
theorem C112_constant (hG : G.Valid) (hL : G.Large) {K : ℕ} (hK : K < 2 ^ 4096) {X : Finset Str} (hX : HasChallenges X)
    (L : ℕ) {n : ℕ} (P : Prog (ℕ × Ciphertext × ConstProof) n) :
    (Finset.univ.filter (fun O : X → Fin (2 ^ 256) =>
      ∃ h m π, P.run (C.withOracle X O).sha256 = (h, m, π) ∧ h < 2 ^ 256 ∧ m.pad < 2 ^ 4096 ∧ m.data < 2 ^ 4096 ∧
        ConstProof.Typed π ∧ π.isValid G (C.withOracle X O) m K h = .ok true ∧ π.constant = L ∧
        ¬ ∃ r, IsEncryption G K L r m)).card * 2 ^ 256 ≤
      fibre G * (n + 1) * Fintype.card (X → Fin (2 ^ 256)) := by
  refine count_wins C P (BadConst G K L) (card_badConst hG hL hK L) (fun r => [constString r.1 r.2.1 r.2.2]) _ ?_
  rintro O ⟨h, m, π, hr, hh, hp, hd, hπ, hv, hc, hw⟩
  rw [hr]
  refine ⟨by simp, _, List.mem_singleton.2 rfl, hX.const h m π hh hp hd hπ, ?_⟩
  intro y hy
  exact ⟨C.withOracle X O, h, m, π, hh, hp, hd, hπ, rfl, hy.symm, hv, hc, hw⟩

/-! ## Ballots -/

/-- The number of proofs of a ballot. -/
def CBallot.proofs (b : CBallot) : ℕ := (b.contests.map (fun c => c.selections.length + 1)).sum

/-- The strings from which their challenges are made. -/
def CBallot.challengeStrings (ext : ℕ) (b : CBallot) : List Str :=
  b.contests.flatMap (fun c => c.selections.flatMap (fun s => s.proof.toList.map (disjString ext s.ciphertext)) ++
    c.proof.toList.map (constString ext c.accumulation))

theorem challengeStrings_length (ext : ℕ) (b : CBallot) : (b.challengeStrings ext).length ≤ b.proofs := by
  have h1 : ∀ l : List CSelection,
      (l.flatMap (fun s => s.proof.toList.map (disjString ext s.ciphertext))).length ≤ l.length := by
    intro l
    induction l with
    | nil => simp
    | cons s l ih =>
      rw [List.flatMap_cons, List.length_append, List.length_cons, List.length_map]
      have : s.proof.toList.length ≤ 1 := by cases s.proof <;> simp
      omega
  unfold CBallot.challengeStrings CBallot.proofs
  induction b.contests with
  | nil => simp
  | cons c l ih =>
    rw [List.flatMap_cons, List.length_append, List.map_cons, List.sum_cons, List.length_append, List.length_map]
    have : c.proof.toList.length ≤ 1 := by cases c.proof <;> simp
    have := h1 c.selections
    omega

/-- Each selection of the contest encrypts 0 or 1, and the votes add up to the number in its proof. -/
def RightVotes (G : Params) (K : ℕ) (c : CContest) : Prop :=
  ∃ (votes : List ℕ) (π : ConstProof), c.proof = some π ∧ votes.sum = π.constant ∧
    List.Forall₂ (fun v s => v < 2 ∧ ∃ r, IsEncryption G K v r s.ciphertext) votes c.selections

/-- A valid ballot is right if no answer of the hash function at its challenges is a bad one. -/
theorem rightVotes_of_answers (hG : G.Valid) (hL : G.Large) {K : ℕ} (hK : Residue G K) {X : Finset Str}
    (hX : HasChallenges X) (O : X → Fin (2 ^ 256)) {mh ext : ℕ} {b : CBallot} (he : ext < 2 ^ 256)
    (ht : ∀ c ∈ b.contests, CContest.Typed c) (hn : b.keys.Nodup) (hb : b.proofs < G.q)
    (hv : b.isValid G (C.withOracle X O) S mh K ext = .ok true)
    (hbad : ∀ s ∈ b.challengeStrings ext, s ∈ X →
      ∃ y : Fin (2 ^ 256), (y : ℕ) = (C.withOracle X O).sha256 s ∧ ¬ Bad G K (2 ^ 64) s y) :
    ∀ c ∈ b.contests, RightVotes G K c := by
  have spec := (C36_valid_iff_partial G (C.withOracle X O) S hG hL mh K ext (hK.lt hG) b ht hn).1 hv
  intro c hc
  have sc := spec.contests c hc
  have tc := ht c hc
  have hlen : c.selections.length < G.q := by
    have : c.selections.length + 1 ≤ b.proofs := List.single_le_sum (by simp) _ (List.mem_map_of_mem hc)
    omega
  obtain ⟨π, hπ, hsp⟩ := sc.proof
  have hsel : ∀ s ∈ c.selections, ∃ x r, x < 2 ∧ IsEncryption G K x r s.ciphertext := by
    intro s hs
    have ts := tc.selections s hs
    obtain ⟨σ, hσ, hss⟩ := (spec.selections c hc s hs).proof
    have hval := (C23_disjunctive_iff G (C.withOracle X O) hG σ (ts.proof σ hσ) s.ciphertext ts.pad ts.data K ext
      (hK.lt hG)).2 hss
    obtain ⟨y, hy, hn⟩ := hbad (disjString ext s.ciphertext σ) (List.mem_flatMap.2 ⟨c, hc, List.mem_append_left _
      (List.mem_flatMap.2 ⟨s, hs, by rw [hσ]; simp⟩)⟩) (hX.disj ext s.ciphertext σ he ts.pad ts.data (ts.proof σ hσ))
    by_contra h3
    exact hn (Or.inl ⟨C.withOracle X O, ext, s.ciphertext, σ, he, ts.pad, ts.data, ts.proof σ hσ, rfl, hy.symm, hval, h3⟩)
  have hacc : ∃ r, IsEncryption G K π.constant r c.accumulation := by
    have hpl := hsp.res_alpha.lt hG
    have hdl := hsp.res_beta.lt hG
    have tπ := tc.proof π hπ
    have hval : π.isValid G (C.withOracle X O) c.accumulation K ext = .ok true := by
      obtain ⟨b, hb, hiff⟩ := C23_constant_iff G (C.withOracle X O) hG hL π tπ c.accumulation hpl hdl K ext (hK.lt hG)
      rw [hb, hiff.2 hsp]
    obtain ⟨y, hy, hn⟩ := hbad (constString ext c.accumulation π) (List.mem_flatMap.2 ⟨c, hc, List.mem_append_right _
      (by rw [hπ]; simp)⟩) (hX.const ext c.accumulation π he hpl hdl tπ)
    by_contra h3
    exact hn (Or.inr ⟨π.constant, tπ.co, C.withOracle X O, ext, c.accumulation, π, he, hpl, hdl, tπ, rfl, hy.symm,
      hval, rfl, h3⟩)
  obtain ⟨votes, h1, h2⟩ := votes_of_encryptions G (C.withOracle X O) S hG hL K ext hK c tc hlen sc hsel π hπ hacc
  exact ⟨votes, π, hπ, h1, h2⟩

open Classical in
/-- C112, ballots: of the hash functions, the part for which a program with `n` calls ends in a ballot with up to `v`
proofs that is valid, though some contest has a selection of neither 0 nor 1, or votes that do not add up to the number
in its proof, is at most `3 (2 ^ 64 + 1) (n + v) / 2 ^ 256` (for the standard parameters). -/
theorem C112_ballot (hG : G.Valid) (hL : G.Large) {K : ℕ} (hK : Residue G K) {X : Finset Str} (hX : HasChallenges X)
    {n v : ℕ} (hvq : v < G.q) (P : Prog (ℕ × ℕ × CBallot) n) :
    (Finset.univ.filter (fun O : X → Fin (2 ^ 256) =>
      ∃ mh ext b, P.run (C.withOracle X O).sha256 = (mh, ext, b) ∧ ext < 2 ^ 256 ∧ (∀ c ∈ b.contests, CContest.Typed c) ∧
        b.keys.Nodup ∧ b.proofs ≤ v ∧ b.isValid G (C.withOracle X O) S mh K ext = .ok true ∧
        ¬ ∀ c ∈ b.contests, RightVotes G K c)).card * 2 ^ 256 ≤
      fibre G * (2 ^ 64 + 1) * (n + v) * Fintype.card (X → Fin (2 ^ 256)) := by
  refine count_wins C P (Bad G K (2 ^ 64)) (card_bad hG hL (hK.lt hG) (2 ^ 64)) (fun r => r.2.2.challengeStrings r.2.1) _ ?_
  rintro O ⟨mh, ext, b, hr, he, ht, hn, hb, hv, hw⟩
  rw [hr]
  refine ⟨(challengeStrings_length ext b).trans hb, ?_⟩
  by_contra hno
  apply hw
  refine rightVotes_of_answers C S hG hL hK hX O he ht hn (by omega) hv ?_
  intro s h1 h2
  by_contra h3
  exact hno ⟨s, h1, h2, fun y hy => by
    by_contra h4
    exact h3 ⟨y, hy, h4⟩⟩

/-! ## The bounds are not larger than needed -/

/-- An accepted proof that a ciphertext of `t` encrypts 0 or 1, if the challenge is 2. -/
def luckyProof (G : Params) (K t : ℕ) : DisjProof where
  zeroPad := gPowP G 1
  zeroData := K * G.g ^ (G.q - t) % G.p
  onePad := gPowP G 1
  oneData := K * G.g ^ (G.q - t + 1) % G.p
  zeroChallenge := 1
  oneChallenge := 1
  challenge := 2
  zeroResponse := 1
  oneResponse := 1

theorem residue_mod (hG : G.Valid) {x : ℕ} (hx : (x : ZMod G.p) ^ G.q = 1) : Residue G (x % G.p) :=
  residue_of_cast hG (Nat.mod_lt _ (by have := hG.p_gt; omega)) (by rw [ZMod.natCast_mod]; exact hx)

theorem luckyProof_typed (hG : G.Valid) {K t : ℕ} : (luckyProof G K t).Typed := by
  have hp := hG.p_lt
  have hp0 : 0 < G.p := by have := hG.p_gt; omega
  refine ⟨gPowP_lt4096 hG 1 (by norm_num), lt_trans (Nat.mod_lt _ hp0) hp, gPowP_lt4096 hG 1 (by norm_num),
    lt_trans (Nat.mod_lt _ hp0) hp, ?_, ?_, ?_, ?_, ?_⟩ <;> norm_num [luckyProof]

theorem luckyProof_valid (hG : G.Valid) {K t h : ℕ} (hK : Residue G K) (ht : t < G.q)
    (hc : addModQ G (C.sha256 (disjString h (bareCiphertext G t) (luckyProof G K t))) 0 = 2) :
    (luckyProof G K t).isValid G C (bareCiphertext G t) K h = true := by
  have hq := hG.q_lt
  have hgt := hG.q_gt
  have r1 := residue_one hG
  have tq := lt_trans ht hq
  have rt := residue_gPowP hG t tq
  have rg := residue_gPowP hG 1 (by norm_num)
  have e : ∀ k, ((K * G.g ^ k : ℕ) : ZMod G.p) ^ G.q = 1 := by
    intro k
    push_cast
    rw [mul_pow, hK.pow_q hG, ← pow_mul, mul_comm k, pow_mul, g_pow_q hG, one_pow, one_mul]
  have hg : (G.g : ZMod G.p) ^ (G.q - t) * (G.g : ZMod G.p) ^ t = 1 := by
    rw [← pow_add, Nat.sub_add_cancel (le_of_lt ht), g_pow_q hG]
  refine (disj_isValid_iff hG _ (luckyProof_typed hG) _ (r1.lt hG) (rt.lt hG) K h (hK.lt hG)).2
    { res_alpha := r1, res_beta := rt, res_a0 := rg, res_b0 := residue_mod hG (e _), res_a1 := rg
      res_b1 := residue_mod hG (e _), c0_pos := by norm_num [luckyProof], c0_lt := ?_, c1_pos := by norm_num [luckyProof]
      c1_lt := ?_, v0_pos := by norm_num [luckyProof], v0_lt := ?_, v1_pos := by norm_num [luckyProof], v1_lt := ?_
      c_sum := ?_, c_hash := hc.symm, gv0 := ?_, gv1 := ?_, kv0 := ?_, gckv1 := ?_ }
  · show 1 < G.q; omega
  · show 1 < G.q; omega
  · show 1 < G.q; omega
  · show 1 < G.q; omega
  · show (1 + 1) % G.q = 2
    exact Nat.mod_eq_of_lt (by omega)
  · rw [modEq_cast]
    simp only [luckyProof, bareCiphertext]
    push_cast
    rw [cast_gPowP hG 1 (by norm_num)]
    simp
  · rw [modEq_cast]
    simp only [luckyProof, bareCiphertext]
    push_cast
    rw [cast_gPowP hG 1 (by norm_num)]
    simp
  · rw [modEq_cast]
    simp only [luckyProof, bareCiphertext]
    push_cast
    rw [cast_gPowP hG t tq, pow_one, pow_one, ZMod.natCast_mod]
    push_cast
    rw [mul_assoc, hg, mul_one]
  · rw [modEq_cast]
    simp only [luckyProof, bareCiphertext]
    push_cast
    rw [cast_gPowP hG t tq, pow_one, pow_one, pow_one, ZMod.natCast_mod]
    push_cast
    rw [pow_succ, mul_assoc, mul_right_comm, hg, one_mul, mul_comm]

open Classical in
/-- C112: for every key and every number `t` of votes there is a program without calls whose proof for a ciphertext of
`t` is accepted by a part `1 / 2 ^ 256` of the hash functions: the bound of `C112_disjunctive` for `n = 0` is three
times this. -/
theorem C112_luck (hG : G.Valid) {K t h : ℕ} (hK : Residue G K) (h2 : 2 ≤ t) (ht : t < G.q) (hh : h < 2 ^ 256)
    {X : Finset Str} (hX : HasChallenges X) :
    ∃ P : Prog (ℕ × Ciphertext × DisjProof) 0,
      Fintype.card (X → Fin (2 ^ 256)) ≤ (Finset.univ.filter (fun O : X → Fin (2 ^ 256) =>
        ∃ h m π, P.run (C.withOracle X O).sha256 = (h, m, π) ∧ h < 2 ^ 256 ∧ m.pad < 2 ^ 4096 ∧ m.data < 2 ^ 4096 ∧
          DisjProof.Typed π ∧ π.isValid G (C.withOracle X O) m K h = true ∧
          ¬ ∃ x r, x < 2 ∧ IsEncryption G K x r m)).card * 2 ^ 256 := by
  have tq := lt_trans ht hG.q_lt
  have hs := hX.disj h (bareCiphertext G t) (luckyProof G K t) hh ((residue_one hG).lt hG)
    ((residue_gPowP hG t tq).lt hG) (luckyProof_typed hG)
  refine ⟨.done (h, bareCiphertext G t, luckyProof G K t), ?_⟩
  rw [← piFinset_univ_card, ← card_fix (fun _ : X => Finset.univ) ⟨_, hs⟩ rfl ⟨2, by norm_num⟩]
  refine Nat.mul_le_mul_right _ (Finset.card_le_card ?_)
  intro O hO
  refine Finset.mem_filter.2 ⟨Finset.mem_univ _, h, _, _, rfl, hh, (residue_one hG).lt hG,
    (residue_gPowP hG t tq).lt hG, luckyProof_typed hG, ?_, ?_⟩
  · refine luckyProof_valid _ hG hK ht ?_
    have h1 := Fintype.mem_piFinset.1 hO ⟨_, hs⟩
    rw [Function.update_self, Finset.mem_singleton] at h1
    have h3 : (C.withOracle X O).sha256 (disjString h (bareCiphertext G t) (luckyProof G K t)) = 2 := by
      show oracle C.sha256 X O _ = 2
      unfold oracle
      rw [dif_pos hs, h1]
    rw [h3, addModQ_small hG 2 0 (by norm_num)]
    exact Nat.mod_eq_of_lt hG.q_gt
  · rintro ⟨x, r, hx, henc⟩
    have := isEncryption_unique G hG hK henc (bareCiphertext_encrypts G hG K t ht)
    have hgt := hG.q_gt
    rw [Nat.mod_eq_of_lt ht, Nat.mod_eq_of_lt (by omega)] at this
    omega

/-- An accepted proof that a ciphertext of `t` encrypts `L`, if the challenge is `c`: `L` and `c` are not hashed. -/
def lateProof (G : Params) (K c L : ℕ) : ConstProof where
  pad := gPowP G 1
  data := K * G.g % G.p
  challenge := c
  response := 1
  constant := L

/-- C112: the constant is not part of what is hashed, so it may be chosen after the challenge is known.  Here one
ciphertext of `t` with one pair of commitments has, for each of the other constants, a challenge of its own with which
the constant is proved: a program that outputs a constant proof has `2 ^ 64` chances with one call. -/
theorem C112_constant_late (hG : G.Valid) (hL : G.Large) {K t h : ℕ} (hK : Residue G K) (ht : t < 2 ^ 64) :
    ∃ s : Str, ∃ f : ℕ → ℕ, (∀ L < 2 ^ 64, L ≠ t → 0 < f L ∧ f L < G.q ∧
      (∀ L' < 2 ^ 64, L' ≠ t → f L = f L' → L = L') ∧
      ∀ C' : Crypto, addModQ G (C'.sha256 s) 0 = f L → ∃ π : ConstProof, π.Typed ∧ π.constant = L ∧
        π.pad = gPowP G 1 ∧ π.data = K * G.g % G.p ∧
        π.isValid G C' (bareCiphertext G t) K h = .ok true ∧ ¬ ∃ r, IsEncryption G K L r (bareCiphertext G t)) := by
  have hq := hG.q_lt
  have hgt := hG.q_gt
  have hlarge := hL.q_ge
  have htq : t < G.q := lt_of_lt_of_le ht hlarge
  have tq := lt_trans htq hq
  have r1 := residue_one hG
  have rt := residue_gPowP hG t tq
  have rg := residue_gPowP hG 1 (by norm_num)
  have : Fact G.q.Prime := ⟨hG.q_prime⟩
  have ex : ∀ L, L < 2 ^ 64 → L ≠ t → ((L : ZMod G.q) - t) ≠ 0 := by
    intro L hl hne h0
    rw [sub_eq_zero, ZMod.natCast_eq_natCast_iff'] at h0
    rw [Nat.mod_eq_of_lt htq, Nat.mod_eq_of_lt (lt_of_lt_of_le hl hlarge)] at h0
    exact hne h0
  refine ⟨constString h (bareCiphertext G t) (lateProof G K 0 0), fun L => (((L : ZMod G.q) - t)⁻¹).val, ?_⟩
  intro L hl hne
  have hinv : ((L : ZMod G.q) - t)⁻¹ ≠ 0 := inv_ne_zero (ex L hl hne)
  have hpos : 0 < (((L : ZMod G.q) - t)⁻¹).val := Nat.pos_of_ne_zero (fun h0 => hinv ((ZMod.val_eq_zero _).1 h0))
  have hlt : (((L : ZMod G.q) - t)⁻¹).val < G.q := ZMod.val_lt _
  refine ⟨hpos, hlt, ?_, ?_⟩
  · intro L' hl' _ he
    have h1 := inv_injective (ZMod.val_injective _ he)
    have h3 : (L : ZMod G.q) = L' := by
      have := congrArg (· + (t : ZMod G.q)) h1
      simpa using this
    rw [ZMod.natCast_eq_natCast_iff', Nat.mod_eq_of_lt (lt_of_lt_of_le hl hlarge),
      Nat.mod_eq_of_lt (lt_of_lt_of_le hl' hlarge)] at h3
    exact h3
  · intro C' hc
    dsimp only at hc
    obtain ⟨c, hcv⟩ : ∃ c, c = (((L : ZMod G.q) - t)⁻¹).val := ⟨_, rfl⟩
    rw [← hcv] at hc hpos hlt
    have hcz : (c : ZMod G.q) = ((L : ZMod G.q) - t)⁻¹ := by rw [hcv, ZMod.natCast_zmod_val]
    have hmod : (c * L) % G.q = (1 + t * c) % G.q := by
      have h3 : ((c * L : ℕ) : ZMod G.q) = ((1 + t * c : ℕ) : ZMod G.q) := by
        push_cast
        have h4 : (c : ZMod G.q) * ((L : ZMod G.q) - t) = 1 := by
          rw [hcz]
          exact inv_mul_cancel₀ (ex L hl hne)
        rw [mul_sub, sub_eq_iff_eq_add] at h4
        rw [h4, mul_comm (t : ZMod G.q)]
      exact (ZMod.natCast_eq_natCast_iff' _ _ _).1 h3
    have rb : Residue G (K * G.g % G.p) := by
      refine residue_mod hG ?_
      push_cast
      rw [mul_pow, hK.pow_q hG, g_pow_q hG, one_mul]
    have typed : (lateProof G K c L).Typed :=
      ⟨rg.lt hG, rb.lt hG, lt_trans hlt hq, by norm_num [lateProof], hl⟩
    refine ⟨lateProof G K c L, typed, rfl, rfl, rfl, ?_, ?_⟩
    · obtain ⟨b, hb, hiff⟩ := C23_constant_iff G C' hG hL (lateProof G K c L) typed (bareCiphertext G t) (r1.lt hG)
        (rt.lt hG) K h (hK.lt hG)
      rw [hb, Res.ok.injEq]
      refine hiff.2
        { res_alpha := r1, res_beta := rt, res_a := rg, res_b := rb, c_pos := hpos, c_lt := hlt
          v_pos := by norm_num [lateProof], v_lt := ?_, c_hash := hc.symm, gv := ?_, gckv := ?_ }
      · show 1 < G.q; omega
      · rw [modEq_cast]
        simp only [lateProof, bareCiphertext]
        push_cast
        rw [cast_gPowP hG 1 (by norm_num)]
        simp
      · rw [modEq_cast]
        simp only [lateProof, bareCiphertext]
        push_cast
        rw [cast_gPowP hG t tq, pow_one, ZMod.natCast_mod]
        push_cast
        rw [pow_congr (g_pow_q hG) hmod, pow_add, pow_one, ← pow_mul]
        ring
    · rintro ⟨r, henc⟩
      have := isEncryption_unique G hG hK henc (bareCiphertext_encrypts G hG K t htq)
      rw [Nat.mod_eq_of_lt htq, Nat.mod_eq_of_lt (lt_of_lt_of_le hl hlarge)] at this
      exact hne this

/-- A set with all strings from which challenges are made. -/
theorem exists_challenges : ∃ X : Finset Str, HasChallenges X := by
  let f : Fin (2 ^ 256) × (Fin 6 → Fin (2 ^ 4096)) → Str := fun x =>
    hashInput ([.q x.1, .p (x.2 0), .p (x.2 1), .p (x.2 2), .p (x.2 3), .p (x.2 4), .p (x.2 5)].map HAtom.render)
  let g : Fin (2 ^ 256) × (Fin 4 → Fin (2 ^ 4096)) → Str := fun x =>
    hashInput ([.q x.1, .p (x.2 0), .p (x.2 1), .p (x.2 2), .p (x.2 3)].map HAtom.render)
  refine ⟨(Set.finite_range f).toFinset ∪ (Set.finite_range g).toFinset, ⟨?_, ?_⟩⟩
  · intro h m π hh hp hd hπ
    rw [Finset.mem_union, Set.Finite.mem_toFinset, Set.Finite.mem_toFinset]
    exact Or.inl ⟨(⟨h, hh⟩, ![⟨_, hp⟩, ⟨_, hd⟩, ⟨_, hπ.zp⟩, ⟨_, hπ.zd⟩, ⟨_, hπ.op⟩, ⟨_, hπ.od⟩]), rfl⟩
  · intro h m π hh hp hd hπ
    rw [Finset.mem_union, Set.Finite.mem_toFinset, Set.Finite.mem_toFinset]
    exact Or.inr ⟨(⟨h, hh⟩, ![⟨_, hp⟩, ⟨_, hd⟩, ⟨_, hπ.pad⟩, ⟨_, hπ.data⟩]), rfl⟩

/-- The hypotheses are met: the standard parameters, a key, such a set, and three digests at most for a challenge. -/
example : Params.Valid .std ∧ Params.std.Large ∧ Residue .std (gPowP .std 2) ∧ (∃ X : Finset Str, HasChallenges X) ∧
    fibre .std = 3 ∧ 1000 < Params.std.q :=
  ⟨C54_std_valid, std_large, residue_gPowP C54_std_valid 2 (by norm_num), exists_challenges, by decide +kernel,
    by decide +kernel⟩

end EG
