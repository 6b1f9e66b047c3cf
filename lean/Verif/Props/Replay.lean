import Verif.Props.BallotHash
import Mathlib.Data.List.Rotate
import Mathlib.Algebra.BigOperators.Group.List.Basic

/-!
# C114: ciphertexts with their proofs can be copied and moved

The challenges are hashes of the extended base hash, the ciphertext and the commitments: neither the ballot nor the
contest nor the selection occurs in them.  What a valid ballot says can be said again under another id, and with other
selections, by anyone who has read it.
-/

namespace EG

variable {G : Params} (C : Crypto) (S : StdSort)

/-! ## A program that copies -/

/-- The selection with another ciphertext and proof, and the hash for it (ballot.cpp:382-389 `makeCryptoHash`). -/
def CSelection.remake (G : Params) (C : Crypto) (s : CSelection) (x : Ciphertext × Option DisjProof) : CSelection :=
  { s with
    ciphertext := x.1
    proof := x.2
    nonce := none
    cryptoHash := hashElems G C [.str s.objectId, .q s.descHash, .q (hashElems G C [.p x.1.pad, .p x.1.data])] }

/-- The contest with other ciphertexts and proofs in its selections, and the hash for it (ballot.cpp:784-797). -/
def CContest.remake (G : Params) (C : Crypto) (S : StdSort) (c : CContest)
    (parts : List (Ciphertext × Option DisjProof)) : CContest :=
  { c with
    selections := List.zipWith (CSelection.remake G C) c.selections parts
    nonce := none
    cryptoHash := hashElems G C (.str c.objectId :: .q c.descHash ::
      (S.sort CSelection.seq (List.zipWith (CSelection.remake G C) c.selections parts)).map (fun s => .q s.cryptoHash)) }

/-- The ballot under another id, at another time, with the hash (ballot.cpp:1135-1149) and the code for it. -/
def CBallot.remake (G : Params) (C : Crypto) (S : StdSort) (b : CBallot) (id : Str) (seed timestamp : ℕ)
    (parts : CContest → List (Ciphertext × Option DisjProof)) : CBallot :=
  let contests := b.contests.map (fun c => c.remake G C S (parts c))
  let hash := hashElems G C (.str id :: .q b.manifestHash :: (S.sort CContest.seq contests).map (fun c => .q c.cryptoHash))
  { b with
    objectId := id
    ballotCodeSeed := seed
    timestamp := timestamp
    contests := contests
    nonce := none
    cryptoHash := hash
    ballotCode := ballotCodeOf G C seed timestamp hash }

/-- The ciphertexts and proofs of a contest. -/
def CContest.parts (c : CContest) : List (Ciphertext × Option DisjProof) := c.selections.map (fun s => (s.ciphertext, s.proof))

theorem map_zipWith_right {α β γ δ : Type} (f : α → β → γ) (g : γ → δ) (h : β → δ) (hf : ∀ a b, g (f a b) = h b) :
    ∀ (l : List α) (m : List β), l.length = m.length → (List.zipWith f l m).map g = m.map h
  | [], [], _ => rfl
  | a :: l, b :: m, hl => by
    rw [List.zipWith_cons_cons, List.map_cons, List.map_cons, hf,
      map_zipWith_right f g h hf l m (by simpa using hl)]

theorem map_zipWith_left {α β γ δ : Type} (f : α → β → γ) (g : γ → δ) (h : α → δ) (hf : ∀ a b, g (f a b) = h a) :
    ∀ (l : List α) (m : List β), l.length = m.length → (List.zipWith f l m).map g = l.map h
  | [], [], _ => rfl
  | a :: l, b :: m, hl => by
    rw [List.zipWith_cons_cons, List.map_cons, List.map_cons, hf,
      map_zipWith_left f g h hf l m (by simpa using hl)]

theorem mem_zipWith' {α β γ : Type} (f : α → β → γ) {x : γ} :
    ∀ (l : List α) (m : List β), x ∈ List.zipWith f l m → ∃ a ∈ l, ∃ b ∈ m, x = f a b
  | [], _, h => by simp at h
  | _ :: _, [], h => by simp at h
  | a :: l, b :: m, h => by
    rw [List.zipWith_cons_cons, List.mem_cons] at h
    rcases h with h | h
    · exact ⟨a, by simp, b, by simp, h⟩
    · obtain ⟨a', ha, b', hb, e⟩ := mem_zipWith' f l m h
      exact ⟨a', by simp [ha], b', by simp [hb], e⟩

variable {C S}

theorem remake_length {c : CContest} {l : List (Ciphertext × Option DisjProof)} (h : l.Perm c.parts) :
    c.selections.length = l.length := by
  rw [h.length_eq, CContest.parts, List.length_map]

/-- C114 is violated: whatever valid ballot was published, its ciphertexts may be exchanged within each contest and the
ballot be given any other id: the result is valid for the same election. -/
theorem C114_violated (hG : G.Valid) (hL : G.Large) (mh K ext : ℕ) (hK : K < 2 ^ 4096) (b : CBallot)
    (ht : ∀ c ∈ b.contests, c.Typed) (hn : b.keys.Nodup) (hv : b.isValid G C S mh K ext = .ok true)
    (id : Str) (seed timestamp : ℕ) (parts : CContest → List (Ciphertext × Option DisjProof))
    (hp : ∀ c ∈ b.contests, (parts c).Perm c.parts) :
    (b.remake G C S id seed timestamp parts).isValid G C S mh K ext = .ok true := by
  have spec := (C36_valid_iff_partial G C S hG hL mh K ext hK b ht hn).1 hv
  have part : ∀ c ∈ b.contests, ∀ x ∈ parts c, ∃ s ∈ c.selections, x = (s.ciphertext, s.proof) := by
    intro c hc x hx
    obtain ⟨s, hs, e⟩ := List.mem_map.1 ((hp c hc).mem_iff.1 hx)
    exact ⟨s, hs, e.symm⟩
  have ht' : ∀ c ∈ (b.remake G C S id seed timestamp parts).contests, c.Typed := by
    intro c' hc'
    obtain ⟨c, hc, rfl⟩ := List.mem_map.1 hc'
    refine ⟨?_, (ht c hc).proof⟩
    intro s' hs'
    obtain ⟨s, _, x, hx, rfl⟩ := mem_zipWith' _ _ _ hs'
    obtain ⟨s0, hs0, rfl⟩ := part c hc x hx
    exact ⟨((ht c hc).selections s0 hs0).pad, ((ht c hc).selections s0 hs0).data, ((ht c hc).selections s0 hs0).proof⟩
  have hk : (b.remake G C S id seed timestamp parts).keys = b.keys := by
    show ((b.contests.map (fun c => c.remake G C S (parts c))).flatMap _) = b.contests.flatMap _
    rw [List.flatMap_map]
    refine List.flatMap_congr ?_
    intro c hc
    show c.objectId :: List.map _ (List.zipWith _ c.selections (parts c)) = _
    rw [map_zipWith_left (CSelection.remake G C) (fun s => (c.remake G C S (parts c)).objectId ++ '-' :: s.objectId)
      (fun s => c.objectId ++ '-' :: s.objectId) (fun _ _ => rfl) _ _ (remake_length (hp c hc))]
  refine (C36_valid_iff_partial G C S hG hL mh K ext hK _ ht' (hk ▸ hn)).2 ⟨spec.manifest, ?_, ?_, ?_, ?_⟩
  · intro h
    exact spec.nonempty (List.map_eq_nil_iff.1 h)
  · rw [← spec.manifest]
    rfl
  · intro c' hc'
    obtain ⟨c, hc, rfl⟩ := List.mem_map.1 hc'
    have sc := spec.contests c hc
    refine ⟨?_, rfl, ?_, ?_, sc.proof⟩
    · intro h
      have h2 := congrArg List.length h
      have hl := remake_length (hp c hc)
      simp only [CContest.remake, List.length_zipWith, List.length_nil] at h2
      rw [← hl, Nat.min_self] at h2
      exact sc.nonempty (List.length_eq_zero_iff.1 h2)
    · show c.accumulation.pad = (List.map _ (List.zipWith _ c.selections (parts c))).prod % G.p
      rw [map_zipWith_right (CSelection.remake G C) (fun s => s.ciphertext.pad) (fun x => x.1.pad) (fun _ _ => rfl) _ _ (remake_length (hp c hc)),
        ((hp c hc).map _).prod_eq, CContest.parts, List.map_map, sc.pad]
      rfl
    · show c.accumulation.data = (List.map _ (List.zipWith _ c.selections (parts c))).prod % G.p
      rw [map_zipWith_right (CSelection.remake G C) (fun s => s.ciphertext.data) (fun x => x.1.data) (fun _ _ => rfl) _ _ (remake_length (hp c hc)),
        ((hp c hc).map _).prod_eq, CContest.parts, List.map_map, sc.data]
      rfl
  · intro c' hc' s' hs'
    obtain ⟨c, hc, rfl⟩ := List.mem_map.1 hc'
    obtain ⟨s, _, x, hx, rfl⟩ := mem_zipWith' _ _ _ hs'
    obtain ⟨s0, hs0, rfl⟩ := part c hc x hx
    exact ⟨rfl, (spec.selections c hc s0 hs0).proof⟩

/-- C114 is violated, votes: whichever selection of a contest a ciphertext stands for, there is a valid ballot with
another id where it stands for another selection of this contest. -/
theorem C114_moved_violated (hG : G.Valid) (hL : G.Large) (mh K ext : ℕ) (hK : K < 2 ^ 4096) (b : CBallot)
    (ht : ∀ c ∈ b.contests, c.Typed) (hn : b.keys.Nodup) (hv : b.isValid G C S mh K ext = .ok true)
    (id : Str) (c : CContest) (hc : c ∈ b.contests) (s1 s2 : CSelection) (h1 : s1 ∈ c.selections) (h2 : s2 ∈ c.selections) :
    ∃ b' : CBallot, b'.objectId = id ∧ b'.isValid G C S mh K ext = .ok true ∧
      ∃ c' ∈ b'.contests, c'.objectId = c.objectId ∧ ∃ s ∈ c'.selections, s.objectId = s2.objectId ∧
        s.ciphertext = s1.ciphertext := by
  obtain ⟨i, hi, rfl⟩ := List.mem_iff_getElem.1 h1
  obtain ⟨j, hj, rfl⟩ := List.mem_iff_getElem.1 h2
  refine ⟨b.remake G C S id 0 0 (fun c => c.parts.rotate (i + (c.parts.length - j))), rfl,
    C114_violated hG hL mh K ext hK b ht hn hv id 0 0 _ (fun c _ => List.rotate_perm _ _), ?_⟩
  refine ⟨_, List.mem_map_of_mem hc, rfl, ?_⟩
  have hlen : c.parts.length = c.selections.length := by rw [CContest.parts, List.length_map]
  have hj' : j < (c.parts.rotate (i + (c.parts.length - j))).length := by rw [List.length_rotate, hlen]; exact hj
  refine ⟨(c.selections[j]).remake G C ((c.parts.rotate (i + (c.parts.length - j)))[j]), ?_, rfl, ?_⟩
  · refine List.mem_iff_getElem.2 ⟨j, ?_, ?_⟩
    · show j < (List.zipWith _ _ _).length
      rw [List.length_zipWith]
      exact lt_min hj hj'
    · exact List.getElem_zipWith ..
  · show ((c.parts.rotate (i + (c.parts.length - j)))[j]).1 = _
    rw [List.getElem_rotate]
    have e : (j + (i + (c.parts.length - j))) % c.parts.length = i := by
      rw [show j + (i + (c.parts.length - j)) = i + c.parts.length by omega, Nat.add_mod_right,
        Nat.mod_eq_of_lt (by omega)]
    simp only [e]
    simp only [CContest.parts, List.getElem_map]

/-- C114, why it matters: of two ballots of which one is a copy, the total tells the vote. -/
theorem C114_copy_told (hG : G.Valid) {K x r : ℕ} {m : Ciphertext} (h : IsEncryption G K x r m) :
    ∃ t, elgamalAdd G [m, m] = .ok t ∧ IsEncryption G K (2 * x) (2 * r) t := by
  obtain ⟨t, ht, he⟩ := C12_add_encrypts_sum G hG K [(x, r, m), (x, r, m)] (by simp) (by simp [h])
  refine ⟨t, ht, ?_⟩
  simpa [two_mul] using he

/-- A contest without nonces. -/
def CContest.published (c : CContest) : CContest :=
  { c with nonce := none, selections := c.selections.map (fun s => { s with nonce := none }) }

/-- A ballot without nonces. -/
def CBallot.published (b : CBallot) : CBallot := { b with nonce := none, contests := b.contests.map CContest.published }

/-- C114: the copy is made from what is published, whatever the new order. -/
theorem C114_public (b : CBallot) (id : Str) (seed timestamp : ℕ)
    (order : List (Ciphertext × Option DisjProof) → List (Ciphertext × Option DisjProof)) :
    b.published.remake G C S id seed timestamp (fun c => order c.parts) =
      b.remake G C S id seed timestamp (fun c => order c.parts) := by
  have h1 : ∀ (l : List CSelection) (m : List (Ciphertext × Option DisjProof)),
      List.zipWith (CSelection.remake G C) (l.map (fun s => { s with nonce := none })) m =
        List.zipWith (CSelection.remake G C) l m := by
    intro l
    induction l with
    | nil => intro m; rfl
    | cons s l ih =>
      intro m
      cases m with
      | nil => rfl
      | cons x m => rw [List.map_cons, List.zipWith_cons_cons, List.zipWith_cons_cons, ih]; rfl
  have h2 : ∀ c : CContest, c.published.parts = c.parts := by
    intro c
    simp only [CContest.parts, CContest.published, List.map_map]
    rfl
  have h3 : ((fun c : CContest => c.remake G C S (order c.parts)) ∘ CContest.published) =
      fun c => c.remake G C S (order c.parts) := by
    funext c
    rw [Function.comp, h2]
    simp only [CContest.remake, CContest.published, h1]
  simp only [CBallot.remake, CBallot.published, List.map_map, h3]

/-- C114, what is bound: a proof is accepted for one ciphertext and one extended base hash only. -/
theorem C114_partial (hG : G.Valid) (π : DisjProof) (hπ : π.Typed) (m m' : Ciphertext) (hp : m.pad < 2 ^ 4096)
    (hd : m.data < 2 ^ 4096) (hp' : m'.pad < 2 ^ 4096) (hd' : m'.data < 2 ^ 4096) (K K' h h' : ℕ) (hK : K < 2 ^ 4096)
    (hK' : K' < 2 ^ 4096) (hh : h < 2 ^ 256) (hh' : h' < 2 ^ 256)
    (hc : NoCollision G C (hashQueries G C [.q h, .p m.pad, .p m.data, .p π.zeroPad, .p π.zeroData, .p π.onePad,
      .p π.oneData] ++ hashQueries G C [.q h', .p m'.pad, .p m'.data, .p π.zeroPad, .p π.zeroData, .p π.onePad,
      .p π.oneData]))
    (h1 : π.isValid G C m K h = true) (h2 : π.isValid G C m' K' h' = true) : h = h' ∧ m = m' := by
  have := C23_disjunctive_binding G C hG π π hπ hπ m m' hp hd hp' hd' K K' h h' hK hK' hh hh' hc h1 h2 rfl
  exact ⟨this.1, this.2.1⟩

/-- The hypotheses are met by a valid ballot with a contest of two selections. -/
theorem exists_valid_ballot : ∃ (b : CBallot) (K : ℕ), Residue .std K ∧
    (∀ c ∈ b.contests, c.Typed) ∧ b.keys.Nodup ∧ b.contests.map (·.selections.length) = [2] ∧
    ∀ S, b.isValid .std (constCrypto 5) S 6 K 7 = .ok true := by
  obtain ⟨m, t, π, m1, m2, hπ, hty, h5, hv, hc⟩ := exampleCContest_valid
  refine ⟨exampleCBallot m t π "s".toList "t".toList (some (exampleProof .std 5))
      (some (exampleProof .std 5)), gPowP .std 2, residue_gPowP C54_std_valid 2 (by norm_num), ?_, ?_, rfl, ?_⟩
  · intro c hc'
    simp only [exampleCBallot, List.mem_singleton] at hc'
    subst hc'
    refine ⟨?_, ?_⟩
    · intro s hs
      simp only [exampleCContest, List.mem_cons, List.not_mem_nil, or_false] at hs
      rcases hs with rfl | rfl
      all_goals
        refine ⟨m1, m2, ?_⟩
        intro p hp
        simp only [exampleCSel, Option.mem_some_iff] at hp
        exact hp ▸ hty
    · intro p hp
      simp only [exampleCContest, Option.mem_some_iff] at hp
      exact hp ▸ hπ
  · change (["c".toList, "c-s".toList, "c-t".toList] : List Str).Nodup
    decide
  · intro S
    refine (exampleCBallot_checks m t π S _ _ _ _ .std _ h5 _ (hc S _ _ _ _)).trans ?_
    have hgood : ∀ id seq, (exampleCSel m id seq (some (exampleProof .std 5))).isValid .std
        (constCrypto 5) 5 (gPowP .std 2) 7 = true := by
      intro id seq
      unfold CSelection.isValid
      rw [if_neg (by simp [exampleCSel]), if_neg]
      · exact hv
      · rw [selectionHash, h5]
        simp [exampleCSel]
    rw [hgood, hgood]
    simp [mapPut]

end EG
