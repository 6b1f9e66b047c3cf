import Verif.Props.EncryptBallot

/-!
# C74: valid ballots and the vote limit
-/

namespace EG

variable (G : Params) (C : Crypto) (S : StdSort)

/-- A ciphertext determines its plaintext modulo `q`. -/
theorem isEncryption_unique (hG : G.Valid) {K x y n k : ℕ} {m : Ciphertext} (hK : Residue G K)
    (h1 : IsEncryption G K x n m) (h2 : IsEncryption G K y k m) : x % G.q = y % G.q := by
  obtain ⟨-, -, a1, b1⟩ := h1.casts hG hK
  obtain ⟨-, -, a2, b2⟩ := h2.casts hG hK
  have hn : n % G.q = k % G.q := (g_pow_eq_iff hG n k).1 (a1.symm.trans a2)
  have e := b1.symm.trans b2
  rw [pow_congr (hK.pow_q hG) hn] at e
  exact (g_pow_eq_iff hG x y).1 (((isUnit_of_pow_q hG (hK.pow_q hG)).pow k).mul_left_inj.1 e)

/-- A second accepted proof with the same commitments and another challenge, as a forger who is rewound
and given another hash function produces. -/
def DisjRewound (K : ℕ) (m : Ciphertext) (π : DisjProof) : Prop :=
  ∃ (C' : Crypto) (h' : ℕ) (π' : DisjProof), π'.Typed ∧ π'.isValid G C' m K h' = true ∧
    π.zeroPad = π'.zeroPad ∧ π.zeroData = π'.zeroData ∧ π.onePad = π'.onePad ∧
    π.oneData = π'.oneData ∧ π.challenge ≠ π'.challenge

/-- The same for a constant proof. -/
def ConstRewound (K : ℕ) (m : Ciphertext) (π : ConstProof) : Prop :=
  ∃ (C' : Crypto) (h' : ℕ) (π' : ConstProof), π'.Typed ∧ π'.isValid G C' m K h' = .ok true ∧
    π.pad = π'.pad ∧ π.data = π'.data ∧ π.constant = π'.constant ∧ π.challenge ≠ π'.challenge

theorem extract_votes (hG : G.Valid) (K ext : ℕ) (hK : Residue G K) (l : List CSelection)
    (ht : ∀ s ∈ l, s.Typed) (hv : ∀ s ∈ l, s.isValid G C s.descHash K ext = true)
    (hr : ∀ s ∈ l, ∀ π ∈ s.proof, DisjRewound G K s.ciphertext π) :
    ∀ s ∈ l, ∃ x r, x < 2 ∧ IsEncryption G K x r s.ciphertext := by
  intro s hm
  have hs := hv s hm
  have hts := ht s hm
  unfold CSelection.isValid at hs
  rw [if_neg (by simp)] at hs
  split at hs
  · simp at hs
  cases hπ : s.proof with
  | none => rw [hπ] at hs; simp at hs
  | some π =>
    rw [hπ] at hs
    dsimp only at hs
    obtain ⟨C', h', π', k1, k2, k3, k4, k5, k6, k7⟩ := hr s hm π hπ
    exact C20_special_soundness G C C' hG π π' (hts.proof π hπ) k1 s.ciphertext
      hts.pad hts.data K ext h' (hK.lt hG) hs k2 k3 k4 k5 k6 k7

/-- If the selections encrypt 0 or 1 each and the product the number in the proof of the contest, the votes add up to
this number. -/
theorem votes_of_encryptions (hG : G.Valid) (hL : G.Large) (K ext : ℕ) (hK : Residue G K) (c : CContest)
    (ht : c.Typed) (hlen : c.selections.length < G.q) (spec : ContestSpec G C S K ext c)
    (hs : ∀ s ∈ c.selections, ∃ x r, x < 2 ∧ IsEncryption G K x r s.ciphertext) (π : ConstProof)
    (hπ : c.proof = some π) (hc : ∃ r, IsEncryption G K π.constant r c.accumulation) :
    ∃ votes : List ℕ, votes.sum = π.constant ∧
      List.Forall₂ (fun v s => v < 2 ∧ ∃ r, IsEncryption G K v r s.ciphertext) votes c.selections := by
  have hex : ∀ l : List CSelection, (∀ s ∈ l, ∃ x r, x < 2 ∧ IsEncryption G K x r s.ciphertext) →
      ∃ xs : List (ℕ × ℕ × Ciphertext), xs.map (·.2.2) = l.map (·.ciphertext) ∧
        ∀ x ∈ xs, x.1 < 2 ∧ IsEncryption G K x.1 x.2.1 x.2.2 := by
    intro l hl
    induction l with
    | nil => exact ⟨[], rfl, by simp⟩
    | cons s l ih =>
      obtain ⟨xs, h1, h2⟩ := ih (fun s hs => hl s (by simp [hs]))
      obtain ⟨x, r, hx, henc⟩ := hl s (by simp)
      refine ⟨(x, r, s.ciphertext) :: xs, by simp [h1], ?_⟩
      intro y hy
      rcases List.mem_cons.1 hy with rfl | hy
      · exact ⟨hx, henc⟩
      · exact h2 y hy
  obtain ⟨xs, h1, h2⟩ := hex c.selections hs
  obtain ⟨r, henc⟩ := hc
  have hlx : xs.length = c.selections.length := by
    have := congrArg List.length h1
    simpa using this
  have hxs : xs ≠ [] := by
    intro h0
    rw [h0] at hlx
    exact spec.nonempty (List.length_eq_zero_iff.1 hlx.symm)
  obtain ⟨t, hadd, hsum⟩ := C12_add_encrypts_sum G hG K xs hxs (fun x hx => (h2 x hx).2)
  rw [h1, C12_add_value G hG _ (by
    intro y hy
    obtain ⟨s, hs, rfl⟩ := List.mem_map.1 hy
    exact ⟨(ht.selections s hs).pad, (ht.selections s hs).data⟩),
    if_neg (by simpa using spec.nonempty), Res.ok.injEq, List.map_map, List.map_map] at hadd
  have hacc : t = c.accumulation := by
    rw [← hadd]
    have e1 := spec.pad
    have e2 := spec.data
    cases hca : c.accumulation with
    | mk p d =>
      rw [hca] at e1 e2
      simp only at e1 e2
      rw [e1, e2]
      rfl
  rw [hacc] at hsum
  have hmod := isEncryption_unique G hG hK hsum henc
  have hle : (xs.map (·.1)).sum ≤ xs.length := by
    have := List.sum_le_card_nsmul (xs.map (·.1)) 1 (by
      intro v hv
      obtain ⟨x, hx, rfl⟩ := List.mem_map.1 hv
      have := (h2 x hx).1
      omega)
    simpa using this
  rw [Nat.mod_eq_of_lt (by omega),
    Nat.mod_eq_of_lt (lt_of_lt_of_le (ht.proof π hπ).co hL.q_ge)] at hmod
  refine ⟨xs.map (·.1), hmod, ?_⟩
  have key : ∀ (xs : List (ℕ × ℕ × Ciphertext)) (l : List CSelection),
      xs.map (·.2.2) = l.map (·.ciphertext) →
      (∀ x ∈ xs, x.1 < 2 ∧ IsEncryption G K x.1 x.2.1 x.2.2) →
      List.Forall₂ (fun v s => v < 2 ∧ ∃ r, IsEncryption G K v r s.ciphertext) (xs.map (·.1)) l := by
    intro xs
    induction xs with
    | nil =>
      intro l hl _
      have : l = [] := by simpa using hl.symm
      subst this
      exact .nil
    | cons x xs ih =>
      intro l hl hx
      cases l with
      | nil => simp at hl
      | cons s l =>
        simp only [List.map_cons, List.cons.injEq] at hl
        refine .cons ?_ (ih l hl.2 (fun y hy => hx y (by simp [hy])))
        have := hx x (by simp)
        rw [hl.1] at this
        exact ⟨this.1, _, this.2⟩
  exact key xs c.selections h1 h2

/-- C74, what holds: if a contest and its selections are valid, and their proofs are of the kind whose
maker can also answer another challenge, every ciphertext encrypts 0 or 1 and these votes add up to
the number in the proof of the contest.  Missing: nothing compares this number with the limit. -/
theorem C74_votes_partial (hG : G.Valid) (hL : G.Large) (K ext : ℕ) (hK : Residue G K) (c : CContest)
    (ht : c.Typed) (hlen : c.selections.length < G.q)
    (hv : c.isValid G C S c.descHash K ext = .ok true)
    (hs : ∀ s ∈ c.selections, s.isValid G C s.descHash K ext = true)
    (hr : ∀ s ∈ c.selections, ∀ π ∈ s.proof, DisjRewound G K s.ciphertext π)
    (hc : ∀ π ∈ c.proof, ConstRewound G K c.accumulation π) :
    ∃ (votes : List ℕ) (π : ConstProof), c.proof = some π ∧ votes.sum = π.constant ∧
      List.Forall₂ (fun v s => v < 2 ∧ ∃ r, IsEncryption G K v r s.ciphertext) votes c.selections := by
  have spec := (contest_isValid_iff G C S hG hL K ext (hK.lt hG) c ht).1 hv
  obtain ⟨π, hπ, hsp⟩ := spec.proof
  obtain ⟨C', h', π', k1, k2, k3, k4, k5, k6⟩ := hc π hπ
  have hpl := hsp.res_alpha.lt hG
  have hdl := hsp.res_beta.lt hG
  have hval : π.isValid G C c.accumulation K ext = .ok true := by
    obtain ⟨b, hb, hiff⟩ := C23_constant_iff G C hG hL π (ht.proof π hπ) c.accumulation hpl hdl K ext
      (hK.lt hG)
    rw [hb, hiff.2 hsp]
  obtain ⟨votes, h1, h2⟩ := votes_of_encryptions G C S hG hL K ext hK c ht hlen spec
    (extract_votes G C hG K ext hK c.selections ht.selections hs hr) π hπ
    (C22_special_soundness G C C' hG hL π π' (ht.proof π hπ) k1 c.accumulation hpl hdl
      K ext h' (hK.lt hG) hval k2 k3 k4 k5 k6)
  exact ⟨votes, π, hπ, h1, h2⟩

/-- C74 is violated: whatever the description of the contest and the limit in it, a contest made for
any votes at all passes the check against the hash of that description, if its maker names the number
of votes as the number to be elected (unless the challenge or the response happens to be zero). -/
theorem C74_contest_violated (hG : G.Valid) (hL : G.Large) (K ext : ℕ) (hK : Residue G K)
    (objectId : Str) (seq descHash proofSeed : ℕ) (votes : List ℕ) (es : List CSelection)
    (h : List.Forall₂ (CSelection.Encrypts G K) votes es) (hne : es ≠ []) (hsum : votes.sum < 2 ^ 64)
    (nonce : Option ℕ) (extended : Option HashedCiphertext) (w : World) (hw : w.Ok G K) :
    ∃ c w' π, CContest.make G C S objectId seq descHash es K ext proofSeed votes.sum nonce extended w =
        (.ok c, w') ∧ c.objectId = objectId ∧ c.descHash = descHash ∧ c.selections = es ∧
      c.proof = some π ∧
      (c.isValid G C S descHash K ext = .ok true ↔ π.challenge ≠ 0 ∧ π.response ≠ 0) := by
  have hp := S.perm CSelection.seq es
  obtain ⟨acc, N, ha, hagg, hN, henc⟩ := accumulate_spec G hG K hK votes es (S.sort CSelection.seq es) h hne hp
  have h0 : S.sort CSelection.seq es ≠ [] := by
    intro h0
    rw [h0] at hp
    exact hne hp.symm.eq_nil
  have hh : contestHash G C objectId (S.sort CSelection.seq es) descHash =
      .ok (hashElems G C (.str objectId :: .q descHash ::
        (S.sort CSelection.seq es).map (fun s => .q s.cryptoHash))) := by
    rw [contestHash, if_neg (by simpa using h0)]
  obtain ⟨t, w1, ht, htk, hw1⟩ : ∃ t w1, M.getTriple w = (.ok t, w1) ∧ (∀ x ∈ t, x.ForKey G K) ∧ w1.Ok G K :=
    ⟨_, _, rfl, hw.getTriple.1, hw.getTriple.2⟩
  obtain ⟨π, hπ, hgood⟩ := C21_completeness G C hG hL t K votes.sum N ext votes.sum proofSeed acc hK henc
    (lt_trans hN hG.q_lt) hsum htk
  have hmod : votes.sum % G.q = votes.sum := Nat.mod_eq_of_lt (lt_of_lt_of_le hsum hL.q_ge)
  refine ⟨⟨objectId, seq, descHash, es, nonce, acc, hashElems G C (.str objectId :: .q descHash ::
    (S.sort CSelection.seq es).map (fun s => .q s.cryptoHash)), some π, extended⟩, w1, π, ?_, rfl, rfl, rfl, rfl, ?_⟩
  · unfold CContest.make
    rw [M.bind_apply_ok _ _ w w _ (by rw [hh]; rfl), M.bind_apply_ok _ _ w w _ (by rw [ha]; rfl),
      M.bind_apply_ok _ _ w w _ (by rw [hagg]; rfl), M.bind_apply_ok _ _ w w1 _ ht,
      M.bind_apply_ok _ _ w1 w1 _ (by rw [hπ]; rfl)]
    rfl
  · rw [← hgood.1 hmod]
    unfold CContest.isValid CContest.getSelections
    dsimp only
    rw [hh, Res.bind_ok, ha, Res.bind_ok]
    cases hv : π.isValid G C acc K ext <;> simp

/-- The proof of an honest prover for the ciphertext of 1 with nonce 1, key `g^2` and random numbers
1, 3, 2, when the hash function has the value `d`. -/
def oneProof (G : Params) (d : ℕ) : DisjProof :=
  ⟨gPowP G 3, mulModP G (gPowP G 2) (powModP G (gPowP G 2) 3), gPowP G 1, powModP G (gPowP G 2) 1,
    G.q - 2, d + 2, d, 1, d + 3⟩

/-- The proof that the product of two such ciphertexts encrypts 2. -/
def twoProof (G : Params) (d : ℕ) : ConstProof :=
  ⟨gPowP G 1, powModP G (gPowP G 2) 1, d, 1 + d * 2, 2⟩

theorem std_q_gt100 : 100 < Params.std.q := by decide +kernel

theorem hashElems_small (hG : G.Valid) (hq : 100 < G.q) (d : ℕ) (hd : d < 50) (xs : List HElem) :
    hashElems G (constCrypto d) xs = d := by
  rw [hashElems_const, Nat.mod_eq_of_lt (lt_trans hd (by norm_num)),
    addModQ_eq hG d 0 (by omega) (by omega), Nat.add_zero, Nat.mod_eq_of_lt (by omega)]

theorem overvoted_proofs (hG : G.Valid) (hL : G.Large) (hq : 100 < G.q) :
    ∃ m t : Ciphertext, IsEncryption G (gPowP G 2) 1 1 m ∧ elgamalAdd G [m, m] = .ok t ∧
      IsEncryption G (gPowP G 2) 2 2 t ∧ ∀ d, 1 ≤ d → d < 50 →
      (oneProof G d).Typed ∧ (twoProof G d).Typed ∧
      (oneProof G d).isValid G (constCrypto d) m (gPowP G 2) 7 = true ∧
      (twoProof G d).isValid G (constCrypto d) t (gPowP G 2) 7 = .ok true := by
  have hK : Residue G (gPowP G 2) := residue_gPowP hG 2 (by norm_num)
  obtain ⟨m, -, hm⟩ := encrypt_isEncryption G hG 1 1 (gPowP G 2) (by omega) (by norm_num) (by omega)
    (hK.lt hG)
  obtain ⟨t, ht, het⟩ := C12_add_encrypts_sum G hG (gPowP G 2) [(1, 1, m), (1, 1, m)] (by simp)
    (by simp [hm])
  have het' : IsEncryption G (gPowP G 2) 2 2 t := by simpa using het
  refine ⟨m, t, hm, ht, het', fun d hd hd' => ?_⟩
  have hh := hashElems_small G hG hq d hd'
  have small : ∀ y, y < 200 → y < 2 ^ 256 := fun y hy => lt_trans hy (by norm_num)
  have qm : G.q - 2 < 2 ^ 256 := lt_of_le_of_lt (Nat.sub_le _ _) hG.q_lt
  have k1 := powModP_lt4096 hG (gPowP G 2) 1 (hK.lt hG) (small 1 (by omega))
  have k3 := powModP_lt4096 hG (gPowP G 2) 3 (hK.lt hG) (small 3 (by omega))
  refine ⟨⟨gPowP_lt4096 hG 3 (small 3 (by omega)), lt_trans (mulModP_lt hG _ _ (hK.lt hG) k3) hG.p_lt,
      gPowP_lt4096 hG 1 (small 1 (by omega)), k1, qm, small _ (by simp only [oneProof]; omega),
      small _ (by simp only [oneProof]; omega), small 1 (by omega),
      small _ (by simp only [oneProof]; omega)⟩,
    ⟨gPowP_lt4096 hG 1 (small 1 (by omega)), k1, small _ (by simp only [twoProof]; omega),
      small _ (by simp only [twoProof]; omega), by norm_num [twoProof]⟩, ?_, ?_⟩
  · obtain ⟨π, hπ, hgood, -⟩ := C19_randomised G (constCrypto d) hG (gPowP G 2) 1 1 7 1 1 3 2 m hK hm
      (by norm_num) (by omega) (by omega) (by omega) (by omega)
    have hexp : disjMake G (constCrypto d) m 1 (gPowP G 2) 7 1 1 3 2 = .ok (oneProof G d) := by
      unfold disjMake disjMakeOne disjChallenge
      rw [if_neg (by omega), if_pos rfl]
      have e1 : subModQ G G.q 2 = G.q - 2 := by
        rw [subModQ_eq hG _ _ le_rfl (by omega), show G.q + G.q - 2 = G.q - 2 + G.q by omega,
          Nat.add_mod_right, Nat.mod_eq_of_lt (by omega)]
      have e2 : addModQ G d 2 = d + 2 := by
        rw [addModQ_eq hG _ _ (by omega) (by omega), Nat.mod_eq_of_lt (by omega)]
      have e3 : aPlusBcModQ G 3 (G.q - 2) 1 = .ok 1 := by
        rw [aPlusBc_eq hG _ _ _ (small 3 (by omega)) qm (small 1 (by omega)),
          show 3 + (G.q - 2) * 1 = 1 + G.q by omega, Nat.add_mod_right, Nat.mod_eq_of_lt (by omega)]
      have e4 : aPlusBcModQ G 1 (d + 2) 1 = .ok (d + 3) := by
        rw [aPlusBc_eq hG _ _ _ (small 1 (by omega)) (small _ (by omega)) (small 1 (by omega)),
          Nat.mod_eq_of_lt (by omega), show 1 + (d + 2) * 1 = d + 3 by omega]
      simp only [hh, e1, e2, e3, e4]
      rfl
    rw [hexp, Res.ok.injEq] at hπ
    subst hπ
    exact (hgood (Nat.mod_eq_of_lt (by omega))).2 ⟨by simp only [oneProof]; omega, by simp [oneProof],
      by simp [oneProof], by simp [oneProof]⟩
  · have hcg := const_good_of G (constCrypto d) hG hL (gPowP G 2) 2 2 7 2 1 t hK het'
      (by omega) (by norm_num)
    have hc : ∀ a b, constChallenge G (constCrypto d) 7 t a b = d := fun a b => hh _
    rw [hc, Nat.mod_eq_of_lt (show 1 + d * 2 < G.q by omega)] at hcg
    exact (hcg.1 (Nat.mod_eq_of_lt (by omega))).2 ⟨by simp only; omega, by simp⟩

/-- The contest with both selections marked, as `exampleCContest`. -/
theorem overvoted_contest (hG : G.Valid) (hq : 100 < G.q) (m t : Ciphertext)
    (ht : elgamalAdd G [m, m] = .ok t)
    (hs : (oneProof G 5).isValid G (constCrypto 5) m (gPowP G 2) 7 = true)
    (hc : (twoProof G 5).isValid G (constCrypto 5) t (gPowP G 2) 7 = .ok true) :
    (exampleCContest m t (twoProof G 5) "s1".toList "s2".toList (some (oneProof G 5))
      (some (oneProof G 5))).isValid G (constCrypto 5) S 5 (gPowP G 2) 7 = .ok true ∧
    ∀ id seq, (exampleCSel m id seq (some (oneProof G 5))).isValid G (constCrypto 5) 5 (gPowP G 2) 7 =
      true := by
  have h5 := hashElems_small G hG hq 5 (by omega)
  constructor
  · have hsort : (exampleCContest m t (twoProof G 5) "s1".toList "s2".toList (some (oneProof G 5))
        (some (oneProof G 5))).getSelections S =
        [exampleCSel m "s1".toList 1 (some (oneProof G 5)),
          exampleCSel m "s2".toList 2 (some (oneProof G 5))] := by
      refine sort_of_sorted S _ _ ?_ ?_
      · simp [exampleCContest, exampleCSel]
      · simp [exampleCContest, exampleCSel]
    have ha : accumulate G [exampleCSel m "s1".toList 1 (some (oneProof G 5)),
        exampleCSel m "s2".toList 2 (some (oneProof G 5))] = .ok t := by
      rw [accumulate]
      exact ht
    unfold CContest.isValid
    rw [hsort, ha, contestHash, if_neg (by simp), h5]
    simp only [exampleCContest, hc, Res.bind_ok]
    simp
  · intro id seq
    unfold CSelection.isValid selectionHash
    rw [if_neg (by simp [exampleCSel]), if_neg (by rw [h5]; simp [exampleCSel])]
    exact hs

theorem overvoted_typed (m t : Ciphertext) (hp : m.pad < 2 ^ 4096) (hd : m.data < 2 ^ 4096)
    (h1 : (oneProof G 5).Typed) (h2 : (twoProof G 5).Typed) :
    (exampleCContest m t (twoProof G 5) "s1".toList "s2".toList (some (oneProof G 5))
      (some (oneProof G 5))).Typed := by
  constructor
  · intro x hx
    simp only [exampleCContest, List.mem_cons, List.not_mem_nil, or_false] at hx
    rcases hx with rfl | rfl
    · exact ⟨hp, hd, by simpa [exampleCSel] using h1⟩
    · exact ⟨hp, hd, by simpa [exampleCSel] using h1⟩
  · intro π hπ
    simp only [exampleCContest, Option.mem_some_iff] at hπ
    subst hπ
    exact h2

/-- The hypotheses of `C74_votes_partial` are met, by a contest with two votes. -/
example (S : StdSort) : ∃ (C : Crypto) (c : CContest) (K : ℕ), Residue .std K ∧ c.Typed ∧
    c.selections.length = 2 ∧ c.isValid .std C S c.descHash K 7 = .ok true ∧
    (∀ s ∈ c.selections, s.isValid .std C s.descHash K 7 = true) ∧
    (∀ s ∈ c.selections, ∀ π ∈ s.proof, DisjRewound .std K s.ciphertext π) ∧
    ∀ π ∈ c.proof, ConstRewound .std K c.accumulation π := by
  have hG := C54_std_valid
  have hL := std_large
  have hq := std_q_gt100
  generalize Params.std = G at *
  obtain ⟨m, t, hm, ht, het, hall⟩ := overvoted_proofs G hG hL hq
  obtain ⟨a1, a2, a3, a4⟩ := hall 5 (by omega) (by omega)
  obtain ⟨b1, b2, b3, b4⟩ := hall 6 (by omega) (by omega)
  obtain ⟨c1, c2⟩ := overvoted_contest G S hG hq m t ht a3 a4
  refine ⟨constCrypto 5, exampleCContest m t (twoProof G 5) "s1".toList "s2".toList
    (some (oneProof G 5)) (some (oneProof G 5)), gPowP G 2, residue_gPowP hG 2 (by norm_num),
    overvoted_typed G m t (lt_trans hm.1 hG.p_lt) (lt_trans hm.2.1 hG.p_lt) a1 a2, rfl, c1, ?_, ?_, ?_⟩
  · intro x hx
    simp only [exampleCContest, List.mem_cons, List.not_mem_nil, or_false] at hx
    rcases hx with rfl | rfl <;> exact c2 _ _
  · intro x hx π hπ
    simp only [exampleCContest, List.mem_cons, List.not_mem_nil, or_false] at hx
    have : π = oneProof G 5 ∧ x.ciphertext = m := by
      rcases hx with rfl | rfl <;> simpa [exampleCSel, eq_comm] using hπ
    rw [this.1, this.2]
    exact ⟨constCrypto 6, 7, oneProof G 6, b1, b3, rfl, rfl, rfl, rfl, by simp [oneProof]⟩
  · intro π hπ
    simp only [exampleCContest, Option.mem_some_iff] at hπ
    subst hπ
    exact ⟨constCrypto 6, 7, twoProof G 6, b2, b4, rfl, rfl, rfl, by simp [twoProof]⟩

/-- The hypothesis of `C74_contest_violated` is met by two marked selections. -/
example : ∃ (K : ℕ) (es : List CSelection), es ≠ [] ∧
    List.Forall₂ (CSelection.Encrypts .std K) [1, 1] es := by
  have hG := C54_std_valid
  have hq := std_q_gt100
  generalize Params.std = G at *
  obtain ⟨m, -, hm⟩ := encrypt_isEncryption G hG 1 1 (gPowP G 2) (by omega) (by norm_num) (by omega)
    ((residue_gPowP hG 2 (by norm_num)).lt hG)
  have h1 : CSelection.Encrypts G (gPowP G 2) 1 (exampleCSel m "s1".toList 1 none) :=
    ⟨1, by omega, rfl, hm⟩
  have h2 : CSelection.Encrypts G (gPowP G 2) 1 (exampleCSel m "s2".toList 2 none) :=
    ⟨1, by omega, rfl, hm⟩
  exact ⟨gPowP G 2, _, by simp, .cons h1 (.cons h2 .nil)⟩

/-- C74 is violated for whole ballots: here both selections of a contest with one seat are marked, and
the ballot is valid for its manifest; the contest carries the hash of the description with one seat.
(The hash function of the example is constant; `C74_contest_violated` is for every hash function.) -/
theorem C74_violated : ∃ (C : Crypto) (b : CBallot) (c : CContest) (s : ℕ),
    b.contests = [c] ∧ c.Typed ∧ exampleContest.numberElected = 1 ∧
    exampleContest.hash .std C = .ok c.descHash ∧ c.objectId = exampleContest.objectId ∧
    c.selections.map (·.objectId) = exampleContest.selections.map (·.objectId) ∧
    c.selections.length = 2 ∧
    (∀ x ∈ c.selections, x.isPlaceholder = false ∧ decrypt .std x.ciphertext s = 1) ∧
    ∀ S, b.isValid .std C S b.manifestHash (gPowP .std s) 7 = .ok true := by
  have hG := C54_std_valid
  have hL := std_large
  have hq := std_q_gt100
  have hdesc : exampleContest.hash .std (constCrypto 5) = .ok (addModQ .std (5 % 2 ^ 256) 0) :=
    exampleContest_hash exampleContestP rfl rfl
  generalize Params.std = G at *
  have h5 := hashElems_small G hG hq 5 (by omega)
  rw [show addModQ G (5 % 2 ^ 256) 0 = 5 from (hashElems_const G 5 []).symm.trans (h5 [])] at hdesc
  obtain ⟨m, t, hm, ht, het, hall⟩ := overvoted_proofs G hG hL hq
  obtain ⟨a1, a2, a3, a4⟩ := hall 5 (by omega) (by omega)
  have hdec : decrypt G m 2 = 1 := by
    have hK2 : gPowP G 2 ≡ G.g ^ 2 [MOD G.p] := by
      rw [modEq_cast, cast_gPowP hG 2 (by norm_num)]
      push_cast
      rfl
    rw [decrypt_encryption G hG 2 (gPowP G 2) 1 1 m (by norm_num) hK2 hm,
      Nat.mod_eq_of_lt (by omega)]
    simp
  refine ⟨constCrypto 5, exampleCBallot m t (twoProof G 5) "s1".toList "s2".toList
    (some (oneProof G 5)) (some (oneProof G 5)), _, 2, rfl,
    overvoted_typed G m t (lt_trans hm.1 hG.p_lt) (lt_trans hm.2.1 hG.p_lt) a1 a2, rfl, hdesc, rfl, rfl,
    rfl, ?_, ?_⟩
  · intro x hx
    simp only [exampleCContest, List.mem_cons, List.not_mem_nil, or_false] at hx
    rcases hx with rfl | rfl <;> exact ⟨rfl, hdec⟩
  · intro S
    obtain ⟨c1, c2⟩ := overvoted_contest G S hG hq m t ht a3 a4
    have := exampleCBallot_checks m t (twoProof G 5) S "s1".toList
      "s2".toList (some (oneProof G 5)) (some (oneProof G 5)) G (constCrypto 5) h5 (gPowP G 2) c1
    rw [show (exampleCBallot m t (twoProof G 5) "s1".toList
      "s2".toList (some (oneProof G 5)) (some (oneProof G 5))).manifestHash = 6 from rfl, this, c2, c2]
    rfl

end EG
