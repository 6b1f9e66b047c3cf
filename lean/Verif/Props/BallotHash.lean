import Verif.Spec.Ballot
import Verif.Props.Ballot
import Verif.Props.ChaumPedersen

/-!
# C36, C38: validity of encrypted ballots
-/

namespace EG

variable (G : Params) (C : Crypto) (S : StdSort)

/-! ## C36 -/

theorem selection_isValid_iff (hG : G.Valid) (pub extHash : ℕ) (hK : pub < 2 ^ 4096) (s : CSelection)
    (ht : s.Typed) :
    s.isValid G C s.descHash pub extHash = true ↔ SelectionSpec G C pub extHash s := by
  unfold CSelection.isValid selectionHash Ciphertext.hash
  rw [if_neg (by simp)]
  constructor
  · intro h
    split at h
    · simp at h
    · rename_i hh
      refine ⟨not_not.1 hh, ?_⟩
      split at h
      · simp at h
      · rename_i π hπ
        exact ⟨π, hπ, (C23_disjunctive_iff G C hG π (ht.proof π hπ) _ ht.pad ht.data _ _ hK).1 h⟩
  · rintro ⟨h1, π, hπ, h2⟩
    rw [if_neg (not_not.2 h1), hπ]
    exact (C23_disjunctive_iff G C hG π (ht.proof π hπ) _ ht.pad ht.data _ _ hK).2 h2

/-- C36: a selection is refused for a description hash that is not its own. -/
theorem C36_selection_seed (s : CSelection) (seed pub extHash : ℕ) (h : seed ≠ s.descHash) :
    s.isValid G C seed pub extHash = false := by
  simp [CSelection.isValid, h]

theorem accumulate_eq (hG : G.Valid) (l : List CSelection) (ht : ∀ s ∈ l, s.Typed) :
    accumulate G l = if l = [] then .throw .invalidArgument else
      .ok { pad := (l.map (·.ciphertext.pad)).prod % G.p
            data := (l.map (·.ciphertext.data)).prod % G.p } := by
  unfold accumulate
  rw [C12_add_value G hG]
  · simp only [List.map_eq_nil_iff, List.map_map, Function.comp_def]
  · intro c hc
    obtain ⟨s, hs, rfl⟩ := List.mem_map.1 hc
    exact ⟨(ht s hs).pad, (ht s hs).data⟩

theorem contest_isValid_iff (hG : G.Valid) (hL : G.Large) (pub extHash : ℕ) (hK : pub < 2 ^ 4096)
    (c : CContest) (ht : c.Typed) :
    c.isValid G C S c.descHash pub extHash = .ok true ↔ ContestSpec G C S pub extHash c := by
  have hp := S.perm CSelection.seq c.selections
  have ha := accumulate_eq G hG (c.getSelections S)
    (fun s hs => ht.selections s (by simpa [CContest.getSelections] using hs))
  have e1 : ((c.getSelections S).map (·.ciphertext.pad)).prod =
      (c.selections.map (·.ciphertext.pad)).prod := (hp.map _).prod_eq
  have e2 : ((c.getSelections S).map (·.ciphertext.data)).prod =
      (c.selections.map (·.ciphertext.data)).prod := (hp.map _).prod_eq
  rw [e1, e2] at ha
  by_cases hne : c.selections = []
  · have h0 : c.getSelections S = [] := by
      rw [hne] at hp
      rw [CContest.getSelections, hne]
      exact hp.eq_nil
    constructor
    · intro h
      simp [CContest.isValid, contestHash, h0] at h
    · intro h; exact absurd hne h.nonempty
  have h0 : c.getSelections S ≠ [] := by
    intro h
    rw [CContest.getSelections] at h
    rw [h] at hp
    exact hne hp.symm.eq_nil
  rw [if_neg h0] at ha
  have lt : ∀ x, x % G.p < 2 ^ 4096 := fun x => lt_trans (Nat.mod_lt _ (by have := hG.p_gt; omega)) hG.p_lt
  have hh : contestHash G C c.objectId (c.getSelections S) c.descHash =
      .ok (hashElems G C (.str c.objectId :: .q c.descHash ::
        (S.sort CSelection.seq c.selections).map (fun s => .q s.cryptoHash))) := by
    rw [contestHash, if_neg (by simpa using h0)]
    rfl
  unfold CContest.isValid
  rw [hh, ha]
  constructor
  · intro h
    rcases hπ : c.proof with _ | π
    · rw [hπ] at h
      simp at h
    rw [hπ] at h
    obtain ⟨b, hb, hiff⟩ := C23_constant_iff G C hG hL π (ht.proof π hπ)
      { pad := (c.selections.map (·.ciphertext.pad)).prod % G.p
        data := (c.selections.map (·.ciphertext.data)).prod % G.p } (lt _) (lt _) pub extHash hK
    simp [hb] at h
    obtain ⟨⟨h1, h2⟩, rfl⟩ := h
    refine ⟨hne, h1, by rw [h2], by rw [h2], π, hπ, ?_⟩
    rw [h2]
    exact hiff.1 rfl
  · rintro ⟨-, h1, h2, h3, π, hπ, h4⟩
    have h5 : c.accumulation = { pad := (c.selections.map (·.ciphertext.pad)).prod % G.p
                                 data := (c.selections.map (·.ciphertext.data)).prod % G.p } := by
      rw [← h2, ← h3]
    rw [h5] at h4
    obtain ⟨b, hb, hiff⟩ := C23_constant_iff G C hG hL π (ht.proof π hπ)
      { pad := (c.selections.map (·.ciphertext.pad)).prod % G.p
        data := (c.selections.map (·.ciphertext.data)).prod % G.p } (lt _) (lt _) pub extHash hK
    have hbt := hiff.2 h4
    subst hbt
    simp [hπ, hb, h5, ← h1]

/-! ### The map of results -/

/-- What `operator[]` leaves in the map after a sequence of assignments. -/
theorem mem_puts (l : List (Str × Bool)) (e : Str × Bool) :
    e ∈ l.foldl (fun m x => mapPut m x.1 x.2) [] ↔
      ∃ pre post, l = pre ++ e :: post ∧ ∀ f ∈ post, f.1 ≠ e.1 := by
  induction l using List.reverseRecOn with
  | nil => simp
  | append_singleton l x ih =>
    rw [List.foldl_append, List.foldl_cons, List.foldl_nil]
    generalize l.foldl (fun m x => mapPut m x.1 x.2) [] = acc at ih ⊢
    rw [mapPut, List.mem_cons, List.mem_filter, ih]
    constructor
    · rintro (rfl | ⟨⟨pre, post, rfl, h⟩, hne⟩)
      · exact ⟨l, [], rfl, by simp⟩
      · refine ⟨pre, post ++ [x], by simp, ?_⟩
        intro f hf
        rcases List.mem_append.1 hf with hf | hf
        · exact h f hf
        · simp only [List.mem_singleton] at hf
          subst hf
          intro e'
          simp [e'] at hne
    · rintro ⟨pre, post, h, hf⟩
      rcases List.eq_nil_or_concat post with rfl | ⟨post', y, rfl⟩
      · have := List.append_inj' h rfl
        simp only [List.cons.injEq, and_true] at this
        exact Or.inl this.2.symm
      · right
        rw [List.concat_eq_append, ← List.cons_append, ← List.append_assoc] at h
        rw [List.concat_eq_append] at hf
        have := List.append_inj' h rfl
        obtain ⟨rfl, h2⟩ := this
        simp only [List.cons.injEq, and_true] at h2
        subst h2
        refine ⟨⟨pre, post', rfl, fun f h' => hf f (by simp [h'])⟩, ?_⟩
        have := hf x (by simp)
        simp only [ne_eq, decide_not, Bool.not_eq_eq_eq_not, Bool.not_true, decide_eq_false_iff_not]
        exact fun e => this e.symm

/-- The assignments made for one contest, in order. -/
def contestEntries (pub extHash : ℕ) (c : CContest) (valid : Bool) : List (Str × Bool) :=
  (c.getSelections S).map (fun s =>
    (proofKey c.objectId s.objectId, s.isValid G C s.descHash pub extHash)) ++ [(c.objectId, valid)]

theorem selectionChecks_eq (pub extHash : ℕ) (id : Str) (l : List CSelection) (m : List (Str × Bool)) :
    selectionChecks G C pub extHash id l m =
      (l.map (fun s => (proofKey id s.objectId, s.isValid G C s.descHash pub extHash))).foldl
        (fun m x => mapPut m x.1 x.2) m := by
  induction l generalizing m with
  | nil => rfl
  | cons s l ih => rw [selectionChecks, ih]; rfl

theorem contestChecks_eq_ok (pub extHash : ℕ) (cs : List CContest) (m r : List (Str × Bool)) :
    contestChecks G C S pub extHash cs m = .ok r ↔ ∃ vs : List Bool,
      List.Forall₂ (fun c v => c.isValid G C S c.descHash pub extHash = .ok v) cs vs ∧
      r = (List.zipWith (contestEntries G C S pub extHash) cs vs).flatten.foldl
        (fun m x => mapPut m x.1 x.2) m := by
  induction cs generalizing m with
  | nil =>
    simp only [contestChecks, Res.ok.injEq]
    constructor
    · rintro rfl; exact ⟨[], .nil, rfl⟩
    · rintro ⟨vs, h, rfl⟩; cases h; rfl
  | cons c cs ih =>
    rw [contestChecks, Res.bind_eq_ok]
    constructor
    · rintro ⟨v, h1, h2⟩
      obtain ⟨vs, h3, rfl⟩ := (ih _).1 h2
      refine ⟨v :: vs, .cons h1 h3, ?_⟩
      simp [contestEntries, selectionChecks_eq, List.foldl_append]
    · rintro ⟨vs, h, rfl⟩
      cases h with
      | cons h1 h3 =>
        rename_i v vs
        refine ⟨v, h1, (ih _).2 ⟨vs, h3, ?_⟩⟩
        simp [contestEntries, selectionChecks_eq, List.foldl_append]

theorem all_puts_of_nodup (l : List (Str × Bool)) (hn : (l.map (·.1)).Nodup) :
    (l.foldl (fun m x => mapPut m x.1 x.2) []).all (·.2) = true ↔ ∀ e ∈ l, e.2 = true := by
  rw [List.all_eq_true]
  constructor
  · intro h e he
    refine h e ((mem_puts l e).2 ?_)
    obtain ⟨pre, post, rfl⟩ := List.append_of_mem he
    refine ⟨pre, post, rfl, ?_⟩
    rw [List.map_append, List.nodup_append] at hn
    have h2 := hn.2.1
    rw [List.map_cons, List.nodup_cons] at h2
    intro f hf hfe
    exact h2.1 (List.mem_map.2 ⟨f, hf, hfe⟩)
  · intro h e he
    obtain ⟨pre, post, rfl, -⟩ := (mem_puts l e).1 he
    exact h e (by simp)

theorem entries_keys (pub extHash : ℕ) (cs : List CContest) (vs : List Bool)
    (h : cs.length = vs.length) :
    (List.zipWith (contestEntries G C S pub extHash) cs vs).flatten.map (·.1) =
      cs.flatMap (fun c => (c.getSelections S).map (fun s => proofKey c.objectId s.objectId) ++
        [c.objectId]) := by
  induction cs generalizing vs with
  | nil => simp
  | cons c cs ih =>
    cases vs with
    | nil => simp at h
    | cons v vs =>
      simp only [List.zipWith_cons_cons, List.flatten_cons, List.map_append, List.flatMap_cons]
      rw [ih vs (by simpa using h)]
      simp [contestEntries, Function.comp_def]

theorem entries_true (pub extHash : ℕ) (cs : List CContest) (vs : List Bool)
    (h : List.Forall₂ (fun c v => c.isValid G C S c.descHash pub extHash = .ok v) cs vs) :
    (∀ e ∈ (List.zipWith (contestEntries G C S pub extHash) cs vs).flatten, e.2 = true) ↔
      ∀ c ∈ cs, c.isValid G C S c.descHash pub extHash = .ok true ∧
        ∀ s ∈ c.selections, s.isValid G C s.descHash pub extHash = true := by
  induction h with
  | nil => simp
  | @cons c v cs vs h1 h2 ih =>
    simp only [List.zipWith_cons_cons, List.flatten_cons, List.mem_append, or_imp, forall_and,
      List.forall_mem_cons] at ih ⊢
    rw [ih]
    simp only [h1, Res.ok.injEq, contestEntries, CContest.getSelections, List.mem_append, List.mem_map,
      mem_sort, List.mem_singleton, or_imp, forall_and, forall_eq, forall_exists_index, and_imp,
      forall_apply_eq_imp_iff₂]
    tauto

theorem keys_perm (b : CBallot) :
    ((b.getContests S).flatMap (fun c =>
      (c.getSelections S).map (fun s => proofKey c.objectId s.objectId) ++ [c.objectId])).Perm b.keys := by
  unfold CBallot.keys
  refine ((S.perm CContest.seq b.contests).flatMap_right _).trans ?_
  refine List.Perm.flatMap_left _ (fun c _ => ?_)
  refine List.perm_append_comm.trans ?_
  simp only [List.singleton_append]
  exact List.Perm.cons _ ((S.perm CSelection.seq c.selections).map _)

theorem ballot_isValid_iff (mh pub extHash : ℕ) (b : CBallot) (hn : b.keys.Nodup) :
    b.isValid G C S mh pub extHash = .ok true ↔ mh = b.manifestHash ∧
      ballotHash G C b.objectId (b.getContests S) mh = .ok b.cryptoHash ∧
      ∀ c ∈ b.contests, c.isValid G C S c.descHash pub extHash = .ok true ∧
        ∀ s ∈ c.selections, s.isValid G C s.descHash pub extHash = true := by
  have hmem : ∀ c, c ∈ b.getContests S ↔ c ∈ b.contests := fun c => by simp [CBallot.getContests]
  have hn' := (keys_perm S b).nodup_iff.2 hn
  unfold CBallot.isValid
  by_cases hm : mh = b.manifestHash
  · rw [if_neg (by simpa using hm), Res.bind_eq_ok]
    constructor
    · rintro ⟨h, h1, h2⟩
      split at h2
      · simp at h2
      · rename_i hh
        rw [Res.bind_eq_ok] at h2
        obtain ⟨r, h3, h4⟩ := h2
        obtain ⟨vs, h5, rfl⟩ := (contestChecks_eq_ok G C S pub extHash _ _ _).1 h3
        refine ⟨hm, by rw [h1, not_not.1 hh], ?_⟩
        rw [Res.ok.injEq, all_puts_of_nodup _ (by rw [entries_keys _ _ _ _ _ _ _ h5.length_eq]; exact hn'),
          entries_true G C S pub extHash _ _ h5] at h4
        intro c hc
        exact h4 c ((hmem c).2 hc)
    · rintro ⟨-, h1, h2⟩
      refine ⟨_, h1, ?_⟩
      rw [if_neg (by simp)]
      have h5 : List.Forall₂ (fun c v => c.isValid G C S c.descHash pub extHash = .ok v)
          (b.getContests S) (List.replicate (b.getContests S).length true) := by
        have : ∀ l : List CContest, (∀ c ∈ l, c ∈ b.contests) →
            List.Forall₂ (fun c v => c.isValid G C S c.descHash pub extHash = .ok v) l
              (List.replicate l.length true) := by
          intro l hl
          induction l with
          | nil => exact .nil
          | cons a l ih =>
            exact .cons (h2 a (hl a (by simp))).1 (ih (fun c hc => hl c (by simp [hc])))
        exact this _ (fun c hc => (hmem c).1 hc)
      rw [Res.bind_eq_ok]
      refine ⟨_, (contestChecks_eq_ok G C S pub extHash _ _ _).2 ⟨_, h5, rfl⟩, ?_⟩
      rw [Res.ok.injEq, all_puts_of_nodup _ (by rw [entries_keys _ _ _ _ _ _ _ h5.length_eq]; exact hn'),
          entries_true G C S pub extHash _ _ h5]
      exact fun c hc => h2 c ((hmem c).1 hc)
  · rw [if_pos hm]
    simp [hm]

/-- C36: for ballots whose result names are distinct, the validity check decides exactly the
specification. -/
theorem C36_valid_iff_partial (hG : G.Valid) (hL : G.Large) (mh pub extHash : ℕ)
    (hK : pub < 2 ^ 4096) (b : CBallot) (ht : ∀ c ∈ b.contests, c.Typed) (hn : b.keys.Nodup) :
    b.isValid G C S mh pub extHash = .ok true ↔ BallotSpec G C S mh pub extHash b := by
  have hp := S.perm CContest.seq b.contests
  rw [ballot_isValid_iff G C S mh pub extHash b hn]
  constructor
  · rintro ⟨rfl, h1, h2⟩
    unfold ballotHash at h1
    split at h1
    · simp at h1
    rename_i hne
    refine ⟨rfl, ?_, (Res.ok.inj h1).symm, ?_, ?_⟩
    · intro h
      rw [CBallot.getContests, h] at hne
      rw [h] at hp
      rw [hp.eq_nil] at hne
      simp at hne
    · exact fun c hc => (contest_isValid_iff G C S hG hL pub extHash hK c (ht c hc)).1 (h2 c hc).1
    · exact fun c hc s hs => (selection_isValid_iff G C hG pub extHash hK s
        ((ht c hc).selections s hs)).1 ((h2 c hc).2 s hs)
  · rintro ⟨h1, h2, h3, h4, h5⟩
    refine ⟨h1.symm, ?_, fun c hc => ⟨?_, fun s hs => ?_⟩⟩
    · rw [ballotHash, if_neg]
      · rw [h3]; rfl
      · intro h
        rw [List.isEmpty_iff, CBallot.getContests] at h
        rw [h] at hp
        exact h2 hp.symm.eq_nil
    · exact (contest_isValid_iff G C S hG hL pub extHash hK c (ht c hc)).2 (h4 c hc)
    · exact (selection_isValid_iff G C hG pub extHash hK s ((ht c hc).selections s hs)).2 (h5 c hc s hs)

/-! ### Examples -/

/-- An encrypted selection, when the hash function has the value 5. -/
def exampleCSel (m : Ciphertext) (id : Str) (seq : ℕ) (π : Option DisjProof) : CSelection :=
  ⟨id, seq, 5, m, false, some 1, 5, π⟩

def exampleCContest (m t : Ciphertext) (π : ConstProof) (id1 id2 : Str) (p1 p2 : Option DisjProof) :
    CContest :=
  ⟨"c".toList, 1, 5, [exampleCSel m id1 1 p1, exampleCSel m id2 2 p2], some 1, t, 5, some π, none⟩

def exampleCBallot (m t : Ciphertext) (π : ConstProof) (id1 id2 : Str) (p1 p2 : Option DisjProof) :
    CBallot :=
  ⟨"b".toList, "style".toList, 6, 7, [exampleCContest m t π id1 id2 p1 p2], 5, 1, some 3, 5⟩

/-- The contest is valid, whatever the ids and the proofs of its selections. -/
theorem exampleCContest_valid : ∃ (m t : Ciphertext) (π : ConstProof),
    m.pad < 2 ^ 4096 ∧ m.data < 2 ^ 4096 ∧ π.Typed ∧ (exampleProof .std 5).Typed ∧
    (∀ h, hashElems .std (constCrypto 5) h = 5) ∧
    (exampleProof .std 5).isValid .std (constCrypto 5) m (gPowP .std 2) 7 = true ∧
    ∀ (S : StdSort) (id1 id2 : Str) (p1 p2 : Option DisjProof),
      (exampleCContest m t π id1 id2 p1 p2).isValid .std (constCrypto 5) S 5 (gPowP .std 2) 7 =
        .ok true := by
  have hG := C54_std_valid
  have hL := std_large
  have hq : 100 < Params.std.q := by decide +kernel
  have hK : Residue .std (gPowP .std 2) := residue_gPowP hG 2 (by norm_num)
  obtain ⟨m, hm, m1, m2, hex⟩ := accepted_example
  obtain ⟨-, hv, hty⟩ := hex 5 (by omega) (by omega)
  generalize Params.std = G at *
  obtain ⟨t, ht, het⟩ := C12_add_encrypts_sum G hG (gPowP G 2) [(0, 1, m), (0, 1, m)] (by simp)
    (by simp [hm])
  have h5 : ∀ h, hashElems G (constCrypto 5) h = 5 := by
    intro h
    rw [hashElems_const, show 5 % 2 ^ 256 = 5 from rfl, addModQ_eq hG 5 0 (by omega) (by omega),
      Nat.add_zero, Nat.mod_eq_of_lt (by omega)]
  have hgood := const_good_of G (constCrypto 5) hG hL (gPowP G 2) 0 2 7 0 1 t hK (by simpa using het)
    (by omega) (by norm_num)
  have hc : ∀ a b, constChallenge G (constCrypto 5) 7 t a b = 5 := fun a b => h5 _
  rw [hc, show (1 + 5 * 2) % G.q = 11 from Nat.mod_eq_of_lt (by omega)] at hgood
  have hval := (hgood.1 (by simp)).2 (by simp)
  refine ⟨m, t, ⟨gPowP G 1, powModP G (gPowP G 2) 1, 5, 11, 0⟩, m1, m2, ⟨?_, ?_, ?_, ?_, ?_⟩, hty, h5,
    hv, ?_⟩
  · exact gPowP_lt4096 hG 1 (by norm_num)
  · exact powModP_lt4096 hG _ 1 (hK.lt hG) (by norm_num)
  · norm_num
  · norm_num
  · norm_num
  · intro S id1 id2 p1 p2
    have hs : (exampleCContest m t ⟨gPowP G 1, powModP G (gPowP G 2) 1, 5, 11, 0⟩ id1 id2 p1
        p2).getSelections S = [exampleCSel m id1 1 p1, exampleCSel m id2 2 p2] := by
      refine sort_of_sorted S _ _ ?_ ?_
      · simp [exampleCContest, exampleCSel]
      · simp [exampleCContest, exampleCSel]
    have ha : accumulate G [exampleCSel m id1 1 p1, exampleCSel m id2 2 p2] = .ok t := by
      rw [accumulate]
      exact ht
    unfold CContest.isValid
    rw [hs, ha, contestHash, if_neg (by simp), h5]
    simp only [exampleCContest, hval, Res.bind_ok]
    simp

theorem exampleCBallot_checks (m t : Ciphertext) (π : ConstProof) (S : StdSort) (id1 id2 : Str)
    (p1 p2 : Option DisjProof) (G : Params) (C : Crypto) (h5 : ∀ h, hashElems G C h = 5) (K : ℕ)
    (hc : (exampleCContest m t π id1 id2 p1 p2).isValid G C S 5 K 7 = .ok true) :
    (exampleCBallot m t π id1 id2 p1 p2).isValid G C S 6 K 7 =
      .ok ((mapPut (mapPut (mapPut [] (proofKey "c".toList id1)
          ((exampleCSel m id1 1 p1).isValid G C 5 K 7)) (proofKey "c".toList id2)
          ((exampleCSel m id2 2 p2).isValid G C 5 K 7)) "c".toList true).all (·.2)) := by
  have h1 : (exampleCBallot m t π id1 id2 p1 p2).getContests S =
      [exampleCContest m t π id1 id2 p1 p2] := by
    refine sort_of_sorted S _ _ ?_ ?_
    · exact List.pairwise_singleton _ _
    · simp [exampleCBallot]
  have h2 : (exampleCContest m t π id1 id2 p1 p2).getSelections S =
      [exampleCSel m id1 1 p1, exampleCSel m id2 2 p2] := by
    refine sort_of_sorted S _ _ ?_ ?_
    · simp [exampleCContest, exampleCSel]
    · simp [exampleCContest, exampleCSel]
  unfold CBallot.isValid
  rw [h1, ballotHash, if_neg (by simp [exampleCBallot]), if_neg (by simp), h5]
  simp only [contestChecks, h2, selectionChecks, Res.bind_ok]
  rw [if_neg (by simp [exampleCBallot])]
  rw [show (exampleCContest m t π id1 id2 p1 p2).descHash = 5 from rfl, hc]
  rfl

/-- C36 violated: a selection without proof is hidden by a later selection with the same id: the ballot
is declared valid. -/
theorem C36_violated : ∃ (C : Crypto) (b : CBallot) (K : ℕ), (∀ c ∈ b.contests, c.Typed) ∧
    ∀ S, b.isValid .std C S b.manifestHash K 7 = .ok true ∧
      ∃ c ∈ b.contests, ∃ s ∈ c.selections, s.proof = none ∧
        ∀ seed, s.isValid .std C seed K 7 = false := by
  obtain ⟨m, t, π, m1, m2, hπ, hty, h5, hv, hc⟩ := exampleCContest_valid
  refine ⟨constCrypto 5, exampleCBallot m t π "s".toList "s".toList none (some (exampleProof .std 5)),
    gPowP .std 2, ?_, fun S => ⟨?_, ?_⟩⟩
  · intro c hc'
    simp only [exampleCBallot, List.mem_singleton] at hc'
    subst hc'
    refine ⟨?_, ?_⟩
    · intro s hs
      simp only [exampleCContest, List.mem_cons, List.not_mem_nil, or_false] at hs
      rcases hs with rfl | rfl
      · exact ⟨m1, m2, by simp [exampleCSel]⟩
      · refine ⟨m1, m2, ?_⟩
        intro p hp
        simp only [exampleCSel, Option.mem_some_iff] at hp
        exact hp ▸ hty
    · intro p hp
      simp only [exampleCContest, Option.mem_some_iff] at hp
      exact hp ▸ hπ
  · refine (exampleCBallot_checks m t π S _ _ _ _ .std _ h5 _ (hc S _ _ _ _)).trans ?_
    have hgood : (exampleCSel m "s".toList 2 (some (exampleProof .std 5))).isValid .std (constCrypto 5) 5
        (gPowP .std 2) 7 = true := by
      unfold CSelection.isValid
      rw [if_neg (by simp [exampleCSel]), if_neg]
      · exact hv
      · rw [selectionHash, h5]
        simp [exampleCSel]
    rw [hgood]
    simp [mapPut]
  · refine ⟨_, List.mem_singleton.2 rfl, _, List.mem_cons_self .., rfl, ?_⟩
    intro seed
    unfold CSelection.isValid
    split
    · rfl
    split
    · rfl
    · rfl

/-- The hypotheses of `C36_valid_iff_partial` can be met by a valid ballot with two selections. -/
example : ∃ (C : Crypto) (b : CBallot) (K : ℕ), K < 2 ^ 4096 ∧ (∀ c ∈ b.contests, c.Typed) ∧
    b.keys.Nodup ∧ ∀ S, BallotSpec .std C S 6 K 7 b := by
  obtain ⟨m, t, π, m1, m2, hπ, hty, h5, hv, hc⟩ := exampleCContest_valid
  have hK := gPowP_lt4096 C54_std_valid 2 (by norm_num)
  have hT : ∀ c ∈ (exampleCBallot m t π "s".toList "t".toList (some (exampleProof .std 5))
      (some (exampleProof .std 5))).contests, c.Typed := by
    intro c hc'
    simp only [exampleCBallot, List.mem_singleton] at hc'
    subst hc'
    refine ⟨?_, ?_⟩
    · intro s hs
      simp only [exampleCContest, List.mem_cons, List.not_mem_nil, or_false] at hs
      rcases hs with rfl | rfl
      all_goals
        refine ⟨m1, m2, ?_⟩
        intro p hp
        simp only [exampleCSel, Option.mem_some_iff] at hp
        exact hp ▸ hty
    · intro p hp
      simp only [exampleCContest, Option.mem_some_iff] at hp
      exact hp ▸ hπ
  have hN : (exampleCBallot m t π "s".toList "t".toList (some (exampleProof .std 5))
      (some (exampleProof .std 5))).keys.Nodup := by
    change (["c".toList, "c-s".toList, "c-t".toList] : List Str).Nodup
    decide
  refine ⟨constCrypto 5, _, gPowP .std 2, hK, hT, hN, fun S => ?_⟩
  rw [← C36_valid_iff_partial .std (constCrypto 5) S C54_std_valid std_large 6 _ 7 hK _ hT hN]
  refine (exampleCBallot_checks m t π S _ _ _ _ .std _ h5 _ (hc S _ _ _ _)).trans ?_
  have hgood : ∀ id seq, (exampleCSel m id seq (some (exampleProof .std 5))).isValid .std
      (constCrypto 5) 5 (gPowP .std 2) 7 = true := by
    intro id seq
    unfold CSelection.isValid
    rw [if_neg (by simp [exampleCSel]), if_neg]
    · exact hv
    · rw [selectionHash, h5]
      simp [exampleCSel]
  rw [hgood, hgood]
  simp [mapPut]

/-! ### What the ballot hash binds -/

section binding

variable {G C} (hG : G.Valid) {Q : List Str} (hQ : NoCollision G C Q)
include hG hQ

theorem idq_bind (i j : Str) (a b : ℕ) (l m : List ℕ) (hi : Str.Plain i) (hj : Str.Plain j)
    (ha : a < 2 ^ 256) (hb : b < 2 ^ 256) (hl : ∀ x ∈ l, x < 2 ^ 256) (hm : ∀ x ∈ m, x < 2 ^ 256)
    (q1 : ∀ s ∈ hashQueries G C (.str i :: .q a :: l.map .q), s ∈ Q)
    (q2 : ∀ s ∈ hashQueries G C (.str j :: .q b :: m.map .q), s ∈ Q)
    (h : hashElems G C (.str i :: .q a :: l.map .q) = hashElems G C (.str j :: .q b :: m.map .q)) :
    i = j ∧ a = b ∧ l = m := by
  have pl : ∀ (k : Str) (c : ℕ) (n : List ℕ), Str.Plain k → c < 2 ^ 256 → (∀ x ∈ n, x < 2 ^ 256) →
      ∀ x ∈ (HElem.str k :: .q c :: n.map .q), x.Plain := by
    intro k c n hk hc hn x hx
    simp only [List.mem_cons, List.mem_map] at hx
    rcases hx with rfl | rfl | ⟨y, hy, rfl⟩
    · exact hk
    · exact hc
    · exact hn y hy
  have key := C26_hash_binding_lists_partial G C hG _ _ (by simp) (by simp) (pl i a l hi ha hl)
    (pl j b m hj hb hm) ?_ ?_ h
  · simp only [List.cons.injEq] at key
    refine ⟨by simpa using key.1, by simpa using key.2.1, ?_⟩
    exact map_inj_on' HElem.q l m (fun x _ y _ e => by simpa using e) key.2.2
  · intro n x y hx hy
    match n with
    | 0 =>
      simp only [List.getElem?_cons_zero, Option.some.injEq] at hx hy
      subst hx; subst hy; trivial
    | 1 =>
      simp only [List.getElem?_cons_succ, List.getElem?_cons_zero, Option.some.injEq] at hx hy
      subst hx; subst hy; trivial
    | n + 2 =>
      simp only [List.getElem?_cons_succ, List.getElem?_map, Option.map_eq_some_iff] at hx hy
      obtain ⟨_, _, rfl⟩ := hx
      obtain ⟨_, _, rfl⟩ := hy
      trivial
  · intro s hs t ht e
    refine hQ s ?_ t ?_ e
    · rcases List.mem_append.1 hs with h | h
      · exact q1 s h
      · exact q2 s h
    · rcases List.mem_append.1 ht with h | h
      · exact q1 t h
      · exact q2 t h

theorem selection_bind (pub ext pub' ext' : ℕ) (s t : CSelection) (hs : SelectionSpec G C pub ext s)
    (ht : SelectionSpec G C pub' ext' t) (ps : s.Plain) (pt : t.Plain)
    (qs : ∀ x ∈ s.queries G C, x ∈ Q) (qt : ∀ x ∈ t.queries G C, x ∈ Q)
    (h : s.cryptoHash = t.cryptoHash) : s.content = t.content := by
  rw [hs.hash, ht.hash] at h
  have lt : ∀ c : Ciphertext, ∀ x ∈ [c.hash G C], x < 2 ^ 256 := by
    intro c x hx
    rw [List.mem_singleton.1 hx]
    exact hashElems_lt256 hG _
  obtain ⟨h1, h2, h3⟩ := idq_bind hG hQ _ _ _ _ [s.ciphertext.hash G C] [t.ciphertext.hash G C] ps.id
    pt.id ps.desc pt.desc (lt _) (lt _)
    (fun x hx => qs x (List.mem_append_left _ hx)) (fun x hx => qt x (List.mem_append_left _ hx)) h
  simp only [List.cons.injEq, and_true] at h3
  have h4 := hash_bind hG hQ _ _ (fun x hx => qs x (List.mem_append_right _ hx))
    (fun x hx => qt x (List.mem_append_right _ hx))
    (by simp only [List.mem_cons, List.not_mem_nil, or_false, forall_eq_or_imp, forall_eq]
        exact ⟨ps.pad, ps.data⟩)
    (by simp only [List.mem_cons, List.not_mem_nil, or_false, forall_eq_or_imp, forall_eq]
        exact ⟨pt.pad, pt.data⟩)
    (by simp [HElem.SameType, HAtom.SameType]) h3
  simp only [List.cons.injEq, HElem.atom.injEq, HAtom.p.injEq, and_true] at h4
  have h5 : s.ciphertext = t.ciphertext := by
    cases hs : s.ciphertext; cases ht : t.ciphertext; simp_all
  simp [CSelection.content, h1, h2, h5]

theorem ccontest_bind (pub ext pub' ext' : ℕ) (c d : CContest) (hc : ContestSpec G C S pub ext c)
    (hd : ContestSpec G C S pub' ext' d) (hcs : ∀ s ∈ c.selections, SelectionSpec G C pub ext s)
    (hds : ∀ s ∈ d.selections, SelectionSpec G C pub' ext' s) (pc : c.Plain) (pd : d.Plain)
    (qc : ∀ x ∈ c.queries G C S, x ∈ Q) (qd : ∀ x ∈ d.queries G C S, x ∈ Q)
    (h : c.cryptoHash = d.cryptoHash) : c.content S = d.content S := by
  rw [hc.hash, hd.hash] at h
  have em : ∀ l : List CSelection, l.map (fun s => HElem.q s.cryptoHash) =
      (l.map (·.cryptoHash)).map .q := by intro l; simp [Function.comp_def]
  rw [em, em] at h
  obtain ⟨h1, h2, h3⟩ := idq_bind hG hQ _ _ _ _ _ _ pc.id pd.id pc.desc pd.desc
    (by intro x hx
        obtain ⟨s, hs, rfl⟩ := List.mem_map.1 hx
        rw [(hcs s ((mem_sort _ _ _ _).1 hs)).hash]
        exact hashElems_lt256 hG _)
    (by intro x hx
        obtain ⟨s, hs, rfl⟩ := List.mem_map.1 hx
        rw [(hds s ((mem_sort _ _ _ _).1 hs)).hash]
        exact hashElems_lt256 hG _)
    (fun x hx => qc x (List.mem_append_left _ (by rw [em]; exact hx)))
    (fun x hx => qd x (List.mem_append_left _ (by rw [em]; exact hx))) h
  have h4 := map_inj_on (fun s : CSelection => s.cryptoHash) CSelection.content _ _
    (fun a ha b hb e => selection_bind hG hQ pub ext pub' ext' a b
      (hcs a ((mem_sort _ _ _ _).1 ha)) (hds b ((mem_sort _ _ _ _).1 hb))
      (pc.selections a ((mem_sort _ _ _ _).1 ha)) (pd.selections b ((mem_sort _ _ _ _).1 hb))
      (fun x hx => qc x (List.mem_append_right _ (List.mem_flatMap.2 ⟨a, (mem_sort _ _ _ _).1 ha, hx⟩)))
      (fun x hx => qd x (List.mem_append_right _ (List.mem_flatMap.2 ⟨b, (mem_sort _ _ _ _).1 hb, hx⟩)))
      e) h3
  simp [CContest.content, h1, h2, h4]

end binding

/-- C36: two valid ballots with the same ballot hash agree in their ids, manifest, contests,
description hashes, selections and ciphertexts, unless the hash function collides on the strings
hashed. -/
theorem C36_hash_binding (hG : G.Valid) (mh pub ext mh' pub' ext' : ℕ) (b b' : CBallot)
    (hb : BallotSpec G C S mh pub ext b) (hb' : BallotSpec G C S mh' pub' ext' b')
    (pb : b.Plain) (pb' : b'.Plain) (hQ : NoCollision G C (b.queries G C S ++ b'.queries G C S))
    (h : b.cryptoHash = b'.cryptoHash) :
    b.objectId = b'.objectId ∧ mh = mh' ∧
      (S.sort CContest.seq b.contests).map (CContest.content S) =
        (S.sort CContest.seq b'.contests).map (CContest.content S) := by
  have em : ∀ l : List CContest, l.map (fun s => HElem.q s.cryptoHash) =
      (l.map (·.cryptoHash)).map .q := by intro l; simp [Function.comp_def]
  have q1 : ∀ x ∈ b.queries G C S, x ∈ b.queries G C S ++ b'.queries G C S :=
    fun x hx => List.mem_append_left _ hx
  have q2 : ∀ x ∈ b'.queries G C S, x ∈ b.queries G C S ++ b'.queries G C S :=
    fun x hx => List.mem_append_right _ hx
  rw [hb.hash, hb'.hash, em, em] at h
  obtain ⟨h1, h2, h3⟩ := idq_bind hG hQ _ _ _ _ _ _ pb.id pb'.id (hb.manifest ▸ pb.manifest)
    (hb'.manifest ▸ pb'.manifest)
    (by intro x hx
        obtain ⟨s, hs, rfl⟩ := List.mem_map.1 hx
        rw [(hb.contests s ((mem_sort _ _ _ _).1 hs)).hash]
        exact hashElems_lt256 hG _)
    (by intro x hx
        obtain ⟨s, hs, rfl⟩ := List.mem_map.1 hx
        rw [(hb'.contests s ((mem_sort _ _ _ _).1 hs)).hash]
        exact hashElems_lt256 hG _)
    (fun x hx => q1 x (List.mem_append_left _ (by rw [em, hb.manifest]; exact hx)))
    (fun x hx => q2 x (List.mem_append_left _ (by rw [em, hb'.manifest]; exact hx))) h
  refine ⟨h1, h2, map_inj_on (fun s : CContest => s.cryptoHash) (CContest.content S) _ _
    (fun c hc d hd e => ?_) h3⟩
  rw [mem_sort] at hc hd
  exact ccontest_bind S hG hQ pub ext pub' ext' c d (hb.contests c hc) (hb'.contests d hd)
    (hb.selections c hc) (hb'.selections d hd) (pb.contests c hc) (pb'.contests d hd)
    (fun x hx => q1 x (List.mem_append_right _ (List.mem_flatMap.2 ⟨c, hc, hx⟩)))
    (fun x hx => q2 x (List.mem_append_right _ (List.mem_flatMap.2 ⟨d, hd, hx⟩))) e

/-! A ballot with two selections, a vote for the first, made with the test parameters, the secret key 5
and the demonstration hash. -/

def testKey : ℕ := 13146046827303651678

def testSel1 : CSelection :=
  ⟨"s".toList, 1, 5, ⟨9599910554410786549, 6968131509863284153⟩, false, some 9, 9572,
    some ⟨13627136000028998230, 6968131509863284153, 5878147317013767514, 15700362426948245733, 65510,
      62338, 62327, 65429, 36877⟩⟩

def testSel2 : CSelection :=
  ⟨"t".toList, 2, 5, ⟨7121116660273124202, 16459417360425265362⟩, false, some 10, 49821,
    some ⟨6621266870210805743, 9013327442267194962, 8461159529082172483, 16111185882143195309, 44776, 19,
      44795, 54647, 207⟩⟩

def testContest : CContest :=
  ⟨"c".toList, 1, 6, [testSel1, testSel2], some 3, ⟨12756018971417865958, 12661282184721961572⟩, 55745,
    some ⟨14046683169747524981, 848808653977341050, 61446, 34410, 1⟩, none⟩

def testBallot : CBallot :=
  ⟨"b".toList, "style".toList, 8, 9, [testContest], 10, 11, some 12, 43364⟩

theorem testContest_sort (S : StdSort) :
    S.sort CSelection.seq testContest.selections = [testSel1, testSel2] := by
  refine sort_of_sorted S _ _ ?_ ?_ <;> decide +kernel

theorem testBallot_sort (S : StdSort) : S.sort CContest.seq testBallot.contests = [testContest] := by
  refine sort_of_sorted S _ _ ?_ ?_ <;> decide +kernel

theorem testBallot_spec (S : StdSort) : BallotSpec .test demoCrypto S 8 testKey 7 testBallot := by
  refine ⟨rfl, by simp [testBallot], ?_, ?_, ?_⟩
  · rw [testBallot_sort]
    decide +kernel
  · intro c hc
    simp only [testBallot, List.mem_singleton] at hc
    subst hc
    refine ⟨by simp [testContest], ?_, by decide +kernel, by decide +kernel, _, rfl, ?_⟩
    · rw [testContest_sort]
      decide +kernel
    · constructor <;> first | decide +kernel | (unfold Residue; decide +kernel)
  · intro c hc s hs
    simp only [testBallot, List.mem_singleton] at hc
    subst hc
    simp only [testContest, List.mem_cons, List.not_mem_nil, or_false] at hs
    rcases hs with rfl | rfl
    all_goals
      refine ⟨by decide +kernel, _, rfl, ?_⟩
      constructor <;> first | decide +kernel | (unfold Residue; decide +kernel)

/-- The hypotheses of `C36_hash_binding` can be met. -/
example (S : StdSort) : BallotSpec .test demoCrypto S 8 testKey 7 testBallot ∧ testBallot.Plain ∧
    NoCollision .test demoCrypto (testBallot.queries .test demoCrypto S ++
      testBallot.queries .test demoCrypto S) := by
  refine ⟨testBallot_spec S, ⟨by unfold Str.Plain; decide +kernel, by decide +kernel, ?_⟩, ?_⟩
  · intro c hc
    simp only [testBallot, List.mem_singleton] at hc
    subst hc
    refine ⟨by unfold Str.Plain; decide +kernel, by decide +kernel, ?_⟩
    intro s hs
    simp only [testContest, List.mem_cons, List.not_mem_nil, or_false] at hs
    rcases hs with rfl | rfl <;>
      exact ⟨by unfold Str.Plain; decide +kernel, by decide +kernel, by decide +kernel, by decide +kernel⟩
  · have h1 : CContest.queries .test demoCrypto S testContest = hashQueries .test demoCrypto
        (.str testContest.objectId :: .q testContest.descHash ::
          [testSel1, testSel2].map (fun s => .q s.cryptoHash)) ++
        [testSel1, testSel2].flatMap (CSelection.queries .test demoCrypto) := by
      rw [CContest.queries, testContest_sort]
      rfl
    have h2 : CBallot.queries .test demoCrypto S testBallot = hashQueries .test demoCrypto
        (.str testBallot.objectId :: .q testBallot.manifestHash ::
          [testContest].map (fun s => .q s.cryptoHash)) ++ (hashQueries .test demoCrypto
        (.str testContest.objectId :: .q testContest.descHash ::
          [testSel1, testSel2].map (fun s => .q s.cryptoHash)) ++
        [testSel1, testSel2].flatMap (CSelection.queries .test demoCrypto)) := by
      rw [CBallot.queries, testBallot_sort, ← h1]
      simp [testBallot]
    rw [h2]
    unfold NoCollision
    decide +kernel

theorem sort_map (S : StdSort) {α β : Type} (ka : α → ℕ) (kb : β → ℕ) (f : α → β) (l : List α)
    (hk : ∀ a, kb (f a) = ka a) (hn : (l.map ka).Nodup) :
    S.sort kb (l.map f) = (S.sort ka l).map f := by
  refine sorted_unique kb _ _ ((S.perm kb _).trans ((S.perm ka l).symm.map f)) (S.sorted kb _) ?_ ?_
  · rw [List.pairwise_map]
    simpa only [hk] using S.sorted ka l
  · intro a ha b hb hab
    rw [mem_sort, List.mem_map] at ha hb
    obtain ⟨x, hx, rfl⟩ := ha
    obtain ⟨y, hy, rfl⟩ := hb
    rw [hk, hk] at hab
    rw [key_inj_of_nodup ka l hn x hx y hy hab]

/-- C36 violated: the hashed ElGamal data of the contests (write-ins and overvotes), the ballot style,
the timestamp and the ballot code are not covered: they can be replaced by anything in a valid
ballot. -/
theorem C36_not_covered_violated (b : CBallot) (hn : (b.contests.map CContest.seq).Nodup)
    (extended : CContest → Option HashedCiphertext) (styleId : Str) (seed code timestamp : ℕ)
    (nonce : Option ℕ) (mh pub ext : ℕ) :
    CBallot.isValid G C S { b with
      contests := b.contests.map (fun c => { c with extended := extended c })
      styleId, ballotCodeSeed := seed, ballotCode := code, timestamp, nonce } mh pub ext =
    b.isValid G C S mh pub ext := by
  have e1 : CBallot.getContests S { b with
      contests := b.contests.map (fun c => { c with extended := extended c })
      styleId, ballotCodeSeed := seed, ballotCode := code, timestamp, nonce } =
      (b.getContests S).map (fun c => { c with extended := extended c }) :=
    sort_map S CContest.seq CContest.seq _ b.contests (fun _ => rfl) hn
  have e2 : ∀ (l : List CContest) m, contestChecks G C S pub ext
      (l.map (fun c => { c with extended := extended c })) m = contestChecks G C S pub ext l m := by
    intro l
    induction l with
    | nil => intro m; rfl
    | cons c l ih => intro m; simp only [List.map_cons, contestChecks, ih]; rfl
  have e3 : ballotHash G C b.objectId ((b.getContests S).map
      (fun c => { c with extended := extended c })) mh =
      ballotHash G C b.objectId (b.getContests S) mh := by
    simp [ballotHash, Function.comp_def]
  unfold CBallot.isValid
  simp only [e1, e2, e3]

/-! ## C38 -/

theorem cballot_make_ok (objectId styleId : Str) (mh : ℕ) (contests : List CContest)
    (nonce : Option ℕ) (timestamp : ℕ) (seed code : Option ℕ) (w w' : World) (b : CBallot) :
    CBallot.make G C objectId styleId mh contests nonce timestamp seed code w = (.ok b, w') ↔
      contests ≠ [] ∧
      (w' = if timestamp = 0 then { w with clock := fun n => w.clock (n + 1) } else w) ∧
      b.objectId = objectId ∧ b.styleId = styleId ∧ b.manifestHash = mh ∧
      b.contests = contests ∧ b.nonce = nonce ∧
      b.cryptoHash = hashElems G C (.str objectId :: .q mh :: contests.map (fun c => .q c.cryptoHash)) ∧
      b.ballotCodeSeed = seed.getD mh ∧
      b.timestamp = (if timestamp = 0 then w.clock 0 else timestamp) ∧
      b.ballotCode = code.getD (hashElems G C [.q b.ballotCodeSeed, .u64 b.timestamp, .q b.cryptoHash]) := by
  unfold CBallot.make ballotHash
  by_cases hne : contests = []
  · simp [hne, M.raise]
  have h1 : contests.isEmpty = false := by simpa using hne
  by_cases h0 : timestamp = 0
  · simp only [h1, h0, Bool.false_eq_true, if_false, if_true, M.bind_eq_ok, M.lift, M.now, M.ret,
      Prod.mk.injEq, Res.ok.injEq]
    constructor
    · rintro ⟨h, w1, ⟨rfl, rfl⟩, t, w2, ⟨rfl, rfl⟩, rfl, rfl⟩
      simp [hne, ballotCodeOf]
    · rintro ⟨-, rfl, rfl, rfl, rfl, rfl, rfl, h1, h2, h3, h4⟩
      refine ⟨_, _, ⟨rfl, rfl⟩, _, _, ⟨rfl, rfl⟩, ?_, rfl⟩
      cases b
      simp_all [ballotCodeOf]
  · simp only [h1, h0, Bool.false_eq_true, if_false, M.bind_eq_ok, M.lift, M.ret,
      Prod.mk.injEq, Res.ok.injEq]
    constructor
    · rintro ⟨h, w1, ⟨rfl, rfl⟩, t, w2, ⟨rfl, rfl⟩, rfl, rfl⟩
      simp [hne, ballotCodeOf]
    · rintro ⟨-, rfl, rfl, rfl, rfl, rfl, rfl, h1, h2, h3, h4⟩
      refine ⟨_, _, ⟨rfl, rfl⟩, _, _, ⟨rfl, rfl⟩, ?_, rfl⟩
      cases b
      simp_all [ballotCodeOf]

/-- C38: for contests given in strictly increasing sequence order the stored hash is the recomputed
one. -/
theorem C38_in_order_partial (objectId styleId : Str) (mh : ℕ) (contests : List CContest)
    (nonce : Option ℕ) (timestamp : ℕ) (seed code : Option ℕ) (w w' : World) (b : CBallot)
    (h : CBallot.make G C objectId styleId mh contests nonce timestamp seed code w = (.ok b, w'))
    (ho : contests.Pairwise (fun a b => a.seq < b.seq)) :
    ballotHash G C b.objectId (b.getContests S) b.manifestHash = .ok b.cryptoHash := by
  obtain ⟨hne, -, e1, -, e2, e3, -, e4, -⟩ := (cballot_make_ok ..).1 h
  have hs : b.getContests S = contests := by
    rw [CBallot.getContests, e3]
    refine sort_of_sorted S _ _ (ho.imp (fun h => le_of_lt h)) (key_inj_of_nodup _ _ ?_)
    rw [List.nodup_iff_pairwise_ne, List.pairwise_map]
    exact ho.imp (fun h => ne_of_lt h)
  rw [hs, ballotHash, if_neg (by simpa using hne), e1, e2, e4]

/-- C38: unless the hash function collides on the two strings hashed, the recomputed hash is the
stored one exactly if sorting does not change the sequence of contest hashes. -/
theorem C38_agree_iff (objectId styleId : Str) (mh : ℕ) (contests : List CContest)
    (nonce : Option ℕ) (timestamp : ℕ) (seed code : Option ℕ) (w w' : World) (b : CBallot)
    (h : CBallot.make G C objectId styleId mh contests nonce timestamp seed code w = (.ok b, w'))
    (hh : ∀ c ∈ contests, c.cryptoHash < 2 ^ 256)
    (hQ : NoCollision G C (hashQueries G C (.str objectId :: .q mh ::
        contests.map (fun c => .q c.cryptoHash)) ++ hashQueries G C (.str objectId :: .q mh ::
        (S.sort CContest.seq contests).map (fun c => .q c.cryptoHash)))) :
    ballotHash G C b.objectId (b.getContests S) b.manifestHash = .ok b.cryptoHash ↔
      (S.sort CContest.seq contests).map (·.cryptoHash) = contests.map (·.cryptoHash) := by
  obtain ⟨hne, -, e1, -, e2, e3, -, e4, -⟩ := (cballot_make_ok ..).1 h
  have hs : S.sort CContest.seq contests ≠ [] := by
    intro h0
    have := S.perm CContest.seq contests
    rw [h0] at this
    exact hne this.symm.eq_nil
  rw [CBallot.getContests, e3, ballotHash, if_neg (by simpa using hs), e1, e2, e4, Res.ok.injEq]
  have em : ∀ l : List CContest, l.map (fun s => HElem.q s.cryptoHash) =
      (l.map (·.cryptoHash)).map .q := by intro l; simp [Function.comp_def]
  constructor
  · intro h
    unfold hashElems at h
    rw [if_neg (by simp), if_neg (by simp)] at h
    have h1 := hQ _ (List.mem_append_right _ (by simp [hashQueries])) _
      (List.mem_append_left _ (by simp [hashQueries])) h
    simp only [List.map_cons, hashInput, List.flatMap_cons, List.cons.injEq, true_and,
      List.append_cancel_left_eq] at h1
    have h2 := hashInput_inj _ _ ?_ ?_ (congrArg ('|' :: ·) h1)
    · rw [List.map_map, List.map_map] at h2
      refine map_inj_on (fun c : CContest => HElem.render G C (.q c.cryptoHash)) (·.cryptoHash) _ _ ?_ h2
      intro a ha c hc hac
      have := atom_render_inj (.q a.cryptoHash) (.q c.cryptoHash)
        (hh a ((mem_sort _ _ _ _).1 ha)) (hh c hc) trivial hac
      simpa using this
    all_goals
      intro s hs
      rw [List.map_map, List.mem_map] at hs
      obtain ⟨c, hc, rfl⟩ := hs
      exact atom_no_delim (.q c.cryptoHash) (hh c (by simpa using hc))
  · intro h
    rw [em, em, h]

/-- C38: with distinct sequence numbers and contest hashes, and no collision, the hashes agree exactly
for contests given in sequence order. -/
theorem C38_order_iff (objectId styleId : Str) (mh : ℕ) (contests : List CContest)
    (nonce : Option ℕ) (timestamp : ℕ) (seed code : Option ℕ) (w w' : World) (b : CBallot)
    (h : CBallot.make G C objectId styleId mh contests nonce timestamp seed code w = (.ok b, w'))
    (hh : ∀ c ∈ contests, c.cryptoHash < 2 ^ 256)
    (hn : (contests.map (·.cryptoHash)).Nodup) (hs : (contests.map (·.seq)).Nodup)
    (hQ : NoCollision G C (hashQueries G C (.str objectId :: .q mh ::
        contests.map (fun c => .q c.cryptoHash)) ++ hashQueries G C (.str objectId :: .q mh ::
        (S.sort CContest.seq contests).map (fun c => .q c.cryptoHash)))) :
    ballotHash G C b.objectId (b.getContests S) b.manifestHash = .ok b.cryptoHash ↔
      contests.Pairwise (fun a b => a.seq < b.seq) := by
  rw [C38_agree_iff G C S objectId styleId mh contests nonce timestamp seed code w w' b h hh hQ]
  constructor
  · intro h
    have h1 : S.sort CContest.seq contests = contests := by
      refine map_inj_on' (·.cryptoHash) _ _ (fun a ha c hc e => ?_) h
      exact List.inj_on_of_nodup_map hn ((mem_sort _ _ _ _).1 ha) hc e
    have h2 := S.sorted CContest.seq contests
    rw [h1] at h2
    rw [List.nodup_iff_pairwise_ne, List.pairwise_map] at hs
    exact (h2.and hs).imp (fun h => lt_of_le_of_ne h.1 h.2)
  · intro ho
    rw [sort_of_sorted S _ _ (ho.imp (fun h => le_of_lt h)) (key_inj_of_nodup _ _ hs)]

/-- C38 violated: a ballot made from contests out of sequence order is invalid from the start: its
check returns false for every key, unless the hash function collides. -/
theorem C38_out_of_order_violated (objectId styleId : Str) (mh : ℕ) (contests : List CContest)
    (nonce : Option ℕ) (timestamp : ℕ) (seed code : Option ℕ) (w w' : World) (b : CBallot)
    (h : CBallot.make G C objectId styleId mh contests nonce timestamp seed code w = (.ok b, w'))
    (hh : ∀ c ∈ contests, c.cryptoHash < 2 ^ 256)
    (hn : (contests.map (·.cryptoHash)).Nodup) (hs : (contests.map (·.seq)).Nodup)
    (ho : ¬ contests.Pairwise (fun a b => a.seq < b.seq))
    (hQ : NoCollision G C (hashQueries G C (.str objectId :: .q mh ::
        contests.map (fun c => .q c.cryptoHash)) ++ hashQueries G C (.str objectId :: .q mh ::
        (S.sort CContest.seq contests).map (fun c => .q c.cryptoHash)))) (pub ext : ℕ) :
    b.isValid G C S mh pub ext = .ok false := by
  have h1 := (C38_order_iff G C S objectId styleId mh contests nonce timestamp seed code w w' b h hh hn
    hs hQ).not.2 ho
  obtain ⟨hne, -, e1, -, e2, e3, -, e4, -⟩ := (cballot_make_ok ..).1 h
  have hs : b.getContests S ≠ [] := by
    intro h0
    have := S.perm CContest.seq contests
    rw [CBallot.getContests, e3] at h0
    rw [h0] at this
    exact hne this.symm.eq_nil
  rw [ballotHash, if_neg (by simpa using hs), Res.ok.injEq] at h1
  unfold CBallot.isValid
  rw [if_neg (by simp [e2]), ballotHash, if_neg (by simpa using hs), Res.bind_ok, if_pos]
  rw [← e2]
  exact fun h => h1 h.symm

/-- Two contests out of order meet the hypotheses. -/
example (t : Ciphertext) (w : World) : ∃ contests : List CContest,
    (∀ c ∈ contests, c.cryptoHash < 2 ^ 256) ∧ (contests.map (·.cryptoHash)).Nodup ∧
    (contests.map (·.seq)).Nodup ∧ ¬ contests.Pairwise (fun a b => a.seq < b.seq) ∧
    (∃ b w', CBallot.make .std demoCrypto "b".toList "s".toList 6 contests none 1 none none w =
      (.ok b, w')) ∧
    ∀ S : StdSort, NoCollision .std demoCrypto (hashQueries .std demoCrypto (.str "b".toList :: .q 6 ::
        contests.map (fun c => .q c.cryptoHash)) ++ hashQueries .std demoCrypto (.str "b".toList ::
        .q 6 :: (S.sort CContest.seq contests).map (fun c => .q c.cryptoHash))) := by
  refine ⟨[⟨"c".toList, 2, 5, [], none, t, 50, none, none⟩,
    ⟨"d".toList, 1, 5, [], none, t, 51, none, none⟩], ?_, ?_, ?_, ?_, ?_, ?_⟩
  · simp
  · simp
  · simp
  · simp
  · exact ⟨_, _, rfl⟩
  · intro S
    have hs : S.sort CContest.seq [⟨"c".toList, 2, 5, [], none, t, 50, none, none⟩,
        ⟨"d".toList, 1, 5, [], none, t, 51, none, none⟩] =
        [⟨"d".toList, 1, 5, [], none, t, 51, none, none⟩,
          ⟨"c".toList, 2, 5, [], none, t, 50, none, none⟩] := by
      refine sorted_unique CContest.seq _ _ ((S.perm CContest.seq _).trans (List.Perm.swap _ _ _))
        (S.sorted _ _) (by simp) ?_
      refine key_inj_of_nodup _ _ ?_
      refine ((S.perm CContest.seq _).map _).nodup_iff.2 ?_
      simp
    rw [hs]
    simp only [List.map_cons, List.map_nil]
    unfold NoCollision
    decide +kernel

end EG
