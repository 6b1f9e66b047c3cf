import Verif.Props.Stored

/-!
# C53, exactly: selections that are named like a placeholder
-/

namespace EG

variable (G : Params) (C : Crypto) (S : StdSort)

theorem parts_filter {K : ℕ} {sid : Str} {l : List (SelectionDesc × ℕ)} {ps : List CSelection}
    (h : List.Forall₂ (fun dv s => s.objectId = dv.1.objectId ∧ ∃ n, IsEncryption G K dv.2 n s.ciphertext)
      l ps) :
    Parts G K ((ps.filter (fun s => s.objectId = sid)).map (·.ciphertext))
      ((l.filter (fun dv => dv.1.objectId = sid)).map (·.2)).sum := by
  induction h with
  | nil => exact Parts.nil G K
  | @cons dv s l ps hab _ ih =>
    by_cases hs : dv.1.objectId = sid
    · rw [List.filter_cons_of_pos (by simpa [hab.1] using hs), List.filter_cons_of_pos (by simpa using hs),
        List.map_cons, List.map_cons, List.sum_cons]
      exact (Parts.single G hab.2).append ih
    · rw [List.filter_cons_of_neg (by simpa [hab.1] using hs), List.filter_cons_of_neg (by simpa using hs)]
      exact ih

theorem zip_filter_sum (l : List SelectionDesc) (f : ℕ → Bool) (k : ℕ) (sid : Str) :
    (((l.zip ((List.range' k l.length).map (fun i => if f i then 1 else 0))).filter
      (fun dv => dv.1.objectId = sid)).map (·.2)).sum =
    (List.range' k l.length).countP (fun i => l[i - k]?.map (·.objectId) = some sid ∧ f i) := by
  induction l generalizing k with
  | nil => rfl
  | cons x l ih =>
    have ih := ih (k + 1)
    rw [List.length_cons, List.range'_succ, List.map_cons, List.zip_cons_cons, List.countP_cons]
    have e : (List.range' (k + 1) l.length).countP (fun i => (x :: l)[i - k]?.map (·.objectId) = some sid ∧ f i) =
        (List.range' (k + 1) l.length).countP (fun i => l[i - (k + 1)]?.map (·.objectId) = some sid ∧ f i) := by
      apply List.countP_congr
      intro i hi
      have := (List.mem_range'_1.1 hi).1
      have h : i - k = (i - (k + 1)) + 1 := by omega
      rw [h, List.getElem?_cons_succ]
    rw [e, ← ih]
    by_cases hx : x.objectId = sid
    · rw [List.filter_cons_of_pos (by simpa using hx), List.map_cons, List.sum_cons]
      simp [hx, Nat.add_comm]
    · rw [List.filter_cons_of_neg (by simpa using hx)]
      simp [hx]

/-- One contest of one ballot. -/
theorem contest_parts_exact (hG : G.Valid) (ctx : Context) (b : PBallot) (m : IManifest) (seed : ℕ)
    (verify : Bool) (d : ContestDescP) (c : CContest) (hK : Residue G ctx.pub)
    (hel : d.desc.numberElected < 2 ^ 64) (hn : (d.desc.selections.map (·.objectId)).Nodup)
    (hl : d.desc.selections.length < 2 ^ 32)
    (ht : ∀ c ∈ b.contests, ∀ s ∈ c.selections, s.vote < 2 ^ 32)
    (sid : Str) (hsid : sid ∈ d.desc.selections.map (·.objectId))
    (h : ContestResult G C S m ctx.pub ctx.extHash seed verify (emplaceFrom S b d) d c) :
    Parts G ctx.pub ((c.selections.filter (fun s => s.objectId = sid)).map (·.ciphertext))
        (b.counted d.desc sid + b.padding S d sid) := by
  obtain ⟨w1, w2, hw, hrun⟩ := h
  have htot := emplaceFrom_total_lt S b d ht hl
  obtain ⟨over, hcheck, facts, -, -⟩ := encryptContest_spec G C S hG _ _ _ _ m d verify w1 w2 c hK hw hel hrun
  obtain ⟨rs, ps, h1, h2, h3⟩ := facts.selections
  obtain ⟨k1, k2, -, -⟩ := C31_classification_partial (emplaceFrom S b d) d.desc.objectId
    d.desc.selections.length d.desc.numberElected d.desc.votesAllowed true htot
  have hover : over = true ↔ b.OvervotedIn d.desc := by
    rw [← overvoted_iff S]
    cases over
    · have := (k1.1 hcheck).2.2
      simp [this]
    · have := (k2.1 hcheck).2.2.1
      simp [this]
  rw [h1, List.filter_append, List.map_append]
  refine Parts.append ?_ ?_
  · have hperm := S.perm SelectionDesc.seq d.desc.selections
    have hn' : ((d.desc.getSelections S).map (·.objectId)).Nodup := (hperm.map _).nodup_iff.2 hn
    have hmem : sid ∈ (d.desc.getSelections S).map (·.objectId) := (hperm.map _).mem_iff.2 hsid
    have key := parts_pick G (K := ctx.pub) (v := b.counted d.desc sid) (sid := sid)
      (l := d.desc.getSelections S) (rs := rs) ?_ hn'
    · rwa [if_pos hmem] at key
    · rw [List.forall₂_iff_get] at h2 ⊢
      refine ⟨h2.1, fun i hi hi' => ?_⟩
      have hr := h2.2 i hi hi'
      refine ⟨hr.id, fun hid => ?_⟩
      obtain ⟨n, -, -, henc⟩ := hr.encryption
      refine ⟨n, ?_⟩
      have hm := List.get_mem (d.desc.getSelections S) ⟨i, hi⟩
      rw [emplaceFrom_voteFor S b d _ hm, hid] at henc
      unfold PBallot.counted
      by_cases ho : b.OvervotedIn d.desc
      · rw [if_pos ho]
        rwa [if_pos (hover.2 ho)] at henc
      · rw [if_neg ho]
        rwa [if_neg (fun hh => ho (hover.1 hh))] at henc
  · have key := parts_filter G (K := ctx.pub) (sid := sid) (h3.imp (fun dv s hr => by
      obtain ⟨n, -, -, henc⟩ := hr.encryption
      exact ⟨hr.id, n, henc⟩))
    have hlen : (d.getPlaceholders S).length = d.placeholders.length := by simp [ContestDescP.getPlaceholders]
    have hsum : over = false → (realVotes S (emplaceFrom S b d) d over).sum % 2 ^ 64 =
        (d.desc.selections.map (fun s => b.markFor d.desc.objectId s.objectId)).sum := by
      rintro rfl
      have e : realVotes S (emplaceFrom S b d) d false =
          (d.desc.getSelections S).map (fun sd => b.markFor d.desc.objectId sd.objectId) := by
        unfold realVotes
        apply List.map_congr_left
        intro sd hsd
        rw [if_neg (by simp), emplaceFrom_voteFor S b d sd hsd]
      rw [e, ← emplaceFrom_map_vote, ← ((S.perm SelectionDesc.seq d.desc.selections).map
        (fun s => b.markFor d.desc.objectId s.objectId)).sum_eq]
      change ((emplaceFrom S b d).selections.map (·.vote)).sum % 2 ^ 64 = ((d.desc.getSelections S).map _).sum
      rw [← emplaceFrom_map_vote]
      exact Nat.mod_eq_of_lt htot
    have epad : b.padding S d sid = ((((d.getPlaceholders S).zip (placeholderVotes over d.desc.numberElected
        ((realVotes S (emplaceFrom S b d) d over).sum % 2 ^ 64) d.placeholders.length)).filter
        (fun dv : SelectionDesc × ℕ => dv.1.objectId = sid)).map (·.2)).sum := by
      have := zip_filter_sum (d.getPlaceholders S) (fun i => decide (over = true ∨
        (realVotes S (emplaceFrom S b d) d over).sum % 2 ^ 64 + i < d.desc.numberElected)) 0 sid
      rw [hlen, ← List.range_eq_range'] at this
      simp only [decide_eq_true_eq] at this
      unfold placeholderVotes
      rw [this]
      unfold PBallot.padding
      apply List.countP_congr
      intro i _
      simp only [Nat.sub_zero, decide_eq_true_eq]
      cases over with
      | true => simp [hover.1 rfl]
      | false =>
        rw [hsum rfl]
        have : ¬ b.OvervotedIn d.desc := fun h => by simpa using hover.2 h
        simp [this]
    rw [epad]
    exact key

theorem ballot_parts_exact (hG : G.Valid) (ctx : Context) (m : IManifest) (hK : Residue G ctx.pub)
    (hm : GoodManifest m) (d : ContestDescP) (hd : d ∈ m.contests)
    (sid : Str) (hsid : sid ∈ d.desc.selections.map (·.objectId)) (b : PBallot) (e : CBallot)
    (hv : ∀ c ∈ b.contests, ∀ s ∈ c.selections, s.vote < 2 ^ 32) (henc : Encrypted G C S ctx m b e) :
    Parts G ctx.pub (e.ciphertextsFor d.desc.objectId sid)
      (m.timesListed b.styleId d.desc * (b.counted d.desc sid + b.padding S d sid)) := by
  obtain ⟨codeSeed, nonce, timestamp, verify, w, w', hw, hrun⟩ := henc
  obtain ⟨ds, hds⟩ : ∃ ds, m.getContestsFor S b.styleId = .ok ds := encryptBallot_contests S hrun
  obtain ⟨style, -, -, hmem, -⟩ := C44_contests S m b.styleId ds hds
  have huniq : ∀ x ∈ m.contests, ∀ y ∈ m.contests, x.desc.objectId = y.desc.objectId → x = y :=
    fun x hx y hy hxy => List.inj_on_of_nodup_map hm.ids hx hy hxy
  have hgood : GoodContests ds := ⟨fun x hx => hm.elected x ((hmem x).1 hx).1,
    fun x hx y hy => huniq x ((hmem x).1 hx).1 y ((hmem y).1 hy).1,
    fun x hx => hm.selections x ((hmem x).1 hx).1, fun x hx => hm.placeholders x ((hmem x).1 hx).1⟩
  obtain ⟨n, -, -, -, hcs, -⟩ := C35_ballot G C S hG ctx b m codeSeed nonce
    timestamp verify w w' e ds hK hw hds hgood hrun
  rw [← listed_count S m b.styleId ds hds d hd hm.ids]
  refine forall₂_filter_flatMap G ds e.contests hcs _ _ _ _ ?_ ?_
  · rintro a ha c ⟨w1, w2, hw1, hr⟩
    obtain ⟨over, -, facts, -, -⟩ := encryptContest_spec G C S hG _ _ _ _ m a verify w1 w2 c hK hw1
      (hgood.elected a ha) hr
    rw [facts.id]
  · intro a ha c hr hda
    have := huniq a ((hmem a).1 ha).1 d hd (by simpa using hda)
    subst this
    exact contest_parts_exact G C S hG ctx b m _ verify a c hK (hm.elected a hd) (hm.selections a hd)
      (hm.count a hd) hv sid hsid hr

/-- C53, for every selection: if the selection has the id of placeholders, the votes that these get are
counted with it. -/
theorem C53_selection (hG : G.Valid) (ctx : Context) (m : IManifest) (hK : Residue G ctx.pub)
    (hm : GoodManifest m) (d : ContestDescP) (hd : d ∈ m.contests)
    (sid : Str) (hsid : sid ∈ d.desc.selections.map (·.objectId)) (cast : List (PBallot × CBallot))
    (hv : ∀ x ∈ cast, ∀ c ∈ x.1.contests, ∀ s ∈ c.selections, s.vote < 2 ^ 32)
    (henc : ∀ x ∈ cast, Encrypted G C S ctx m x.1 x.2)
    (hne : cast.flatMap (fun x => x.2.ciphertextsFor d.desc.objectId sid) ≠ []) :
    ∃ t N, elgamalAdd G (cast.flatMap (fun x => x.2.ciphertextsFor d.desc.objectId sid)) = .ok t ∧
      IsEncryption G ctx.pub (cast.map (fun x => m.timesListed x.1.styleId d.desc *
        (x.1.counted d.desc sid + x.1.padding S d sid))).sum N t := by
  obtain ⟨xs, h1, h2, h3⟩ := Parts.flatMap (G := G) (K := ctx.pub)
    (fun x : PBallot × CBallot => x.2.ciphertextsFor d.desc.objectId sid)
    (fun x => m.timesListed x.1.styleId d.desc * (x.1.counted d.desc sid + x.1.padding S d sid)) cast
    (fun x hx => ballot_parts_exact G C S hG ctx m hK hm d hd sid hsid x.1 x.2 (hv x hx) (henc x hx))
  have hxs : xs ≠ [] := by
    rintro rfl
    exact hne h1.symm
  obtain ⟨t, ht, hi⟩ := C12_add_encrypts_sum G hG ctx.pub xs hxs h2
  rw [h1] at ht
  rw [h3] at hi
  exact ⟨t, _, ht, hi⟩

/-- C92, for every selection: as in `C53_selection`. -/
theorem C92_selection (hG : G.Valid) (ctx : Context) (m : IManifest) (hK : Residue G ctx.pub)
    (hm : GoodManifest m) (d : ContestDescP) (hd : d ∈ m.contests)
    (sid : Str) (hsid : sid ∈ d.desc.selections.map (·.objectId)) (state : BallotBoxState)
    (record : List (PBallot × BallotBoxState × SBallot))
    (hv : ∀ x ∈ record, ∀ c ∈ x.1.contests, ∀ s ∈ c.selections, s.vote < 2 ^ 32)
    (hrec : ∀ x ∈ record, Stored G C S ctx m x.1 x.2.1 x.2.2)
    (hne : (withState state (record.map (·.2.2))).flatMap
      (fun e => e.ciphertextsFor d.desc.objectId sid) ≠ []) :
    ∃ t N, elgamalAdd G ((withState state (record.map (·.2.2))).flatMap
        (fun e => e.ciphertextsFor d.desc.objectId sid)) = .ok t ∧
      IsEncryption G ctx.pub ((record.filter (fun x => x.2.1 = state)).map (fun x =>
        m.timesListed x.1.styleId d.desc * (x.1.counted d.desc sid + x.1.padding S d sid))).sum N t := by
  have hstate := fun x hx => (stored_parts C S hG ctx x.1 m hK hm d hd (hv x hx) sid x.2.1 x.2.2
    (hrec x hx)).1
  have hparts : ∀ x ∈ record, Parts G ctx.pub (x.2.2.ballot.ciphertextsFor d.desc.objectId sid)
      (m.timesListed x.1.styleId d.desc * (x.1.counted d.desc sid + x.1.padding S d sid)) := by
    intro x hx
    obtain ⟨e, sb, text, henc, hnum, hsb, hw, hr⟩ := hrec x hx
    obtain ⟨-, h2⟩ := stored_back hG S hnum hsb hw hr
    have p1 := ballot_parts_exact G C S hG ctx m hK hm d hd sid hsid x.1 e (hv x hx) henc
    refine p1.perm ((sameContests_ciphertexts S _ sid h2 ?_).trans ?_)
    · intro c hc hcid s hs hsid
      exact p1.readable hG hK _ (mem_ciphertextsFor ((mem_sort S _ _ c).1 hc) hcid hs hsid)
    · exact ((S.perm CContest.seq e.contests).filter _).flatMap_right _
  rw [withState_flatMap state record hstate] at hne ⊢
  obtain ⟨xs, h1, h2, h3⟩ := Parts.flatMap (G := G) (K := ctx.pub)
    (fun x : PBallot × BallotBoxState × SBallot => x.2.2.ballot.ciphertextsFor d.desc.objectId sid)
    (fun x => m.timesListed x.1.styleId d.desc * (x.1.counted d.desc sid + x.1.padding S d sid))
    (record.filter (fun x => x.2.1 = state)) (fun x hx => hparts x (List.mem_filter.1 hx).1)
  have hxs : xs ≠ [] := by
    rintro rfl
    exact hne h1.symm
  obtain ⟨t, ht, hi⟩ := C12_add_encrypts_sum G hG ctx.pub xs hxs h2
  rw [h1] at ht
  rw [h3] at hi
  exact ⟨t, _, ht, hi⟩

theorem blank_padding (b : PBallot) (d : ContestDescP) (p : SelectionDesc)
    (hel : d.desc.numberElected = 1) (hp : d.placeholders = [p])
    (hb : ∀ s ∈ d.desc.selections, b.markFor d.desc.objectId s.objectId = 0)
    (hsid : p.objectId ∈ d.desc.selections.map (·.objectId)) :
    b.counted d.desc p.objectId = 0 ∧ b.padding S d p.objectId = 1 := by
  have hsum : (d.desc.selections.map (fun s => b.markFor d.desc.objectId s.objectId)).sum = 0 := by
    rw [List.sum_eq_zero_iff]
    intro v hv
    obtain ⟨s, hs, rfl⟩ := List.mem_map.1 hv
    exact hb s hs
  constructor
  · unfold PBallot.counted
    obtain ⟨s, hs, he⟩ := List.mem_map.1 hsid
    rw [← he, hb s hs, ite_self]
  · unfold PBallot.padding
    have hsort : d.getPlaceholders S = [p] := by
      unfold ContestDescP.getPlaceholders
      rw [hp]
      exact List.perm_singleton.1 (S.perm _ _)
    rw [hsum, hel, hp, hsort]
    simp

/-- C53 is violated by a contest for one seat with a selection that has the id of the placeholder: a ballot
without a mark in the contest counts as a vote for the selection. -/
theorem C53_blank_violated (hG : G.Valid) (ctx : Context) (m : IManifest) (hK : Residue G ctx.pub)
    (hm : GoodManifest m) (b : PBallot) (d : ContestDescP) (hd : d ∈ m.contests) (p : SelectionDesc)
    (hel : d.desc.numberElected = 1) (hp : d.placeholders = [p])
    (hsid : p.objectId ∈ d.desc.selections.map (·.objectId)) (e : CBallot)
    (hv : ∀ c ∈ b.contests, ∀ s ∈ c.selections, s.vote < 2 ^ 32) (henc : Encrypted G C S ctx m b e)
    (hlist : m.timesListed b.styleId d.desc = 1)
    (hb : ∀ s ∈ d.desc.selections, b.markFor d.desc.objectId s.objectId = 0) :
    b.counted d.desc p.objectId = 0 ∧
      ∃ t N, elgamalAdd G (e.ciphertextsFor d.desc.objectId p.objectId) = .ok t ∧
        IsEncryption G ctx.pub 1 N t := by
  obtain ⟨h0, h1⟩ := blank_padding S b d p hel hp hb hsid
  refine ⟨h0, ?_⟩
  obtain ⟨xs, e1, e2, e3⟩ := ballot_parts_exact G C S hG ctx m hK hm d hd p.objectId hsid b e hv henc
  rw [hlist, h0, h1] at e3
  have hxs : xs ≠ [] := by
    rintro rfl
    cases e3
  obtain ⟨t, ht, hi⟩ := C12_add_encrypts_sum G hG ctx.pub xs hxs e2
  rw [e1] at ht
  rw [e3] at hi
  exact ⟨t, _, ht, hi⟩

/-! ## The hypotheses can be met: the contest of `C43_id_violated` and an empty ballot -/

def clashingContestP : ContestDescP := ⟨clashingContest, [placeholderFrom "c".toList 2]⟩

theorem clashingContestP_eq : clashingContestP.placeholders = placeholdersFor S clashingContest := by
  have h : clashingContest.getSelections S = clashingContest.selections := by
    refine sort_of_sorted S _ _ ?_ ?_ <;> decide +kernel
  simp only [placeholdersFor, h]
  decide +kernel

def clashingIM (h : ℕ) : IManifest := { exampleIM h with contests := [clashingContestP] }

def emptyBallot : PBallot := ⟨"ballot".toList, "style".toList, []⟩

theorem clashingIM_good (h : ℕ) : GoodManifest (clashingIM h) := by
  constructor
  · change ([clashingContestP].map (fun c => c.desc.objectId)).Nodup
    decide +kernel
  · change ∀ d ∈ [clashingContestP], _
    decide +kernel
  · change ∀ d ∈ [clashingContestP], _
    decide +kernel
  · change ∀ d ∈ [clashingContestP], _
    decide +kernel
  · change ∀ d ∈ [clashingContestP], _
    decide +kernel

theorem clashingIM_contests (h : ℕ) :
    (clashingIM h).getContestsFor S "style".toList = .ok [clashingContestP] := by
  have e : (clashingIM h).getBallotStyle "style".toList =
      some ⟨"style".toList, ["d".toList, "e".toList], [], []⟩ := by
    change exampleManifest.styles.find? (fun s => s.objectId = "style".toList) = _
    decide +kernel
  rw [IManifest.getContestsFor, e]
  have e2 : contestsOfUnits (clashingIM h).contests ["d".toList, "e".toList] = [clashingContestP] := by
    change contestsOfUnits [clashingContestP] _ = _
    decide +kernel
  change Res.ok (S.sort _ (contestsOfUnits (clashingIM h).contests ["d".toList, "e".toList])) = _
  rw [e2]
  congr 1
  exact List.perm_singleton.1 (S.perm _ _)

example (K : ℕ) (hK : Residue .std K) (h : ℕ) (w : World) (hw : w.Ok .std K) :
    ∃ e, Encrypted .std (constCrypto 5) S (exampleContext K h) (clashingIM h) emptyBallot e ∧
    ∃ t N, elgamalAdd .std (e.ciphertextsFor "c".toList "c-2-placeholder".toList) = .ok t ∧
      IsEncryption .std K 1 N t := by
  obtain ⟨e, w', he⟩ : ∃ e w', encryptBallot .std (constCrypto 5) S emptyBallot (clashingIM h)
      (exampleContext K h) 1 none 1000 false w = (.ok e, w') := by
    refine C35_ballot_total .std (constCrypto 5) S C54_std_valid (exampleContext K h) emptyBallot
      (clashingIM h) 1 none 1000 w [clashingContestP] hK hw (clashingIM_contests S h) ?_ (by simp)
      (by decide +kernel) (by decide +kernel) (by decide +kernel) (fun _ => addModQ .std (5 % 2 ^ 256) 0) ?_ ?_
    · refine ⟨?_, ?_, ?_, ?_⟩ <;> decide +kernel
    · intro d hd
      refine exampleContest_hash d ?_ ?_ <;> (rw [List.mem_singleton.1 hd]; rfl)
    · intro d _ sd _
      rw [selectionNonce, hashElems_const]
      exact std_const5
  have henc : Encrypted .std (constCrypto 5) S (exampleContext K h) (clashingIM h) emptyBallot e :=
    ⟨_, _, _, _, w, w', hw, he⟩
  exact ⟨e, henc, (C53_blank_violated .std (constCrypto 5) S C54_std_valid (exampleContext K h) (clashingIM h)
    hK (clashingIM_good h) emptyBallot clashingContestP (List.mem_singleton_self _)
    (placeholderFrom "c".toList 2) rfl rfl (by decide +kernel) e (by decide +kernel) henc (by
      change (match exampleManifest.styles.find? (fun s => s.objectId = emptyBallot.styleId) with
        | some style => style.gpUnitIds.count clashingContestP.desc.districtId
        | none => 0) = 1
      decide +kernel) (fun _ _ => rfl)).2⟩

end EG
