import Verif.Spec.Tally
import Verif.Props.EncryptBallot

/-!
# C53: the tally of an election
-/

namespace EG

variable (G : Params) (C : Crypto) (S : StdSort)

theorem emplaceFrom_votes (b : PBallot) (d : ContestDescP) :
    List.Forall₂ (fun (sd : SelectionDesc) (s : PSelection) => s.vote = b.markFor d.desc.objectId sd.objectId)
      (d.desc.getSelections S) (emplaceFrom S b d).selections := by
  unfold emplaceFrom PBallot.markFor
  cases hf : b.contests.find? (fun c => c.objectId = d.desc.objectId) with
  | some c =>
    simp only [emplaceContest]
    rw [List.forall₂_map_right_iff, List.forall₂_same]
    exact fun sd _ => emplaceSelection_vote c sd
  | none =>
    simp only [contestFrom]
    rw [List.forall₂_map_right_iff, List.forall₂_same]
    exact fun sd _ => rfl

theorem emplaceFrom_voteFor (b : PBallot) (d : ContestDescP) (sd : SelectionDesc)
    (hsd : sd ∈ d.desc.getSelections S) :
    (emplaceFrom S b d).voteFor sd.objectId = b.markFor d.desc.objectId sd.objectId := by
  rw [← emplaceSelection_vote]
  unfold emplaceFrom PBallot.markFor
  cases hf : b.contests.find? (fun c => c.objectId = d.desc.objectId) with
  | some c =>
    dsimp only
    rw [← emplaceSelection_vote c sd]
    unfold emplaceSelection
    rw [find_emplace S c d.desc sd hsd]
    rfl
  | none =>
    dsimp only
    have : contestFrom S d.desc = emplaceContest S ⟨d.desc.objectId, []⟩ d.desc := by
      simp [contestFrom, emplaceContest, emplaceSelection]
    rw [this]
    unfold emplaceSelection
    rw [find_emplace S _ d.desc sd hsd]
    rfl

theorem emplaceFrom_map_vote (b : PBallot) (d : ContestDescP) :
    (emplaceFrom S b d).selections.map (·.vote) =
      (d.desc.getSelections S).map (fun sd => b.markFor d.desc.objectId sd.objectId) :=
  forall₂_map_eq _ _ (emplaceFrom_votes S b d) (fun _ _ h => h)

theorem filter_ne_map_length {α : Type} (f : α → ℕ) (l : List α) :
    (l.filter (fun x => f x ≠ 0)).length = ((l.map f).filter (fun x => x ≠ 0)).length := by
  rw [List.filter_map, List.length_map]
  rfl

/-- Overvotes are judged on what the voter entered. -/
theorem overvoted_iff (b : PBallot) (d : ContestDescP) :
    (emplaceFrom S b d).Overvoted d.desc.numberElected d.desc.votesAllowed ↔ b.OvervotedIn d.desc := by
  unfold PContest.Overvoted PBallot.OvervotedIn PContest.marked PContest.total
  have hp : ((emplaceFrom S b d).selections.map (·.vote)).Perm
      (d.desc.selections.map (fun sd => b.markFor d.desc.objectId sd.objectId)) := by
    rw [emplaceFrom_map_vote]
    exact (S.perm SelectionDesc.seq d.desc.selections).map _
  rw [filter_ne_map_length (fun s : PSelection => s.vote), hp.sum_eq, (hp.filter _).length_eq,
    ← filter_ne_map_length]

/-- The list of ciphertexts encrypts the total. -/
def Parts (K : ℕ) (cs : List Ciphertext) (total : ℕ) : Prop :=
  ∃ xs : List (ℕ × ℕ × Ciphertext), xs.map (·.2.2) = cs ∧ (∀ x ∈ xs, IsEncryption G K x.1 x.2.1 x.2.2) ∧
    (xs.map (·.1)).sum = total

theorem Parts.nil (K : ℕ) : Parts G K [] 0 := ⟨[], rfl, by simp, rfl⟩

theorem Parts.single {K v : ℕ} {c : Ciphertext} (h : ∃ n, IsEncryption G K v n c) : Parts G K [c] v := by
  obtain ⟨n, h⟩ := h
  exact ⟨[(v, n, c)], rfl, by simpa using h, by simp⟩

variable {G} in
theorem Parts.append {K a b : ℕ} {cs ds : List Ciphertext} (h1 : Parts G K cs a) (h2 : Parts G K ds b) :
    Parts G K (cs ++ ds) (a + b) := by
  obtain ⟨xs, e1, k1, t1⟩ := h1
  obtain ⟨ys, e2, k2, t2⟩ := h2
  refine ⟨xs ++ ys, by simp [e1, e2], ?_, by simp [t1, t2]⟩
  intro x hx
  rcases List.mem_append.1 hx with hx | hx
  · exact k1 x hx
  · exact k2 x hx

variable {G} in
theorem Parts.flatMap {α : Type} {K : ℕ} (f : α → List Ciphertext) (v : α → ℕ) (l : List α)
    (h : ∀ x ∈ l, Parts G K (f x) (v x)) : Parts G K (l.flatMap f) (l.map v).sum := by
  induction l with
  | nil => exact Parts.nil G K
  | cons x l ih =>
    rw [List.flatMap_cons, List.map_cons, List.sum_cons]
    exact (h x (by simp)).append (ih (fun y hy => h y (by simp [hy])))

/-- The one selection with the id. -/
theorem parts_pick {K v : ℕ} {sid : Str} {l : List SelectionDesc} {rs : List CSelection}
    (h : List.Forall₂ (fun sd s => s.objectId = sd.objectId ∧
      (sd.objectId = sid → ∃ n, IsEncryption G K v n s.ciphertext)) l rs)
    (hn : (l.map (·.objectId)).Nodup) :
    Parts G K ((rs.filter (fun s => s.objectId = sid)).map (·.ciphertext))
      (if sid ∈ l.map (·.objectId) then v else 0) := by
  induction h with
  | nil => exact Parts.nil G K
  | @cons sd s l rs hab _ ih =>
    rw [List.map_cons, List.nodup_cons] at hn
    have ih := ih hn.2
    by_cases hs : sd.objectId = sid
    · have hni : sid ∉ l.map (·.objectId) := by rw [← hs]; exact hn.1
      rw [if_neg hni] at ih
      rw [List.filter_cons_of_pos (by simpa [hab.1] using hs), List.map_cons,
        if_pos (by simp [hs])]
      exact (Parts.single G (hab.2 hs)).append ih
    · rw [List.filter_cons_of_neg (by simpa [hab.1] using hs)]
      have : (sid ∈ (sd :: l).map (·.objectId)) ↔ sid ∈ l.map (·.objectId) := by
        simp [Ne.symm hs]
      simp only [this]
      exact ih

theorem emplaceFrom_total_lt (b : PBallot) (d : ContestDescP)
    (ht : ∀ c ∈ b.contests, ∀ s ∈ c.selections, s.vote < 2 ^ 32)
    (hl : d.desc.selections.length < 2 ^ 32) : (emplaceFrom S b d).total < 2 ^ 64 := by
  have hvote : ∀ s ∈ (emplaceFrom S b d).selections, s.vote < 2 ^ 32 := by
    intro s hs
    rcases emplaceFrom_selections S b d s hs with h | ⟨c, hc, h⟩
    · rw [h]; norm_num
    · exact ht c hc s h
  have hlen : (emplaceFrom S b d).selections.length = d.desc.selections.length := by
    rw [← (emplaceFrom_votes S b d).length_eq]; simp [ContestDesc.getSelections]
  have : (emplaceFrom S b d).total ≤ (emplaceFrom S b d).selections.length * 2 ^ 32 := by
    unfold PContest.total
    have := List.sum_le_card_nsmul ((emplaceFrom S b d).selections.map (·.vote)) (2 ^ 32) (by
      intro v hv
      obtain ⟨s, hs, rfl⟩ := List.mem_map.1 hv
      exact le_of_lt (hvote s hs))
    simpa using this
  rw [hlen] at this
  omega

/-- One contest of one ballot. -/
theorem contest_parts (hG : G.Valid) (ctx : Context) (b : PBallot) (m : IManifest) (seed : ℕ)
    (verify : Bool) (d : ContestDescP) (c : CContest) (hK : Residue G ctx.pub)
    (hel : d.desc.numberElected < 2 ^ 64) (hn : (d.desc.selections.map (·.objectId)).Nodup)
    (hp : d.placeholders.length = d.desc.numberElected)
    (hl : d.desc.selections.length < 2 ^ 32)
    (ht : ∀ c ∈ b.contests, ∀ s ∈ c.selections, s.vote < 2 ^ 32)
    (sid : Str)
    (h : ContestResult G C S m ctx.pub ctx.extHash seed verify (emplaceFrom S b d) d c) :
    c.objectId = d.desc.objectId ∧
    (sid ∈ d.desc.selections.map (·.objectId) → sid ∉ d.placeholders.map (·.objectId) →
      Parts G ctx.pub ((c.selections.filter (fun s => s.objectId = sid)).map (·.ciphertext))
        (b.counted d.desc sid)) ∧
    Parts G ctx.pub [c.accumulation] d.desc.numberElected := by
  obtain ⟨w1, w2, hw, hrun⟩ := h
  have htot := emplaceFrom_total_lt S b d ht hl
  obtain ⟨over, hcheck, facts, -, -⟩ := encryptContest_spec G C S hG _ _ _ _ m d verify w1 w2 c hK hw hel hrun
  obtain ⟨rs, ps, h1, h2, h3⟩ := facts.selections
  obtain ⟨k1, k2, -, -⟩ := C31_classification_partial (emplaceFrom S b d) d.desc.objectId
    d.desc.selections.length d.desc.numberElected d.desc.votesAllowed true htot
  have hover : over = true ↔ b.OvervotedIn d.desc := by
    rw [← overvoted_iff S]
    cases over
    · have := (k1.1 hcheck).2.2
      simp [this]
    · have := (k2.1 hcheck).2.2.1
      simp [this]
  refine ⟨facts.id, ?_, ?_⟩
  · intro hsid hsp
    rw [h1, List.filter_append, List.map_append]
    have hps : ps.filter (fun s => s.objectId = sid) = [] := by
      rw [List.filter_eq_nil_iff]
      intro s hs hid
      obtain ⟨dv, hdv, hr⟩ := forall₂_mem_right h3 s hs
      have hid' : s.objectId = sid := by simpa using hid
      rw [hr.id] at hid'
      refine hsp (List.mem_map.2 ⟨dv.1, ?_, hid'⟩)
      have := (List.of_mem_zip hdv).1
      exact (S.perm SelectionDesc.seq d.placeholders).mem_iff.1 this
    rw [hps, List.map_nil, List.append_nil]
    have hperm := S.perm SelectionDesc.seq d.desc.selections
    have hn' : ((d.desc.getSelections S).map (·.objectId)).Nodup := (hperm.map _).nodup_iff.2 hn
    have hmem : sid ∈ (d.desc.getSelections S).map (·.objectId) := (hperm.map _).mem_iff.2 hsid
    have key := parts_pick G (K := ctx.pub) (v := b.counted d.desc sid) (sid := sid)
      (l := d.desc.getSelections S) (rs := rs) ?_ hn'
    · rwa [if_pos hmem] at key
    · rw [List.forall₂_iff_get] at h2 ⊢
      refine ⟨h2.1, fun i hi hi' => ?_⟩
      have hr := h2.2 i hi hi'
      refine ⟨hr.id, fun hid => ?_⟩
      obtain ⟨n, -, -, henc⟩ := hr.encryption
      refine ⟨n, ?_⟩
      have hm := List.get_mem (d.desc.getSelections S) ⟨i, hi⟩
      rw [emplaceFrom_voteFor S b d _ hm, hid] at henc
      unfold PBallot.counted
      by_cases ho : b.OvervotedIn d.desc
      · rw [if_pos ho]
        rwa [if_pos (hover.2 ho)] at henc
      · rw [if_neg ho]
        rwa [if_neg (fun hh => ho (hover.1 hh))] at henc
  · obtain ⟨N, triple, seed', hN, henc, -⟩ := facts.total
    rw [contest_votes_sum G C S m _ _ _ _ d over c hel hcheck facts hn hp] at henc
    exact Parts.single G ⟨N, henc⟩

theorem forall₂_filter_flatMap {α β : Type} {R : α → β → Prop} {K : ℕ} (l : List α) (r : List β)
    (h : List.Forall₂ R l r) (p : α → Bool) (q : β → Bool) (f : β → List Ciphertext) (v : ℕ)
    (hpq : ∀ a ∈ l, ∀ b, R a b → q b = p a)
    (hv : ∀ a ∈ l, ∀ b, R a b → p a = true → Parts G K (f b) v) :
    Parts G K ((r.filter q).flatMap f) (l.countP p * v) := by
  induction h with
  | nil => simpa using Parts.nil G K
  | @cons a b l r hab _ ih =>
    have ih := ih (fun a ha => hpq a (by simp [ha])) (fun a ha => hv a (by simp [ha]))
    have hq := hpq a (by simp) b hab
    by_cases hp : p a = true
    · rw [List.filter_cons_of_pos (by rw [hq, hp]), List.flatMap_cons, List.countP_cons_of_pos hp,
        Nat.add_mul, Nat.one_mul, Nat.add_comm]
      exact (hv a (by simp) b hab hp).append ih
    · rw [List.filter_cons_of_neg (by rw [hq]; exact hp), List.countP_cons_of_neg hp]
      exact ih

theorem countP_contests (cs : List ContestDescP) (us : List Str) (d : ContestDescP) (hd : d ∈ cs)
    (hn : (cs.map (fun c => c.desc.objectId)).Nodup) :
    (contestsOfUnits cs us).countP (fun c => c.desc.objectId = d.desc.objectId) =
      us.count d.desc.districtId := by
  induction cs with
  | nil => cases hd
  | cons c cs ih =>
    rw [List.map_cons, List.nodup_cons] at hn
    have e : contestsOfUnits (c :: cs) us =
      (us.filter (fun u => c.desc.districtId = u)).map (fun _ => c) ++ contestsOfUnits cs us := rfl
    rw [e, List.countP_append, List.countP_map]
    rcases List.mem_cons.1 hd with rfl | hd'
    · have h0 : (contestsOfUnits cs us).countP (fun c => c.desc.objectId = d.desc.objectId) = 0 := by
        rw [List.countP_eq_zero]
        intro x hx hid
        have := ((mem_contestsOfUnits cs us x).1 hx).1
        exact hn.1 (List.mem_map.2 ⟨x, this, by simpa using hid⟩)
      rw [h0, Nat.add_zero]
      have : ((fun c : ContestDescP => decide (c.desc.objectId = d.desc.objectId)) ∘ fun _ : Str => d) =
        fun _ => true := by
        funext; simp
      rw [this, List.countP_true, List.count, List.countP_eq_length_filter]
      congr 1
      apply List.filter_congr
      intro u _
      by_cases hu : d.desc.districtId = u
      · simp [hu]
      · simp [hu, Ne.symm hu]
    · rw [ih hd' hn.2]
      have hne : c.desc.objectId ≠ d.desc.objectId := fun h =>
        hn.1 (List.mem_map.2 ⟨d, hd', h.symm⟩)
      have : ((fun c : ContestDescP => decide (c.desc.objectId = d.desc.objectId)) ∘ fun _ : Str => c) =
        fun _ => false := by
        funext; simp [hne]
      rw [this, List.countP_false]
      exact Nat.zero_add _

theorem listed_count (m : IManifest) (styleId : Str) (ds : List ContestDescP)
    (hds : m.getContestsFor S styleId = .ok ds) (d : ContestDescP) (hd : d ∈ m.contests)
    (hn : (m.contests.map (fun c => c.desc.objectId)).Nodup) :
    ds.countP (fun c => c.desc.objectId = d.desc.objectId) = m.timesListed styleId d.desc := by
  unfold IManifest.getContestsFor at hds
  unfold IManifest.timesListed
  change (match m.styles.find? (fun s => s.objectId = styleId) with | none => _ | some style => _) = _ at hds
  cases hs : m.styles.find? (fun s => s.objectId = styleId) with
  | none => rw [hs] at hds; simp at hds
  | some style =>
    rw [hs] at hds
    dsimp only at hds ⊢
    by_cases he : style.gpUnitIds.isEmpty
    · simp [he] at hds
    · simp only [he, Bool.false_eq_true, if_false, Res.ok.injEq] at hds
      rw [← hds, (S.perm _ _).countP_eq]
      exact countP_contests m.contests style.gpUnitIds d hd hn

variable {G C} in
/-- A ballot that is encrypted has a style with contests. -/
theorem encryptBallot_contests {b : PBallot} {m : IManifest} {ctx : Context} {codeSeed : ℕ}
    {nonce : Option ℕ} {timestamp : ℕ} {verify : Bool} {w w' : World} {e : CBallot}
    (h : encryptBallot G C S b m ctx codeSeed nonce timestamp verify w = (.ok e, w')) :
    ∃ ds, m.getContestsFor S b.styleId = .ok ds := by
  unfold encryptBallot at h
  cases hst : m.getBallotStyle b.styleId with
  | none => rw [hst] at h; simp [M.raise] at h
  | some style =>
    rw [hst] at h
    dsimp only at h
    simp only [M.bind_eq_ok] at h
    obtain ⟨n, w1, h1, es, w2, h2, -⟩ := h
    unfold encryptContests at h2
    rw [M.bind_eq_ok] at h2
    obtain ⟨b', w1, h1, -⟩ := h2
    simp only [M.lift, Prod.mk.injEq] at h1
    obtain ⟨h1, -⟩ := h1
    unfold emplaceBallot at h1
    rw [hst] at h1
    dsimp only at h1
    rw [Res.bind_eq_ok] at h1
    obtain ⟨ds, hds, -⟩ := h1
    have hid : style.objectId = b.styleId := by
      have := List.find?_some hst
      simpa using this
    rw [hid] at hds
    exact ⟨ds, hds⟩

/-- The manifest is sensible: distinct contests with distinct selections, and the placeholders that
the library made. -/
structure GoodManifest (m : IManifest) : Prop where
  ids : (m.contests.map (fun c => c.desc.objectId)).Nodup
  elected : ∀ d ∈ m.contests, d.desc.numberElected < 2 ^ 64
  selections : ∀ d ∈ m.contests, (d.desc.selections.map (·.objectId)).Nodup
  count : ∀ d ∈ m.contests, d.desc.selections.length < 2 ^ 32
  placeholders : ∀ d ∈ m.contests, d.placeholders.length = d.desc.numberElected

theorem ballot_parts (hG : G.Valid) (ctx : Context) (b : PBallot) (m : IManifest) (e : CBallot)
    (hK : Residue G ctx.pub) (hm : GoodManifest m) (d : ContestDescP) (hd : d ∈ m.contests)
    (ht : ∀ c ∈ b.contests, ∀ s ∈ c.selections, s.vote < 2 ^ 32)
    (sid : Str) (h : Encrypted G C S ctx m b e) :
    (sid ∈ d.desc.selections.map (·.objectId) → sid ∉ d.placeholders.map (·.objectId) →
      Parts G ctx.pub (e.ciphertextsFor d.desc.objectId sid)
        (m.timesListed b.styleId d.desc * b.counted d.desc sid)) ∧
    Parts G ctx.pub (e.accumulationsFor d.desc.objectId)
      (m.timesListed b.styleId d.desc * d.desc.numberElected) := by
  obtain ⟨codeSeed, nonce, timestamp, verify, w, w', hw, hrun⟩ := h
  obtain ⟨ds, hds⟩ : ∃ ds, m.getContestsFor S b.styleId = .ok ds := encryptBallot_contests S hrun
  obtain ⟨style, -, -, hmem, -⟩ := C44_contests S m b.styleId ds hds
  have huniq : ∀ x ∈ m.contests, ∀ y ∈ m.contests, x.desc.objectId = y.desc.objectId → x = y :=
    fun x hx y hy hxy => List.inj_on_of_nodup_map hm.ids hx hy hxy
  have hgood : GoodContests ds := ⟨fun x hx => hm.elected x ((hmem x).1 hx).1,
    fun x hx y hy => huniq x ((hmem x).1 hx).1 y ((hmem y).1 hy).1,
    fun x hx => hm.selections x ((hmem x).1 hx).1, fun x hx => hm.placeholders x ((hmem x).1 hx).1⟩
  obtain ⟨n, -, -, -, hcs, -⟩ := C35_ballot G C S hG ctx b m codeSeed nonce
    timestamp verify w w' e ds hK hw hds hgood hrun
  have hid : ∀ a ∈ ds, ∀ c, ContestResult G C S m ctx.pub ctx.extHash
      (hashElems G C [.q m.manifestHash, .str b.objectId, .q n]) verify (emplaceFrom S b a) a c →
      c.objectId = a.desc.objectId := by
    rintro a ha c ⟨w1, w2, hw1, hr⟩
    obtain ⟨over, -, facts, -, -⟩ := encryptContest_spec G C S hG _ _ _ _ m a verify w1 w2 c hK hw1
      (hgood.elected a ha) hr
    exact facts.id
  have hpq : ∀ a ∈ ds, ∀ c, ContestResult G C S m ctx.pub ctx.extHash
      (hashElems G C [.q m.manifestHash, .str b.objectId, .q n]) verify (emplaceFrom S b a) a c →
      decide (c.objectId = d.desc.objectId) = decide (a.desc.objectId = d.desc.objectId) := by
    intro a ha c hr
    rw [hid a ha c hr]
  have hone : ∀ a ∈ ds, decide (a.desc.objectId = d.desc.objectId) = true → a = d := fun a ha h =>
    huniq a ((hmem a).1 ha).1 d hd (by simpa using h)
  have hcp : ∀ a ∈ ds, ∀ c, ContestResult G C S m ctx.pub ctx.extHash
      (hashElems G C [.q m.manifestHash, .str b.objectId, .q n]) verify (emplaceFrom S b a) a c →
      decide (a.desc.objectId = d.desc.objectId) = true →
      (sid ∈ d.desc.selections.map (·.objectId) → sid ∉ d.placeholders.map (·.objectId) →
        Parts G ctx.pub ((c.selections.filter (fun s => s.objectId = sid)).map (·.ciphertext))
          (b.counted d.desc sid)) ∧ Parts G ctx.pub [c.accumulation] d.desc.numberElected := by
    intro a ha c hr hda
    have := hone a ha hda
    subst this
    exact (contest_parts G C S hG ctx b m _ verify a c hK (hm.elected a hd) (hm.selections a hd)
      (hm.placeholders a hd) (hm.count a hd) ht sid hr).2
  rw [← listed_count S m b.styleId ds hds d hd hm.ids]
  constructor
  · intro hsid hsp
    exact forall₂_filter_flatMap G ds e.contests hcs _ _ _ _ hpq
      (fun a ha c hr hda => (hcp a ha c hr hda).1 hsid hsp)
  · have := forall₂_filter_flatMap G (K := ctx.pub) ds e.contests hcs
      (fun a => decide (a.desc.objectId = d.desc.objectId))
      (fun c => decide (c.objectId = d.desc.objectId)) (fun c => [c.accumulation]) _ hpq
      (fun a ha c hr hda => (hcp a ha c hr hda).2)
    have e1 : ∀ l : List CContest, l.flatMap (fun c => [c.accumulation]) = l.map (·.accumulation) :=
      fun l => by induction l with
        | nil => rfl
        | cons c l ih => rw [List.flatMap_cons, ih]; rfl
    rwa [e1] at this

/-- C53: for any list of ballots, each encrypted in its own run, with its own nonce and in any state of
the precompute buffers, the product of the ciphertexts of a selection encrypts the number of votes that
the ballots give to the selection, an overvoted contest giving none. Partial: a selection that carries the
id of a placeholder (possible, see `C43_id_violated`) is excluded. -/
theorem C53_selection_partial (hG : G.Valid) (ctx : Context) (m : IManifest) (hK : Residue G ctx.pub)
    (hm : GoodManifest m) (d : ContestDescP) (hd : d ∈ m.contests)
    (sid : Str) (hsid : sid ∈ d.desc.selections.map (·.objectId))
    (hsp : sid ∉ d.placeholders.map (·.objectId)) (cast : List (PBallot × CBallot))
    (hv : ∀ x ∈ cast, ∀ c ∈ x.1.contests, ∀ s ∈ c.selections, s.vote < 2 ^ 32)
    (henc : ∀ x ∈ cast, Encrypted G C S ctx m x.1 x.2)
    (hne : cast.flatMap (fun x => x.2.ciphertextsFor d.desc.objectId sid) ≠ []) :
    ∃ t N, elgamalAdd G (cast.flatMap (fun x => x.2.ciphertextsFor d.desc.objectId sid)) = .ok t ∧
      IsEncryption G ctx.pub (cast.map (fun x => m.timesListed x.1.styleId d.desc *
        x.1.counted d.desc sid)).sum N t := by
  obtain ⟨xs, h1, h2, h3⟩ := Parts.flatMap (G := G) (K := ctx.pub)
    (fun x : PBallot × CBallot => x.2.ciphertextsFor d.desc.objectId sid)
    (fun x => m.timesListed x.1.styleId d.desc * x.1.counted d.desc sid) cast
    (fun x hx => (ballot_parts G C S hG ctx x.1 m x.2 hK hm d hd (hv x hx) sid (henc x hx)).1 hsid hsp)
  have hxs : xs ≠ [] := by
    rintro rfl
    exact hne h1.symm
  obtain ⟨t, ht, hi⟩ := C12_add_encrypts_sum G hG ctx.pub xs hxs h2
  rw [h1] at ht
  rw [h3] at hi
  exact ⟨t, _, ht, hi⟩

/-- C53: the product of the contest totals encrypts the number of seats times the number of ballots
that have the contest (counted as often as the style lists its district). -/
theorem C53_contest (hG : G.Valid) (ctx : Context) (m : IManifest) (hK : Residue G ctx.pub)
    (hm : GoodManifest m) (d : ContestDescP) (hd : d ∈ m.contests)
    (cast : List (PBallot × CBallot))
    (hv : ∀ x ∈ cast, ∀ c ∈ x.1.contests, ∀ s ∈ c.selections, s.vote < 2 ^ 32)
    (henc : ∀ x ∈ cast, Encrypted G C S ctx m x.1 x.2)
    (hne : cast.flatMap (fun x => x.2.accumulationsFor d.desc.objectId) ≠ []) :
    ∃ t N, elgamalAdd G (cast.flatMap (fun x => x.2.accumulationsFor d.desc.objectId)) = .ok t ∧
      IsEncryption G ctx.pub (d.desc.numberElected *
        (cast.map (fun x => m.timesListed x.1.styleId d.desc)).sum) N t := by
  obtain ⟨xs, h1, h2, h3⟩ := Parts.flatMap (G := G) (K := ctx.pub)
    (fun x : PBallot × CBallot => x.2.accumulationsFor d.desc.objectId)
    (fun x => m.timesListed x.1.styleId d.desc * d.desc.numberElected) cast
    (fun x hx => (ballot_parts G C S hG ctx x.1 m x.2 hK hm d hd (hv x hx) [] (henc x hx)).2)
  have hxs : xs ≠ [] := by
    rintro rfl
    exact hne h1.symm
  obtain ⟨t, ht, hi⟩ := C12_add_encrypts_sum G hG ctx.pub xs hxs h2
  rw [h1] at ht
  rw [h3, List.sum_map_mul_right, Nat.mul_comm] at hi
  exact ⟨t, _, ht, hi⟩

/-- C53: a ciphertext encrypts at most one number below `q`: the encrypted tally determines the count. -/
theorem C53_unique (hG : G.Valid) (K a b n n' : ℕ) (t : Ciphertext) (hK : Residue G K)
    (ha : a < G.q) (hb : b < G.q) (h1 : IsEncryption G K a n t) (h2 : IsEncryption G K b n' t) :
    a = b := by
  obtain ⟨-, -, p1, d1⟩ := h1.casts hG hK
  obtain ⟨-, -, p2, d2⟩ := h2.casts hG hK
  have hn : n % G.q = n' % G.q := (g_pow_eq_iff hG n n').1 (p1.symm.trans p2)
  have hKn : (K : ZMod G.p) ^ n = (K : ZMod G.p) ^ n' := pow_congr (hK.pow_q hG) hn
  have e := d1.symm.trans d2
  rw [hKn] at e
  have hu : IsUnit ((K : ZMod G.p) ^ n') := by
    refine IsUnit.of_pow_eq_one (n := G.q) ?_ (by have := hG.q_gt; omega)
    rw [← pow_mul, Nat.mul_comm, pow_mul, hK.pow_q hG, one_pow]
  exact g_pow_inj G hG ha hb (hu.mul_right_cancel e)

/-- C53: a tally with a vote has a ciphertext, so that the product in `C53_selection_partial` is defined. -/
theorem C53_nonempty (hG : G.Valid) (ctx : Context) (m : IManifest) (hK : Residue G ctx.pub)
    (hm : GoodManifest m) (d : ContestDescP) (hd : d ∈ m.contests)
    (sid : Str) (hsid : sid ∈ d.desc.selections.map (·.objectId))
    (hsp : sid ∉ d.placeholders.map (·.objectId)) (b : PBallot) (e : CBallot)
    (hv : ∀ c ∈ b.contests, ∀ s ∈ c.selections, s.vote < 2 ^ 32)
    (henc : Encrypted G C S ctx m b e) (h1 : m.timesListed b.styleId d.desc ≠ 0)
    (h2 : b.counted d.desc sid ≠ 0) : e.ciphertextsFor d.desc.objectId sid ≠ [] := by
  obtain ⟨xs, e1, -, e3⟩ := (ballot_parts G C S hG ctx b m e hK hm d hd hv sid henc).1 hsid hsp
  intro h
  rw [h, List.map_eq_nil_iff] at e1
  rw [e1] at e3
  exact Nat.mul_ne_zero h1 h2 e3.symm

/-- The hypotheses on the manifest hold for the internal form of every valid manifest. -/
theorem C53_valid_manifest (m : Manifest) (im : IManifest) (hv : m.isValid = true)
    (h : IManifest.ofManifest G C S m = .ok im) (hel : ∀ c ∈ m.contests, c.numberElected < 2 ^ 64)
    (hlen : ∀ c ∈ m.contests, c.selections.length < 2 ^ 32) : GoodManifest im := by
  have wf := (C41_manifest_valid m).1 hv
  obtain ⟨h1, -, -⟩ := ofManifest_contests G C S m im h
  have hsrc : ∀ d ∈ im.contests, ∃ c ∈ m.contests, c.clone = .ok d.desc ∧ d.placeholders = placeholdersFor S c := by
    intro d hd
    obtain ⟨c, hc, hr⟩ := forall₂_mem_right h1 d hd
    exact ⟨c, by simpa using hc, hr⟩
  refine ⟨?_, ?_, ?_, ?_, ?_⟩
  · rw [forall₂_map_eq (·.objectId) (fun d : ContestDescP => d.desc.objectId) h1
      (fun c d hr => (clone_fields c _ hr.1).1)]
    exact (((S.perm ContestDesc.seq m.contests).map _).nodup_iff).2 wf.contests.1
  · intro d hd
    obtain ⟨c, hc, hcl, -⟩ := hsrc d hd
    rw [(clone_fields c _ hcl).2.2.1]
    exact hel c hc
  · intro d hd
    obtain ⟨c, hc, hcl, -⟩ := hsrc d hd
    rw [(clone_fields c _ hcl).2.2.2.1]
    exact (wf.contestsWellFormed c hc).ids.1
  · intro d hd
    obtain ⟨c, hc, hcl, -⟩ := hsrc d hd
    rw [(clone_fields c _ hcl).2.2.2.1]
    exact hlen c hc
  · intro d hd
    obtain ⟨c, hc, hcl, hp⟩ := hsrc d hd
    rw [hp, C43_count, (clone_fields c _ hcl).2.2.1]

/-- The example with a style that lists its district twice. -/
def doubleManifest : Manifest :=
  { exampleManifest with styles := [⟨"style".toList, ["d".toList, "d".toList], [], []⟩] }

/-- C53, where it fails: a manifest that passes validation may list a district twice in a style. Every
contest of the district is then encrypted twice, and by `C53_selection_partial` each vote counts twice. -/
theorem C53_double_listing (im : IManifest) (h : IManifest.ofManifest G C S doubleManifest = .ok im) :
    doubleManifest.isValid = true ∧ GoodManifest im ∧
      ∃ d ∈ im.contests, im.timesListed "style".toList d.desc = 2 := by
  have hv : doubleManifest.isValid = true := by decide +kernel
  refine ⟨hv, C53_valid_manifest G C S _ im hv h (by decide +kernel) (by decide +kernel), ?_⟩
  obtain ⟨h1, -, hst⟩ := ofManifest_contests G C S _ im h
  obtain ⟨d, hd, hcl, -⟩ := forall₂_mem_left h1 exampleContest (by
    rw [mem_sort]
    exact List.mem_cons_self ..)
  refine ⟨d, hd, ?_⟩
  have hdist : d.desc.districtId = "d".toList := (clone_fields _ _ hcl).2.2.2.2
  unfold IManifest.timesListed
  rw [hst, hdist]
  decide +kernel

/-! ## The hypotheses hold for the example election -/

theorem exampleIM_goodManifest (h : ℕ) : GoodManifest (exampleIM h) := by
  constructor
  · change ([exampleContestP2, exampleContestP].map (fun c => c.desc.objectId)).Nodup
    decide +kernel
  · change ∀ d ∈ [exampleContestP2, exampleContestP], _
    decide +kernel
  · change ∀ d ∈ [exampleContestP2, exampleContestP], _
    decide +kernel
  · change ∀ d ∈ [exampleContestP2, exampleContestP], _
    decide +kernel
  · change ∀ d ∈ [exampleContestP2, exampleContestP], _
    decide +kernel

theorem exampleBallot_counted : exampleBallot.counted exampleContestP.desc "s2".toList = 1 := by
  unfold PBallot.counted
  rw [if_neg]
  · decide +kernel
  · unfold PBallot.OvervotedIn
    decide +kernel

/-- Two voters, each with the example ballot: the tally of the second selection is 2. -/
example (K : ℕ) (hK : Residue .std K) (h : ℕ) (w : World) (hw : w.Ok .std K) :
    ∃ e, Encrypted .std (constCrypto 5) S (exampleContext K h) (exampleIM h) exampleBallot e ∧
    ∃ t N, elgamalAdd .std (([(exampleBallot, e), (exampleBallot, e)]).flatMap
        (fun x => x.2.ciphertextsFor "c".toList "s2".toList)) = .ok t ∧
      IsEncryption .std K 2 N t := by
  obtain ⟨e, w', he⟩ := encryptBallot_example S K hK h 1 1000 none w hw
  have henc : Encrypted .std (constCrypto 5) S (exampleContext K h) (exampleIM h) exampleBallot e :=
    ⟨_, _, _, _, w, w', hw, he⟩
  refine ⟨e, henc, ?_⟩
  have hv : ∀ c ∈ exampleBallot.contests, ∀ s ∈ c.selections, s.vote < 2 ^ 32 := by decide +kernel
  have htimes : (exampleIM h).timesListed exampleBallot.styleId exampleContestP.desc = 1 := by
    change (match exampleManifest.styles.find? (fun s => s.objectId = exampleBallot.styleId) with
      | some style => style.gpUnitIds.count exampleContestP.desc.districtId
      | none => 0) = 1
    decide +kernel
  have hd : exampleContestP ∈ (exampleIM h).contests := List.mem_cons_of_mem _ (List.mem_cons_self ..)
  have hs1 : "s2".toList ∈ exampleContestP.desc.selections.map (·.objectId) := by decide +kernel
  have hs2 : "s2".toList ∉ exampleContestP.placeholders.map (·.objectId) := by decide +kernel
  have hne := C53_nonempty .std (constCrypto 5) S C54_std_valid (exampleContext K h) (exampleIM h) hK
    (exampleIM_goodManifest h) exampleContestP hd _ hs1 hs2 exampleBallot e hv henc
    (by rw [htimes]; exact one_ne_zero) (by rw [exampleBallot_counted]; exact one_ne_zero)
  have := C53_selection_partial .std (constCrypto 5) S C54_std_valid (exampleContext K h) (exampleIM h) hK
    (exampleIM_goodManifest h) exampleContestP hd _ hs1 hs2
    [(exampleBallot, e), (exampleBallot, e)] (by
      intro x hx
      rcases List.mem_cons.1 hx with rfl | hx
      · exact hv
      · rw [List.mem_singleton.1 hx]; exact hv) (by
      intro x hx
      rcases List.mem_cons.1 hx with rfl | hx
      · exact henc
      · rw [List.mem_singleton.1 hx]; exact henc) (by
      intro h0
      rw [List.flatMap_cons, List.append_eq_nil_iff] at h0
      exact hne h0.1)
  obtain ⟨t, N, h1, h2⟩ := this
  refine ⟨t, N, h1, ?_⟩
  have e2 : ([(exampleBallot, e), (exampleBallot, e)].map (fun x => (exampleIM h).timesListed x.1.styleId
      exampleContestP.desc * x.1.counted exampleContestP.desc "s2".toList)).sum = 2 := by
    simp only [List.map_cons, List.map_nil, htimes, exampleBallot_counted]
    rfl
  rwa [e2] at h2

end EG
