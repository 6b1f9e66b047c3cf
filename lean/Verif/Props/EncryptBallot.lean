import Verif.Props.EncryptTotal

/-!
# C35, C33: encryption of ballots
-/

namespace EG

variable (G : Params) (C : Crypto) (S : StdSort)

theorem forEach_spec {α β : Type} (f : α → M β) (Inv : World → Prop) (P : α → β → Prop) (l : List α)
    (hf : ∀ x ∈ l, ∀ w w' y, Inv w → f x w = (.ok y, w') → P x y ∧ Inv w') :
    ∀ w w' r, Inv w → M.forEach f l w = (.ok r, w') → List.Forall₂ P l r ∧ Inv w' := by
  induction l with
  | nil =>
    intro w w' r hw h
    simp only [M.forEach, M.ret, Prod.mk.injEq, Res.ok.injEq] at h
    obtain ⟨rfl, rfl⟩ := h
    exact ⟨.nil, hw⟩
  | cons x l ih =>
    intro w w' r hw h
    simp only [M.forEach, M.bind_eq_ok, M.ret, Prod.mk.injEq, Res.ok.injEq] at h
    obtain ⟨y, w1, h1, ys, w2, h2, rfl, rfl⟩ := h
    obtain ⟨k1, k2⟩ := hf x (by simp) w w1 y hw h1
    obtain ⟨j1, j2⟩ := ih (fun x hx => hf x (by simp [hx])) w1 w2 ys k2 h2
    exact ⟨.cons k1 j1, j2⟩

/-- The hypotheses on the contests of a ballot style that hold in every well-formed manifest. -/
structure GoodContests (ds : List ContestDescP) : Prop where
  elected : ∀ d ∈ ds, d.desc.numberElected < 2 ^ 64
  ids : ∀ x ∈ ds, ∀ y ∈ ds, x.desc.objectId = y.desc.objectId → x = y
  selections : ∀ d ∈ ds, (d.desc.selections.map (·.objectId)).Nodup
  placeholders : ∀ d ∈ ds, d.placeholders.length = d.desc.numberElected

/-- What the encryption of a contest guarantees, with the normalised contest it starts from. -/
def ContestResult (m : IManifest) (K ext seed : ℕ) (verify : Bool) (c : PContest) (d : ContestDescP)
    (e : CContest) : Prop :=
  ∃ w w', w.Ok G K ∧ encryptContest G C S c m d K ext seed verify w = (.ok e, w')

theorem encryptContests_spec (hG : G.Valid) (ctx : Context) (b : PBallot) (m : IManifest)
    (seed : ℕ) (verify : Bool) (w w' : World) (es : List CContest) (ds : List ContestDescP)
    (hK : Residue G ctx.pub) (hw : w.Ok G ctx.pub) (hds : m.getContestsFor S b.styleId = .ok ds)
    (hgood : GoodContests ds)
    (h : encryptContests G C S b m ctx seed verify w = (.ok es, w')) :
    List.Forall₂ (fun d e => ContestResult G C S m ctx.pub ctx.extHash seed verify (emplaceFrom S b d) d e)
      ds es ∧ w'.Ok G ctx.pub := by
  unfold encryptContests at h
  rw [M.bind_eq_ok] at h
  obtain ⟨b', w1, h1, h⟩ := h
  simp only [M.lift, Prod.mk.injEq] at h1
  obtain ⟨h1, rfl⟩ := h1
  unfold emplaceBallot at h1
  cases hst : m.getBallotStyle b.styleId with
  | none => rw [hst] at h1; simp at h1
  | some style =>
    have hid : style.objectId = b.styleId := by
      have := List.find?_some hst
      simpa using this
    rw [hst] at h1 h
    dsimp only at h1 h
    rw [hid, hds] at h1 h
    simp only [Res.bind_eq_ok, Res.ok.injEq] at h1
    obtain ⟨ds', rfl, rfl⟩ := h1
    rw [M.bind_eq_ok] at h
    obtain ⟨ds', w2, h2, h⟩ := h
    simp only [M.lift, Prod.mk.injEq, Res.ok.injEq] at h2
    obtain ⟨rfl, rfl⟩ := h2
    refine forEach_spec _ (fun w => w.Ok G ctx.pub) _ ds ?_ w w' es hw h
    intro d hd w w' e hw hf
    rw [find_id_map (emplaceFrom S b) (emplaceFrom_id S b) ds hgood.ids d hd] at hf
    dsimp only at hf
    refine ⟨⟨w, w', hw, hf⟩, ?_⟩
    obtain ⟨-, -, -, hw', -⟩ := encryptContest_spec G C S hG _ _ _ _ _ d verify w w' e hK hw
      (hgood.elected d hd) hf
    exact hw'

/-- C35, ballots: what `encryptBallot` returns.  Every contest of the style is encrypted, in order,
from the normalised contest; the ballot carries the ids, hashes, code and nonce it must carry; with
verification it is valid. -/
theorem C35_ballot (hG : G.Valid) (ctx : Context) (b : PBallot) (m : IManifest)
    (codeSeed : ℕ) (nonce : Option ℕ) (timestamp : ℕ) (verify : Bool) (w w' : World) (e : CBallot)
    (ds : List ContestDescP) (hK : Residue G ctx.pub) (hw : w.Ok G ctx.pub)
    (hds : m.getContestsFor S b.styleId = .ok ds) (hgood : GoodContests ds)
    (h : encryptBallot G C S b m ctx codeSeed nonce timestamp verify w = (.ok e, w')) :
    ∃ n, (∀ x ∈ nonce, n = x) ∧ (nonce = none → n = w.rng 0) ∧ e.nonce = some n ∧
      List.Forall₂ (fun d c => ContestResult G C S m ctx.pub ctx.extHash
        (hashElems G C [.q m.manifestHash, .str b.objectId, .q n]) verify (emplaceFrom S b d) d c)
        ds e.contests ∧
      e.objectId = b.objectId ∧ e.styleId = b.styleId ∧ e.manifestHash = m.manifestHash ∧
      e.cryptoHash = hashElems G C (.str b.objectId :: .q m.manifestHash ::
        e.contests.map (fun c => .q c.cryptoHash)) ∧
      e.ballotCodeSeed = codeSeed ∧ (timestamp ≠ 0 → e.timestamp = timestamp) ∧
      e.ballotCode = hashElems G C [.q codeSeed, .u64 e.timestamp, .q e.cryptoHash] ∧
      w'.Ok G ctx.pub ∧
      (verify = true → e.isValid G C S m.manifestHash ctx.pub ctx.extHash = .ok true) := by
  unfold encryptBallot at h
  cases hst : m.getBallotStyle b.styleId with
  | none => rw [hst] at h; simp [M.raise] at h
  | some style =>
    rw [hst] at h
    dsimp only at h
    rw [M.bind_eq_ok] at h
    obtain ⟨n, w1, h1, h⟩ := h
    have hn : (∀ x ∈ nonce, n = x) ∧ (nonce = none → n = w.rng 0) ∧ w1.Ok G ctx.pub := by
      cases nonce with
      | none =>
        simp only [nonceOr, M.rand, Prod.mk.injEq, Res.ok.injEq] at h1
        obtain ⟨rfl, rfl⟩ := h1
        exact ⟨by simp, fun _ => rfl, hw.rand⟩
      | some x =>
        simp only [nonceOr, M.ret, Prod.mk.injEq, Res.ok.injEq] at h1
        obtain ⟨rfl, rfl⟩ := h1
        exact ⟨by simp, by simp, hw⟩
    obtain ⟨hn1, hn2, hw1⟩ := hn
    rw [M.bind_eq_ok] at h
    obtain ⟨es, w2, h2, h⟩ := h
    obtain ⟨k1, hw2⟩ := encryptContests_spec G C S hG ctx b m _ verify w1 w2 es ds hK hw1 hds hgood h2
    rw [M.bind_eq_ok] at h
    obtain ⟨ts, w3, h3, h⟩ := h
    have hts : (timestamp ≠ 0 → ts = timestamp) ∧ w3.Ok G ctx.pub := by
      unfold timestampOr at h3
      by_cases ht : timestamp = 0
      · rw [if_pos ht] at h3
        simp only [M.now, Prod.mk.injEq, Res.ok.injEq] at h3
        obtain ⟨rfl, rfl⟩ := h3
        exact ⟨fun h => absurd ht h, hw2.clock _⟩
      · rw [if_neg ht] at h3
        simp only [M.ret, Prod.mk.injEq, Res.ok.injEq] at h3
        obtain ⟨rfl, rfl⟩ := h3
        exact ⟨fun _ => rfl, hw2⟩
    rw [M.bind_eq_ok] at h
    obtain ⟨e', w4, h4, h⟩ := h
    rw [cballot_make_ok] at h4
    obtain ⟨hne, rfl, f1, f2, f3, f4, f5, f6, f7, f8, f9⟩ := h4
    simp only [Option.getD_some, Option.getD_none] at f7 f9
    have hw4 : World.Ok G ctx.pub (if ts = 0 then { w3 with clock := fun n => w3.clock (n + 1) } else w3) := by
      split
      · exact hts.2.clock _
      · exact hts.2
    have fin : w' = (if ts = 0 then { w3 with clock := fun n => w3.clock (n + 1) } else w3) ∧ e = e' ∧
        (verify = true → e'.isValid G C S m.manifestHash ctx.pub ctx.extHash = .ok true) := by
      cases verify with
      | false =>
        simp only [Bool.not_false, if_true, M.ret, Prod.mk.injEq, Res.ok.injEq] at h
        exact ⟨h.2.symm, h.1.symm, by simp⟩
      | true =>
        simp only [Bool.not_true, Bool.false_eq_true, if_false, M.bind_eq_ok, M.lift,
          Prod.mk.injEq] at h
        obtain ⟨v, w5, ⟨hv, rfl⟩, h⟩ := h
        cases v with
        | false => simp [M.raise] at h
        | true =>
          simp only [if_true, M.ret, Prod.mk.injEq, Res.ok.injEq] at h
          exact ⟨h.2.symm, h.1.symm, fun _ => hv⟩
    obtain ⟨rfl, rfl, hval⟩ := fin
    refine ⟨n, hn1, hn2, f5, by rw [f4]; exact k1, f1, f2, f3, ?_, f7, ?_, by rw [f9, f7], hw4, hval⟩
    · rw [f6, f4]
    · intro ht
      rw [f8, if_neg (by rw [hts.1 ht]; exact ht)]
      exact hts.1 ht

/-- C35, ballots: a ballot with an unknown style is refused. -/
theorem C35_ballot_unknown_style (ctx : Context) (b : PBallot) (m : IManifest) (codeSeed : ℕ)
    (nonce : Option ℕ) (timestamp : ℕ) (verify : Bool) (w : World)
    (h : ∀ s ∈ m.styles, s.objectId ≠ b.styleId) :
    encryptBallot G C S b m ctx codeSeed nonce timestamp verify w = (.throw .invalidArgument, w) := by
  have : m.getBallotStyle b.styleId = none := by
    unfold IManifest.getBallotStyle
    rw [List.find?_eq_none]
    intro s hs
    simpa using h s hs
  unfold encryptBallot
  rw [this]
  rfl

/-! ## Ballots of a valid manifest -/

theorem clone_fields (c d : ContestDesc) (h : c.clone = .ok d) :
    d.objectId = c.objectId ∧ d.seq = c.seq ∧ d.numberElected = c.numberElected ∧
      d.selections = c.selections ∧ d.districtId = c.districtId := by
  obtain ⟨o, dd, sq, v, n, va, nm, t, st, sel, pp⟩ := c
  cases t <;> cases st <;>
    simp only [ContestDesc.clone, ContestDesc.make7, ContestDesc.make10, Res.ok.injEq, reduceCtorEq] at h
  all_goals subst h; exact ⟨rfl, rfl, rfl, rfl, rfl⟩

theorem ofManifest_contests (m : Manifest) (im : IManifest) (h : IManifest.ofManifest G C S m = .ok im) :
    List.Forall₂ (fun c (d : ContestDescP) => c.clone = .ok d.desc ∧ d.placeholders = placeholdersFor S c)
      (S.sort ContestDesc.seq m.contests) im.contests ∧ m.hash G C = .ok im.manifestHash ∧
      im.styles = m.styles := by
  unfold IManifest.ofManifest contestsWithPlaceholders at h
  simp only [Res.bind_eq_ok, Res.ok.injEq] at h
  obtain ⟨cs, h1, mh, h2, rfl⟩ := h
  rw [mapRes_eq_ok] at h1
  refine ⟨h1.imp (fun c d hd => ?_), h2, rfl⟩
  simp only [Res.bind_eq_ok, Res.ok.injEq] at hd
  obtain ⟨x, hx, rfl⟩ := hd
  exact ⟨hx, rfl⟩

theorem forall₂_map_eq {α β γ : Type} {R : α → β → Prop} (f : α → γ) (g : β → γ) {l : List α} {m : List β}
    (h : List.Forall₂ R l m) (hfg : ∀ a b, R a b → g b = f a) : m.map g = l.map f := by
  induction h with
  | nil => rfl
  | cons hab _ ih => rw [List.map_cons, List.map_cons, ih, hfg _ _ hab]

/-- The contests of a style in a valid manifest satisfy the hypotheses of the theorems on encryption. -/
theorem goodContests_of_valid (m : Manifest) (im : IManifest) (hv : m.isValid = true)
    (h : IManifest.ofManifest G C S m = .ok im) (hel : ∀ c ∈ m.contests, c.numberElected < 2 ^ 64)
    (id : Str) (ds : List ContestDescP) (hds : im.getContestsFor S id = .ok ds) : GoodContests ds := by
  have wf := (C41_manifest_valid m).1 hv
  obtain ⟨h1, -, -⟩ := ofManifest_contests G C S m im h
  obtain ⟨style, -, -, hmem, -⟩ := C44_contests S im id ds hds
  have hsrc : ∀ d ∈ ds, ∃ c ∈ m.contests, c.clone = .ok d.desc ∧ d.placeholders = placeholdersFor S c := by
    intro d hd
    obtain ⟨c, hc, hr⟩ := forall₂_mem_right h1 d ((hmem d).1 hd).1
    exact ⟨c, by simpa using hc, hr⟩
  refine ⟨?_, ?_, ?_, ?_⟩
  · intro d hd
    obtain ⟨c, hc, hcl, -⟩ := hsrc d hd
    rw [(clone_fields c _ hcl).2.2.1]
    exact hel c hc
  · have hn : (im.contests.map (fun d => d.desc.objectId)).Nodup := by
      rw [forall₂_map_eq (·.objectId) (fun d : ContestDescP => d.desc.objectId) h1
        (fun c d hr => (clone_fields c _ hr.1).1)]
      exact (((S.perm ContestDesc.seq m.contests).map _).nodup_iff).2 wf.contests.1
    intro x hx y hy hxy
    exact List.inj_on_of_nodup_map hn ((hmem x).1 hx).1 ((hmem y).1 hy).1 hxy
  · intro d hd
    obtain ⟨c, hc, hcl, -⟩ := hsrc d hd
    rw [(clone_fields c _ hcl).2.2.2.1]
    exact (wf.contestsWellFormed c hc).ids.1
  · intro d hd
    obtain ⟨c, hc, hcl, hp⟩ := hsrc d hd
    rw [hp, C43_count, (clone_fields c _ hcl).2.2.1]

/-! ## Validity of a fresh ballot -/

/-- The names of the checks of a ballot, from the descriptions. -/
def descKeys (ds : List ContestDescP) : List Str :=
  ds.flatMap (fun d => d.desc.objectId ::
    (d.desc.selections ++ d.placeholders).map (fun s => d.desc.objectId ++ '-' :: s.objectId))

theorem perm_flatMap_of_forall₂ {α β γ : Type} {R : α → β → Prop} (f : α → List γ) (g : β → List γ)
    {l : List α} {m : List β} (h : List.Forall₂ R l m) (hfg : ∀ a b, R a b → (g b).Perm (f a)) :
    (m.flatMap g).Perm (l.flatMap f) := by
  induction h with
  | nil => exact .nil
  | cons hab _ ih =>
    rw [List.flatMap_cons, List.flatMap_cons]
    exact (hfg _ _ hab).append ih

theorem ContestFacts.ids {G : Params} {C : Crypto} {S : StdSort} {m : IManifest} {K ext seed : ℕ}
    {c : PContest} {d : ContestDescP} {over : Bool} {e : CContest}
    (h : ContestFacts G C S m K ext seed c d over e) :
    (e.selections.map (·.objectId)).Perm ((d.desc.selections ++ d.placeholders).map (·.objectId)) := by
  obtain ⟨rs, ps, h1, h2, h3⟩ := h.selections
  have e1 : rs.map (·.objectId) = (d.desc.getSelections S).map (·.objectId) :=
    forall₂_map_eq _ _ h2 (fun a b hab => hab.id)
  have e2 : ps.map (·.objectId) = (d.getPlaceholders S).map (·.objectId) := by
    rw [forall₂_map_eq (fun dv : SelectionDesc × ℕ => dv.1.objectId) _ h3 (fun a b hab => hab.id)]
    have : ((d.getPlaceholders S).zip (placeholderVotes over d.desc.numberElected
        ((realVotes S c d over).sum % 2 ^ 64) d.placeholders.length)).map (·.1) = d.getPlaceholders S := by
      rw [List.map_fst_zip]
      rw [placeholderVotes_length]
      simp [ContestDescP.getPlaceholders]
    conv_rhs => rw [← this, List.map_map]
    rfl
  rw [h1, List.map_append, List.map_append, e1, e2]
  exact ((S.perm SelectionDesc.seq d.desc.selections).map _).append
    ((S.perm SelectionDesc.seq d.placeholders).map _)

/-- C35, ballots: a freshly encrypted ballot is valid exactly if no challenge or response of its proofs
is zero, if the contests have distinct sequence numbers and the ids are such that the names of the
checks are distinct. -/
theorem C35_ballot_valid (hG : G.Valid) (hL : G.Large) (ctx : Context) (b : PBallot) (m : IManifest)
    (codeSeed : ℕ) (nonce : Option ℕ) (timestamp : ℕ) (verify : Bool) (w w' : World) (e : CBallot)
    (ds : List ContestDescP) (hK : Residue G ctx.pub) (hw : w.Ok G ctx.pub)
    (hds : m.getContestsFor S b.styleId = .ok ds) (hgood : GoodContests ds)
    (hseq : (ds.map (fun d => d.desc.seq)).Nodup) (hkeys : (descKeys ds).Nodup)
    (h : encryptBallot G C S b m ctx codeSeed nonce timestamp verify w = (.ok e, w')) :
    e.isValid G C S m.manifestHash ctx.pub ctx.extHash = .ok true ↔
      ∀ c ∈ e.contests, (∀ π ∈ c.proof, π.challenge ≠ 0 ∧ π.response ≠ 0) ∧
        ∀ s ∈ c.selections, ∀ π ∈ s.proof, π.zeroChallenge ≠ 0 ∧ π.oneChallenge ≠ 0 ∧
          π.zeroResponse ≠ 0 ∧ π.oneResponse ≠ 0 := by
  obtain ⟨n, -, -, -, hcs, hid, -, hmh, hhash, -, -, -, -, -⟩ := C35_ballot G C S hG ctx b m codeSeed nonce
    timestamp verify w w' e ds hK hw hds hgood h
  have facts := hcs
  have hfacts : List.Forall₂ (fun d c => d ∈ ds ∧ ∃ over, ContestFacts G C S m ctx.pub ctx.extHash
      (hashElems G C [.q m.manifestHash, .str b.objectId, .q n]) (emplaceFrom S b d) d over c)
      ds e.contests := by
    have : List.Forall₂ (fun d c => d ∈ ds ∧ ContestResult G C S m ctx.pub ctx.extHash
        (hashElems G C [.q m.manifestHash, .str b.objectId, .q n]) verify (emplaceFrom S b d) d c)
        ds e.contests := by
      have : ∀ (l : List ContestDescP) (r : List CContest), (∀ d ∈ l, d ∈ ds) →
          List.Forall₂ (fun d c => ContestResult G C S m ctx.pub ctx.extHash
            (hashElems G C [.q m.manifestHash, .str b.objectId, .q n]) verify (emplaceFrom S b d) d c) l r →
          List.Forall₂ (fun d c => d ∈ ds ∧ ContestResult G C S m ctx.pub ctx.extHash
            (hashElems G C [.q m.manifestHash, .str b.objectId, .q n]) verify (emplaceFrom S b d) d c) l r := by
        intro l r hl hf
        induction hf with
        | nil => exact .nil
        | cons hab _ ih => exact .cons ⟨hl _ (by simp), hab⟩ (ih (fun d hd => hl d (by simp [hd])))
      exact this ds e.contests (fun _ h => h) hcs
    refine this.imp (fun d c => ?_)
    rintro ⟨hd, w1, w2, hw1, hrun⟩
    obtain ⟨over, -, hf, -, -⟩ := encryptContest_spec G C S hG _ _ _ _ m d verify w1 w2 c hK hw1
      (hgood.elected d hd) hrun
    exact ⟨hd, over, hf⟩
  have hk : e.keys.Nodup := by
    refine (List.Perm.nodup_iff ?_).2 hkeys
    refine perm_flatMap_of_forall₂ _ _ hfacts ?_
    rintro d c ⟨-, over, hf⟩
    rw [hf.id]
    refine List.Perm.cons _ ?_
    have := hf.ids.map (fun i => d.desc.objectId ++ '-' :: i)
    rw [List.map_map, List.map_map] at this
    exact this
  have hsort : e.getContests S = e.contests := by
    have e1 : e.contests.map (·.seq) = ds.map (fun d => d.desc.seq) :=
      forall₂_map_eq _ _ hfacts (fun d c ⟨_, over, hf⟩ => hf.seq)
    refine sort_of_sorted S CContest.seq e.contests ?_ ?_
    · obtain ⟨style, -, -, -, hs⟩ := C44_contests S m b.styleId ds hds
      have h1 : (ds.map (fun d => d.desc.seq)).Pairwise (· ≤ ·) := by rw [List.pairwise_map]; exact hs
      rw [← e1, List.pairwise_map] at h1
      exact h1
    · exact key_inj_of_nodup _ _ (by rw [e1]; exact hseq)
  rw [ballot_isValid_iff G C S _ _ _ e hk, hsort]
  have hne : e.contests ≠ [] ∨ e.contests = [] := by tauto
  have hbh : e.contests ≠ [] → ballotHash G C e.objectId e.contests m.manifestHash = .ok e.cryptoHash := by
    intro hne
    unfold ballotHash
    rw [if_neg (by simpa using hne), hhash, hid]
  have hconts : e.contests ≠ [] := by
    unfold encryptBallot at h
    cases hst : m.getBallotStyle b.styleId with
    | none => rw [hst] at h; simp [M.raise] at h
    | some style =>
      rw [hst] at h
      dsimp only at h
      simp only [M.bind_eq_ok] at h
      obtain ⟨n, w1, h1, es, w2, h2, ts, w3, h3, e', w4, h4, h⟩ := h
      rw [cballot_make_ok] at h4
      have hee : e = e' := by
        cases verify with
        | false =>
          simp only [Bool.not_false, if_true, M.ret, Prod.mk.injEq, Res.ok.injEq] at h
          exact h.1.symm
        | true =>
          simp only [Bool.not_true, Bool.false_eq_true, if_false, M.bind_eq_ok, M.lift,
            Prod.mk.injEq] at h
          obtain ⟨v, w5, ⟨hv, rfl⟩, h⟩ := h
          cases v with
          | false => simp [M.raise] at h
          | true =>
            simp only [if_true, M.ret, Prod.mk.injEq, Res.ok.injEq] at h
            exact h.1.symm
      rw [hee, h4.2.2.2.2.2.1]
      exact h4.1
  have key : ∀ c ∈ e.contests, (c.isValid G C S c.descHash ctx.pub ctx.extHash = .ok true ↔
      ∀ π ∈ c.proof, π.challenge ≠ 0 ∧ π.response ≠ 0) ∧
      ∀ s ∈ c.selections, (s.isValid G C s.descHash ctx.pub ctx.extHash = true ↔ ∀ π ∈ s.proof,
        π.zeroChallenge ≠ 0 ∧ π.oneChallenge ≠ 0 ∧ π.zeroResponse ≠ 0 ∧ π.oneResponse ≠ 0) := by
    intro c hc
    obtain ⟨d, hd, w1, w2, hw1, hrun⟩ := forall₂_mem_right hcs c hc
    obtain ⟨-, -, ⟨π, hπ, -, hv, -⟩, hsel, -⟩ := C35_contest G C S hG hL _ _ _ _ m d verify w1 w2 c hK hw1
      (hgood.elected d hd) (hgood.selections d hd) (hgood.placeholders d hd) hrun
    refine ⟨?_, hsel⟩
    rw [hv, hπ]
    simp
  constructor
  · rintro ⟨-, -, h3⟩ c hc
    refine ⟨(key c hc).1.1 (h3 c hc).1, fun s hs => ((key c hc).2 s hs).1 ((h3 c hc).2 s hs)⟩
  · intro h3
    exact ⟨hmh.symm, hbh hconts, fun c hc => ⟨(key c hc).1.2 (h3 c hc).1,
      fun s hs => ((key c hc).2 s hs).2 ((h3 c hc).2 s hs)⟩⟩

theorem emplaceFrom_normal (b : PBallot) (d : ContestDescP) :
    List.Forall₂ (fun sd s => NormalSelection b d.desc.objectId sd.objectId s)
      (d.desc.getSelections S) (emplaceFrom S b d).selections := by
  unfold emplaceFrom
  cases hf : b.contests.find? (fun c => c.objectId = d.desc.objectId) with
  | some c => exact emplaceContest_normal S b c d.desc (isFirst_of_find _ _ _ hf)
  | none =>
    refine contestFrom_normal S b d.desc ?_
    intro c hc
    simpa using List.find?_eq_none.1 hf c hc

/-- The ciphertexts of contest `c` hold the votes of ballot `b` for the description `d`: with the
selections normalised (`NormalSelection`), the real selections hold the marks, or zeroes and the
placeholders ones if the contest is overvoted. -/
def HoldsVotes (K : ℕ) (b : PBallot) (d : ContestDescP) (c : CContest) : Prop :=
  ∃ (n : PContest) (rs ps : List CSelection),
      n.objectId = d.desc.objectId ∧ c.objectId = d.desc.objectId ∧
      List.Forall₂ (fun sd s => NormalSelection b d.desc.objectId sd.objectId s)
        (d.desc.getSelections S) n.selections ∧
      c.selections = rs ++ ps ∧
      (n.Overvoted d.desc.numberElected d.desc.votesAllowed →
        (∀ s ∈ rs, EncryptsAs G K 0 s) ∧ ∀ s ∈ ps, EncryptsAs G K 1 s) ∧
      (¬ n.Overvoted d.desc.numberElected d.desc.votesAllowed →
        List.Forall₂ (fun s c => c.objectId = s.objectId ∧ EncryptsAs G K s.vote c)
          n.selections rs)

/-- C33, ballots: in a ballot encrypted for a valid manifest, each contest holds the normalised votes;
a contest is treated as overvoted according to the normalised votes. -/
theorem C33_ballot (hG : G.Valid) (ctx : Context) (b : PBallot) (m : IManifest)
    (codeSeed : ℕ) (nonce : Option ℕ) (timestamp : ℕ) (verify : Bool) (w w' : World) (e : CBallot)
    (ds : List ContestDescP) (hK : Residue G ctx.pub) (hw : w.Ok G ctx.pub)
    (hds : m.getContestsFor S b.styleId = .ok ds) (hgood : GoodContests ds)
    (ht : ∀ c ∈ b.contests, ∀ s ∈ c.selections, s.vote < 2 ^ 32)
    (hl : ∀ d ∈ ds, d.desc.selections.length < 2 ^ 32)
    (h : encryptBallot G C S b m ctx codeSeed nonce timestamp verify w = (.ok e, w')) :
    List.Forall₂ (fun d c => HoldsVotes G S ctx.pub b d c) ds e.contests := by
  obtain ⟨n, -, -, -, hcs, -⟩ := C35_ballot G C S hG ctx b m codeSeed nonce
    timestamp verify w w' e ds hK hw hds hgood h
  have key : ∀ d ∈ ds, ∀ c, ContestResult G C S m ctx.pub ctx.extHash
      (hashElems G C [.q m.manifestHash, .str b.objectId, .q n]) verify (emplaceFrom S b d) d c →
      HoldsVotes G S ctx.pub b d c := by
    intro d hd c hr
    obtain ⟨w1, w2, hw1, hrun⟩ := hr
    have hnorm := emplaceFrom_normal S b d
    have hvote : ∀ s ∈ (emplaceFrom S b d).selections, s.vote < 2 ^ 32 := by
      intro s hs
      obtain ⟨sd, -, hn⟩ := forall₂_mem_right hnorm s hs
      rcases hn with ⟨c0, ⟨b1, b2, hb, -, -⟩, ⟨c1, c2, hc, -, -⟩⟩ | ⟨-, hn⟩
      · exact ht c0 (by rw [hb]; simp) s (by rw [hc]; simp)
      · rw [hn]; norm_num
    have hlen : (emplaceFrom S b d).selections.length = d.desc.selections.length := by
      rw [← hnorm.length_eq]; simp [ContestDesc.getSelections]
    have htot : (emplaceFrom S b d).total < 2 ^ 64 := by
      have : (emplaceFrom S b d).total ≤ (emplaceFrom S b d).selections.length * 2 ^ 32 := by
        unfold PContest.total
        have := List.sum_le_card_nsmul ((emplaceFrom S b d).selections.map (·.vote)) (2 ^ 32) (by
          intro v hv
          obtain ⟨s, hs, rfl⟩ := List.mem_map.1 hv
          exact le_of_lt (hvote s hs))
        simpa using this
      rw [hlen] at this
      have := hl d hd
      omega
    obtain ⟨over, hcheck, facts, -, -⟩ := encryptContest_spec G C S hG _ _ _ _ m d verify w1 w2 c hK hw1
      (hgood.elected d hd) hrun
    obtain ⟨rs, ps, h1, h2, h3⟩ := facts.selections
    obtain ⟨rs', ps', h1', h2', h3'⟩ := C33_votes G C S hG _ _ _ _ m d verify w1 w2 c hK hw1
      (hgood.elected d hd) htot hrun
    have hrs : rs = rs' ∧ ps = ps' := by
      have l1 := h2.length_eq
      have l2 := h2'.length_eq
      have : rs.length = rs'.length := by rw [← l1, ← l2]; rfl
      exact List.append_inj (h1.symm.trans h1') this
    obtain ⟨rfl, rfl⟩ := hrs
    refine ⟨emplaceFrom S b d, rs, ps, emplaceFrom_id S b d, facts.id, hnorm, h1, ?_, ?_⟩
    · intro ho
      refine ⟨fun s hs => ?_, fun s hs => ?_⟩
      · obtain ⟨sd, -, hh⟩ := forall₂_mem_right h2' s hs
        exact hh.2.2.2.1 ho
      · obtain ⟨sd, -, hh⟩ := forall₂_mem_right h3' s hs
        exact hh.2.2.2 ho
    · intro ho
      obtain ⟨k1, k2, -, -⟩ := C31_classification_partial (emplaceFrom S b d) d.desc.objectId
        d.desc.selections.length d.desc.numberElected d.desc.votesAllowed true htot
      have hover : over = false := by
        cases over
        · rfl
        · exact absurd (k2.1 hcheck).2.2.1 ho
      subst hover
      have hsel : (emplaceFrom S b d).selections =
          (d.desc.getSelections S).map (emplaceSelection (emplaceFrom S b d)) := by
        have := emplaceFrom_idem S b d
        conv_lhs => rw [← this]
        rfl
      rw [hsel, List.forall₂_map_left_iff]
      refine h2.imp (fun sd s hs => ⟨by rw [hs.id, emplaceSelection_id], ?_⟩)
      obtain ⟨k, hk, -, henc⟩ := hs.encryption
      rw [emplaceSelection_vote]
      exact ⟨k, hk, henc⟩
  have : ∀ (l : List ContestDescP) (r : List CContest), (∀ d ∈ l, d ∈ ds) →
      List.Forall₂ (fun d c => ContestResult G C S m ctx.pub ctx.extHash
        (hashElems G C [.q m.manifestHash, .str b.objectId, .q n]) verify (emplaceFrom S b d) d c) l r →
      List.Forall₂ (fun d c => HoldsVotes G S ctx.pub b d c) l r := by
    intro l r hl hf
    induction hf with
    | nil => exact .nil
    | cons hab _ ih => exact .cons (key _ (hl _ (by simp)) _ hab) (ih (fun d hd => hl d (by simp [hd])))
  exact this ds e.contests (fun _ h => h) hcs

/-! ## Encryption of ballots succeeds -/

theorem cballot_make_total (objectId styleId : Str) (mh : ℕ) (contests : List CContest)
    (nonce : Option ℕ) (timestamp : ℕ) (seed code : Option ℕ) (w : World) (hne : contests ≠ []) :
    ∃ b w', CBallot.make G C objectId styleId mh contests nonce timestamp seed code w = (.ok b, w') := by
  obtain ⟨h, hh⟩ : ∃ h, h = hashElems G C (.str objectId :: .q mh ::
    contests.map (fun c => .q c.cryptoHash)) := ⟨_, rfl⟩
  obtain ⟨t, ht⟩ : ∃ t, t = (if timestamp = 0 then w.clock 0 else timestamp) := ⟨_, rfl⟩
  obtain ⟨cd, hcd⟩ : ∃ cd, cd = code.getD (hashElems G C [.q (seed.getD mh), .u64 t, .q h]) := ⟨_, rfl⟩
  exact ⟨⟨objectId, styleId, mh, seed.getD mh, contests, cd, t, nonce, h⟩, _,
    (cballot_make_ok ..).2 ⟨hne, rfl, rfl, rfl, rfl, rfl, rfl, hh, rfl, ht, hcd⟩⟩

theorem forEach_total {α β : Type} (f : α → M β) (Inv : World → Prop) (l : List α)
    (hf : ∀ x ∈ l, ∀ w, Inv w → ∃ y w', f x w = (.ok y, w') ∧ Inv w') :
    ∀ w, Inv w → ∃ r w', M.forEach f l w = (.ok r, w') ∧ r.length = l.length := by
  induction l with
  | nil => exact fun w _ => ⟨[], w, rfl, rfl⟩
  | cons x l ih =>
    intro w hw
    obtain ⟨y, w1, h1, hw1⟩ := hf x (by simp) w hw
    obtain ⟨r, w2, h2, h3⟩ := ih (fun x hx => hf x (by simp [hx])) w1 hw1
    refine ⟨y :: r, w2, ?_, by simp [h3]⟩
    unfold M.forEach
    rw [M.bind_apply_ok _ _ w w1 y h1, M.bind_apply_ok _ _ w1 w2 r h2]
    rfl

/-- The votes of a normalised contest are those of the contest. -/
theorem emplaceFrom_selections (b : PBallot) (d : ContestDescP) :
    ∀ s ∈ (emplaceFrom S b d).selections, s.vote = 0 ∨ ∃ c ∈ b.contests, s ∈ c.selections := by
  have hnorm : List.Forall₂ (fun sd s => NormalSelection b d.desc.objectId sd.objectId s)
      (d.desc.getSelections S) (emplaceFrom S b d).selections := emplaceFrom_normal S b d
  intro s hs
  obtain ⟨sd, -, hn⟩ := forall₂_mem_right hnorm s hs
  rcases hn with ⟨c0, ⟨b1, b2, hb, -, -⟩, ⟨c1, c2, hc, -, -⟩⟩ | ⟨-, hn⟩
  · exact Or.inr ⟨c0, by rw [hb]; simp, by rw [hc]; simp⟩
  · exact Or.inl (by rw [hn])

/-- C35, ballots: without verification, encryption of a ballot of 0 and 1 votes succeeds for every
ballot style with contests, if the descriptions can be hashed and no derived nonce is zero. -/
theorem C35_ballot_total (hG : G.Valid) (ctx : Context) (b : PBallot) (m : IManifest)
    (codeSeed : ℕ) (nonce : Option ℕ) (timestamp : ℕ) (w : World)
    (ds : List ContestDescP) (hK : Residue G ctx.pub) (hw : w.Ok G ctx.pub)
    (hds : m.getContestsFor S b.styleId = .ok ds) (hgood : GoodContests ds) (hne : ds ≠ [])
    (hv : ∀ c ∈ b.contests, ∀ s ∈ c.selections, s.vote ≤ 1)
    (hl : ∀ d ∈ ds, d.desc.selections.length < 2 ^ 32)
    (hcs : ∀ d ∈ ds, d.desc.selections ++ d.placeholders ≠ [])
    (hash : ContestDescP → ℕ) (hh : ∀ d ∈ ds, d.desc.hash G C = .ok (hash d))
    (hn : ∀ d ∈ ds, ∀ sd ∈ d.desc.selections ++ d.placeholders, selectionNonce G C
      (hashElems G C [.q (hashElems G C [.q (hash d),
        .q (hashElems G C [.q m.manifestHash, .str b.objectId, .q (nonce.getD (w.rng 0))])]), .u64 d.desc.seq]) sd ≠ 0) :
    ∃ e w', encryptBallot G C S b m ctx codeSeed nonce timestamp false w = (.ok e, w') := by
  obtain ⟨style, hst⟩ : ∃ style, m.getBallotStyle b.styleId = some style := by
    unfold IManifest.getContestsFor at hds
    cases hst : m.getBallotStyle b.styleId with
    | none => rw [hst] at hds; simp at hds
    | some style => exact ⟨style, rfl⟩
  have hid : style.objectId = b.styleId := by
    have := List.find?_some hst
    simpa using this
  unfold encryptBallot
  rw [hst]
  dsimp only
  obtain ⟨w0, hn0, hw0⟩ : ∃ w0, nonceOr nonce w = (.ok (nonce.getD (w.rng 0)), w0) ∧ w0.Ok G ctx.pub := by
    cases nonce with
    | none => exact ⟨_, rfl, hw.rand⟩
    | some x => exact ⟨_, rfl, hw⟩
  generalize nonce.getD (w.rng 0) = n at hn hn0
  rw [M.bind_apply_ok (nonceOr nonce) _ w w0 n hn0]
  clear hn0 hw
  have hw := hw0
  clear hw0
  revert hw
  generalize w0 = w
  intro hw
  have key : ∃ es w', encryptContests G C S b m ctx (nonceSeedOf G C m.manifestHash b.objectId n) false w =
      (.ok es, w') ∧ es.length = ds.length := by
    unfold encryptContests
    have hb : emplaceBallot S b m = .ok { b with contests := ds.map (emplaceFrom S b) } := by
      unfold emplaceBallot
      rw [hst]
      dsimp only
      rw [hid, hds]
      rfl
    rw [M.bind_apply_ok (M.lift (emplaceBallot S b m)) _ w w _ (by rw [hb]; rfl), hst]
    dsimp only
    rw [hid, hds, M.bind_apply_ok (M.lift (.ok ds)) _ w w ds rfl]
    refine forEach_total _ (fun w => w.Ok G ctx.pub) ds ?_ w hw
    intro d hd w hw
    rw [find_id_map (emplaceFrom S b) (emplaceFrom_id S b) ds hgood.ids d hd]
    dsimp only
    have hnorm := emplaceFrom_normal S b d
    have hvote : ∀ s ∈ (emplaceFrom S b d).selections, s.vote ≤ 1 := by
      intro s hs
      rcases emplaceFrom_selections S b d s hs with h0 | ⟨c, hc, hs⟩
      · omega
      · exact hv c hc s hs
    have hlen : (emplaceFrom S b d).selections.length = d.desc.selections.length := by
      rw [← hnorm.length_eq]; simp [ContestDesc.getSelections]
    have htot : (emplaceFrom S b d).total < 2 ^ 64 := by
      have : (emplaceFrom S b d).total ≤ (emplaceFrom S b d).selections.length * 1 := by
        unfold PContest.total
        have := List.sum_le_card_nsmul ((emplaceFrom S b d).selections.map (·.vote)) 1 (by
          intro v hv
          obtain ⟨s, hs, rfl⟩ := List.mem_map.1 hv
          exact hvote s hs)
        simpa using this
      rw [hlen] at this
      have := hl d hd
      omega
    obtain ⟨e, w', he⟩ := C35_contest_total G C S hG ctx.pub ctx.extHash
      (nonceSeedOf G C m.manifestHash b.objectId n) (hash d) (emplaceFrom S b d) m d w hK hw
      (hgood.elected d hd) (emplaceFrom_id S b d) (le_of_eq hlen) htot
      (Or.inr (fun sd _ => by
        unfold PContest.voteFor
        split
        · next s hs => exact hvote s (List.mem_of_find?_eq_some hs)
        · omega)) (hh d hd) (hcs d hd) (hn d hd)
    obtain ⟨-, -, -, hw', -⟩ := encryptContest_spec G C S hG _ _ _ _ _ d false w w' e hK hw
      (hgood.elected d hd) he
    exact ⟨e, w', he, hw'⟩
  obtain ⟨es, w1, h1, hes⟩ := key
  rw [M.bind_apply_ok _ _ w w1 es h1]
  have hts : ∃ ts w2, timestampOr timestamp w1 = (.ok ts, w2) := by
    unfold timestampOr
    split
    · exact ⟨_, _, rfl⟩
    · exact ⟨_, _, rfl⟩
  obtain ⟨ts, w2, h2⟩ := hts
  rw [M.bind_apply_ok _ _ w1 w2 ts h2]
  have hmk : ∃ e w3, CBallot.make G C b.objectId b.styleId m.manifestHash es (some n) ts (some codeSeed)
      none w2 = (.ok e, w3) := by
    have hne' : es ≠ [] := by
      intro h; rw [h] at hes; exact hne (List.length_eq_zero_iff.1 hes.symm)
    exact cballot_make_total G C _ _ _ es _ _ _ _ w2 hne'
  obtain ⟨e, w3, h3⟩ := hmk
  rw [M.bind_apply_ok _ _ w2 w3 e h3]
  exact ⟨e, w3, rfl⟩

/-- The contests of the example manifest, with the properties the theorems on ballots ask for. -/
theorem exampleIM_good : GoodContests [exampleContestP2, exampleContestP] ∧
    ([exampleContestP2, exampleContestP].map (fun d => d.desc.seq)).Nodup ∧
    (descKeys [exampleContestP2, exampleContestP]).Nodup := by
  refine ⟨⟨?_, ?_, ?_, ?_⟩, ?_, ?_⟩ <;> decide +kernel

def exampleContext (K h : ℕ) : Context :=
  { numberOfGuardians := 1, quorum := 1, pub := K, commitmentHash := 1, manifestHash := h
    baseHash := 2, extHash := 3 }

/-- The hypotheses of the theorems on ballots are met: the example ballot has two contests, a mark
for an unknown selection and an unknown contest. -/
theorem encryptBallot_example (S : StdSort) (K : ℕ) (hK : Residue .std K) (h ch t : ℕ)
    (nonce : Option ℕ) (w : World) (hw : w.Ok .std K) :
    ∃ e w', encryptBallot .std (constCrypto 5) S exampleBallot (exampleIM h)
      (exampleContext K h) ch
      nonce t false w = (.ok e, w') := by
  refine C35_ballot_total .std (constCrypto 5) S C54_std_valid (exampleContext K h) exampleBallot
    (exampleIM h) ch nonce t w [exampleContestP2, exampleContestP]
    hK hw
    (exampleIM_contests S h) exampleIM_good.1 (by simp) (by decide +kernel) (by decide +kernel)
    (by decide +kernel) (fun _ => addModQ .std (5 % 2 ^ 256) 0) ?_ ?_
  · intro d hd
    refine exampleContest_hash d ?_ ?_ <;>
      (rcases List.mem_cons.1 hd with rfl | hd
       · rfl
       · rw [List.mem_singleton.1 hd]; rfl)
  · intro d _ sd _
    rw [selectionNonce, hashElems_const]
    exact std_const5

example : plainWorld.Ok .std (gPowP .std 2) := plainWorld_ok _ std_q_gt7 _

example : Residue .std (gPowP .std 2) := residue_gPowP C54_std_valid 2 (by norm_num)

end EG
