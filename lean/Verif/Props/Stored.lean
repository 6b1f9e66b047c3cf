import Verif.Spec.Stored
import Verif.Props.Tally
import Verif.Props.Submit

/-!
# C92: counting the ballots of the record
-/

namespace EG

/-! ## What is read back, whenever something is read back -/

/-- `s'` is `s` as far as counting goes. -/
def SameCount (G : Params) (s s' : CSelection) : Prop :=
  s'.objectId = s.objectId ∧ (s.ciphertext.Readable G → s'.ciphertext = s.ciphertext)

def SameCounts (G : Params) (S : StdSort) (c c' : CContest) : Prop :=
  c'.objectId = c.objectId ∧ (c.accumulation.Readable G → c'.accumulation = c.accumulation) ∧
    List.Forall₂ (SameCount G) (c.getSelections S) c'.selections

theorem mapRes_forall₂ {α β γ : Type} {f : β → Res γ} {g : α → Res β} {R : α → γ → Prop} {l : List α}
    {ds : List β} {rs : List γ} (h1 : mapRes g l = .ok ds) (h2 : mapRes f ds = .ok rs)
    (h : ∀ x ∈ l, ∀ d r, g x = .ok d → f d = .ok r → R x r) : List.Forall₂ R l rs := by
  induction l generalizing ds rs with
  | nil =>
    cases Res.ok.inj h1
    cases Res.ok.inj h2
    exact .nil
  | cons x l ih =>
    rw [mapRes, Res.bind_eq_ok] at h1
    obtain ⟨d, hd, h1⟩ := h1
    rw [Res.bind_eq_ok] at h1
    obtain ⟨ds', hds, h1⟩ := h1
    cases Res.ok.inj h1
    rw [mapRes, Res.bind_eq_ok] at h2
    obtain ⟨r, hr, h2⟩ := h2
    rw [Res.bind_eq_ok] at h2
    obtain ⟨rs', hrs, h2⟩ := h2
    cases Res.ok.inj h2
    exact .cons (h x (by simp) d r hd hr) (ih hds hrs (fun y hy => h y (by simp [hy])))

theorem CSelection.read_back {G : Params} (hG : G.Valid) {s s' : CSelection} {d : Json}
    (hd : s.toDoc false = .ok d) (hr : CSelection.ofDoc G d = .ok s') : SameCount G s s' := by
  unfold CSelection.toDoc at hd
  cases hp : s.proof with
  | none => rw [hp] at hd; cases hd
  | some p =>
    rw [hp] at hd
    simp only [setNonce, Bool.false_eq_true, if_false] at hd
    cases Res.ok.inj hd
    unfold CSelection.ofDoc at hr
    simp only [Res.bind_eq_ok, Json.strAt, Json.natAt, Json.boolAt, Json.at_eq (Json.isObj_object _),
      Json.get_object, Res.bind_ok] at hr
    obtain ⟨id, h1, _, -, _, -, _, -, _, -, _, -, c, hc, _, -, _, -, _, -, _, -, hr⟩ := hr
    cases Res.ok.inj hr
    simp [key_inj, Json.asStr] at h1 hc
    refine ⟨h1.symm, fun hread => ?_⟩
    rw [Ciphertext.ofDoc_toDoc hG _ hread] at hc
    exact (Res.ok.inj hc).symm

theorem CContest.read_back {G : Params} (hG : G.Valid) (S : StdSort) {c c' : CContest} {d : Json}
    (hd : c.toDoc S false = .ok d) (hr : CContest.ofDoc G d = .ok c') : SameCounts G S c c' := by
  unfold CContest.toDoc at hd
  rw [Res.bind_eq_ok] at hd
  obtain ⟨ds, hds, hd⟩ := hd
  cases hp : c.proof with
  | none => rw [hp] at hd; cases hd
  | some p =>
  cases he : c.extended with
  | none => rw [hp, he] at hd; cases hd
  | some e =>
    rw [hp, he] at hd
    simp only [setNonce, Bool.false_eq_true, if_false] at hd
    cases Res.ok.inj hd
    unfold CContest.ofDoc at hr
    simp only [Res.bind_eq_ok, Json.strAt, Json.natAt, Json.at_eq (Json.isObj_object _),
      Json.get_object, Res.bind_ok] at hr
    obtain ⟨id, h1, _, -, _, -, _, -, a, ha, _, -, _, -, _, -, ss, hss, _, -, _, -, _, -, hr⟩ := hr
    cases Res.ok.inj hr
    simp [key_inj, Json.asStr, Json.pushed_items] at h1 ha hss
    refine ⟨h1.symm, fun hread => ?_, mapRes_forall₂ hds hss (fun s _ d s' h h' => s.read_back hG h h')⟩
    rw [Ciphertext.ofDoc_toDoc hG _ hread] at ha
    exact (Res.ok.inj ha).symm

theorem submitted_eq {b : CBallot} {state : BallotBoxState} {r : SBallot}
    (h : SBallot.from b state = .ok r) : r = ⟨b, state⟩ := by
  by_cases hc : b.Complete
  · rw [(C60_submit_partial b state).1 hc] at h
    exact (Res.ok.inj h).symm
  · rw [(C60_submit_partial b state).2 hc] at h
    cases h

theorem SBallot.read_back {G : Params} (hG : G.Valid) (S : StdSort) {b b' : SBallot} {d : Json}
    (hd : b.toDoc S = .ok d) (hr : SBallot.ofDoc G d = .ok b') :
    b'.state = b.state ∧
      List.Forall₂ (SameCounts G S) (b.ballot.getContests S) b'.ballot.contests := by
  unfold SBallot.toDoc CBallot.toDoc at hd
  simp only [Res.bind_eq_ok, setNonce, Bool.false_eq_true, if_false] at hd
  obtain ⟨j, ⟨ds, hds, hj⟩, hd⟩ := hd
  cases Res.ok.inj hj
  cases Res.ok.inj hd
  have hobj := Json.isObj_set (Json.isObj_object [(key "object_id", .str b.ballot.objectId),
    (key "style_id", .str b.ballot.styleId), (key "manifest_hash", .str (toHexQ b.ballot.manifestHash)),
    (key "code_seed", .str (toHexQ b.ballot.ballotCodeSeed)), (key "contests", .pushed ds),
    (key "code", .str (toHexQ b.ballot.ballotCode)), (key "timestamp", .num b.ballot.timestamp),
    (key "crypto_hash", .str (toHexQ b.ballot.cryptoHash))]).node (key "state") (.num b.state.value)
  unfold SBallot.ofDoc CBallot.ofDoc at hr
  simp only [Res.bind_eq_ok, Json.strAt, Json.natAt, Json.at_eq hobj, Json.get_set (Json.isObj_object _).node,
    Json.get_object, Res.bind_ok] at hr
  obtain ⟨cb, ⟨_, -, _, -, _, -, _, -, _, -, _, -, _, -, _, -, cs, hcs, _, -, _, -, _, -, _, -, _, -, hcb⟩, n, hn, st,
    hst, hr⟩ := hr
  cases Res.ok.inj hcb
  simp [key_inj, Json.asNat, Json.pushed_items] at hcs hn
  rw [← hn, BallotBoxState.ofValue_value] at hst
  cases Res.ok.inj hst
  obtain rfl := submitted_eq hr
  exact ⟨rfl, mapRes_forall₂ hds hcs (fun s _ d s' h h' => s.read_back hG S h h')⟩

/-! ## The text -/

theorem CSelection.wf_doc {s : CSelection} {d : Json} (h : s.seq < 2 ^ 64) (hd : s.toDoc false = .ok d) :
    d.WF := by
  unfold CSelection.toDoc at hd
  cases hp : s.proof with
  | none => rw [hp] at hd; cases hd
  | some p =>
    rw [hp] at hd
    simp only [setNonce, Bool.false_eq_true, if_false] at hd
    cases Res.ok.inj hd
    refine Json.wf_object ?_
    intro e he
    simp only [List.mem_cons, List.not_mem_nil, or_false] at he
    rcases he with rfl | rfl | rfl | rfl | rfl | rfl | rfl
    · trivial
    · exact h
    · trivial
    · exact s.ciphertext.wf_toDoc
    · trivial
    · trivial
    · exact p.wf_toDoc

theorem CContest.wf_doc (S : StdSort) {c : CContest} {d : Json} (h : c.seq < 2 ^ 64)
    (hp : ∀ p, c.proof = some p → p.constant < 2 ^ 64) (hs : ∀ s ∈ c.selections, s.seq < 2 ^ 64)
    (hd : c.toDoc S false = .ok d) : d.WF := by
  unfold CContest.toDoc at hd
  rw [Res.bind_eq_ok] at hd
  obtain ⟨ds, hds, hd⟩ := hd
  cases hpr : c.proof with
  | none => rw [hpr] at hd; cases hd
  | some p =>
  cases hx : c.extended with
  | none => rw [hpr, hx] at hd; cases hd
  | some x =>
    rw [hpr, hx] at hd
    simp only [setNonce, Bool.false_eq_true, if_false] at hd
    cases Res.ok.inj hd
    refine Json.wf_object ?_
    intro e he
    simp only [List.mem_cons, List.not_mem_nil, or_false] at he
    rcases he with rfl | rfl | rfl | rfl | rfl | rfl | rfl | rfl
    · trivial
    · exact h
    · trivial
    · exact Json.wf_pushed (mapRes_forall hds (fun s hm d hd =>
        CSelection.wf_doc (hs s ((mem_sort S _ _ s).1 hm)) hd))
    · exact c.accumulation.wf_toDoc
    · trivial
    · exact ConstProof.wf_toDoc (hp p hpr)
    · exact x.wf_toDoc

theorem SBallot.wf_doc (S : StdSort) {b : SBallot} {d : Json} (h : b.ballot.Numbers)
    (hd : b.toDoc S = .ok d) : d.WF := by
  unfold SBallot.toDoc CBallot.toDoc at hd
  simp only [Res.bind_eq_ok, setNonce, Bool.false_eq_true, if_false] at hd
  obtain ⟨j, ⟨ds, hds, hj⟩, hd⟩ := hd
  cases Res.ok.inj hj
  cases Res.ok.inj hd
  refine Json.wf_set (Json.wf_object ?_) _ ?_
  · intro e he
    simp only [List.mem_cons, List.not_mem_nil, or_false] at he
    rcases he with rfl | rfl | rfl | rfl | rfl | rfl | rfl | rfl
    · trivial
    · trivial
    · trivial
    · trivial
    · refine Json.wf_pushed (mapRes_forall hds (fun c hm d hd => ?_))
      obtain ⟨h1, h2, h3⟩ := h.2 c ((mem_sort S _ _ c).1 hm)
      exact CContest.wf_doc S h1 h2 h3 hd
    · trivial
    · exact h.1
    · trivial
  · cases b.state <;> (show _ < 2 ^ 64; decide)

theorem stored_back {G : Params} (hG : G.Valid) (S : StdSort) {e : CBallot} {state : BallotBoxState}
    {sb r : SBallot} {text : Str} (hn : e.Numbers) (hs : SBallot.from e state = .ok sb)
    (hw : writeText (sb.toDoc S) = .ok text) (hr : readText (SBallot.ofDoc G) text = .ok r) :
    r.state = state ∧ List.Forall₂ (SameCounts G S) (e.getContests S) r.ballot.contests := by
  obtain rfl := submitted_eq hs
  rw [writeText, Res.bind_eq_ok] at hw
  obtain ⟨d, hd, hw⟩ := hw
  obtain rfl := Res.ok.inj hw
  rw [readText_dump _ _ (SBallot.wf_doc S (b := ⟨e, state⟩) hn hd)] at hr
  exact SBallot.read_back hG S hd hr

/-! ## The ciphertexts -/

variable {G : Params}

theorem sameVotes_filter {l l' : List CSelection} (h : List.Forall₂ (SameCount G) l l') (sid : Str)
    (hr : ∀ s ∈ l, s.objectId = sid → s.ciphertext.Readable G) :
    (l'.filter (fun s => s.objectId = sid)).map (·.ciphertext) =
      (l.filter (fun s => s.objectId = sid)).map (·.ciphertext) := by
  induction h with
  | nil => rfl
  | @cons s s' l l' hs _ ih =>
    have ih := ih (fun x hx => hr x (by simp [hx]))
    by_cases hid : s.objectId = sid
    · rw [List.filter_cons_of_pos (by simpa [hs.1] using hid), List.filter_cons_of_pos (by simpa using hid),
        List.map_cons, List.map_cons, ih, hs.2 (hr s (by simp) hid)]
    · rw [List.filter_cons_of_neg (by simpa [hs.1] using hid), List.filter_cons_of_neg (by simpa using hid), ih]

/-- The ciphertexts that are counted are those of the ballot, in the order of the contests. -/
theorem sameContests_ciphertexts (S : StdSort) (cid sid : Str) {l l' : List CContest}
    (h : List.Forall₂ (SameCounts G S) l l')
    (hr : ∀ c ∈ l, c.objectId = cid → ∀ s ∈ c.selections, s.objectId = sid → s.ciphertext.Readable G) :
    ((l'.filter (fun c => c.objectId = cid)).flatMap (fun c =>
      (c.selections.filter (fun s => s.objectId = sid)).map (·.ciphertext))).Perm
    ((l.filter (fun c => c.objectId = cid)).flatMap (fun c =>
      (c.selections.filter (fun s => s.objectId = sid)).map (·.ciphertext))) := by
  induction h with
  | nil => exact .refl _
  | @cons c c' l l' hc _ ih =>
    have ih := ih (fun x hx => hr x (by simp [hx]))
    obtain ⟨h1, -, h3⟩ := hc
    by_cases hid : c.objectId = cid
    · rw [List.filter_cons_of_pos (by simpa [h1] using hid), List.filter_cons_of_pos (by simpa using hid),
        List.flatMap_cons, List.flatMap_cons]
      refine List.Perm.append ?_ ih
      rw [sameVotes_filter h3 sid (fun s hs hi => hr c (by simp) hid s ((mem_sort S _ _ s).1 hs) hi)]
      exact ((S.perm CSelection.seq c.selections).filter _).map _
    · rw [List.filter_cons_of_neg (by simpa [h1] using hid), List.filter_cons_of_neg (by simpa using hid)]
      exact ih

theorem sameContests_accumulations (S : StdSort) (cid : Str) {l l' : List CContest}
    (h : List.Forall₂ (SameCounts G S) l l')
    (hr : ∀ c ∈ l, c.objectId = cid → c.accumulation.Readable G) :
    (l'.filter (fun c => c.objectId = cid)).map (·.accumulation) =
      (l.filter (fun c => c.objectId = cid)).map (·.accumulation) := by
  induction h with
  | nil => rfl
  | @cons c c' l l' hc _ ih =>
    have ih := ih (fun x hx => hr x (by simp [hx]))
    obtain ⟨h1, h2, -⟩ := hc
    by_cases hid : c.objectId = cid
    · rw [List.filter_cons_of_pos (by simpa [h1] using hid), List.filter_cons_of_pos (by simpa using hid),
        List.map_cons, List.map_cons, ih, h2 (hr c (by simp) hid)]
    · rw [List.filter_cons_of_neg (by simpa [h1] using hid), List.filter_cons_of_neg (by simpa using hid), ih]

theorem Parts.perm {K t : ℕ} {cs ds : List Ciphertext} (h : Parts G K cs t) (hp : ds.Perm cs) :
    Parts G K ds t := by
  induction hp generalizing t with
  | nil => exact h
  | @cons x l₁ l₂ _ ih =>
    obtain ⟨xs, e, k, s⟩ := h
    obtain ⟨y, ys, rfl, rfl, rfl⟩ := List.map_eq_cons_iff.1 e
    rw [← s, List.map_cons, List.sum_cons]
    exact (Parts.single G ⟨_, k y (by simp)⟩).append (ih ⟨ys, rfl, fun z hz => k z (by simp [hz]), rfl⟩)
  | swap x y l =>
    obtain ⟨xs, e, k, s⟩ := h
    obtain ⟨a, as, rfl, rfl, e2⟩ := List.map_eq_cons_iff.1 e
    obtain ⟨b, bs, rfl, rfl, rfl⟩ := List.map_eq_cons_iff.1 e2
    refine ⟨b :: a :: bs, rfl, fun z hz => k z ?_, ?_⟩
    · simp only [List.mem_cons] at hz ⊢
      tauto
    · rw [← s]; simp only [List.map_cons, List.sum_cons]; omega
  | trans _ _ ih1 ih2 => exact ih1 (ih2 h)

theorem Parts.readable {K t : ℕ} (hG : G.Valid) (hK : Residue G K) {cs : List Ciphertext}
    (h : Parts G K cs t) : ∀ c ∈ cs, c.Readable G := by
  obtain ⟨xs, rfl, k, -⟩ := h
  intro c hc
  obtain ⟨x, hx, rfl⟩ := List.mem_map.1 hc
  obtain ⟨h1, h2, -, -⟩ := (k x hx).casts hG hK
  exact ⟨⟨by have := h1.1; omega, le_of_lt h1.2.1⟩, ⟨by have := h2.1; omega, le_of_lt h2.2.1⟩⟩

theorem mem_ciphertextsFor {e : CBallot} {cid sid : Str} {c : CContest} {s : CSelection} (hc : c ∈ e.contests)
    (hcid : c.objectId = cid) (hs : s ∈ c.selections) (hsid : s.objectId = sid) :
    s.ciphertext ∈ e.ciphertextsFor cid sid :=
  List.mem_flatMap.2 ⟨c, List.mem_filter.2 ⟨hc, by simpa using hcid⟩,
    List.mem_map.2 ⟨s, List.mem_filter.2 ⟨hs, by simpa using hsid⟩, rfl⟩⟩

/-- What is read from the record has the encryptions of what the voter entered. -/
theorem stored_parts (C : Crypto) (S : StdSort) (hG : G.Valid) (ctx : Context) (b : PBallot) (m : IManifest)
    (hK : Residue G ctx.pub) (hm : GoodManifest m) (d : ContestDescP) (hd : d ∈ m.contests)
    (ht : ∀ c ∈ b.contests, ∀ s ∈ c.selections, s.vote < 2 ^ 32)
    (sid : Str) (state : BallotBoxState) (r : SBallot) (h : Stored G C S ctx m b state r) :
    r.state = state ∧
    (sid ∈ d.desc.selections.map (·.objectId) → sid ∉ d.placeholders.map (·.objectId) →
      Parts G ctx.pub (r.ballot.ciphertextsFor d.desc.objectId sid)
        (m.timesListed b.styleId d.desc * b.counted d.desc sid)) ∧
    Parts G ctx.pub (r.ballot.accumulationsFor d.desc.objectId)
      (m.timesListed b.styleId d.desc * d.desc.numberElected) := by
  obtain ⟨e, sb, text, henc, hnum, hsb, hw, hr⟩ := h
  obtain ⟨h1, h2⟩ := stored_back hG S hnum hsb hw hr
  obtain ⟨p1, p2⟩ := ballot_parts G C S hG ctx b m e hK hm d hd ht sid henc
  refine ⟨h1, fun hs hsp => ?_, ?_⟩
  · have p1 := p1 hs hsp
    refine p1.perm ((sameContests_ciphertexts S _ sid h2 ?_).trans ?_)
    · intro c hc hcid s hs hsid
      exact p1.readable hG hK _ (mem_ciphertextsFor ((mem_sort S _ _ c).1 hc) hcid hs hsid)
    · exact ((S.perm CContest.seq e.contests).filter _).flatMap_right _
  · refine p2.perm ?_
    unfold CBallot.accumulationsFor
    rw [sameContests_accumulations S _ h2]
    · exact ((S.perm CContest.seq e.contests).filter _).map _
    · intro c hc hcid
      exact p2.readable hG hK _ (List.mem_map.2 ⟨c, List.mem_filter.2 ⟨(mem_sort S _ _ c).1 hc,
        by simpa using hcid⟩, rfl⟩)

theorem withState_flatMap {α : Type} (state : BallotBoxState) (record : List (α × BallotBoxState × SBallot))
    (hs : ∀ x ∈ record, x.2.2.state = x.2.1) (f : CBallot → List Ciphertext) :
    (withState state (record.map (·.2.2))).flatMap f =
      (record.filter (fun x => x.2.1 = state)).flatMap (fun x => f x.2.2.ballot) := by
  unfold withState
  induction record with
  | nil => rfl
  | cons x l ih =>
    have ih := ih (fun y hy => hs y (by simp [hy]))
    have hx := hs x (by simp)
    rw [List.map_cons]
    by_cases h : x.2.1 = state
    · rw [List.filter_cons_of_pos (by simpa [hx] using h), List.filter_cons_of_pos (by simpa using h),
        List.map_cons, List.flatMap_cons, List.flatMap_cons, ih]
    · rw [List.filter_cons_of_neg (by simpa [hx] using h), List.filter_cons_of_neg (by simpa using h), ih]

/-! ## C92 -/

variable (C : Crypto) (S : StdSort)

/-- C92: of the ballots that are read from a record, those with a state are those that were submitted with
it, and the product of their ciphertexts for a selection encrypts the number of votes that the voters gave
to the selection on the ballots submitted with this state.  For ballots that were cast: the count of the
election; ballots submitted as spoiled add nothing to it.  Partial: a selection that carries the id of a
placeholder is excluded, as in `C53_selection_partial`. -/
theorem C92_selection_partial (hG : G.Valid) (ctx : Context) (m : IManifest) (hK : Residue G ctx.pub)
    (hm : GoodManifest m) (d : ContestDescP) (hd : d ∈ m.contests)
    (sid : Str) (hsid : sid ∈ d.desc.selections.map (·.objectId))
    (hsp : sid ∉ d.placeholders.map (·.objectId)) (state : BallotBoxState)
    (record : List (PBallot × BallotBoxState × SBallot))
    (hv : ∀ x ∈ record, ∀ c ∈ x.1.contests, ∀ s ∈ c.selections, s.vote < 2 ^ 32)
    (hrec : ∀ x ∈ record, Stored G C S ctx m x.1 x.2.1 x.2.2)
    (hne : (withState state (record.map (·.2.2))).flatMap
      (fun e => e.ciphertextsFor d.desc.objectId sid) ≠ []) :
    ∃ t N, elgamalAdd G ((withState state (record.map (·.2.2))).flatMap
        (fun e => e.ciphertextsFor d.desc.objectId sid)) = .ok t ∧
      IsEncryption G ctx.pub ((record.filter (fun x => x.2.1 = state)).map (fun x =>
        m.timesListed x.1.styleId d.desc * x.1.counted d.desc sid)).sum N t := by
  have hparts := fun x hx => stored_parts C S hG ctx x.1 m hK hm d hd (hv x hx) sid x.2.1 x.2.2 (hrec x hx)
  rw [withState_flatMap state record (fun x hx => (hparts x hx).1)] at hne ⊢
  obtain ⟨xs, h1, h2, h3⟩ := Parts.flatMap (G := G) (K := ctx.pub)
    (fun x : PBallot × BallotBoxState × SBallot => x.2.2.ballot.ciphertextsFor d.desc.objectId sid)
    (fun x => m.timesListed x.1.styleId d.desc * x.1.counted d.desc sid)
    (record.filter (fun x => x.2.1 = state))
    (fun x hx => (hparts x (List.mem_filter.1 hx).1).2.1 hsid hsp)
  have hxs : xs ≠ [] := by
    rintro rfl
    exact hne h1.symm
  obtain ⟨t, ht, hi⟩ := C12_add_encrypts_sum G hG ctx.pub xs hxs h2
  rw [h1] at ht
  rw [h3] at hi
  exact ⟨t, _, ht, hi⟩

/-- C92: the same for the totals of a contest. -/
theorem C92_contest (hG : G.Valid) (ctx : Context) (m : IManifest) (hK : Residue G ctx.pub)
    (hm : GoodManifest m) (d : ContestDescP) (hd : d ∈ m.contests) (state : BallotBoxState)
    (record : List (PBallot × BallotBoxState × SBallot))
    (hv : ∀ x ∈ record, ∀ c ∈ x.1.contests, ∀ s ∈ c.selections, s.vote < 2 ^ 32)
    (hrec : ∀ x ∈ record, Stored G C S ctx m x.1 x.2.1 x.2.2)
    (hne : (withState state (record.map (·.2.2))).flatMap
      (fun e => e.accumulationsFor d.desc.objectId) ≠ []) :
    ∃ t N, elgamalAdd G ((withState state (record.map (·.2.2))).flatMap
        (fun e => e.accumulationsFor d.desc.objectId)) = .ok t ∧
      IsEncryption G ctx.pub (d.desc.numberElected * ((record.filter (fun x => x.2.1 = state)).map (fun x =>
        m.timesListed x.1.styleId d.desc)).sum) N t := by
  have hparts := fun x hx => stored_parts C S hG ctx x.1 m hK hm d hd (hv x hx) [] x.2.1 x.2.2 (hrec x hx)
  rw [withState_flatMap state record (fun x hx => (hparts x hx).1)] at hne ⊢
  obtain ⟨xs, h1, h2, h3⟩ := Parts.flatMap (G := G) (K := ctx.pub)
    (fun x : PBallot × BallotBoxState × SBallot => x.2.2.ballot.accumulationsFor d.desc.objectId)
    (fun x => m.timesListed x.1.styleId d.desc * d.desc.numberElected)
    (record.filter (fun x => x.2.1 = state))
    (fun x hx => (hparts x (List.mem_filter.1 hx).1).2.2)
  have hxs : xs ≠ [] := by
    rintro rfl
    exact hne h1.symm
  obtain ⟨t, ht, hi⟩ := C12_add_encrypts_sum G hG ctx.pub xs hxs h2
  rw [h1] at ht
  rw [h3, List.sum_map_mul_right, Nat.mul_comm] at hi
  exact ⟨t, _, ht, hi⟩

/-- C92: the key decrypts the product to the count if it is 0 or 1, and reports a failure otherwise (the
number of votes for a selection is below `q`). -/
theorem C92_decrypt_partial (hG : G.Valid) (secret : ℕ) (k : KeyPair) (hs : secret < 2 ^ 256) (hs2 : 2 ≤ secret)
    (hk : keyFromSecret G secret = .ok k) (ctx : Context) (hpub : ctx.pub = k.pub) (m : IManifest)
    (hm : GoodManifest m) (d : ContestDescP) (hd : d ∈ m.contests)
    (sid : Str) (hsid : sid ∈ d.desc.selections.map (·.objectId))
    (hsp : sid ∉ d.placeholders.map (·.objectId)) (state : BallotBoxState)
    (record : List (PBallot × BallotBoxState × SBallot))
    (hv : ∀ x ∈ record, ∀ c ∈ x.1.contests, ∀ s ∈ c.selections, s.vote < 2 ^ 32)
    (hrec : ∀ x ∈ record, Stored G C S ctx m x.1 x.2.1 x.2.2) (votes : ℕ)
    (hvotes : votes = ((record.filter (fun x => x.2.1 = state)).map (fun x =>
        m.timesListed x.1.styleId d.desc * x.1.counted d.desc sid)).sum) (hq : votes < G.q)
    (hne : (withState state (record.map (·.2.2))).flatMap
      (fun e => e.ciphertextsFor d.desc.objectId sid) ≠ []) :
    ∃ t, elgamalAdd G ((withState state (record.map (·.2.2))).flatMap
        (fun e => e.ciphertextsFor d.desc.objectId sid)) = .ok t ∧
      decrypt G t secret = if votes ≤ 1 then votes else 2 ^ 64 - 1 := by
  obtain ⟨k', hk', -, hkp, hkg⟩ := keyFromSecret_ok G hG secret hs hs2
  rw [hk] at hk'
  cases hk'
  have hK : Residue G ctx.pub := by
    rw [hpub]
    rw [modEq_cast, Nat.cast_pow] at hkg
    exact residue_of_cast hG hkp (by rw [hkg]; exact pow_pow_q (g_pow_q hG) secret)
  obtain ⟨t, N, ht, he⟩ := C92_selection_partial C S hG ctx m hK hm d hd sid hsid hsp state record hv hrec hne
  refine ⟨t, ht, ?_⟩
  rw [← hvotes, hpub] at he
  rw [decrypt_encryption G hG secret k.pub _ _ t hs hkg he, Nat.mod_eq_of_lt hq]
  split
  · next h => rw [h]; rfl
  · split
    · next h => rw [h]; rfl
    · next h0 h1 => rw [if_neg (by omega)]

/-! ## What gets through -/

theorem inBounds_nonzero {v : ℕ} (h : isInBoundsP G v = true) : Nonzero G.p v := by
  simp only [isInBoundsP, Bool.and_eq_true, elemLt_iff] at h
  exact ⟨by omega, by omega⟩

theorem DisjProof.readable_of_valid {π : DisjProof} {m : Ciphertext} {K h : ℕ}
    (hv : π.isValid G C m K h = true) (hc : Nonzero G.q π.zeroChallenge ∧ Nonzero G.q π.oneChallenge ∧
      Nonzero G.q π.challenge ∧ Nonzero G.q π.zeroResponse ∧ Nonzero G.q π.oneResponse) : π.Readable G := by
  unfold DisjProof.isValid at hv
  simp only [Bool.and_eq_true, isValidResidue] at hv
  obtain ⟨⟨⟨⟨⟨⟨⟨⟨⟨⟨⟨⟨⟨⟨-, -⟩, h1⟩, h2⟩, h3⟩, h4⟩, -⟩, -⟩, -⟩, -⟩, -⟩, -⟩, -⟩, -⟩, -⟩ := hv
  obtain ⟨k1, k2, k3, k4, k5⟩ := hc
  exact ⟨inBounds_nonzero h1.1, inBounds_nonzero h2.1, inBounds_nonzero h3.1, inBounds_nonzero h4.1,
    k1, k2, k3, k4, k5⟩

theorem Residue.nonzero {v : ℕ} (h : Residue G v) : Nonzero G.p v :=
  ⟨by have := h.1; omega, le_of_lt h.2.1⟩

theorem Triple.residues (hG : G.Valid) {K : ℕ} {t : Triple} (hK : Residue G K) (h : t.ForKey G K) :
    Residue G t.gToExp ∧ Residue G t.pubkeyToExp := by
  obtain ⟨-, h1, h2⟩ := h
  have hp : 0 < G.p := lt_trans one_pos hG.p_gt
  constructor
  · refine residue_of_cast hG (by rw [h1]; exact Nat.mod_lt _ hp) ?_
    rw [h1, ZMod.natCast_mod, Nat.cast_pow]
    exact pow_pow_q (g_pow_q hG) _
  · refine residue_of_cast hG (by rw [h2]; exact Nat.mod_lt _ hp) ?_
    rw [h2, ZMod.natCast_mod, Nat.cast_pow]
    exact pow_pow_q (hK.pow_q hG) _

theorem constMake_residues (hG : G.Valid) {triple : Option Triple} {m : Ciphertext} {N K seed h L : ℕ}
    {π : ConstProof} (hK : Residue G K) (ht : ∀ t ∈ triple, Triple.ForKey G K t)
    (hπ : constMake G C triple m N K seed h L = .ok π) :
    Residue G π.pad ∧ Residue G π.data ∧ π.constant = L := by
  unfold constMake at hπ
  simp only [Res.bind_eq_ok] at hπ
  obtain ⟨v, -, hπ⟩ := hπ
  cases Res.ok.inj hπ
  cases triple with
  | none =>
    have hu := lt_trans (nonce_lt (C := C) hG (Nonces.makeWith G C seed (.str constHeader)) 0) hG.q_lt
    exact ⟨residue_gPowP hG _ hu, residue_powModP hG hK _ hu, rfl⟩
  | some t => exact ⟨(t.residues hG hK (ht t rfl)).1, (t.residues hG hK (ht t rfl)).2, rfl⟩

theorem hashedEncrypt_residue (hG : G.Valid) {triple : Option Triple} {msg : List UInt8} {nonce K seed len : ℕ}
    {x : HashedCiphertext} (hK : Residue G K) (hn : nonce < G.q) (ht : ∀ t ∈ triple, Triple.ForKey G K t)
    (h : hashedEncrypt G C (triple.map (fun t => (t.gToExp, t.pubkeyToExp))) msg nonce K seed len true =
      .ok x) : Residue G x.pad := by
  unfold hashedEncrypt at h
  simp only [Res.bind_eq_ok] at h
  obtain ⟨_, -, _, -, h⟩ := h
  cases Res.ok.inj h
  cases triple with
  | none => exact residue_gPowP hG _ (lt_trans hn hG.q_lt)
  | some t => exact (t.residues hG hK (ht t rfl)).1

/-- C92: every ballot without a zero gets through: it can be submitted, written and read. -/
theorem C92_stored (hG : G.Valid) (ctx : Context) (b : PBallot) (m : IManifest) (e : CBallot)
    (hK : Residue G ctx.pub) (hm : GoodManifest m) (h : Encrypted G C S ctx m b e) (hnum : e.Numbers)
    (hz : e.NoZero G) (state : BallotBoxState) :
    ∃ sb text r, SBallot.from e state = .ok sb ∧ writeText (sb.toDoc S) = .ok text ∧
      readText (SBallot.ofDoc G) text = .ok r ∧ Stored G C S ctx m b state r := by
  have henc := h
  obtain ⟨codeSeed, nonce, timestamp, verify, w, w', hw, hrun⟩ := h
  obtain ⟨ds, hds⟩ : ∃ ds, m.getContestsFor S b.styleId = .ok ds := encryptBallot_contests S hrun
  obtain ⟨style, -, -, hmem, -⟩ := C44_contests S m b.styleId ds hds
  have hgood : GoodContests ds := ⟨fun x hx => hm.elected x ((hmem x).1 hx).1,
    fun x hx y hy hxy => List.inj_on_of_nodup_map hm.ids ((hmem x).1 hx).1 ((hmem y).1 hy).1 hxy,
    fun x hx => hm.selections x ((hmem x).1 hx).1, fun x hx => hm.placeholders x ((hmem x).1 hx).1⟩
  obtain ⟨sb, hsb, -⟩ := C60_nonces_violated C S hG ctx b m codeSeed nonce timestamp verify w w' e ds hK hw
    hds hgood hrun state
  obtain rfl := submitted_eq hsb
  obtain ⟨n, -, -, hn, hcs, -⟩ := C35_ballot G C S hG ctx b m codeSeed nonce
    timestamp verify w w' e ds hK hw hds hgood hrun
  have hread : e.Readable G false := by
    refine ⟨hz.1, hz.2.1, fun c hc => ?_, hz.2.2.1, hnum.1, hz.2.2.2.1, fun h => by cases h⟩
    obtain ⟨z1, z2, z3, z4, z5⟩ := hz.2.2.2.2 c hc
    obtain ⟨n1, n2, n3⟩ := hnum.2 c hc
    obtain ⟨d, hd, w1, w2, hw1, hrun⟩ := forall₂_exists_right hcs c hc
    obtain ⟨over, -, facts, -, -⟩ := encryptContest_spec G C S hG _ _ _ _ m d verify w1 w2 c hK hw1
      (hgood.elected d hd) hrun
    obtain ⟨rs, ps, hsel, hrs, hps⟩ := facts.selections
    obtain ⟨N, triple, seed, -, hacc, -, htr, π, hπ, hπ'⟩ := facts.total
    obtain ⟨x, tr, xn, hx, hxn, hxt, hxe⟩ := facts.extended
    obtain ⟨a1, a2, -, -⟩ := hacc.casts hG hK
    obtain ⟨p1, p2, p3⟩ := constMake_residues C hG hK htr hπ
    refine ⟨n1, z1, fun s hs => ?_, ⟨a1.nonzero, a2.nonzero⟩, z2,
      ⟨π, hπ', ⟨p1.nonzero, p2.nonzero, (z3 π hπ').1, (z3 π hπ').2, n2 π hπ'⟩⟩,
      ⟨x, hx, (hashedEncrypt_residue C hG hK hxn hxt hxe).nonzero, z4 x hx⟩, fun h => by cases h⟩
    obtain ⟨y1, y2, y3⟩ := z5 s hs
    obtain ⟨v, sd, ph, hv⟩ : ∃ v sd ph, EncryptsVote G C ctx.pub ctx.extHash v sd ph s := by
      rw [hsel, List.mem_append] at hs
      rcases hs with hs | hs
      · obtain ⟨sd, -, hr⟩ := forall₂_exists_right hrs s hs
        exact ⟨_, _, _, hr⟩
      · obtain ⟨sd, -, hr⟩ := forall₂_exists_right hps s hs
        exact ⟨_, _, _, hr⟩
    obtain ⟨k, -, -, hk⟩ := hv.encryption
    obtain ⟨c1, c2, -, -⟩ := hk.casts hG hK
    obtain ⟨p, hp, hacc⟩ := hv.proof
    obtain ⟨q1, q2, q3, q4, q5⟩ := y3 p hp
    exact ⟨n3 s hs, y1, ⟨c1.nonzero, c2.nonzero⟩, y2, ⟨p, hp, DisjProof.readable_of_valid C
      (hacc.2 ⟨q1.1, q2.1, q4.1, q5.1⟩) ⟨q1, q2, q3, q4, q5⟩⟩, fun h => by cases h⟩
  obtain ⟨text, hwr, hr⟩ := C47_submitted_partial hG S ⟨e, state⟩ hread
  exact ⟨_, text, _, hsb, hwr, hr, e, _, text, henc, hnum, hsb, hwr, hr⟩

/-! ## The hypotheses can be met -/

/-- A hash function that is not constant, for the small group. -/
def mixCrypto : Crypto where
  sha256 := fun bs => ((bs.take 4).foldl (fun a b => (a * 263 + b.toNat + 1) % 1000003) 17) % 2 ^ 256
  sha256_lt := fun _ => Nat.mod_lt _ (Nat.two_pow_pos _)
  hmac := fun _ _ => List.replicate 32 5
  hmac_length := fun _ _ => List.length_replicate

/-- The encryption of the example ballot in the small group. -/
def storedRun : Res CBallot := (encryptBallot .test mixCrypto .insertion exampleBallot (exampleIM 77)
  (exampleContext (gPowP .test 2) 77) 5 (some 9) 1000 false plainWorld).1

instance (m v : ℕ) : Decidable (Nonzero m v) := by unfold Nonzero; infer_instance

instance (bs : List UInt8) : Decidable (LeadingNonzero bs) :=
  match bs with
  | [] => .isFalse (by rintro ⟨b, rest, h, -⟩; cases h)
  | b :: rest => decidable_of_iff (b ≠ 0) ⟨fun h => ⟨b, rest, rfl, h⟩, by
      rintro ⟨b', rest', h, hb⟩
      cases h
      exact hb⟩

instance (s : CSelection) : Decidable (s.NoZero G) := by unfold CSelection.NoZero; infer_instance
instance (c : CContest) : Decidable (c.NoZero G) := by unfold CContest.NoZero; infer_instance
instance (b : CBallot) : Decidable (b.NoZero G) := by unfold CBallot.NoZero; infer_instance

instance (b : CBallot) : Decidable b.Numbers :=
  decidable_of_iff (b.timestamp < 2 ^ 64 ∧ ∀ c ∈ b.contests, c.seq < 2 ^ 64 ∧
    (∀ p ∈ c.proof, p.constant < 2 ^ 64) ∧ ∀ s ∈ c.selections, s.seq < 2 ^ 64) Iff.rfl

def storedRunOk : Bool :=
  match storedRun with
  | .ok e => decide e.Numbers && decide (e.NoZero .test)
  | _ => false

theorem storedRun_ok : storedRunOk = true := by decide +kernel

attribute [local irreducible] gPowP

theorem testPub_residue : Residue .test (exampleContext (gPowP .test 2) 77).pub := by
  have : ∀ K, Residue .test K → Residue .test (exampleContext K 77).pub := fun _ h => h
  exact this _ (residue_gPowP C54_test_valid 2 (by norm_num))

/-- The example ballot can be stored with any state. -/
theorem stored_example (state : BallotBoxState) :
    ∃ r, Stored .test mixCrypto .insertion (exampleContext (gPowP .test 2) 77) (exampleIM 77) exampleBallot
      state r := by
  have h := storedRun_ok
  unfold storedRunOk at h
  cases hrun : storedRun with
  | throw e => rw [hrun] at h; cases h
  | ub => rw [hrun] at h; cases h
  | ok e =>
    rw [hrun] at h
    simp only [Bool.and_eq_true, decide_eq_true_eq] at h
    have henc : Encrypted .test mixCrypto .insertion (exampleContext (gPowP .test 2) 77) (exampleIM 77)
        exampleBallot e := by
      refine ⟨5, some 9, 1000, false, plainWorld, (encryptBallot .test mixCrypto .insertion exampleBallot
        (exampleIM 77) (exampleContext (gPowP .test 2) 77) 5 (some 9) 1000 false plainWorld).2,
        plainWorld_ok _ (by decide +kernel) _, ?_⟩
      rw [← hrun, storedRun]
    obtain ⟨-, -, r, -, -, -, hr⟩ := C92_stored mixCrypto .insertion C54_test_valid _ exampleBallot _ e
      testPub_residue (exampleIM_goodManifest 77)
      henc
      h.1 h.2 state
    exact ⟨r, hr⟩

/-- Two voters cast the example ballot, one spoils it: the votes counted for the second selection are 2,
and with the key the votes counted on the spoiled ballot are decrypted. -/
example : ∃ record : List (PBallot × BallotBoxState × SBallot), record.map (fun x => (x.1, x.2.1)) =
      [(exampleBallot, .cast), (exampleBallot, .spoiled), (exampleBallot, .cast)] ∧
    (∀ x ∈ record, Stored .test mixCrypto .insertion (exampleContext (gPowP .test 2) 77) (exampleIM 77) x.1
      x.2.1 x.2.2) ∧
    (∃ t N, elgamalAdd .test ((withState .cast (record.map (·.2.2))).flatMap
        (fun e => e.ciphertextsFor "c".toList "s2".toList)) = .ok t ∧
      IsEncryption .test (gPowP .test 2) 2 N t) ∧
    (∃ t, elgamalAdd .test ((withState .spoiled (record.map (·.2.2))).flatMap
        (fun e => e.ciphertextsFor "c".toList "s2".toList)) = .ok t ∧ decrypt .test t 2 = 1) := by
  obtain ⟨r1, h1⟩ := stored_example .cast
  obtain ⟨r2, h2⟩ := stored_example .spoiled
  have hrec : ∀ x ∈ [(exampleBallot, BallotBoxState.cast, r1), (exampleBallot, .spoiled, r2),
      (exampleBallot, .cast, r1)], Stored .test mixCrypto .insertion (exampleContext (gPowP .test 2) 77)
      (exampleIM 77) x.1 x.2.1 x.2.2 := by
    simp only [List.mem_cons, List.not_mem_nil, or_false]
    rintro x (rfl | rfl | rfl)
    exacts [h1, h2, h1]
  have hv : ∀ x ∈ [(exampleBallot, BallotBoxState.cast, r1), (exampleBallot, .spoiled, r2),
      (exampleBallot, .cast, r1)], ∀ c ∈ x.1.contests, ∀ s ∈ c.selections, s.vote < 2 ^ 32 := by
    have : ∀ c ∈ exampleBallot.contests, ∀ s ∈ c.selections, s.vote < 2 ^ 32 := by decide +kernel
    simp only [List.mem_cons, List.not_mem_nil, or_false]
    rintro x (rfl | rfl | rfl) <;> exact this
  have htimes : (exampleIM 77).timesListed exampleBallot.styleId exampleContestP.desc = 1 := by
    change (match exampleManifest.styles.find? (fun s => s.objectId = exampleBallot.styleId) with
      | some style => style.gpUnitIds.count exampleContestP.desc.districtId
      | none => 0) = 1
    decide +kernel
  have hd : exampleContestP ∈ (exampleIM 77).contests := List.mem_cons_of_mem _ (List.mem_cons_self ..)
  have hs1 : "s2".toList ∈ exampleContestP.desc.selections.map (·.objectId) := by decide +kernel
  have hs2 : "s2".toList ∉ exampleContestP.placeholders.map (·.objectId) := by decide +kernel
  have hK := testPub_residue
  have hne : ∀ st r, Stored .test mixCrypto .insertion (exampleContext (gPowP .test 2) 77) (exampleIM 77)
      exampleBallot st r → r.state = st ∧ r.ballot.ciphertextsFor "c".toList "s2".toList ≠ [] := by
    intro st r h
    obtain ⟨e1, e2, -⟩ := stored_parts mixCrypto .insertion C54_test_valid _ _ _ hK
      (exampleIM_goodManifest 77) exampleContestP hd (hv (exampleBallot, .cast, r1) (by simp)) "s2".toList st r h
    refine ⟨e1, fun h0 => ?_⟩
    obtain ⟨xs, k1, -, k3⟩ := e2 hs1 hs2
    rw [show exampleContestP.desc.objectId = "c".toList from rfl, h0, List.map_eq_nil_iff] at k1
    rw [k1, htimes, exampleBallot_counted] at k3
    cases k3
  have hone : exampleBallot.counted exampleContestP.desc ['s', '2'] = 1 := exampleBallot_counted
  obtain ⟨k, hk, -, -⟩ := keyFromSecret_ok .test C54_test_valid 2 (by norm_num) le_rfl
  have hpub : gPowP .test 2 = k.pub := by
    unfold keyFromSecret at hk
    split at hk
    · cases hk
    · cases hk; rfl
  obtain ⟨s1, n1⟩ := hne _ _ h1
  obtain ⟨s2, n2⟩ := hne _ _ h2
  refine ⟨_, rfl, hrec, ?_, ?_⟩
  · have := C92_selection_partial mixCrypto .insertion C54_test_valid _ _ hK (exampleIM_goodManifest 77)
      exampleContestP hd _ hs1 hs2 .cast _ hv hrec (by
        simp [withState, s1, s2]
        exact n1)
    obtain ⟨t, N, e1, e2⟩ := this
    refine ⟨t, N, e1, ?_⟩
    rw [show (exampleContext (gPowP .test 2) 77).pub = gPowP .test 2 from rfl] at e2
    simpa [htimes, hone] using e2
  · have := C92_decrypt_partial mixCrypto .insertion C54_test_valid 2 k (by norm_num) le_rfl
      hk (exampleContext (gPowP .test 2) 77) hpub _ (exampleIM_goodManifest 77)
      exampleContestP hd _ hs1 hs2 .spoiled _ hv hrec 1 (by simp [htimes, hone])
      (by decide +kernel) (by
        simp [withState, s1, s2]
        exact n2)
    exact this

end EG
