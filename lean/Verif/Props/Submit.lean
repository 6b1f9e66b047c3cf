import Verif.Props.SerializeBallot
import Verif.Props.EncryptBallot

/-!
# Submitted ballots

C60, and the part of C47 about submitted ballots.
-/

namespace EG

/-! ## Copies -/

/-- Everything a copy dereferences is there. -/
def CSelection.Complete (s : CSelection) : Prop := s.nonce.isSome ∧ s.proof.isSome

/-- Everything a copy dereferences is there. -/
def CContest.Complete (c : CContest) : Prop :=
  (∀ s ∈ c.selections, s.Complete) ∧ c.nonce.isSome ∧ c.proof.isSome ∧ c.extended.isSome

/-- Everything a copy dereferences is there. -/
def CBallot.Complete (b : CBallot) : Prop := (∀ c ∈ b.contests, c.Complete) ∧ b.nonce.isSome

theorem mapRes_clone {α : Type} (f : α → Res α) (P : α → Prop)
    (h1 : ∀ a, P a → f a = .ok a) (h2 : ∀ a, ¬ P a → f a = .ub) (l : List α) :
    ((∀ a ∈ l, P a) → mapRes f l = .ok l) ∧ ((¬ ∀ a ∈ l, P a) → mapRes f l = .ub) := by
  induction l with
  | nil => exact ⟨fun _ => rfl, fun h => absurd (by simp) h⟩
  | cons a l ih =>
    constructor
    · intro h
      rw [mapRes, h1 a (h a (List.mem_cons_self ..)), Res.bind_ok,
        ih.1 (fun b hb => h b (List.mem_cons_of_mem _ hb))]
      rfl
    · intro h
      by_cases ha : P a
      · rw [mapRes, h1 a ha, Res.bind_ok, ih.2 (fun hl => h (fun b hb => by
          rcases List.mem_cons.1 hb with rfl | hb
          · exact ha
          · exact hl b hb))]
        rfl
      · rw [mapRes, h2 a ha]
        rfl

theorem CSelection.clone_complete (s : CSelection) (h : s.Complete) : s.clone = .ok s := by
  obtain ⟨a, b, c, d, e, n, g, p⟩ := s
  obtain ⟨h1, h2⟩ := h
  obtain ⟨n, rfl⟩ := Option.isSome_iff_exists.1 h1
  obtain ⟨p, rfl⟩ := Option.isSome_iff_exists.1 h2
  rfl

theorem CSelection.clone_incomplete (s : CSelection) (h : ¬ s.Complete) : s.clone = .ub := by
  obtain ⟨a, b, c, d, e, n, g, p⟩ := s
  cases n <;> cases p <;> first | rfl | exact absurd ⟨rfl, rfl⟩ h

theorem CContest.clone_complete (c : CContest) (h : c.Complete) : c.clone = .ok c := by
  obtain ⟨id, seq, dh, ss, n, acc, ch, p, x⟩ := c
  obtain ⟨h1, h2, h3, h4⟩ := h
  obtain ⟨n, rfl⟩ := Option.isSome_iff_exists.1 h2
  obtain ⟨p, rfl⟩ := Option.isSome_iff_exists.1 h3
  obtain ⟨x, rfl⟩ := Option.isSome_iff_exists.1 h4
  unfold CContest.clone
  rw [(mapRes_clone _ _ CSelection.clone_complete CSelection.clone_incomplete ss).1 h1, Res.bind_ok]

theorem CContest.clone_incomplete (c : CContest) (h : ¬ c.Complete) : c.clone = .ub := by
  obtain ⟨id, seq, dh, ss, n, acc, ch, p, x⟩ := c
  unfold CContest.clone
  by_cases h1 : ∀ s ∈ ss, s.Complete
  · rw [(mapRes_clone _ _ CSelection.clone_complete CSelection.clone_incomplete ss).1 h1, Res.bind_ok]
    cases n <;> cases p <;> cases x <;> first | rfl | exact absurd ⟨h1, rfl, rfl, rfl⟩ h
  · rw [(mapRes_clone _ _ CSelection.clone_complete CSelection.clone_incomplete ss).2 h1]
    rfl

/-! ## C60 -/

/-- C60: submitting keeps everything, if nothing that is copied is missing; otherwise it is
undefined. -/
theorem C60_submit_partial (b : CBallot) (state : BallotBoxState) :
    (b.Complete → SBallot.from b state = .ok ⟨b, state⟩) ∧
      (¬ b.Complete → SBallot.from b state = .ub) := by
  obtain ⟨id, style, mh, seed, cs, code, ts, n, ch⟩ := b
  unfold SBallot.from CBallot.clone
  constructor
  · rintro ⟨h1, h2⟩
    obtain ⟨n, rfl⟩ := Option.isSome_iff_exists.1 h2
    rw [(mapRes_clone _ _ CContest.clone_complete CContest.clone_incomplete cs).1 h1]
    rfl
  · intro h
    by_cases h1 : ∀ c ∈ cs, c.Complete
    · rw [(mapRes_clone _ _ CContest.clone_complete CContest.clone_incomplete cs).1 h1]
      cases n with
      | none => rfl
      | some n => exact absurd ⟨h1, rfl⟩ h
    · rw [(mapRes_clone _ _ CContest.clone_complete CContest.clone_incomplete cs).2 h1]
      rfl

/-- C60 is violated by ballots without nonce, which cannot be submitted: making a submitted ballot
without passing a nonce, as the default argument does, is undefined. -/
theorem C60_make_violated (G : Params) (C : Crypto) (objectId styleId : Str) (mh : ℕ)
    (contests : List CContest) (h : contests ≠ []) (timestamp : ℕ) (seed code : Option ℕ)
    (state : BallotBoxState) (w : World) :
    (SBallot.make G C objectId styleId mh contests none timestamp seed code state w).1 = .ub := by
  obtain ⟨b, w1, hb⟩ := cballot_make_total G C objectId styleId mh contests none timestamp seed code w h
  have hn : b.nonce = none := ((cballot_make_ok G C _ _ _ _ _ _ _ _ _ _ _).1 hb).2.2.2.2.2.2.1
  have hf : SBallot.from b state = .ub := (C60_submit_partial b state).2 (fun hc => by
    have := hc.2
    rw [hn] at this
    cases this)
  unfold SBallot.make
  rw [if_neg (by simpa using h)]
  show (M.bind _ _ w).1 = _
  unfold M.bind
  rw [hb]
  dsimp only
  rw [M.lift, hf]

/-- C60 is violated by assignment, which copies the state only: the result is the assigned ballot
exactly if the ballots were the same before. -/
theorem C60_assign_violated (a b : SBallot) :
    (a.assign b).state = b.state ∧ (a.assign b = b ↔ a.ballot = b.ballot) := by
  obtain ⟨a, s⟩ := a
  obtain ⟨b, t⟩ := b
  exact ⟨rfl, by simp [SBallot.assign]⟩

theorem forall₂_exists_right {α β : Type} {R : α → β → Prop} {l : List α} {m : List β}
    (h : List.Forall₂ R l m) : ∀ b ∈ m, ∃ a ∈ l, R a b := by
  induction h with
  | nil => simp
  | cons hab _ ih =>
    intro b hb
    rcases List.mem_cons.1 hb with rfl | hb
    · exact ⟨_, List.mem_cons_self .., hab⟩
    · obtain ⟨a, ha, hr⟩ := ih b hb
      exact ⟨a, List.mem_cons_of_mem _ ha, hr⟩

/-- C60 is violated by nonces: "with all nonces removed" (include/electionguard/ballot.hpp:836) is not
what happens.  A ballot that comes from encryption can be submitted, and all its nonces are still
there: the nonce of each selection opens its ciphertext. -/
theorem C60_nonces_violated {G : Params} (C : Crypto) (S : StdSort) (hG : G.Valid) (ctx : Context)
    (b : PBallot) (m : IManifest) (codeSeed : ℕ) (nonce : Option ℕ) (timestamp : ℕ) (verify : Bool)
    (w w' : World) (e : CBallot) (ds : List ContestDescP) (hK : Residue G ctx.pub)
    (hw : w.Ok G ctx.pub) (hds : m.getContestsFor S b.styleId = .ok ds) (hgood : GoodContests ds)
    (h : encryptBallot G C S b m ctx codeSeed nonce timestamp verify w = (.ok e, w'))
    (state : BallotBoxState) :
    ∃ sb, SBallot.from e state = .ok sb ∧ sb.state = state ∧ sb.ballot.cryptoHash = e.cryptoHash ∧
      (∃ n, sb.ballot.nonce = some n) ∧
      ∀ c ∈ sb.ballot.contests, (∃ n, c.nonce = some n) ∧
        ∀ s ∈ c.selections, ∃ n v, s.nonce = some n ∧ v ≤ 1 ∧
          IsEncryption G ctx.pub v n s.ciphertext := by
  obtain ⟨n, -, -, hn, hcs, -⟩ := C35_ballot G C S hG ctx b m codeSeed nonce
    timestamp verify w w' e ds hK hw hds hgood h
  have key : ∀ c ∈ e.contests, c.Complete ∧ (∃ n, c.nonce = some n) ∧
        ∀ s ∈ c.selections, ∃ n v, s.nonce = some n ∧ v ≤ 1 ∧
          IsEncryption G ctx.pub v n s.ciphertext := by
    intro c hc
    obtain ⟨d, hd, w1, w2, hw1, hrun⟩ := forall₂_exists_right hcs c hc
    obtain ⟨over, -, facts, -, -⟩ := encryptContest_spec G C S hG _ _ _ _ m d verify w1 w2 c hK hw1
      (hgood.elected d hd) hrun
    obtain ⟨rs, ps, hsel, hrs, hps⟩ := facts.selections
    have hall : ∀ s ∈ c.selections, ∃ v sd ph, EncryptsVote G C ctx.pub ctx.extHash v sd ph s := by
      intro s hs
      rw [hsel, List.mem_append] at hs
      rcases hs with hs | hs
      · obtain ⟨sd, -, hr⟩ := forall₂_exists_right hrs s hs
        exact ⟨_, _, _, hr⟩
      · obtain ⟨sd, -, hr⟩ := forall₂_exists_right hps s hs
        exact ⟨_, _, _, hr⟩
    obtain ⟨_, _, _, _, _, _, _, π, _, hπ⟩ := facts.total
    obtain ⟨x, _, _, hx, _⟩ := facts.extended
    refine ⟨⟨?_, by rw [facts.nonce]; rfl, by rw [hπ]; rfl, by rw [hx]; rfl⟩, ⟨_, facts.nonce⟩, ?_⟩
    · intro s hs
      obtain ⟨v, sd, ph, hv⟩ := hall s hs
      obtain ⟨n, -, hn, -⟩ := hv.encryption
      obtain ⟨p, hp, -⟩ := hv.proof
      exact ⟨by rw [hn]; rfl, by rw [hp]; rfl⟩
    · intro s hs
      obtain ⟨v, sd, ph, hv⟩ := hall s hs
      obtain ⟨n, -, hn, he⟩ := hv.encryption
      exact ⟨n, v, hn, hv.vote_le, he⟩
  refine ⟨⟨e, state⟩, (C60_submit_partial e state).1 ⟨fun c hc => (key c hc).1, by rw [hn]; rfl⟩, rfl, rfl,
    ⟨n, hn⟩, fun c hc => (key c hc).2⟩

/-! ## C47: submitted ballots -/

/-- C47: a submitted ballot is read back with its state, and with zero for all nonces. -/
theorem C47_submitted_partial {G : Params} (hG : G.Valid) (S : StdSort) (b : SBallot)
    (h : b.ballot.Readable G false) :
    ∃ text, writeText (b.toDoc S) = .ok text ∧
      readText (SBallot.ofDoc G) text = .ok ⟨b.ballot.read S false, b.state⟩ := by
  obtain ⟨d, hd, hobj, hwf, _, hr⟩ := CBallot.round_trip hG S false b.ballot h
  have hw : (d.set (key "state") (.num b.state.value)).WF := by
    refine Json.wf_set hwf _ ?_
    cases b.state <;> (show _ < 2 ^ 64; decide)
  refine ⟨(d.set (key "state") (.num b.state.value)).dump, ?_, ?_⟩
  · rw [writeText, SBallot.toDoc, hd]
    rfl
  · rw [readText_dump _ _ hw, SBallot.ofDoc, hr _ _ rfl, Res.bind_ok]
    simp only [Json.natAt, Json.at_eq (Json.isObj_set hobj.node _ _), Json.get_set hobj.node, if_true]
    simp only [Option.getD_some, Res.bind_ok, Json.asNat, BallotBoxState.ofValue_value]
    refine (C60_submit_partial _ _).1 ⟨?_, rfl⟩
    intro c hc
    obtain ⟨c', hc', rfl⟩ := List.mem_map.1 hc
    have hc' := h.contests c' ((mem_sort S _ _ c').1 hc')
    obtain ⟨p, hp, -⟩ := hc'.proof
    obtain ⟨x, hx, -⟩ := hc'.extended
    refine ⟨?_, rfl, ?_, ?_⟩
    · intro s hs
      obtain ⟨s', hs', rfl⟩ := List.mem_map.1 hs
      obtain ⟨p, hp, -⟩ := (hc'.selections s' ((mem_sort S _ _ s').1 hs')).proof
      exact ⟨rfl, by show s'.proof.isSome; rw [hp]; rfl⟩
    · show c'.proof.isSome
      rw [hp]; rfl
    · show c'.extended.isSome
      rw [hx]; rfl

/-! ## The hypotheses can be met -/

/-- A ballot with everything, for the small group. -/
def wholeBallot : CBallot :=
  { testBallot with
    contests := [{ testContest with
      extended := some ⟨testKey, List.replicate 512 7, List.replicate 32 9⟩ }] }

theorem wholeBallot_readable (w : Bool) : wholeBallot.Readable .test w := by
  have nz : ∀ m v : ℕ, v ≠ 0 ∧ v ≤ m → Nonzero m v := fun _ _ h => h
  refine ⟨nz _ _ (by decide +kernel), nz _ _ (by decide +kernel), ?_, nz _ _ (by decide +kernel),
    by decide +kernel, nz _ _ (by decide +kernel), fun _ => ⟨12, rfl, nz _ _ (by decide +kernel)⟩⟩
  intro c hc
  simp only [wholeBallot, List.mem_singleton] at hc
  subst hc
  refine ⟨by decide +kernel, nz _ _ (by decide +kernel), ?_, ⟨nz _ _ (by decide +kernel),
    nz _ _ (by decide +kernel)⟩, nz _ _ (by decide +kernel), ⟨_, rfl, ?_⟩, ⟨_, rfl, ?_⟩,
    fun _ => ⟨3, rfl, nz _ _ (by decide +kernel)⟩⟩
  · intro s hs
    simp only [testContest, List.mem_cons, List.not_mem_nil, or_false] at hs
    rcases hs with rfl | rfl
    · refine ⟨by decide +kernel, nz _ _ (by decide +kernel), ⟨nz _ _ (by decide +kernel),
        nz _ _ (by decide +kernel)⟩, nz _ _ (by decide +kernel), ⟨_, rfl, ?_⟩,
        fun _ => ⟨9, rfl, nz _ _ (by decide +kernel)⟩⟩
      constructor <;> exact nz _ _ (by decide +kernel)
    · refine ⟨by decide +kernel, nz _ _ (by decide +kernel), ⟨nz _ _ (by decide +kernel),
        nz _ _ (by decide +kernel)⟩, nz _ _ (by decide +kernel), ⟨_, rfl, ?_⟩,
        fun _ => ⟨10, rfl, nz _ _ (by decide +kernel)⟩⟩
      constructor <;> exact nz _ _ (by decide +kernel)
  · constructor <;> first | exact nz _ _ (by decide +kernel) | decide +kernel
  · exact ⟨nz _ _ (by decide +kernel), ⟨7, List.replicate 511 7, rfl, by decide⟩,
      ⟨9, List.replicate 31 9, rfl, by decide⟩⟩

example : wholeBallot.Complete := by
  refine ⟨?_, rfl⟩
  intro c hc
  simp only [wholeBallot, List.mem_singleton] at hc
  subst hc
  refine ⟨?_, rfl, rfl, rfl⟩
  intro s hs
  simp only [testContest, List.mem_cons, List.not_mem_nil, or_false] at hs
  rcases hs with rfl | rfl <;> exact ⟨rfl, rfl⟩

/-- A ballot that comes from encryption and lacks nothing but its nonce. -/
example : ¬ ({ wholeBallot with nonce := none } : CBallot).Complete := fun h => by
  have := h.2
  cases this

end EG
