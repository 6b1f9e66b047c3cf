import Verif.Model.CSubmit
import Verif.Props.CJson

/-!
# C135: ballots are submitted in C#
-/

namespace EG.CSubmit

open EG.CGroup (Cs deref throwIfError call handle)

variable {G : Params} {C : Crypto} {S : StdSort}

/-- A complete encrypted ballot is submitted with the state given; the submitted ballot has its id, its code and the
verdict of `IsValidEncryption`.  A ballot of which a nonce, a proof or the extended data is missing cannot be submitted:
a null pointer is followed. -/
theorem C135_submit_partial (b : CBallot) (st : BallotBoxState) :
    (b.Complete → ∃ s, newSubmitted (some (some b)) st = .ok s ∧ state (some s) = .ok st ∧
      objectId (some s) = .ok (CGroup.cText b.objectId) ∧ code (some s) = .ok b.ballotCode ∧
      ∀ manifest pub ext, isValidEncryption G C S (some s) manifest pub ext =
        CJson.isValidEncryption G C S (some b) manifest pub ext) ∧
    (¬ b.Complete → newSubmitted (some (some b)) st = .ub) := by
  constructor
  · intro h
    refine ⟨⟨b, st⟩, ?_, rfl, rfl, rfl, fun _ _ _ => rfl⟩
    show call throwIfError (submit (some b) st) = _
    simp only [submit, deref, Res.bind_ok, (C60_submit_partial b st).1 h]
    rfl
  · intro h
    show call throwIfError (submit (some b) st) = _
    simp only [submit, deref, Res.bind_ok, (C60_submit_partial b st).2 h]
    rfl

/-- A ballot submitted, written and read by another program: there it has the same state, the same code and the same
verdict.  Missing: ballots with an element that is zero or bytes that begin with zero, as in C47. -/
theorem C135_transfer_partial (hG : G.Valid) (b : CBallot) (hc : b.Complete) (h : b.Readable G false) (ho : b.Ordered)
    (st : BallotBoxState) (manifest pub ext : Option (Option ℕ)) :
    ∃ s t s', newSubmitted (some (some b)) st = .ok s ∧ submittedToJson S (some s) = .ok t ∧
      newSubmittedJson G (some t) = .ok s' ∧ state (some s') = .ok st ∧
      objectId (some s') = objectId (some s) ∧ code (some s') = .ok b.ballotCode ∧ s'.ballot.nonce = some 0 ∧
      isValidEncryption G C S (some s') manifest pub ext = CJson.isValidEncryption G C S (some b) manifest pub ext := by
  have h0 : newSubmitted (some (some b)) st = .ok ⟨b, st⟩ := by
    show call throwIfError (submit (some b) st) = _
    simp only [submit, deref, Res.bind_ok, (C60_submit_partial b st).1 hc]
    rfl
  obtain ⟨t, ht, hr⟩ := C47_submitted_partial hG S ⟨b, st⟩ h
  obtain ⟨j, hj, rfl⟩ := CJson.writeText_ok ht
  obtain ⟨t1, b1, h1, h2, hv, -⟩ := CJson.C134_ciphertext_partial (C := C) (S := S) hG false b h ho manifest pub ext
  have hb1 : b1 = b.read S false := by
    obtain ⟨t2, ht2, hr2⟩ := C47_ballot_partial hG S false b h
    obtain ⟨j2, hj2, rfl⟩ := CJson.writeText_ok ht2
    have e1 : t1 = j2.dump := Cs.ok.inj (h1.symm.trans (CJson.toText_ok hj2))
    rw [e1] at h2
    unfold CJson.newCipherJson CJson.cipherFrom at h2
    rw [CJson.fromText_dump, hr2] at h2
    exact (Cs.ok.inj h2).symm
  subst hb1
  refine ⟨⟨b, st⟩, j.dump, ⟨b.read S false, st⟩, h0, CJson.toText_ok hj, ?_, rfl, rfl, rfl, rfl, hv⟩
  unfold newSubmittedJson submittedFrom
  rw [CJson.fromText_dump, hr]
  rfl

/-- A cast and a spoiled ballot never have the same text. -/
theorem C135_states (hG : G.Valid) (a b : SBallot) (ha : a.ballot.Readable G false) (hb : b.ballot.Readable G false)
    (h : submittedToJson S (some a) = submittedToJson S (some b)) : a.state = b.state := by
  obtain ⟨t, ht, hr⟩ := C47_submitted_partial hG S a ha
  obtain ⟨u, hu, hs⟩ := C47_submitted_partial hG S b hb
  obtain ⟨j, hj, rfl⟩ := CJson.writeText_ok ht
  obtain ⟨k, hk, rfl⟩ := CJson.writeText_ok hu
  have e : j.dump = k.dump := Cs.ok.inj ((CJson.toText_ok hj).symm.trans (h.trans (CJson.toText_ok hk)))
  rw [e] at hr
  have e2 := Res.ok.inj (hr.symm.trans hs)
  simp only [SBallot.mk.injEq] at e2
  exact e2.2

/-- The text of a submitted ballot tells nothing about nonces. -/
theorem C135_nonces (a b : SBallot) (ha : a.ballot.Ordered) (hb : b.ballot.Ordered)
    (h : a.ballot.withoutNonces = b.ballot.withoutNonces) (hs : a.state = b.state) :
    submittedToJson S (some a) = submittedToJson S (some b) := by
  have e : a.toDoc S = b.toDoc S := by
    unfold SBallot.toDoc
    rw [← CJson.ballot_without a.ballot ha, h, CJson.ballot_without b.ballot hb, hs]
  show call throwIfError (CJson.toText (SBallot.toDoc S) (some a)) = call throwIfError (CJson.toText (SBallot.toDoc S) (some b))
  simp only [CJson.toText, deref, Res.bind_ok, e]

/-- `Timestamp` in C# never gives the timestamp of a ballot, unless it is zero: it ends with an exception, or with zero
if the timestamp is a multiple of 2³². -/
theorem C135_timestamp_violated (b : CBallot) :
    (timestamp (some b) = .ok b.timestamp ↔ b.timestamp = 0) ∧
    (b.timestamp % 2 ^ 32 = 0 → timestamp (some b) = .ok 0) ∧
    (b.timestamp % 2 ^ 32 ≠ 0 → ∃ e, timestamp (some b) = .throw e) ∧
    (8 ≤ b.timestamp % 2 ^ 32 → timestamp (some b) = .throw .plain) := by
  have hdef : timestamp (some b) = match throwIfError (statusOf (b.timestamp % 2 ^ 32)) with
      | some e => .throw e
      | none => .ok 0 := rfl
  have hs : ∀ n, (throwIfError (statusOf n) = none ↔ n = 0) := by
    intro n
    unfold statusOf
    split <;> simp_all [throwIfError]
  have hz : b.timestamp % 2 ^ 32 = 0 → timestamp (some b) = .ok 0 := by
    intro h
    rw [hdef, (hs _).2 h]
  have hn : b.timestamp % 2 ^ 32 ≠ 0 → ∃ e, timestamp (some b) = .throw e := by
    intro h
    cases he : throwIfError (statusOf (b.timestamp % 2 ^ 32)) with
    | none => exact absurd ((hs _).1 he) h
    | some e => exact ⟨e, by rw [hdef, he]⟩
  refine ⟨⟨fun h => ?_, fun h => ?_⟩, hz, hn, fun h => ?_⟩
  · by_cases h0 : b.timestamp % 2 ^ 32 = 0
    · exact Cs.ok.inj (h.symm.trans (hz h0))
    · obtain ⟨e, he⟩ := hn h0
      rw [he] at h
      cases h
  · rw [hz (by rw [h, Nat.zero_mod]), h]
  · have : statusOf (b.timestamp % 2 ^ 32) = .unknown := by
      generalize b.timestamp % 2 ^ 32 = n at h
      unfold statusOf
      split <;> first | omega | rfl
    rw [hdef, this]
    rfl

/-- Objects that are null or disposed end with an exception; a null text is undefined behaviour, and any other fault of a
text is reported as lack of memory. -/
theorem C135_faults (st : BallotBoxState) (t : Str) (manifest pub ext : Option ℕ) :
    newSubmitted none st = .throw .nullReference ∧ newSubmitted (some none) st = .throw .argumentNull ∧
    state none = .throw .argumentNull ∧ timestamp none = .throw .argumentNull ∧ objectId none = .throw .argumentNull ∧
    code none = .throw .argumentNull ∧ submittedToJson S none = .throw .argumentNull ∧
    isValidEncryption G C S none (some manifest) (some pub) (some ext) = .throw .argumentNull ∧
    newSubmittedJson G none = .ub ∧ ∀ e, newSubmittedJson G (some t) = .throw e → e = .outOfMemory := by
  refine ⟨rfl, rfl, rfl, rfl, rfl, rfl, rfl, rfl, rfl, ?_⟩
  intro e h
  simp only [newSubmittedJson, submittedFrom, CJson.fromText, deref, Res.bind_ok] at h
  cases hr : readText (SBallot.ofDoc G) (CGroup.cText t) with
  | ok r => rw [hr] at h; cases h
  | throw x => rw [hr] at h; cases h; rfl
  | ub => rw [hr] at h; cases h

/-! The hypotheses can be met: a ballot with everything, submitted as cast and as spoiled. -/

theorem wholeBallot_complete : wholeBallot.Complete := by
  refine ⟨?_, rfl⟩
  intro c hc
  simp only [wholeBallot, List.mem_singleton] at hc
  subst hc
  refine ⟨?_, rfl, rfl, rfl⟩
  intro s hs
  simp only [testContest, List.mem_cons, List.not_mem_nil, or_false] at hs
  rcases hs with rfl | rfl <;> exact ⟨rfl, rfl⟩

example (st : BallotBoxState) : ∃ s t s', newSubmitted (some (some wholeBallot)) st = .ok s ∧
    submittedToJson S (some s) = .ok t ∧ newSubmittedJson .test (some t) = .ok s' ∧ state (some s') = .ok st := by
  obtain ⟨s, t, s', h1, h2, h3, h4, -⟩ := C135_transfer_partial (C := C) (S := S) C54_test_valid wholeBallot
    wholeBallot_complete (wholeBallot_readable false) (by unfold CBallot.Ordered; decide) st none none none
  exact ⟨s, t, s', h1, h2, h3, h4⟩

example : submittedToJson S (some ⟨wholeBallot, .cast⟩) ≠ submittedToJson S (some ⟨wholeBallot, .spoiled⟩) := by
  intro h
  have := C135_states C54_test_valid _ _ (wholeBallot_readable false) (wholeBallot_readable false) h
  cases this

/-- The timestamp 1700000000 ends with an exception; it is the time of a ballot of November 2023. -/
example : timestamp (some { wholeBallot with timestamp := 1700000000 }) = .throw .plain :=
  (C135_timestamp_violated _).2.2.2 (by decide)

end EG.CSubmit
