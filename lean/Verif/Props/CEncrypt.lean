import Verif.Model.CEncrypt
import Verif.Lemmas.CGroup
import Verif.Props.Mediator

/-!
# C130: encryption through C and C#

Ballots encrypted through the C functions and the classes of C# are those of the library, refusals are reported, and
the codes of the ballots of a mediator form a chain.  What goes wrong: the constructor of a mediator in C reports lack
of memory when the hashes differ; a compact ballot of an unknown style is undefined behaviour in C and in C#.
-/

namespace EG.CEncrypt

open EG.CText (Status)
open EG.CGroup (Out caught deref cText Cs throwIfError call handle toHexQCs)

variable (G : Params) (C : Crypto) (S : StdSort)

/-- The exception C# throws for an exception of the library. -/
def exnOf : Exn → CGroup.Exn
  | .invalidArgument => .argument
  | .runtimeError => .aggregate
  | _ => .outOfMemory

/-- The status C gives for an exception of the library. -/
def statusOf : Exn → Status
  | .invalidArgument => .invalidArgument
  | .runtimeError => .runtimeError
  | _ => .badAlloc

/-- What a program in C# sees of an outcome of the library. -/
def seen {α : Type} : Res α → Cs α
  | .ok a => .ok a
  | .throw e => .throw (exnOf e)
  | .ub => .ub

theorem told_throw {α : Type} (e : Exn) : told (.throw e : Res α) = .ok (statusOf e, none) := by
  cases e <;> rfl

theorem call_told {α : Type} (r : Res α) : call throwIfError (told r) = seen r := by
  cases r with
  | ok a => rfl
  | ub => rfl
  | throw e => cases e <;> rfl

/-- C130: `new EncryptionMediator` of C# makes a mediator exactly if all references and handles are there and the
manifest hashes agree, and otherwise throws: `ArgumentException` if the hashes differ.  `eg_encryption_mediator_new` with
objects makes the same mediator exactly if the hashes agree. -/
theorem C130_mediator (m : Option (Option IManifest)) (c : Option (Option Context)) (d : Option (Option Device))
    (hm : ∀ x, m = some (some x) → x.manifestHash < 2 ^ 256) (hc : ∀ x, c = some (some x) → x.manifestHash < 2 ^ 256) :
    (∀ md, newMediator m c d = .ok md ↔ ∃ m' c' d', m = some (some m') ∧ c = some (some c') ∧ d = some (some d') ∧
      m'.manifestHash = c'.manifestHash ∧ md = ⟨m', c', d', none⟩) ∧
    ((∃ md, newMediator m c d = .ok md) ∨ ∃ e, newMediator m c d = .throw e) ∧
    (∀ m' c', m = some (some m') → c = some (some c') → m'.manifestHash ≠ c'.manifestHash →
      newMediator m c d = .throw .argument) ∧
    (∀ m' c' d' md, m = some (some m') → c = some (some c') → d = some (some d') →
      (mediatorNew (some m') (some c') (some d') = .ok (.success, some md) ↔ newMediator m c d = .ok md)) := by
  have hex : ∀ v, toHexQCs (some (some v)) = .ok (toHexQ v) := by
    intro v
    show call CGroup.failElectionGuard (CGroup.qToHex (some v)) = _
    simp only [CGroup.qToHex, deref, Res.bind_ok, toHexQ, CGroup.cText_hex]
    rfl
  have key : ∀ (m' : IManifest) (c' : Context), m'.manifestHash < 2 ^ 256 → c'.manifestHash < 2 ^ 256 →
      newMediator (some (some m')) (some (some c')) d =
        if m'.manifestHash = c'.manifestHash then
          match d with
          | none => .throw .nullReference
          | some none => .throw .argumentNull
          | some (some d') => .ok ⟨m', c', d', none⟩
        else .throw .argument := by
    intro m' c' h1 h2
    have e : newMediator (some (some m')) (some (some c')) d = (do
        let hm ← toHexQCs (some (some m'.manifestHash))
        let hc ← toHexQCs (some (some c'.manifestHash))
        if hm ≠ hc then Cs.throw .argument
        else do
          let d ← handle d
          call throwIfError (mediatorNew (some m') (some c') (some d))) := rfl
    rw [e, hex, hex]
    show (if toHexQ m'.manifestHash ≠ toHexQ c'.manifestHash then Cs.throw .argument else _) = _
    by_cases h : m'.manifestHash = c'.manifestHash
    · rw [if_neg (by simp [h]), if_pos h]
      match d with
      | none => rfl
      | some none => rfl
      | some (some d') =>
        show call throwIfError (mediatorNew (some m') (some c') (some d')) = _
        have hk := (C40_mediator_iff m' c' d' h1 h2).1.2 h
        simp only [mediatorNew, deref, Res.bind_ok, hk]
        rfl
    · rw [if_pos (fun k => h (toHexQ_inj _ _ h1 h2 k)), if_neg h]
  have miss : (∀ m' c', ¬(m = some (some m') ∧ c = some (some c'))) → ∃ e, newMediator m c d = .throw e := by
    intro h
    match m with
    | none => exact ⟨_, rfl⟩
    | some none => exact ⟨_, rfl⟩
    | some (some m') =>
      have e : newMediator (some (some m')) c d = (do
          let hm ← toHexQCs (some (some m'.manifestHash))
          let c ← handle c
          let hc ← toHexQCs (some (some c.manifestHash))
          if hm ≠ hc then Cs.throw .argument
          else do
            let d ← handle d
            call throwIfError (mediatorNew (some m') (some c) (some d))) := rfl
      rw [e, hex]
      match c with
      | none => exact ⟨_, rfl⟩
      | some none => exact ⟨_, rfl⟩
      | some (some c') => exact absurd ⟨rfl, rfl⟩ (h m' c')
  by_cases both : ∃ m' c', m = some (some m') ∧ c = some (some c')
  · obtain ⟨m', c', rfl, rfl⟩ := both
    have k := key m' c' (hm m' rfl) (hc c' rfl)
    have first : ∀ md, newMediator (some (some m')) (some (some c')) d = .ok md ↔ ∃ d', d = some (some d') ∧
        m'.manifestHash = c'.manifestHash ∧ md = ⟨m', c', d', none⟩ := by
      intro md
      rw [k]
      by_cases h : m'.manifestHash = c'.manifestHash
      · rw [if_pos h]
        match d with
        | none => simp
        | some none => simp
        | some (some d') => simp [h, eq_comm]
      · rw [if_neg h]; simp [h]
    refine ⟨fun md => ?_, ?_, ?_, ?_⟩
    · rw [first]
      constructor
      · rintro ⟨d', h1, h2, h3⟩; exact ⟨m', c', d', rfl, rfl, h1, h2, h3⟩
      · rintro ⟨m2, c2, d', h1, h2, h3, h4, h5⟩
        cases h1; cases h2
        exact ⟨d', h3, h4, h5⟩
    · rw [k]
      by_cases h : m'.manifestHash = c'.manifestHash
      · rw [if_pos h]
        match d with
        | none => exact Or.inr ⟨_, rfl⟩
        | some none => exact Or.inr ⟨_, rfl⟩
        | some (some d') => exact Or.inl ⟨_, rfl⟩
      · rw [if_neg h]; exact Or.inr ⟨_, rfl⟩
    · intro m2 c2 h1 h2 h3
      cases h1; cases h2
      rw [k, if_neg h3]
    · intro m2 c2 d' md h1 h2 h3
      cases h1; cases h2; subst h3
      rw [k]
      have hk := C40_mediator_iff m' c' d' (hm m' rfl) (hc c' rfl)
      by_cases h : m'.manifestHash = c'.manifestHash
      · rw [if_pos h]
        simp only [mediatorNew, deref, Res.bind_ok, hk.1.2 h, caught]
        simp
      · rw [if_neg h]
        simp only [mediatorNew, deref, Res.bind_ok, hk.2.2 h, caught]
        simp
  · obtain ⟨e, he⟩ := miss (fun m' c' h => both ⟨m', c', h⟩)
    refine ⟨fun md => ⟨fun h => ?_, ?_⟩, Or.inr ⟨e, he⟩, ?_, ?_⟩
    · rw [he] at h; cases h
    · rintro ⟨m', c', d', h1, h2, -⟩; exact absurd ⟨m', c', h1, h2⟩ both
    · intro m' c' h1 h2; exact absurd ⟨m', c', h1, h2⟩ both
    · intro m' c' d' md h1 h2; exact absurd ⟨m', c', h1, h2⟩ both

/-- C130 is violated for the constructor in C: hashes that differ are reported as lack of memory. -/
theorem C130_mediator_status_violated (m : IManifest) (c : Context) (d : Device) (hm : m.manifestHash < 2 ^ 256)
    (hc : c.manifestHash < 2 ^ 256) (h : m.manifestHash ≠ c.manifestHash) :
    mediatorNew (some m) (some c) (some d) = .ok (.badAlloc, none) := by
  simp only [mediatorNew, deref, Res.bind_ok, (C40_mediator_iff m c d hm hc).2.2 h, caught]

/-- C130: the four C functions for ballots do what the library does with the time of the call: the ballot is that of the
library, an exception is told by its status without output, undefined behaviour comes from the library only if
no handle is null.  A null nonce is the same as no nonce. -/
theorem C130_ballot (b : PBallot) (m : IManifest) (ctx : Context) (seed : ℕ) (nonce : Option ℕ) (verify : Bool)
    (w w' : World) :
    (∀ r, encryptBallot G C S b m ctx seed nonce 0 verify w = (r, w') →
      (∀ e, r = .ok e → ballotWithNonce G C S ⟨some b, some m, some ctx, some seed⟩ nonce verify w =
        (.ok (.success, some e), w')) ∧
      (∀ e, r = .throw e → ballotWithNonce G C S ⟨some b, some m, some ctx, some seed⟩ nonce verify w =
        (.ok (statusOf e, none), w') ∧ statusOf e ≠ .success)) ∧
    (∀ r, encryptCompactBallot G C S b m ctx seed nonce 0 verify w = (r, w') →
      (∀ e, r = .ok e → compactWithNonce G C S ⟨some b, some m, some ctx, some seed⟩ nonce verify w =
        (.ok (.success, some e), w')) ∧
      (∀ e, r = .throw e → compactWithNonce G C S ⟨some b, some m, some ctx, some seed⟩ nonce verify w =
        (.ok (statusOf e, none), w') ∧ statusOf e ≠ .success)) ∧
    ∀ a : Args, ballotWithNonce G C S a none verify w = ballot G C S a verify w ∧
      compactWithNonce G C S a none verify w = compact G C S a verify w := by
  have ne : ∀ e, statusOf e ≠ .success := by intro e; cases e <;> decide
  refine ⟨fun r h => ⟨?_, ?_⟩, fun r h => ⟨?_, ?_⟩, fun a => ⟨?_, ?_⟩⟩
  · rintro e rfl
    simp only [ballotWithNonce, h]; rfl
  · rintro e rfl
    simp only [ballotWithNonce, h, told_throw]; exact ⟨trivial, ne e⟩
  · rintro e rfl
    simp only [compactWithNonce, h]; rfl
  · rintro e rfl
    simp only [compactWithNonce, h, told_throw]; exact ⟨trivial, ne e⟩
  · rfl
  · rfl

/-- C130: `Encrypt.Ballot` and `Encrypt.CompactBallot` of C#, with or without a nonce: the ballot is that of the library, and
its exceptions become `ArgumentException`, `AggregateException` or `OutOfMemoryException`. -/
theorem C130_cs_ballot (b : PBallot) (m : IManifest) (ctx : Context) (seed : ℕ) (nonce : Option ℕ) (verify : Bool)
    (w w' : World) :
    (∀ r, encryptBallot G C S b m ctx seed nonce 0 verify w = (r, w') →
      csBallot G C S ⟨some (some b), some (some m), some (some ctx), some (some seed)⟩ (nonce.map some) verify w =
        (seen r, w')) ∧
    (∀ r, encryptCompactBallot G C S b m ctx seed nonce 0 verify w = (r, w') →
      csCompactBallot G C S ⟨some (some b), some (some m), some (some ctx), some (some seed)⟩ (nonce.map some) verify w =
        (seen r, w')) := by
  constructor
  · intro r h
    have : csBallot G C S ⟨some (some b), some (some m), some (some ctx), some (some seed)⟩ (nonce.map some) verify w =
        (call throwIfError (told (encryptBallot G C S b m ctx seed nonce 0 verify w).1),
          (encryptBallot G C S b m ctx seed nonce 0 verify w).2) := by
      cases nonce <;> rfl
    rw [this, h, call_told]
  · intro r h
    have : csCompactBallot G C S ⟨some (some b), some (some m), some (some ctx), some (some seed)⟩ (nonce.map some)
        verify w = (call throwIfError (told (encryptCompactBallot G C S b m ctx seed nonce 0 verify w).1),
          (encryptCompactBallot G C S b m ctx seed nonce 0 verify w).2) := by
      cases nonce <;> rfl
    rw [this, h, call_told]

theorem verified (b : PBallot) (m : IManifest) (ctx : Context) (seed : ℕ) (nonce : Option ℕ) (t : ℕ) (w w' : World)
    (e : CBallot) (h : encryptBallot G C S b m ctx seed nonce t true w = (.ok e, w')) :
    e.isValid G C S m.manifestHash ctx.pub ctx.extHash = .ok true := by
  unfold encryptBallot at h
  cases hst : m.getBallotStyle b.styleId with
  | none => rw [hst] at h; simp [M.raise] at h
  | some style =>
    rw [hst] at h
    dsimp only at h
    simp only [M.bind_eq_ok] at h
    obtain ⟨n, w1, h1, es, w2, h2, ts, w3, h3, e', w4, h4, h⟩ := h
    simp only [Bool.not_true, Bool.false_eq_true, if_false, M.bind_eq_ok] at h
    obtain ⟨v, w5, h5, h⟩ := h
    cases v with
    | false => simp [M.raise] at h
    | true =>
      have h6 : (Res.ok e', w5) = (Res.ok e, w') := h
      simp only [Prod.mk.injEq, Res.ok.injEq] at h6
      rw [← h6.1]
      simp only [M.lift, Prod.mk.injEq] at h5
      exact h5.1

/-- C130: a ballot obtained with the check of proofs, from the functions or from a mediator, in C or in C#, is valid. -/
theorem C130_verified (b : PBallot) (m : IManifest) (ctx : Context) (seed : ℕ) (nonce : Option ℕ) (w : World)
    (md : Mediator) (e : CBallot) :
    ((ballotWithNonce G C S ⟨some b, some m, some ctx, some seed⟩ nonce true w).1 = .ok (.success, some e) ∨
      (csBallot G C S ⟨some (some b), some (some m), some (some ctx), some (some seed)⟩ (nonce.map some) true w).1 =
        .ok e → e.isValid G C S m.manifestHash ctx.pub ctx.extHash = .ok true) ∧
    ((mediatorEncrypt G C S true (some md) (some b) w).1 = .ok (.success, some e) ∨
      (csEncrypt G C S true (some md) (some (some b)) w).1 = .ok e →
        e.isValid G C S md.manifest.manifestHash md.context.pub md.context.extHash = .ok true) := by
  have inv : ∀ r : Res CBallot, told r = .ok (.success, some e) → r = .ok e := by
    intro r h
    cases r with
    | ok a => simpa [told] using h
    | ub => simp [told] at h
    | throw x => cases x <;> simp [told] at h
  have inv' : ∀ r : Res CBallot, seen r = .ok e → r = .ok e := by
    intro r h
    cases r with
    | ok a => simpa [seen] using h
    | ub => simp [seen] at h
    | throw x => simp [seen] at h
  constructor
  · intro h
    obtain ⟨r, w', hr⟩ : ∃ r w', encryptBallot G C S b m ctx seed nonce 0 true w = (r, w') := ⟨_, _, rfl⟩
    have : r = .ok e := by
      rcases h with h | h
      · simp only [ballotWithNonce, hr] at h; exact inv r h
      · rw [(C130_cs_ballot G C S b m ctx seed nonce true w w').1 r hr] at h; exact inv' r h
    subst this
    exact verified G C S b m ctx seed nonce 0 w w' e hr
  · intro h
    have : (md.encrypt G C S b true w).1 = .ok e := by
      rcases h with h | h
      · exact inv _ h
      · simp only [csEncrypt, mediatorEncrypt, call_told] at h; exact inv' _ h
    unfold Mediator.encrypt at this
    dsimp only at this
    rw [M.bind_apply_ok M.now _ _ _ _ rfl] at this
    split at this
    · rename_i e' w' he
      simp only [Res.ok.injEq] at this
      subst this
      exact verified G C S _ _ _ _ _ _ _ _ _ he
    · rename_i r w' hne he
      simp only at this
      subst this
      exact (hne e rfl).elim

/-- C130: a null handle other than the nonce is followed by the C functions, whatever the other arguments; C# throws in
these cases and nothing happens in the library. -/
theorem C130_null (a : Args) (nonce : Option ℕ) (x : CsArgs) (n : Option (Option ℕ)) (verify : Bool) (w : World)
    (md : Option Mediator) (b : Option PBallot) (b' : Option (Option PBallot)) :
    (a.ballot = none ∨ a.manifest = none ∨ a.context = none ∨ a.codeSeed = none →
      ballotWithNonce G C S a nonce verify w = (.ub, w) ∧ ballot G C S a verify w = (.ub, w) ∧
      compactWithNonce G C S a nonce verify w = (.ub, w) ∧ compact G C S a verify w = (.ub, w)) ∧
    (md = none ∨ b = none → mediatorEncrypt G C S verify md b w = (.ub, md, w) ∧
      mediatorCompact G C S verify md b w = (.ub, md, w)) ∧
    ((∀ v, x.ballot ≠ some (some v)) ∨ (∀ v, x.manifest ≠ some (some v)) ∨ (∀ v, x.context ≠ some (some v)) ∨
        (∀ v, x.codeSeed ≠ some (some v)) ∨ n = some none →
      ∃ e, csBallot G C S x n verify w = (.throw e, w) ∧ csCompactBallot G C S x n verify w = (.throw e, w)) ∧
    (md = none ∨ (∀ v, b' ≠ some (some v)) → ∃ e, csEncrypt G C S verify md b' w = (.throw e, md, w) ∧
      csCompact G C S verify md b' w = (.throw e, md, w)) := by
  refine ⟨?_, ?_, ?_, ?_⟩
  · obtain ⟨a1, a2, a3, a4⟩ := a
    intro h
    cases a1 <;> cases a2 <;> cases a3 <;> cases a4 <;> first | exact ⟨rfl, rfl, rfl, rfl⟩ | simp at h
  · intro h
    cases md <;> cases b <;> first | exact ⟨rfl, rfl⟩ | simp at h
  · intro h
    have : ∃ e, x.handles n = .throw e := by
      obtain ⟨x1, x2, x3, x4⟩ := x
      rcases x1 with _ | x1
      · exact ⟨_, rfl⟩
      rcases x2 with _ | x2
      · exact ⟨_, rfl⟩
      rcases x3 with _ | x3
      · exact ⟨_, rfl⟩
      rcases x4 with _ | x4
      · exact ⟨_, rfl⟩
      rcases x1 with _ | x1
      · exact ⟨_, rfl⟩
      rcases x2 with _ | x2
      · exact ⟨_, rfl⟩
      rcases x3 with _ | x3
      · exact ⟨_, rfl⟩
      rcases x4 with _ | x4
      · exact ⟨_, rfl⟩
      rcases n with _ | _ | n
      · simp at h
      · exact ⟨_, rfl⟩
      · simp at h
    obtain ⟨e, he⟩ := this
    exact ⟨e, by simp only [csBallot, he], by simp only [csCompactBallot, he]⟩
  · intro h
    rcases b' with _ | _ | b'
    · exact ⟨_, rfl, rfl⟩
    · cases md <;> exact ⟨_, rfl, rfl⟩
    · cases md
      · exact ⟨_, rfl, rfl⟩
      · simp at h

/-- C130: a ballot of an unknown style is refused as an invalid argument, through C and C#, by the functions and by
mediators, without output. -/
theorem C130_unknown_style (b : PBallot) (m : IManifest) (ctx : Context) (seed : ℕ) (nonce : Option ℕ) (verify : Bool)
    (w : World) (md : Mediator) (h : ∀ s ∈ m.styles, s.objectId ≠ b.styleId) (hmd : md.manifest = m) :
    ballotWithNonce G C S ⟨some b, some m, some ctx, some seed⟩ nonce verify w = (.ok (.invalidArgument, none), w) ∧
    csBallot G C S ⟨some (some b), some (some m), some (some ctx), some (some seed)⟩ (nonce.map some) verify w =
      (.throw .argument, w) ∧
    (mediatorEncrypt G C S verify (some md) (some b) w).1 = .ok (.invalidArgument, none) ∧
    (csEncrypt G C S verify (some md) (some (some b)) w).1 = .throw .argument := by
  have hb := C35_ballot_unknown_style G C S ctx b m seed nonce 0 verify w h
  have hmd' : (md.encrypt G C S b verify w).1 = .throw .invalidArgument := by
    unfold Mediator.encrypt
    dsimp only
    rw [M.bind_apply_ok M.now _ _ _ _ rfl, hmd, C35_ballot_unknown_style G C S _ b m _ _ _ verify _ h]
  refine ⟨?_, ?_, ?_, ?_⟩
  · exact (((C130_ballot G C S b m ctx seed nonce verify w w).1 _ hb).2 _ rfl).1
  · exact (C130_cs_ballot G C S b m ctx seed nonce verify w w).1 _ hb
  · simp only [mediatorEncrypt, hmd', told]
  · simp only [csEncrypt, mediatorEncrypt, hmd', told]; rfl

/-- C130 is violated for compact ballots: a ballot of an unknown style is undefined behaviour, in C and also in C#. -/
theorem C130_compact_style_violated (b : PBallot) (m : IManifest) (ctx : Context) (seed : ℕ) (nonce : Option ℕ)
    (verify : Bool) (w : World) (md : Mediator) (h : ∀ s ∈ m.styles, s.objectId ≠ b.styleId) (hmd : md.manifest = m) :
    (compactWithNonce G C S ⟨some b, some m, some ctx, some seed⟩ nonce verify w).1 = .ub ∧
    (csCompactBallot G C S ⟨some (some b), some (some m), some (some ctx), some (some seed)⟩ (nonce.map some) verify w).1 =
      .ub ∧
    (mediatorCompact G C S verify (some md) (some b) w).1 = .ub ∧
    (csCompact G C S verify (some md) (some (some b)) w).1 = .ub := by
  have hu : ∀ ctx seed nonce t w, encryptCompactBallot G C S b m ctx seed nonce t verify w = (.ub, w) := by
    intro ctx seed nonce t w
    unfold encryptCompactBallot
    rw [C34_unknown_style_violated S b m h]
    rfl
  have hmd' : (md.compactEncrypt G C S b verify w).1 = .ub := by
    unfold Mediator.compactEncrypt
    dsimp only
    rw [M.bind_apply_ok M.now _ _ _ _ rfl, hmd, hu]
  refine ⟨?_, ?_, ?_, ?_⟩
  · simp only [compactWithNonce, hu, told]
  · rw [(C130_cs_ballot G C S b m ctx seed nonce verify w w).2 _ (hu _ _ _ _ _)]; rfl
  · simp only [mediatorCompact, hmd', told]
  · simp only [csCompact, mediatorCompact, hmd', told]; rfl

/-- The calls a client of C makes at one mediator, whatever happens in between; it goes on after an error, and undefined
behaviour ends the history. -/
def runC : Mediator → List (Call × World) → List Output
  | _, [] => []
  | md, (.encrypt b verify, w) :: calls =>
    match mediatorEncrypt G C S verify (some md) (some b) w with
    | (.ok (.success, some e), some md', _) => .full e :: runC md' calls
    | (.ok _, some md', _) => runC md' calls
    | _ => []
  | md, (.compact b verify, w) :: calls =>
    match mediatorCompact G C S verify (some md) (some b) w with
    | (.ok (.success, some c), some md', _) => .compact c :: runC md' calls
    | (.ok _, some md', _) => runC md' calls
    | _ => []

/-- The calls of a program in C#, which catches all exceptions. -/
def runCs : Mediator → List (Call × World) → List Output
  | _, [] => []
  | md, (.encrypt b verify, w) :: calls =>
    match csEncrypt G C S verify (some md) (some (some b)) w with
    | (.ok e, some md', _) => .full e :: runCs md' calls
    | (.throw _, some md', _) => runCs md' calls
    | _ => []
  | md, (.compact b verify, w) :: calls =>
    match csCompact G C S verify (some md) (some (some b)) w with
    | (.ok c, some md', _) => .compact c :: runCs md' calls
    | (.throw _, some md', _) => runCs md' calls
    | _ => []

theorem runs_eq (md : Mediator) (calls : List (Call × World)) :
    runC G C S md calls = (md.run G C S calls).1 ∧ runCs G C S md calls = (md.run G C S calls).1 := by
  induction calls generalizing md with
  | nil => exact ⟨rfl, rfl⟩
  | cons call calls ih =>
    obtain ⟨call, w⟩ := call
    cases call with
    | encrypt b verify =>
      obtain ⟨r, md', w', hr⟩ : ∃ r md' w', md.encrypt G C S b verify w = (r, md', w') := ⟨_, _, _, rfl⟩
      have h1 : mediatorEncrypt G C S verify (some md) (some b) w = (told r, some md', w') := by
        simp only [mediatorEncrypt, hr]
      have h2 : csEncrypt G C S verify (some md) (some (some b)) w =
          (seen r, some md', w') := by
        simp only [csEncrypt, h1, call_told]
      simp only [runC, runCs, Mediator.run, h1, h2, hr]
      cases r with
      | ok e => exact ⟨congrArg (Output.full e :: ·) (ih md').1, congrArg (Output.full e :: ·) (ih md').2⟩
      | throw e => exact ⟨by cases e <;> exact (ih md').1, (ih md').2⟩
      | ub => exact ⟨rfl, rfl⟩
    | compact b verify =>
      obtain ⟨r, md', w', hr⟩ : ∃ r md' w', md.compactEncrypt G C S b verify w = (r, md', w') := ⟨_, _, _, rfl⟩
      have h1 : mediatorCompact G C S verify (some md) (some b) w = (told r, some md', w') := by
        simp only [mediatorCompact, hr]
      have h2 : csCompact G C S verify (some md) (some (some b)) w =
          (seen r, some md', w') := by
        simp only [csCompact, h1, call_told]
      simp only [runC, runCs, Mediator.run, h1, h2, hr]
      cases r with
      | ok e => exact ⟨congrArg (Output.compact e :: ·) (ih md').1, congrArg (Output.compact e :: ·) (ih md').2⟩
      | throw e => exact ⟨by cases e <;> exact (ih md').1, (ih md').2⟩
      | ub => exact ⟨rfl, rfl⟩

/-- C130: the ballots that a client of C, or a program in C#, gets from a device and a mediator it made, in any history of
calls, also with calls that fail, form one chain that starts with the hash of the device, which
`eg_encryption_device_get_hash` gives. -/
theorem C130_chain (u s l : UInt64) (loc : List Char) (d : Device) (m : IManifest) (ctx : Context) (md : Mediator)
    (hd : deviceNew u s l (some loc) = .ok (.success, some d))
    (hm : mediatorNew (some m) (some ctx) (some d) = .ok (.success, some md)) (calls : List (Call × World)) :
    ∃ start, deviceHash G C (some d) = .ok (.success, some start) ∧
      start = hashElems G C [.u64 u.toNat, .u64 s.toNat, .u64 l.toNat, .str (cText loc)] ∧
      (∃ links, List.Forall₂ Output.Is (runC G C S md calls) links ∧ Chained G C start links) ∧
      ∃ links, List.Forall₂ Output.Is (runCs G C S md calls) links ∧ Chained G C start links := by
  have hd' : d = ⟨u.toNat, s.toNat, l.toNat, cText loc⟩ := by
    have : Res.ok (Status.success, some (⟨u.toNat, s.toNat, l.toNat, cText loc⟩ : Device)) =
        Res.ok (Status.success, some d) := hd
    simpa using this.symm
  have hmake : Mediator.make m ctx d = .ok md := by
    have h : caught .badAlloc (Mediator.make m ctx d) = .ok (.success, some md) := hm
    cases hk : Mediator.make m ctx d with
    | ok x => rw [hk] at h; simpa [caught] using h
    | throw e => rw [hk] at h; simp [caught] at h
    | ub => rw [hk] at h; simp [caught] at h
  obtain ⟨links, h1, h2⟩ := C37_chain G C S m ctx d md hmake calls
  refine ⟨d.hash G C, rfl, by rw [hd']; rfl, ⟨links, ?_, h2⟩, links, ?_, h2⟩
  · rw [(runs_eq G C S md calls).1]; exact h1
  · rw [(runs_eq G C S md calls).2]; exact h1

/-! The hypotheses can be met. -/

example : ∃ d md, deviceNew 1 2 3 (some "here".toList) = .ok (.success, some d) ∧
    mediatorNew (some (exampleIM 7)) (some (exampleContext 4 7)) (some d) = .ok (.success, some md) ∧
    newMediator (some (some (exampleIM 7))) (some (some (exampleContext 4 7))) (some (some d)) = .ok md := by
  obtain ⟨d, hd⟩ : ∃ d, deviceNew 1 2 3 (some "here".toList) = .ok (.success, some d) := ⟨_, rfl⟩
  have k := C130_mediator (some (some (exampleIM 7))) (some (some (exampleContext 4 7))) (some (some d))
    (by rintro x h; cases h; decide) (by rintro x h; cases h; decide)
  have h1 := (k.1 ⟨exampleIM 7, exampleContext 4 7, d, none⟩).2 ⟨_, _, _, rfl, rfl, rfl, rfl, rfl⟩
  exact ⟨d, _, hd, (k.2.2.2 _ _ _ _ rfl rfl rfl).2 h1, h1⟩

example (d : Device) : mediatorNew (some (exampleIM 7)) (some (exampleContext 4 8)) (some d) = .ok (.badAlloc, none) :=
  C130_mediator_status_violated _ _ _ (by decide) (by decide) (by decide)

/-- A ballot that is encrypted through C. -/
example (K : ℕ) (hK : Residue .std K) (h seed : ℕ) : ∃ e w',
    ballot .std (constCrypto 5) S ⟨some exampleBallot, some (exampleIM h), some (exampleContext K h), some seed⟩ false
      plainWorld = (.ok (.success, some e), w') := by
  obtain ⟨e, w', he⟩ := encryptBallot_example S K hK h seed 0 none plainWorld (plainWorld_ok .std std_q_gt7 K)
  exact ⟨e, w', ((C130_ballot .std (constCrypto 5) S _ _ _ _ none false plainWorld w').1 _ he).1 e rfl⟩

example : ∀ s ∈ (exampleIM 7).styles, s.objectId ≠ ({ exampleBallot with styleId := [] } : PBallot).styleId := by
  change ∀ s ∈ exampleManifest.styles, s.objectId ≠ []
  decide +kernel

end EG.CEncrypt
