import Verif.Spec.CJson
import Verif.Props.CContext
import Verif.Props.SerializeBallot
import Verif.Props.Compact
import Verif.Props.Submit

/-!
# C134: devices and ballots go from one program in C# to another as text
-/

namespace EG.CJson

open EG.CText (Status)
open EG.CGroup (Out Cs Exn deref throwIfError call handle)

variable {G : Params} {C : Crypto} {S : StdSort}

theorem fromText_dump {α : Type} (ofDoc : Json → Res α) (j : Json) :
    call throwIfError (fromText ofDoc (some j.dump)) =
      call throwIfError (CGroup.caught .badAlloc (readText ofDoc j.dump)) := by
  unfold fromText
  simp only [deref, Res.bind_ok, CContext.cText_dump]

theorem writeText_ok {doc : Res Json} {t : Str} (h : writeText doc = .ok t) : ∃ j, doc = .ok j ∧ t = j.dump := by
  obtain ⟨j, h1, h2⟩ := (Res.bind_eq_ok _ _ _).1 h
  exact ⟨j, h1, (Res.ok.inj h2).symm⟩

theorem toText_ok {α : Type} {doc : α → Res Json} {a : α} {j : Json} (h : doc a = .ok j) :
    call throwIfError (toText doc (some a)) = .ok j.dump := by
  simp only [toText, deref, Res.bind_ok, writeText, h, CContext.cText_dump]
  rfl

/-- A device made in C#, written and read by another program: the same device, with the hash from which the codes of its
ballots start. -/
theorem C134_device (device session launch : UInt64) (location : Str) :
    ∃ d t d', CEncrypt.newDevice device session launch (some location) = .ok d ∧ deviceToJson (some (some d)) = .ok t ∧
      newDeviceJson (some t) = .ok d' ∧ d'.deviceUuid = device.toNat ∧ d'.sessionUuid = session.toNat ∧
      d'.launchCode = launch.toNat ∧ d'.location = CGroup.cText location ∧
      CEncrypt.deviceHash G C (some d') = CEncrypt.deviceHash G C (some d) := by
  let d : Device := ⟨device.toNat, session.toNat, launch.toNat, CGroup.cText location⟩
  refine ⟨d, d.toDoc.dump, d, rfl, toText_ok rfl, ?_, rfl, rfl, rfl, rfl, rfl⟩
  unfold newDeviceJson deviceFrom
  rw [fromText_dump, C61_device d ⟨device.toNat_lt, session.toNat_lt, launch.toNat_lt⟩]
  rfl

/-- A plaintext ballot written and read. -/
theorem C134_plaintext (b : PBallot) (hb : b.Fits) :
    ∃ t, plainToJson (some (some b)) = .ok t ∧ Char.ofNat 0 ∉ t ∧ newPlainJson (some t) = .ok b := by
  refine ⟨b.toDoc.dump, toText_ok rfl, CContext.zero_dump _, ?_⟩
  unfold newPlainJson plainFrom
  rw [fromText_dump, C61_plaintext_ballot b hb]
  rfl

/-- A program that got the device, the context and the ballot as texts makes the same mediator and encrypts the ballot
with the same result, and leaves the same mediator, as the program that made them. -/
theorem C134_encrypt (hG : G.Valid) (m : Option (Option IManifest)) (c : FullContext) (hc : c.context.Readable G)
    (hmax : c.config.maxBallots < 2 ^ 64) (hdata : (c.extendedData.map Prod.fst).Nodup) (b : PBallot) (hb : b.Fits)
    (device session launch : UInt64) (location : Str) (verify : Bool) (w : World) :
    ∃ d tc td tb c' d' b', CEncrypt.newDevice device session launch (some location) = .ok d ∧
      CContext.csToJson (some (some c)) = .ok tc ∧ deviceToJson (some (some d)) = .ok td ∧
      plainToJson (some (some b)) = .ok tb ∧
      CContext.newContextJson G (some tc) = .ok c' ∧ newDeviceJson (some td) = .ok d' ∧ newPlainJson (some tb) = .ok b' ∧
      CEncrypt.newMediator m (some (some c'.context)) (some (some d')) =
        CEncrypt.newMediator m (some (some c.context)) (some (some d)) ∧
      ∀ md, CEncrypt.newMediator m (some (some c'.context)) (some (some d')) = .ok md →
        CEncrypt.csEncrypt G C S verify (some md) (some (some b')) w =
          CEncrypt.csEncrypt G C S verify (some md) (some (some b)) w := by
  obtain ⟨tc, e, h1, -, h2, -⟩ := CContext.C133_data hG c hc hmax hdata
  obtain ⟨tb, h3, -, h4⟩ := C134_plaintext b hb
  obtain ⟨d, td, d', h5, h6, h7, e1, e2, e3, e4, -⟩ := C134_device (G := G) (C := C) device session launch location
  have hd : d = ⟨device.toNat, session.toNat, launch.toNat, CGroup.cText location⟩ := (Cs.ok.inj h5).symm
  have hd' : d' = d := by
    rw [hd]
    cases d'
    simp only at e1 e2 e3 e4
    rw [e1, e2, e3, e4]
  subst hd'
  exact ⟨d', tc, td, tb, _, d', b, h5, h1, h6, h3, h2, h7, h4, rfl, fun _ _ => rfl⟩

/-! ## Encrypted ballots -/

/-- An encrypted ballot written in C#, with or without nonces, and read by another program: `IsValidEncryption` says
there what it says here, and the ballot has the same id, code, seed and time; with nonces also the nonce.  Missing for the
full claim: ballots with an element that is zero or with bytes that begin with zero, see `C47_mac_violated` and
`C47_data_violated`. -/
theorem C134_ciphertext_partial (hG : G.Valid) (withNonces : Bool) (b : CBallot) (h : b.Readable G withNonces)
    (ho : b.Ordered) (manifest pub ext : Option (Option ℕ)) :
    ∃ t b', cipherToJson S withNonces (some (some b)) = .ok t ∧ newCipherJson G (some t) = .ok b' ∧
      isValidEncryption G C S (some b') manifest pub ext = isValidEncryption G C S (some b) manifest pub ext ∧
      b'.objectId = b.objectId ∧ b'.styleId = b.styleId ∧ b'.ballotCode = b.ballotCode ∧
      b'.ballotCodeSeed = b.ballotCodeSeed ∧ b'.timestamp = b.timestamp ∧ (withNonces = true → b'.nonce = b.nonce) ∧
      (withNonces = false → b'.nonce = some 0) := by
  obtain ⟨t, ht, hr⟩ := C47_ballot_partial hG S withNonces b h
  have key : ∀ mh k x, (b.read S withNonces).isValid G C S mh k x = b.isValid G C S mh k x := by
    intro mh k x
    obtain ⟨t1, b1, ht1, hr1, hv, -⟩ := C47_valid_partial hG C S withNonces b h ho.1 ho.2 mh k x
    obtain rfl : t = t1 := Res.ok.inj (ht.symm.trans ht1)
    obtain rfl : b.read S withNonces = b1 := Res.ok.inj (hr.symm.trans hr1)
    exact hv
  obtain ⟨j, hj, rfl⟩ := writeText_ok ht
  refine ⟨j.dump, b.read S withNonces, ?_, ?_, ?_, rfl, rfl, rfl, rfl, rfl, ?_, ?_⟩
  · cases withNonces
    · exact toText_ok hj
    · exact toText_ok hj
  · unfold newCipherJson cipherFrom
    rw [fromText_dump, hr]
    rfl
  · rcases manifest with _ | _ | mh <;> rcases pub with _ | _ | k <;> rcases ext with _ | _ | x
    all_goals first
      | rfl
      | (show CProof.callBool (cipherValid G C S (some (b.read S withNonces)) (some mh) (some k) (some x)) =
          CProof.callBool (cipherValid G C S (some b) (some mh) (some k) (some x))
         simp only [cipherValid, deref, Res.bind_ok, key])
  · rintro rfl
    rfl
  · rintro rfl
    rfl

theorem isValidEncryption_iff (b : CBallot) (mh k x : ℕ) :
    isValidEncryption G C S (some b) (some (some mh)) (some (some k)) (some (some x)) = .ok true ↔
      b.isValid G C S mh k x = .ok true := by
  show CProof.callBool (cipherValid G C S (some b) (some mh) (some k) (some x)) = .ok true ↔ _
  simp only [cipherValid, deref, Res.bind_ok]
  cases b.isValid G C S mh k x with
  | ok v => cases v <;> simp [CProof.callBool]
  | throw e => simp [CProof.callBool]
  | ub => simp [CProof.callBool]

/-- `IsValidEncryption` says yes exactly for the ballots of the specification, for ballots whose contests and selections
have different names: see C36. -/
theorem C134_valid_iff_partial (hG : G.Valid) (hL : G.Large) (mh k x : ℕ) (hk : k < 2 ^ 4096) (b : CBallot)
    (ht : ∀ c ∈ b.contests, c.Typed) (hn : b.keys.Nodup) :
    isValidEncryption G C S (some b) (some (some mh)) (some (some k)) (some (some x)) = .ok true ↔
      BallotSpec G C S mh k x b :=
  (isValidEncryption_iff b mh k x).trans (C36_valid_iff_partial G C S hG hL mh k x hk b ht hn)

/-- A ballot that meets the hypotheses of `C134_valid_iff_partial`, and for which the answer is yes. -/
example : ∃ (C : Crypto) (b : CBallot) (K : ℕ), K < 2 ^ 4096 ∧ (∀ c ∈ b.contests, c.Typed) ∧
    b.keys.Nodup ∧ ∀ S, BallotSpec .std C S 6 K 7 b ∧
      isValidEncryption .std C S (some b) (some (some 6)) (some (some K)) (some (some 7)) = .ok true := by
  obtain ⟨m, t, π, m1, m2, hπ, hty, h5, hv, hc⟩ := exampleCContest_valid
  have hK := gPowP_lt4096 C54_std_valid 2 (by norm_num)
  have hT : ∀ c ∈ (exampleCBallot m t π "s".toList "t".toList (some (exampleProof .std 5))
      (some (exampleProof .std 5))).contests, c.Typed := by
    intro c hc'
    simp only [exampleCBallot, List.mem_singleton] at hc'
    subst hc'
    refine ⟨?_, ?_⟩
    · intro s hs
      simp only [exampleCContest, List.mem_cons, List.not_mem_nil, or_false] at hs
      rcases hs with rfl | rfl
      all_goals
        refine ⟨m1, m2, ?_⟩
        intro p hp
        simp only [exampleCSel, Option.mem_some_iff] at hp
        exact hp ▸ hty
    · intro p hp
      simp only [exampleCContest, Option.mem_some_iff] at hp
      exact hp ▸ hπ
  have hN : (exampleCBallot m t π "s".toList "t".toList (some (exampleProof .std 5))
      (some (exampleProof .std 5))).keys.Nodup := by
    change (["c".toList, "c-s".toList, "c-t".toList] : List Str).Nodup
    decide
  refine ⟨constCrypto 5, _, gPowP .std 2, hK, hT, hN, fun S => ?_⟩
  rw [← C134_valid_iff_partial C54_std_valid std_large 6 _ 7 hK _ hT hN, and_self, isValidEncryption_iff]
  refine (exampleCBallot_checks m t π S _ _ _ _ .std _ h5 _ (hc S _ _ _ _)).trans ?_
  have hgood : ∀ id seq, (exampleCSel m id seq (some (exampleProof .std 5))).isValid .std
      (constCrypto 5) 5 (gPowP .std 2) 7 = true := by
    intro id seq
    unfold CSelection.isValid
    rw [if_neg (by simp [exampleCSel]), if_neg]
    · exact hv
    · rw [selectionHash, h5]
      simp [exampleCSel]
  rw [hgood, hgood]
  simp [mapPut]

theorem getSelections_without (c : CContest) (h : (c.selections.map CSelection.seq).Nodup) :
    c.withoutNonces.getSelections S = (c.getSelections S).map CSelection.withoutNonce :=
  sort_map S CSelection.seq CSelection.seq CSelection.withoutNonce c.selections (fun _ => rfl) h

theorem toDoc_without (c : CContest) (h : (c.selections.map CSelection.seq).Nodup) :
    c.withoutNonces.toDoc S false = c.toDoc S false := by
  unfold CContest.toDoc
  rw [getSelections_without c h, mapRes_of_map]
  rfl

theorem mapRes_congr {α β : Type} {f g : α → Res β} {l : List α} (h : ∀ a ∈ l, f a = g a) : mapRes f l = mapRes g l := by
  induction l with
  | nil => rfl
  | cons a l ih =>
    simp only [mapRes]
    rw [h a (by simp), ih (fun x hx => h x (by simp [hx]))]

theorem ballot_without (b : CBallot) (ho : b.Ordered) : b.withoutNonces.toDoc S false = b.toDoc S false := by
  unfold CBallot.toDoc
  have h1 : b.withoutNonces.getContests S = (b.getContests S).map CContest.withoutNonces :=
    sort_map S CContest.seq CContest.seq CContest.withoutNonces b.contests (fun _ => rfl) ho.1
  have h2 : ∀ c ∈ b.getContests S, CContest.toDoc S false c.withoutNonces = CContest.toDoc S false c :=
    fun c hc => toDoc_without c (ho.2 c ((S.perm CContest.seq b.contests).mem_iff.1 hc))
  rw [h1, mapRes_of_map, mapRes_congr h2]
  rfl

/-- The text of an encrypted ballot that `ToJson` gives if it is not asked for nonces tells nothing about them: ballots
that differ only in nonces, of any part, have the same text. -/
theorem C134_nonces (b b' : CBallot) (ho : b.Ordered) (ho' : b'.Ordered) (h : b.withoutNonces = b'.withoutNonces) :
    cipherToJson S false (some (some b)) = cipherToJson S false (some (some b')) := by
  have e : b.toDoc S false = b'.toDoc S false := by rw [← ballot_without b ho, h, ballot_without b' ho']
  show call throwIfError (toText (CBallot.toDoc S false) (some b)) = call throwIfError (toText (CBallot.toDoc S false) (some b'))
  simp only [toText, deref, Res.bind_ok, e]

/-- A ballot of which a nonce is missing is written without nonces; asked for nonces, the library follows a null
pointer. -/
theorem C134_missing_nonce_violated (b : CBallot) (j : Json) (hj : b.toDoc S false = .ok j) (hc : b.contests = [])
    (hn : b.nonce = none) :
    cipherToJson S false (some (some b)) = .ok j.dump ∧ cipherToJson S true (some (some b)) = .ub := by
  refine ⟨toText_ok hj, ?_⟩
  have hg : b.getContests S = [] := by
    have := S.perm CContest.seq b.contests
    rw [hc] at this
    exact (congrArg (S.sort CContest.seq) hc).trans this.eq_nil
  have e : b.toDoc S true = .ub := by
    unfold CBallot.toDoc
    rw [hg, hn]
    rfl
  show call throwIfError (toText (CBallot.toDoc S true) (some b)) = .ub
  simp only [toText, deref, Res.bind_ok, e]
  rfl

/-- Texts that are null are undefined behaviour; whatever else is wrong with a text is reported as lack of memory;
references and handles that are null end with an exception. -/
theorem C134_faults (t : Str) :
    newDeviceJson none = .ub ∧ newPlainJson none = .ub ∧ newCipherJson G none = .ub ∧
    (∀ e, newDeviceJson (some t) = .throw e → e = .outOfMemory) ∧
    (∀ e, newPlainJson (some t) = .throw e → e = .outOfMemory) ∧
    (∀ e, newCipherJson G (some t) = .throw e → e = .outOfMemory) ∧
    (∀ withNonces, (cipherToJson S withNonces none = .throw .nullReference) ∧
      cipherToJson S withNonces (some none) = .throw .argumentNull) ∧
    (∀ manifest pub ext : Option (Option ℕ), none ∈ [manifest, pub, ext] →
      ∀ b, isValidEncryption G C S b manifest pub ext = .throw .nullReference) ∧
    (∀ manifest pub ext : Option ℕ, ∀ b : Option CBallot, none ∈ [manifest, pub, ext] ∨ b = none →
      isValidEncryption G C S b (some manifest) (some pub) (some ext) = .throw .argumentNull) := by
  have key : ∀ {α : Type} (ofDoc : Json → Res α) (e : CGroup.Exn), call throwIfError (fromText ofDoc (some t)) = .throw e →
      e = .outOfMemory := by
    intro α ofDoc e h
    simp only [fromText, deref, Res.bind_ok] at h
    cases hr : readText ofDoc (CGroup.cText t) with
    | ok r => rw [hr] at h; cases h
    | throw x => rw [hr] at h; cases h; rfl
    | ub => rw [hr] at h; cases h
  refine ⟨rfl, rfl, rfl, key _, key _, key _, fun _ => ⟨rfl, rfl⟩, ?_, ?_⟩
  · intro manifest pub ext h b
    rcases manifest with _ | mh <;> rcases pub with _ | k <;> rcases ext with _ | x <;>
      first | (simp at h; done) | rfl
  · intro manifest pub ext b h
    rcases b with _ | b <;> rcases manifest with _ | mh <;> rcases pub with _ | k <;> rcases ext with _ | x <;>
      first | (simp at h; done) | rfl

/-! The hypotheses can be met. -/

example : (Device.mk 12345 67890 11 (key "Booth")).Fits ∧ wholeBallot.Readable .test true ∧ wholeBallot.Ordered ∧
    wholeBallot.contests ≠ [] := by
  refine ⟨⟨by decide, by decide, by decide⟩, wholeBallot_readable true, ?_, ?_⟩
  · unfold CBallot.Ordered
    decide
  · decide

/-- Two ballots that differ in their nonce only. -/
example : ({ wholeBallot with nonce := some 5 } : CBallot).withoutNonces =
    ({ wholeBallot with nonce := some 6 } : CBallot).withoutNonces ∧
    ({ wholeBallot with nonce := some 5 } : CBallot) ≠ { wholeBallot with nonce := some 6 } := by
  refine ⟨rfl, fun h => ?_⟩
  have := congrArg CBallot.nonce h
  simp at this

/-- A ballot without contests and without nonce. -/
example : ∃ (b : CBallot) (j : Json), b.toDoc S false = .ok j ∧ b.contests = [] ∧ b.nonce = none := by
  let b : CBallot := { wholeBallot with contests := [], nonce := none }
  have hg : b.getContests S = [] := (S.perm CContest.seq ([] : List CContest)).eq_nil
  have h : ∃ j, b.toDoc S false = .ok j := by
    unfold CBallot.toDoc
    rw [hg]
    exact ⟨_, rfl⟩
  obtain ⟨j, hj⟩ := h
  exact ⟨b, j, hj, rfl, rfl⟩

end EG.CJson
