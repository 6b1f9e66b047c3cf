import Verif.Model.CBytes
import Verif.Props.CJson
import Verif.Props.Binary

/-!
# C137: encrypted ballots go between programs in C# as bytes
-/

namespace EG.CBytes

open EG.CGroup (Cs deref throwIfError call)
open EG.Binary (writePack writeBson readPack readBson)

variable {G : Params} {C : Crypto} {S : StdSort}

theorem array_ok {d : List UInt8} (h : d.length < 2 ^ 31) : array d = .ok d := by
  unfold array
  rw [if_neg (by omega)]

theorem pack_eq {withNonces : Bool} {b : CBallot} {d : List UInt8} (h : writePack (b.toDoc S false) = .ok d) :
    csToMsgPack S withNonces (some b) = array d := by
  have e : toPack S (some b) = .ok (.success, some d) := by
    simp only [toPack, toBytes, deref, Res.bind_ok, h]
    rfl
  cases withNonces
  all_goals
    show ((call throwIfError (toPack S (some b))) >>= array) = _
    rw [e]
    rfl

theorem bson_eq {withNonces : Bool} {b : CBallot} {d : List UInt8} (h : writeBson (b.toDoc S withNonces) = .ok d) :
    csToBson S withNonces (some b) = array d := by
  have e : (if withNonces then toBsonNonces S (some b) else toBson S (some b)) = .ok (.success, some d) := by
    cases withNonces
    · simp only [toBson, toBytes, deref, Res.bind_ok, h, Bool.false_eq_true, if_false]
      rfl
    · simp only [toBsonNonces, toBytes, deref, Res.bind_ok, h, if_true]
      rfl
  show ((call throwIfError (if withNonces then toBsonNonces S (some b) else toBson S (some b))) >>= array) = _
  rw [e]
  rfl

theorem verdict (hG : G.Valid) (withNonces : Bool) (b : CBallot) (h : b.Readable G withNonces) (ho : b.Ordered)
    (manifest pub ext : Option (Option ℕ)) :
    CJson.isValidEncryption G C S (some (b.read S withNonces)) manifest pub ext =
      CJson.isValidEncryption G C S (some b) manifest pub ext := by
  have key : ∀ mh k x, (b.read S withNonces).isValid G C S mh k x = b.isValid G C S mh k x := by
    intro mh k x
    obtain ⟨t, ht, hr⟩ := C47_ballot_partial hG S withNonces b h
    obtain ⟨t1, b1, ht1, hr1, hv, -⟩ := C47_valid_partial hG C S withNonces b h ho.1 ho.2 mh k x
    obtain rfl : t = t1 := Res.ok.inj (ht.symm.trans ht1)
    obtain rfl : b.read S withNonces = b1 := Res.ok.inj (hr.symm.trans hr1)
    exact hv
  rcases manifest with _ | _ | mh <;> rcases pub with _ | _ | k <;> rcases ext with _ | _ | x
  all_goals first
    | rfl
    | (show CProof.callBool (CJson.cipherValid G C S (some (b.read S withNonces)) (some mh) (some k) (some x)) =
        CProof.callBool (CJson.cipherValid G C S (some b) (some mh) (some k) (some x))
       simp only [CJson.cipherValid, deref, Res.bind_ok, key])

/-- `ToMsgPack` without nonces, read by another program: the ballot that arrives has the code, the id and the verdict of
the ballot sent, if the bytes fit in an array of C#.  Missing: ballots with an element that is zero or bytes that begin
with zero, as in C47. -/
theorem C137_msgpack_partial (hG : G.Valid) (b : CBallot) (h : b.Readable G false) (ho : b.Ordered)
    (manifest pub ext : Option (Option ℕ)) :
    ∃ d, csToMsgPack S false (some b) = array d ∧ (d.length < 2 ^ 31 → ∃ b', csToMsgPack S false (some b) = .ok d ∧
      newBytes G (some d) .msgPack = some (.ok b') ∧ b'.objectId = b.objectId ∧ b'.ballotCode = b.ballotCode ∧
      CJson.isValidEncryption G C S (some b') manifest pub ext =
        CJson.isValidEncryption G C S (some b) manifest pub ext) := by
  obtain ⟨d, hd, hr⟩ := C95_ballot_partial hG S false b h
  refine ⟨d, pack_eq hd, fun hl => ⟨b.read S false, (pack_eq hd).trans (array_ok hl), ?_, rfl, rfl, ?_⟩⟩
  · have hr := hr (by omega)
    simp only [newBytes, reduceCtorEq, if_false, fromPack, hr]
    rfl
  · exact verdict hG false b h ho manifest pub ext

/-- `ToBson`, with or without nonces: what it gives is read as the ballot, with nonces if it was asked for them. -/
theorem C137_bson_partial (hG : G.Valid) (withNonces : Bool) (b : CBallot) (h : b.Readable G withNonces) (ho : b.Ordered)
    (d : List UInt8) (hd : csToBson S withNonces (some b) = .ok d) (manifest pub ext : Option (Option ℕ)) :
    ∃ b', newBytes G (some d) .bson = some (.ok b') ∧ b'.objectId = b.objectId ∧ b'.ballotCode = b.ballotCode ∧
      b'.nonce = (if withNonces then b.nonce else some 0) ∧
      CJson.isValidEncryption G C S (some b') manifest pub ext =
        CJson.isValidEncryption G C S (some b) manifest pub ext := by
  have hw : writeBson (b.toDoc S withNonces) = .ok d ∧ d.length < 2 ^ 31 := by
    cases hx : writeBson (b.toDoc S withNonces) with
    | ok t =>
      rw [bson_eq hx] at hd
      unfold array at hd
      split at hd
      · cases hd
      · cases hd
        exact ⟨rfl, by omega⟩
    | throw e =>
      exfalso
      cases withNonces
      · have e1 : toBson S (some b) = .ok (.badAlloc, none) := by
          simp only [toBson, toBytes, deref, Res.bind_ok, hx]
          rfl
        have : csToBson S false (some b) = .throw .outOfMemory := by
          show ((call throwIfError (toBson S (some b))) >>= array) = _
          rw [e1]
          rfl
        rw [this] at hd
        cases hd
      · have e1 : toBsonNonces S (some b) = .ok (.badAlloc, none) := by
          simp only [toBsonNonces, toBytes, deref, Res.bind_ok, hx]
          rfl
        have : csToBson S true (some b) = .throw .outOfMemory := by
          show ((call throwIfError (toBsonNonces S (some b))) >>= array) = _
          rw [e1]
          rfl
        rw [this] at hd
        cases hd
    | ub =>
      exfalso
      cases withNonces
      · have e1 : toBson S (some b) = .ub := by
          simp only [toBson, toBytes, deref, Res.bind_ok, hx]
          rfl
        have : csToBson S false (some b) = .ub := by
          show ((call throwIfError (toBson S (some b))) >>= array) = _
          rw [e1]
          rfl
        rw [this] at hd
        cases hd
      · have e1 : toBsonNonces S (some b) = .ub := by
          simp only [toBsonNonces, toBytes, deref, Res.bind_ok, hx]
          rfl
        have : csToBson S true (some b) = .ub := by
          show ((call throwIfError (toBsonNonces S (some b))) >>= array) = _
          rw [e1]
          rfl
        rw [this] at hd
        cases hd
  have hr := C96_ballot_partial hG S withNonces b h d hw.1 hw.2
  refine ⟨b.read S withNonces, ?_, rfl, rfl, ?_, verdict hG withNonces b h ho manifest pub ext⟩
  · simp only [newBytes, if_true, fromBson, hr]
    rfl
  · cases withNonces <;> rfl

/-- `ToMsgPack` that is asked for nonces gives the bytes without nonces, for every ballot; so the nonces never reach the
receiver. -/
theorem C137_nonces_violated (hG : G.Valid) (b : CBallot) (h : b.Readable G false) :
    csToMsgPack S true (some b) = csToMsgPack S false (some b) ∧
    ∀ d b', csToMsgPack S true (some b) = .ok d → newBytes G (some d) .msgPack = some (.ok b') → b'.nonce = some 0 := by
  obtain ⟨d, hd, hr⟩ := C95_ballot_partial hG S false b h
  refine ⟨(pack_eq hd).trans (pack_eq hd).symm, fun d' b' h1 h2 => ?_⟩
  rw [pack_eq hd] at h1
  unfold array at h1
  split at h1
  · cases h1
  · cases h1
    simp only [newBytes, reduceCtorEq, if_false, fromPack, hr (by omega)] at h2
    cases h2
    rfl

/-- The bytes written without nonces tell nothing about them. -/
theorem C137_hidden (b b' : CBallot) (ho : b.Ordered) (ho' : b'.Ordered) (h : b.withoutNonces = b'.withoutNonces)
    (withNonces : Bool) :
    csToBson S false (some b) = csToBson S false (some b') ∧
    csToMsgPack S withNonces (some b) = csToMsgPack S withNonces (some b') := by
  have e : b.toDoc S false = b'.toDoc S false := by
    rw [← CJson.ballot_without b ho, h, CJson.ballot_without b' ho']
  have e1 : toBson S (some b) = toBson S (some b') := by
    simp only [toBson, toBytes, deref, Res.bind_ok, e]
  have e2 : toPack S (some b) = toPack S (some b') := by
    simp only [toPack, toBytes, deref, Res.bind_ok, e]
  constructor
  · show ((call throwIfError (toBson S (some b))) >>= array) = ((call throwIfError (toBson S (some b'))) >>= array)
    rw [e1]
  · cases withNonces
    all_goals
      show ((call throwIfError (toPack S (some b))) >>= array) = ((call throwIfError (toPack S (some b'))) >>= array)
      rw [e2]

/-- Null and disposed objects end with an exception, and any fault of the bytes is reported as lack of memory. -/
theorem C137_faults (withNonces : Bool) (encoding : Encoding) (d : List UInt8) :
    csToBson S withNonces none = .throw .argumentNull ∧ csToMsgPack S withNonces none = .throw .argumentNull ∧
    newBytes G none encoding = some (.throw .nullReference) ∧
    (∀ e, newBytes G (some d) encoding = some (.throw e) → e = .outOfMemory) ∧
    newBytes G (some []) encoding = some (.throw .outOfMemory) := by
  have key : ∀ (r : Option (Res CBallot)) (e : CGroup.Exn),
      (r.map (CGroup.caught .badAlloc)).map (call throwIfError) = some (.throw e) → e = .outOfMemory := by
    intro r e h
    rcases r with _ | r
    · cases h
    · cases r with
      | ok a => cases h
      | throw x => cases h; rfl
      | ub => cases h
  refine ⟨rfl, rfl, rfl, ?_, ?_⟩
  · intro e h
    cases encoding
    · exact key _ _ h
    · exact key _ _ h
  · cases encoding
    · rfl
    · rfl

/-! The hypotheses can be met. -/

example : wholeBallot.Readable .test true ∧ wholeBallot.Readable .test false ∧ wholeBallot.Ordered := by
  refine ⟨wholeBallot_readable true, wholeBallot_readable false, ?_⟩
  unfold CBallot.Ordered
  decide

/-- Both kinds of bytes are written for this ballot. -/
example : (∃ d, csToBson .insertion true (some wholeBallot) = .ok d) ∧
    (∃ d, csToBson .insertion false (some wholeBallot) = .ok d) ∧
    ∃ d, csToMsgPack .insertion true (some wholeBallot) = .ok d := by
  have key : ∀ r : Cs (List UInt8), (match r with | .ok _ => true | _ => false) = true → ∃ d, r = .ok d := by
    intro r h
    cases r with
    | ok d => exact ⟨d, rfl⟩
    | throw e => cases h
    | ub => cases h
  refine ⟨key _ ?_, key _ ?_, key _ ?_⟩
  all_goals decide +kernel

end EG.CBytes
