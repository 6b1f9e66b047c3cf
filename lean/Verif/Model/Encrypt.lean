import Verif.Model.Ballot
import Verif.Model.Json

/-!
# Encryption of ballots (src/electionguard/encrypt.cpp, election.cpp)

The order of effects is that of the code: numbers drawn from `rand_q`, entries taken from the
precompute buffers, readings of the clock.
-/

namespace EG

/-- `CiphertextElectionContext` (election.cpp), without the configuration and the extended data. -/
structure Context where
  numberOfGuardians : ℕ
  quorum : ℕ
  pub : ℕ
  commitmentHash : ℕ
  manifestHash : ℕ
  baseHash : ℕ
  extHash : ℕ
  deriving DecidableEq

/-- election.cpp:206-282 `CiphertextElectionContext::make`; the overloads differ only in what they
store besides. -/
def Context.make (G : Params) (C : Crypto) (numberOfGuardians quorum pub commitmentHash
    manifestHash : ℕ) : Context :=
  let baseHash := hashElems G C [.p G.p, .q G.q, .p G.g, .u64 numberOfGuardians, .u64 quorum,
    .q manifestHash]
  { numberOfGuardians, quorum, pub, commitmentHash, manifestHash, baseHash
    extHash := hashElems G C [.q baseHash, .q commitmentHash] }

/-- election.cpp:284-346: the overloads with hexadecimal arguments. -/
def Context.makeHex (G : Params) (C : Crypto) (numberOfGuardians quorum : ℕ)
    (pub commitmentHash manifestHash : List Char) : Res Context := do
  let k ← fromHexP G false pub
  let c ← fromHexQ G false commitmentHash
  let m ← fromHexQ G false manifestHash
  .ok (Context.make G C numberOfGuardians quorum k c m)

/-! ## Normalisation -/

/-- encrypt.cpp:189-195 `selectionFrom`. -/
def selectionFrom (d : SelectionDesc) (isPlaceholder isAffirmative : Bool) : PSelection :=
  { objectId := d.objectId, vote := if isAffirmative then 1 else 0, isPlaceholder, writeIn := [] }

/-- encrypt.cpp:197-205 `contestFrom`. -/
def contestFrom (S : StdSort) (d : ContestDesc) : PContest :=
  { objectId := d.objectId
    selections := (d.getSelections S).map (fun s => selectionFrom s false false) }

/-- encrypt.cpp:213-227: the body of the loop of `emplaceMissingValues` for a contest. -/
def emplaceSelection (c : PContest) (sd : SelectionDesc) : PSelection :=
  match c.selections.find? (fun s => s.objectId = sd.objectId) with
  | some s => s
  | none => selectionFrom sd false false

/-- encrypt.cpp:207-230 `emplaceMissingValues` for a contest. -/
def emplaceContest (S : StdSort) (c : PContest) (d : ContestDesc) : PContest :=
  { objectId := d.objectId, selections := (d.getSelections S).map (emplaceSelection c) }

/-- encrypt.cpp:239-252: the body of the loop of `emplaceMissingValues` for a ballot. -/
def emplaceFrom (S : StdSort) (b : PBallot) (d : ContestDescP) : PContest :=
  match b.contests.find? (fun c => c.objectId = d.desc.objectId) with
  | some c => emplaceContest S c d.desc
  | none => contestFrom S d.desc

/-- encrypt.cpp:232-256 `emplaceMissingValues` for a ballot: the style is dereferenced. -/
def emplaceBallot (S : StdSort) (b : PBallot) (m : IManifest) : Res PBallot :=
  match m.getBallotStyle b.styleId with
  | none => .ub
  | some style => do
    let descriptions ← m.getContestsFor S style.objectId
    .ok { objectId := b.objectId, styleId := b.styleId
          contests := descriptions.map (emplaceFrom S b) }

/-! ## Selections -/

/-- encrypt.cpp:276-321: the encryption before the check. -/
def encryptSelectionCore (G : Params) (C : Crypto) (s : PSelection) (d : SelectionDesc)
    (pub extHash nonceSeed : ℕ) (isPlaceholder : Bool) : M CSelection := do
  let descHash := d.hash G C
  let nonce := ((Nonces.makeWith G C descHash (.q nonceSeed)).get G C d.seq).1
  let pre ← M.getQuad
  match pre with
  | some t =>
    M.lift (CSelection.makePrecomputed G C s.objectId d.seq descHash
      (elgamalEncryptPrecomputed G s.vote t.triple1.gToExp t.triple1.pubkeyToExp) extHash s.vote t
      isPlaceholder)
  | none => do
    let ciphertext ← M.lift (elgamalEncrypt G s.vote nonce pub)
    CSelection.make G C s.objectId d.seq descHash ciphertext pub extHash s.vote isPlaceholder nonce

/-- encrypt.cpp:260-338 `encryptSelection`. -/
def encryptSelection (G : Params) (C : Crypto) (s : PSelection) (d : SelectionDesc)
    (pub extHash nonceSeed : ℕ) (isPlaceholder verify : Bool) : M CSelection :=
  if !s.isValid d.objectId then M.raise .invalidArgument
  else do
    let encrypted ← encryptSelectionCore G C s d pub extHash nonceSeed isPlaceholder
    if !verify then M.ret encrypted
    else if encrypted.isValid G C (d.hash G C) pub extHash then M.ret encrypted
    else M.raise .runtimeError

/-! ## Overvotes and write-ins

The JSON texts built by nlohmann::json (objects are ordered maps, `dump()` without indentation). -/

/-- encrypt.cpp:366-374: the selections of the last contest of the manifest with the id. -/
def manifestSelections (S : StdSort) (m : IManifest) (contestId : Str) : List SelectionDesc :=
  (m.getContests S).foldl (fun acc c =>
    if contestId = c.desc.objectId then c.desc.getSelections S else acc) []

/-- encrypt.cpp:376-394: the write-ins, by selection id. -/
def writeInsOf (S : StdSort) (m : IManifest) (c : PContest) : List (Str × Str) :=
  let ballotSelections := manifestSelections S m c.objectId
  c.selections.foldl (fun acc s =>
    if s.vote = 1 then
      ballotSelections.foldl (fun acc bs =>
        if s.objectId = bs.objectId then
          m.candidates.foldl (fun acc cand =>
            if bs.candidateId = cand.objectId then
              if cand.isWriteIn then mapSet acc s.objectId s.writeIn else acc
            else acc) acc
        else acc) acc
    else acc) []

/-- encrypt.cpp:340-405 `getOvervoteAndWriteIns`. -/
def overvoteAndWriteIns (S : StdSort) (m : IManifest) (c : PContest) (check : ContestCheck) : Str :=
  let error : List (Str × Str) :=
    if check = .overvote then
      let data := (c.selections.filter (fun s => s.vote = 1)).map (·.objectId)
      [("error".toList, dumpStr "overvote".toList),
       ("error_data".toList, if data.isEmpty then "null".toList else dumpStrs data)]
    else []
  let writeIns := writeInsOf S m c
  let members := error ++
    (if writeIns.isEmpty then []
     else [("write_ins".toList, dumpObj (writeIns.map (fun e => (e.1, dumpStr e.2))))])
  if members.isEmpty then [] else dumpObj members

/-! ## Contests -/

/-- encrypt.cpp:453-482: the loop over the real selections; `count` is `selectionCount`. -/
def encryptReal (G : Params) (C : Crypto) (pub extHash contestNonce : ℕ) (verify overvote : Bool)
    (normalized : List PSelection) : List SelectionDesc → ℕ → M (List CSelection × ℕ)
  | [], count => M.ret ([], count)
  | d :: rest, count =>
    match normalized.find? (fun s => s.objectId = d.objectId) with
    | none => M.raise .runtimeError
    | some s => do
      let s := if overvote then { objectId := s.objectId, vote := 0, isPlaceholder := false
                                  writeIn := [] } else s
      let e ← encryptSelection G C s d pub extHash contestNonce false verify
      let r ← encryptReal G C pub extHash contestNonce verify overvote normalized rest
        ((count + s.vote) % 2 ^ 64)
      M.ret (e :: r.1, r.2)

/-- encrypt.cpp:487-506: the loop over the placeholders. -/
def encryptPlaceholders (G : Params) (C : Crypto) (pub extHash contestNonce : ℕ)
    (verify overvote : Bool) (numberElected : ℕ) : List SelectionDesc → ℕ → M (List CSelection)
  | [], _ => M.ret []
  | d :: rest, count => do
    let select := overvote || decide (count < numberElected)
    let count' := if overvote then count
      else if count < numberElected then (count + 1) % 2 ^ 64 else count
    let e ← encryptSelection G C (selectionFrom d true select) d pub extHash contestNonce true verify
    let r ← encryptPlaceholders G C pub extHash contestNonce verify overvote numberElected rest count'
    M.ret (e :: r)

/-- encrypt.cpp:510. -/
def extendedDataHeader : Str := "constant-extended-data".toList

/-- encrypt.cpp:508-518: the extended data of a contest.  With truncation allowed the call cannot
throw before it takes the triple. -/
def encryptExtended (G : Params) (C : Crypto) (data : Str) (contestNonce pub extHash : ℕ) :
    M HashedCiphertext := do
  let nonce := ((Nonces.makeWith G C contestNonce (.str extendedDataHeader)).get G C 0).1
  let triple ← M.getTriple
  M.lift (hashedEncrypt G C (triple.map (fun t => (t.gToExp, t.pubkeyToExp))) data.bytes nonce pub
    extHash bytes512 true)

/-- encrypt.cpp:407-550 `encryptContest`. -/
def encryptContest (G : Params) (C : Crypto) (S : StdSort) (c : PContest) (m : IManifest)
    (d : ContestDescP) (pub extHash nonceSeed : ℕ) (verify : Bool) : M CContest :=
  let check := c.isValid d.desc.objectId (d.desc.getSelections S).length d.desc.numberElected
    d.desc.votesAllowed true
  if check ≠ .success ∧ check ≠ .overvote then M.raise .invalidArgument
  else do
    let descHash ← M.lift (d.desc.hash G C)
    let nonces := Nonces.makeWith G C descHash (.q nonceSeed)
    let contestNonce := (nonces.get G C d.desc.seq).1
    let proofNonce := ((nonces.get G C d.desc.seq).2.next G C).1
    let data := overvoteAndWriteIns S m c check
    let overvote := decide (check = .overvote)
    let normalized := emplaceContest S c d.desc
    let real ← encryptReal G C pub extHash contestNonce verify overvote normalized.selections
      (d.desc.getSelections S) 0
    let placeholders ← encryptPlaceholders G C pub extHash contestNonce verify overvote
      d.desc.numberElected (d.getPlaceholders S) real.2
    let extended ← encryptExtended G C data contestNonce pub extHash
    let encrypted ← CContest.make G C S c.objectId d.desc.seq descHash (real.1 ++ placeholders) pub
      extHash proofNonce d.desc.numberElected (some contestNonce) (some extended)
    if !verify then M.ret encrypted
    else do
      let valid ← M.lift (encrypted.isValid G C S descHash pub extHash)
      if valid then M.ret encrypted else M.raise .runtimeError

/-! ## Ballots -/

/-- encrypt.cpp:552-583 `encryptContests`: the style is dereferenced. -/
def encryptContests (G : Params) (C : Crypto) (S : StdSort) (b : PBallot) (m : IManifest)
    (ctx : Context) (nonceSeed : ℕ) (verify : Bool) : M (List CContest) := do
  let normalized ← M.lift (emplaceBallot S b m)
  match m.getBallotStyle b.styleId with
  | none => M.lift .ub
  | some style => do
    let descriptions ← M.lift (m.getContestsFor S style.objectId)
    M.forEach (fun d : ContestDescP =>
      match normalized.contests.find? (fun c => c.objectId = d.desc.objectId) with
      | some c => encryptContest G C S c m d ctx.pub ctx.extHash nonceSeed verify
      | none => M.raise .runtimeError) descriptions

/-- encrypt.cpp:599-602: a nonce is drawn if none is given. -/
def nonceOr (nonce : Option ℕ) : M ℕ :=
  match nonce with
  | some n => M.ret n
  | none => M.rand

/-- encrypt.cpp:617-620: the clock is read if no time is given. -/
def timestampOr (timestamp : ℕ) : M ℕ := if timestamp = 0 then M.now else M.ret timestamp

/-- encrypt.cpp:585-646 `encryptBallot`. -/
def encryptBallot (G : Params) (C : Crypto) (S : StdSort) (b : PBallot) (m : IManifest)
    (ctx : Context) (encryptionSeed : ℕ) (nonce : Option ℕ) (timestamp : ℕ) (verify : Bool) :
    M CBallot :=
  match m.getBallotStyle b.styleId with
  | none => M.raise .invalidArgument
  | some _ => do
    let nonce ← nonceOr nonce
    let nonceSeed := nonceSeedOf G C m.manifestHash b.objectId nonce
    let contests ← encryptContests G C S b m ctx nonceSeed verify
    let timestamp ← timestampOr timestamp
    let encrypted ← CBallot.make G C b.objectId b.styleId m.manifestHash contests (some nonce)
      timestamp (some encryptionSeed) none
    if !verify then M.ret encrypted
    else do
      let valid ← M.lift (encrypted.isValid G C S m.manifestHash ctx.pub ctx.extHash)
      if valid then M.ret encrypted else M.raise .runtimeError

/-! ## Compact ballots (src/electionguard/ballot_compact.cpp) -/

/-- `CompactPlaintextBallot` (ballot_compact.cpp:32-44). -/
structure CompactPlain where
  objectId : Str
  styleId : Str
  selections : List ℕ
  writeIns : List Str
  deriving DecidableEq

/-- `CompactCiphertextBallot` (ballot_compact.cpp:113-130); the pointers are never null in objects
made by the library. -/
structure CompactCipher where
  plaintext : CompactPlain
  state : BallotBoxState
  ballotCodeSeed : ℕ
  ballotCode : ℕ
  timestamp : ℕ
  nonce : ℕ
  deriving DecidableEq

/-- ballot_compact.cpp:232-248 `compressPlaintextBallot`. -/
def compressPlain (b : PBallot) : CompactPlain :=
  { objectId := b.objectId, styleId := b.styleId
    selections := b.contests.flatMap (fun c => c.selections.map (·.vote))
    writeIns := b.contests.flatMap (fun c => c.selections.map (·.writeIn)) }

/-- ballot_compact.cpp:250-271 `compressCiphertextBallot`; `clone` of an element checks it. -/
def compressCipher (G : Params) (b : PBallot) (c : CBallot) : Res CompactCipher :=
  match c.nonce with
  | none => .throw .invalidArgument
  | some n => do
    let seed ← cloneQ G c.ballotCodeSeed
    let code ← cloneQ G c.ballotCode
    let nonce ← cloneQ G n
    .ok { plaintext := compressPlain b, state := .unknown, ballotCodeSeed := seed
          ballotCode := code, timestamp := c.timestamp, nonce := nonce }

/-- The inner loop of ballot_compact.cpp:288-297, with `at` on both vectors. -/
def expandSelections (p : CompactPlain) : List SelectionDesc → ℕ → Res (List PSelection)
  | [], _ => .ok []
  | d :: rest, index =>
    match p.selections[index]? with
    | none => .throw .outOfRange
    | some vote =>
      match p.writeIns[index]? with
      | none => .throw .outOfRange
      | some writeIn => do
        let r ← expandSelections p rest (index + 1)
        .ok ({ objectId := d.objectId, vote, isPlaceholder := false, writeIn } :: r)

/-- The loop of ballot_compact.cpp:284-301. -/
def expandContests (S : StdSort) (p : CompactPlain) : List ContestDescP → ℕ → Res (List PContest)
  | [], _ => .ok []
  | d :: rest, index => do
    let sels ← expandSelections p (d.desc.getSelections S) index
    let r ← expandContests S p rest (index + (d.desc.getSelections S).length)
    .ok ({ objectId := d.desc.objectId, selections := sels } :: r)

/-- ballot_compact.cpp:277-305 `expandCompactPlaintextBallot`. -/
def expandPlain (S : StdSort) (p : CompactPlain) (m : IManifest) : Res PBallot := do
  let descriptions ← m.getContestsFor S p.styleId
  let contests ← expandContests S p descriptions 0
  .ok { objectId := p.objectId, styleId := p.styleId, contests }

/-- ballot_compact.cpp:307-337 `expandCompactCiphertextBallot`; `shouldVerifyProofs` has its default
value. -/
def expandCipher (G : Params) (C : Crypto) (S : StdSort) (c : CompactCipher) (m : IManifest)
    (ctx : Context) : M CBallot := do
  let plaintext ← M.lift (expandPlain S c.plaintext m)
  let nonce ← M.lift (cloneQ G c.nonce)
  let ciphertext ← encryptBallot G C S plaintext m ctx c.ballotCodeSeed (some nonce) c.timestamp true
  if ciphertext.ballotCode ≠ c.ballotCode then M.raise .runtimeError
  else M.ret ciphertext

/-- encrypt.cpp:648-659 `encryptCompactBallot`. -/
def encryptCompactBallot (G : Params) (C : Crypto) (S : StdSort) (b : PBallot) (m : IManifest)
    (ctx : Context) (ballotCodeSeed : ℕ) (nonce : Option ℕ) (timestamp : ℕ) (verify : Bool) :
    M CompactCipher := do
  let normalized ← M.lift (emplaceBallot S b m)
  let ciphertext ← encryptBallot G C S normalized m ctx ballotCodeSeed nonce timestamp verify
  M.lift (compressCipher G normalized ciphertext)

/-! ## Devices and mediators -/

/-- `EncryptionDevice` (encrypt.cpp:38-51). -/
structure Device where
  deviceUuid : ℕ
  sessionUuid : ℕ
  launchCode : ℕ
  location : Str
  deriving DecidableEq

/-- encrypt.cpp:70-74 `getHash`. -/
def Device.hash (G : Params) (C : Crypto) (d : Device) : ℕ :=
  hashForDevice G C d.deviceUuid d.sessionUuid d.launchCode d.location

/-- `EncryptionMediator` (encrypt.cpp:102-115). -/
structure Mediator where
  manifest : IManifest
  context : Context
  device : Device
  ballotCodeSeed : Option ℕ

/-- encrypt.cpp:117-127: the constructor. -/
def Mediator.make (m : IManifest) (ctx : Context) (d : Device) : Res Mediator :=
  if toHexQ m.manifestHash ≠ toHexQ ctx.manifestHash then .throw .invalidArgument
  else .ok { manifest := m, context := ctx, device := d, ballotCodeSeed := none }

/-- The seed used for the next ballot (encrypt.cpp:147-151, 172-176). -/
def Mediator.seed (G : Params) (C : Crypto) (md : Mediator) : ℕ :=
  match md.ballotCodeSeed with
  | some s => s
  | none => md.device.hash G C

/-- encrypt.cpp:137-160 `EncryptionMediator::encrypt`: the mediator keeps the seed it has set even if
the encryption fails. -/
def Mediator.encrypt (G : Params) (C : Crypto) (S : StdSort) (md : Mediator) (b : PBallot)
    (verify : Bool) (w : World) : Res CBallot × Mediator × World :=
  let seed := md.seed G C
  let md := { md with ballotCodeSeed := some seed }
  match (do
      let timestamp ← M.now
      encryptBallot G C S b md.manifest md.context seed none timestamp verify : M CBallot) w with
  | (.ok e, w') => (.ok e, { md with ballotCodeSeed := some e.ballotCode }, w')
  | (r, w') => (r, md, w')

/-- encrypt.cpp:162-185 `EncryptionMediator::compactEncrypt`. -/
def Mediator.compactEncrypt (G : Params) (C : Crypto) (S : StdSort) (md : Mediator) (b : PBallot)
    (verify : Bool) (w : World) : Res CompactCipher × Mediator × World :=
  let seed := md.seed G C
  let md := { md with ballotCodeSeed := some seed }
  match (do
      let timestamp ← M.now
      encryptCompactBallot G C S b md.manifest md.context seed none timestamp verify :
        M CompactCipher) w with
  | (.ok e, w') => (.ok e, { md with ballotCodeSeed := some e.ballotCode }, w')
  | (r, w') => (r, md, w')

end EG
