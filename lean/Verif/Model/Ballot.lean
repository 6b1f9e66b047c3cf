import Verif.Model.Manifest
import Verif.Model.ChaumPedersen
import Verif.Model.HashedElGamal

/-!
# Ballots (src/electionguard/ballot.cpp, ballot_code.cpp)

Pointers the constructors always fill are not nullable here: description hashes, ciphertexts,
crypto hashes, the accumulation.  Nonces, proofs and the hashed ElGamal ciphertext may be null.  The
unused field `extendedData` of encrypted selections is left out (the library only ever stores null in
it), and so is logging.  The number of elements of a vector is taken to be less than `2^64`.
-/

namespace EG

/-! ## Plaintext ballots -/

/-- `PlaintextBallotSelection` (ballot.cpp:65-84). -/
structure PSelection where
  objectId : Str
  vote : ℕ
  isPlaceholder : Bool
  writeIn : Str
  deriving DecidableEq

/-- `PlaintextBallotContest` (ballot.cpp:395-414). -/
structure PContest where
  objectId : Str
  selections : List PSelection
  deriving DecidableEq

/-- `PlaintextBallot` (ballot.cpp:803-825). -/
structure PBallot where
  objectId : Str
  styleId : Str
  contests : List PContest
  deriving DecidableEq

/-- ballot.cpp:123-135 `PlaintextBallotSelection::isValid`. -/
def PSelection.isValid (s : PSelection) (expectedId : Str) : Bool :=
  if s.objectId ≠ expectedId then false
  else if s.vote > 1 then false
  else true

/-- `eg_valid_contest_return_type_t` (ballot.hpp:333-339), by value: two of the enumerators are
equal. -/
inductive ContestCheck where
  | success | overvote | value2 | tooManySelections
  deriving DecidableEq, Repr

/-- `OVERVOTE_ERROR = 2`. -/
abbrev ContestCheck.overvoteError : ContestCheck := .value2

/-- `INVALID_OBJECT_ID_ERROR = 2`. -/
abbrev ContestCheck.invalidObjectId : ContestCheck := .value2

/-- The loop of ballot.cpp:482-487, with the counters `numberElected` and `votes` (`uint64_t`). -/
def countVotes : List PSelection → ℕ → ℕ → ℕ × ℕ
  | [], numberElected, votes => (numberElected, votes)
  | s :: rest, numberElected, votes =>
    countVotes rest (if s.vote ≥ 1 then numberElected + 1 else numberElected)
      ((votes + s.vote) % 2 ^ 64)

/-- ballot.cpp:464-514 `PlaintextBallotContest::isValid`. -/
def PContest.isValid (c : PContest) (expectedId : Str) (expectedSelections expectedElected
    votesAllowed : ℕ) (supportOvervotes : Bool) : ContestCheck :=
  if c.objectId ≠ expectedId then .invalidObjectId
  else if c.selections.length > expectedSelections then .tooManySelections
  else
    let counts := countVotes c.selections 0 0
    if counts.1 > expectedElected then
      if supportOvervotes then .overvote else .overvoteError
    else
      let votesAllowed := if votesAllowed = 0 then expectedElected else votesAllowed
      if counts.2 > votesAllowed then
        if supportOvervotes then .overvote else .overvoteError
      else .success

/-! ## Encrypted selections -/

/-- `CiphertextBallotSelection` (ballot.cpp:147-189). -/
structure CSelection where
  objectId : Str
  seq : ℕ
  descHash : ℕ
  ciphertext : Ciphertext
  isPlaceholder : Bool
  nonce : Option ℕ
  cryptoHash : ℕ
  proof : Option DisjProof
  deriving DecidableEq

/-- ballot.cpp:382-389 `makeCryptoHash`. -/
def selectionHash (G : Params) (C : Crypto) (objectId : Str) (seed : ℕ) (c : Ciphertext) : ℕ :=
  hashElems G C [.str objectId, .q seed, .q (c.hash G C)]

/-- chaum_pedersen.cpp:142-156, 306-335, 410-438 `DisjunctiveChaumPedersenProof::make` without seed:
three numbers are drawn after the check of the plaintext. -/
def disjMakeM (G : Params) (C : Crypto) (message : Ciphertext) (r k header plaintext : ℕ) :
    M DisjProof :=
  if plaintext > 1 then M.raise .invalidArgument
  else do
    let u ← M.rand
    let v ← M.rand
    let w ← M.rand
    M.lift (disjMake G C message r k header plaintext u v w)

/-- ballot.cpp:261-285 `CiphertextBallotSelection::make` with `computeProof` and without hash. -/
def CSelection.make (G : Params) (C : Crypto) (objectId : Str) (seq descHash : ℕ)
    (ciphertext : Ciphertext) (pub extHash plaintext : ℕ) (isPlaceholder : Bool) (nonce : ℕ) :
    M CSelection := do
  let proof ← disjMakeM G C ciphertext nonce pub extHash plaintext
  M.ret { objectId, seq, descHash, ciphertext, isPlaceholder, nonce := some nonce
          cryptoHash := selectionHash G C objectId descHash ciphertext
          proof := some proof }

/-- ballot.cpp:287-309 `CiphertextBallotSelection::make` with a seed for the proof and without hash
and proof. -/
def CSelection.makeSeeded (G : Params) (C : Crypto) (objectId : Str) (seq descHash : ℕ)
    (ciphertext : Ciphertext) (pub extHash proofSeed plaintext : ℕ) (isPlaceholder : Bool)
    (nonce : Option ℕ) : Res CSelection := do
  let proof ← match nonce with
    | none => .ok none
    | some n => do
      let π ← disjMakeSeeded G C ciphertext n pub extHash proofSeed plaintext
      .ok (some π)
  .ok { objectId, seq, descHash, ciphertext, isPlaceholder, nonce
        cryptoHash := selectionHash G C objectId descHash ciphertext
        proof := proof }

/-- ballot.cpp:311-344 `make_with_precomputed` with `computeProof` and without hash. -/
def CSelection.makePrecomputed (G : Params) (C : Crypto) (objectId : Str) (seq descHash : ℕ)
    (ciphertext : Ciphertext) (extHash plaintext : ℕ) (t : TwoTriplesQuad) (isPlaceholder : Bool) :
    Res CSelection := do
  let proof ← disjMakePrecomputed G C ciphertext t extHash plaintext
  .ok { objectId, seq, descHash, ciphertext, isPlaceholder, nonce := some t.triple1.exp
        cryptoHash := selectionHash G C objectId descHash ciphertext
        proof := some proof }

/-- ballot.cpp:354-378 `CiphertextBallotSelection::isValidEncryption`. -/
def CSelection.isValid (G : Params) (C : Crypto) (s : CSelection) (seed pub extHash : ℕ) : Bool :=
  if seed ≠ s.descHash then false
  else if s.cryptoHash ≠ selectionHash G C s.objectId seed s.ciphertext then false
  else
    match s.proof with
    | none => false
    | some π => π.isValid G C s.ciphertext pub extHash

/-- ballot.cpp:172-185 `clone`: the nonce and the proof are dereferenced. -/
def CSelection.clone (s : CSelection) : Res CSelection :=
  match s.nonce, s.proof with
  | some n, some π => .ok { s with nonce := some n, proof := some π.copy }
  | _, _ => .ub

/-! ## Encrypted contests -/

/-- `CiphertextBallotContest` (ballot.cpp:520-563). -/
structure CContest where
  objectId : Str
  seq : ℕ
  descHash : ℕ
  selections : List CSelection
  nonce : Option ℕ
  accumulation : Ciphertext
  cryptoHash : ℕ
  proof : Option ConstProof
  extended : Option HashedCiphertext
  deriving DecidableEq

/-- ballot.cpp:602-617 `getSelections`. -/
def CContest.getSelections (S : StdSort) (c : CContest) : List CSelection :=
  S.sort CSelection.seq c.selections

/-- ballot.cpp:784-797 `makeCryptoHash`. -/
def contestHash (G : Params) (C : Crypto) (objectId : Str) (selections : List CSelection)
    (seed : ℕ) : Res ℕ :=
  if selections.isEmpty then .throw .invalidArgument
  else .ok (hashElems G C (.str objectId :: .q seed :: selections.map (fun s => .q s.cryptoHash)))

/-- ballot.cpp:773-782 `elgamalAccumulate`. -/
def accumulate (G : Params) (selections : List CSelection) : Res Ciphertext :=
  elgamalAdd G (selections.map (·.ciphertext))

/-- `*selection.get().getNonce()` (ballot.cpp:767). -/
def CSelection.nonceOf (s : CSelection) : Res ℕ :=
  match s.nonce with
  | some n => .ok n
  | none => .ub

/-- ballot.cpp:762-771 `aggregateNonce`: the nonces are dereferenced. -/
def aggregateNonce (G : Params) (selections : List CSelection) : Res ℕ := do
  let nonces ← mapRes CSelection.nonceOf selections
  addModQVec G nonces

/-- ballot.cpp:648-686 `CiphertextBallotContest::make` without hash and proof. -/
def CContest.make (G : Params) (C : Crypto) (S : StdSort) (objectId : Str) (seq descHash : ℕ)
    (selections : List CSelection) (pub extHash proofSeed numberElected : ℕ) (nonce : Option ℕ)
    (extended : Option HashedCiphertext) : M CContest := do
  let sorted := S.sort CSelection.seq selections
  let cryptoHash ← M.lift (contestHash G C objectId sorted descHash)
  let accumulation ← M.lift (accumulate G sorted)
  let aggregate ← M.lift (aggregateNonce G sorted)
  let triple ← M.getTriple
  let proof ← M.lift (constMake G C triple accumulation aggregate pub proofSeed extHash numberElected)
  M.ret { objectId, seq, descHash, selections, nonce, accumulation, cryptoHash
          proof := some proof
          extended }

/-- ballot.cpp:700-758 `CiphertextBallotContest::isValidEncryption`: a missing proof is noticed, and
dereferenced nevertheless. -/
def CContest.isValid (G : Params) (C : Crypto) (S : StdSort) (c : CContest)
    (seed pub extHash : ℕ) : Res Bool := do
  let consistentSeed := decide (seed = c.descHash)
  let hash ← contestHash G C c.objectId (c.getSelections S) seed
  let consistentHash := decide (c.cryptoHash = hash)
  let computed ← accumulate G (c.getSelections S)
  let consistentAccumulation := decide (c.accumulation = computed)
  match c.proof with
  | none => .ub
  | some π => do
    let validProof ← π.isValid G C computed pub extHash
    .ok (consistentSeed && consistentHash && true && consistentAccumulation && validProof)

/-- ballot.cpp:544-562 `clone`: the nonce, the proof and the hashed ElGamal ciphertext are
dereferenced. -/
def CContest.clone (c : CContest) : Res CContest := do
  let selections ← mapRes CSelection.clone c.selections
  match c.nonce, c.proof, c.extended with
  | some n, some π, some e =>
    .ok { c with selections, nonce := some n, proof := some π, extended := some e }
  | _, _, _ => .ub

/-! ## Encrypted ballots -/

/-- `CiphertextBallot` (ballot.cpp:898-941). -/
structure CBallot where
  objectId : Str
  styleId : Str
  manifestHash : ℕ
  ballotCodeSeed : ℕ
  contests : List CContest
  ballotCode : ℕ
  timestamp : ℕ
  nonce : Option ℕ
  cryptoHash : ℕ
  deriving DecidableEq

/-- ballot.cpp:974-989 `getContests`. -/
def CBallot.getContests (S : StdSort) (b : CBallot) : List CContest :=
  S.sort CContest.seq b.contests

/-- ballot.cpp:1135-1149 `makeCryptoHash`. -/
def ballotHash (G : Params) (C : Crypto) (objectId : Str) (contests : List CContest)
    (manifestHash : ℕ) : Res ℕ :=
  if contests.isEmpty then .throw .invalidArgument
  else .ok (hashElems G C
    (.str objectId :: .q manifestHash :: contests.map (fun c => .q c.cryptoHash)))

/-- ballot_code.cpp:16-21 `getHashForDevice`. -/
def hashForDevice (G : Params) (C : Crypto) (device session launch : ℕ) (location : Str) : ℕ :=
  hashElems G C [.u64 device, .u64 session, .u64 launch, .str location]

/-- ballot_code.cpp:23-28 `getBallotCode`. -/
def ballotCodeOf (G : Params) (C : Crypto) (seed timestamp hash : ℕ) : ℕ :=
  hashElems G C [.q seed, .u64 timestamp, .q hash]

/-- ballot.cpp:1009-1044 `CiphertextBallot::make`. -/
def CBallot.make (G : Params) (C : Crypto) (objectId styleId : Str) (manifestHash : ℕ)
    (contests : List CContest) (nonce : Option ℕ) (timestamp : ℕ) (ballotCodeSeed : Option ℕ)
    (ballotCode : Option ℕ) : M CBallot := do
  if contests.isEmpty then M.raise .invalidArgument
  else
    let cryptoHash ← M.lift (ballotHash G C objectId contests manifestHash)
    let ballotTimestamp ← if timestamp = 0 then M.now else M.ret timestamp
    let seed := ballotCodeSeed.getD manifestHash
    let code := ballotCode.getD (ballotCodeOf G C seed ballotTimestamp cryptoHash)
    M.ret { objectId, styleId, manifestHash, ballotCodeSeed := seed, contests, ballotCode := code
            timestamp := ballotTimestamp, nonce, cryptoHash }

/-- ballot.cpp:1046-1051 `nonceSeed`. -/
def nonceSeedOf (G : Params) (C : Crypto) (manifestHash : ℕ) (objectId : Str) (nonce : ℕ) : ℕ :=
  hashElems G C [.q manifestHash, .str objectId, .q nonce]

/-- `unordered_map::operator[]` followed by an assignment. -/
def mapPut {V : Type} (m : List (Str × V)) (key : Str) (v : V) : List (Str × V) :=
  (key, v) :: m.filter (fun e => e.1 ≠ key)

/-- The key of a selection (ballot.cpp:1078). -/
def proofKey (contestId selectionId : Str) : Str := contestId ++ '-' :: selectionId

/-- The inner loop of ballot.cpp:1077-1081. -/
def selectionChecks (G : Params) (C : Crypto) (pub extHash : ℕ) (contestId : Str) :
    List CSelection → List (Str × Bool) → List (Str × Bool)
  | [], m => m
  | s :: rest, m => selectionChecks G C pub extHash contestId rest
      (mapPut m (proofKey contestId s.objectId) (s.isValid G C s.descHash pub extHash))

/-- The loop of ballot.cpp:1076-1085. -/
def contestChecks (G : Params) (C : Crypto) (S : StdSort) (pub extHash : ℕ) :
    List CContest → List (Str × Bool) → Res (List (Str × Bool))
  | [], m => .ok m
  | c :: rest, m => do
    let m := selectionChecks G C pub extHash c.objectId (c.getSelections S) m
    let valid ← c.isValid G C S c.descHash pub extHash
    contestChecks G C S pub extHash rest (mapPut m c.objectId valid)

/-- ballot.cpp:1055-1096 `CiphertextBallot::isValidEncryption`. -/
def CBallot.isValid (G : Params) (C : Crypto) (S : StdSort) (b : CBallot)
    (manifestHash pub extHash : ℕ) : Res Bool :=
  if manifestHash ≠ b.manifestHash then .ok false
  else do
    let hash ← ballotHash G C b.objectId (b.getContests S) manifestHash
    if b.cryptoHash ≠ hash then .ok false
    else
      let checks ← contestChecks G C S pub extHash (b.getContests S) []
      .ok (checks.all (·.2))

/-- ballot.cpp:922-938 `clone`: the nonce is dereferenced. -/
def CBallot.clone (b : CBallot) : Res CBallot := do
  let contests ← mapRes CContest.clone b.contests
  match b.nonce with
  | some n => .ok { b with contests, nonce := some n }
  | none => .ub

/-! ## Submitted ballots -/

/-- `SubmittedBallot` (ballot.cpp:1153-1180): a ballot and a state. -/
structure SBallot where
  ballot : CBallot
  state : BallotBoxState
  deriving DecidableEq

/-- ballot.cpp:1194-1199 `SubmittedBallot::from`. -/
def SBallot.from (b : CBallot) (state : BallotBoxState) : Res SBallot := do
  let b ← b.clone
  .ok { ballot := b, state }

/-- ballot.cpp:1201-1218 `SubmittedBallot::make`. -/
def SBallot.make (G : Params) (C : Crypto) (objectId styleId : Str) (manifestHash : ℕ)
    (contests : List CContest) (nonce : Option ℕ) (timestamp : ℕ) (ballotCodeSeed : Option ℕ)
    (ballotCode : Option ℕ) (state : BallotBoxState) : M SBallot := do
  if contests.isEmpty then M.raise .invalidArgument
  else
    let b ← CBallot.make G C objectId styleId manifestHash contests nonce timestamp ballotCodeSeed
      ballotCode
    M.lift (SBallot.from b state)

/-- ballot.cpp:1182-1186 `operator=`: only the state is exchanged. -/
def SBallot.assign (self other : SBallot) : SBallot := { self with state := other.state }

end EG
