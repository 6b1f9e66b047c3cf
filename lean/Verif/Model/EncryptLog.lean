import Verif.Model.Encrypt

/-!
# What is written to the log while a ballot is encrypted (src/electionguard/log.cpp)

The functions of `Verif.Model.Encrypt` with the lines they log.  A line goes to the console if its level
is at least that of the build (log.cpp:95-101): info, unless the build asks for debug or trace.  Left
out are the time, process and thread in front of a line (log.cpp:103), and the lines that are logged if
a ciphertext that was just made fails its check (which ends in an exception).
-/

namespace EG.Log

inductive Level where
  | trace | debug | info | warn | error
  deriving DecidableEq, Repr

def Level.rank : Level → ℕ
  | .trace => 0
  | .debug => 1
  | .info => 2
  | .warn => 3
  | .error => 4

/-- A line: `extra` is the calling function and the value of the overloads with a value. -/
structure Line where
  level : Level
  msg : Str
  extra : Option (Str × Str)
  deriving DecidableEq

/-- log.cpp:109-142: the text of a line. -/
def Line.text (l : Line) : Str :=
  match l.extra with
  | none => l.msg
  | some (caller, value) => caller ++ "::".toList ++ l.msg ++ ": ".toList ++ value

/-- `Log::trace(msg)` and the like. -/
def plain (level : Level) (msg : String) : Line := { level, msg := msg.toList, extra := none }

/-- `Log::trace(msg, value)` and the like, in the function `caller` (`__builtin_FUNCTION()`,
log.hpp:34-54). -/
def valued (level : Level) (caller : String) (msg : Str) (value : Str) : Line :=
  { level, msg, extra := some (caller.toList, value) }

/-- What goes to the console if the build has the level `min`. -/
def shown (min : Level) (log : List Line) : List Str :=
  (log.filter (fun l => min.rank ≤ l.level.rank)).map Line.text

/-- A call with effects and lines in the log; both survive exceptions. -/
def W (α : Type) : Type := World → Res α × World × List Line

namespace W

def ret {α : Type} (a : α) : W α := fun w => (.ok a, w, [])

def bind {α β : Type} (x : W α) (f : α → W β) : W β := fun w =>
  match x w with
  | (.ok a, w', l) =>
    let r := f a w'
    (r.1, r.2.1, l ++ r.2.2)
  | (.throw e, w', l) => (.throw e, w', l)
  | (.ub, w', l) => (.ub, w', l)

instance : Monad W where
  pure := ret
  bind := bind

/-- A call that logs nothing. -/
def lift {α : Type} (x : M α) : W α := fun w => ((x w).1, (x w).2, [])

def tell (l : List Line) : W Unit := fun w => (.ok (), w, l)

/-- The call without its log. -/
def run {α : Type} (x : W α) : M α := fun w => ((x w).1, (x w).2.1)

/-- A loop over a vector, collecting the results. -/
def forEach {α β : Type} (f : α → W β) : List α → W (List β)
  | [] => ret []
  | x :: xs => do
    let y ← f x
    let ys ← forEach f xs
    ret (y :: ys)

end W

variable (G : Params) (C : Crypto)

/-! ## Hashes of descriptions -/

/-- manifest.cpp:244-249. -/
def language (l : Language) : List Line :=
  [valued .trace "crypto_hash" "Language".toList (toHexQ (l.hash G C))]

/-- manifest.cpp:310-321: the elements of the vector are hashed first. -/
def itext (t : IText) : List Line :=
  t.flatMap (language G C) ++
    [valued .trace "crypto_hash" "InternationalizedText".toList (toHexQ (t.hash G C))]

/-- manifest.cpp:956-961. -/
def selectionDesc (d : SelectionDesc) : List Line :=
  [valued .trace "crypto_hash" "SelectionDescription".toList (toHexQ (d.hash G C))]

/-- manifest.cpp:1109-1132, for a contest whose hash is `hash`. -/
def contestDesc (d : ContestDesc) (hash : ℕ) : List Line :=
  (match d.title with
    | some t => itext G C t
    | none => []) ++
  (match d.title, d.subtitle with
    | some _, some s => itext G C s
    | _, _ => []) ++
  d.selections.flatMap (selectionDesc G C) ++
  [valued .trace "crypto_hash" "ContestDescription".toList (toHexQ hash)]

/-! ## Selections -/

/-- elgamal.cpp:230-233. -/
def elgamal (pub : ℕ) (c : Ciphertext) : List Line :=
  [plain .trace "Generated Encryption",
   valued .trace "elgamalEncrypt" "publicKey".toList (toHexP pub),
   valued .trace "elgamalEncrypt" "pad".toList (toHexP c.pad),
   valued .trace "elgamalEncrypt" "data".toList (toHexP c.data)]

/-- elgamal.cpp:248-250. -/
def elgamalPrecomputed (c : Ciphertext) : List Line :=
  [plain .trace "Generated Encryption with Precomputed Values",
   valued .trace "elgamalEncrypt_with_precomputed" "pad".toList (toHexP c.pad),
   valued .trace "elgamalEncrypt_with_precomputed" "data".toList (toHexP c.data)]

/-- chaum_pedersen.cpp:151 and 186. -/
def proofStart : List Line :=
  [plain .trace "DisjunctiveChaumPedersenProof: making proof without seed."]

/-- chaum_pedersen.cpp:187-190: the function that makes the proof. -/
def proofMaker (vote : ℕ) : String :=
  if vote = 1 then "make_one_with_precomputed" else "make_zero_with_precomputed"

/-- chaum_pedersen.cpp:380-381 and 478-479. -/
def proofPrecomputed (vote : ℕ) (c : Ciphertext) : List Line :=
  [valued .trace (proofMaker vote) "alpha: ".toList (toHexP c.pad),
   valued .trace (proofMaker vote) "beta: ".toList (toHexP c.data)]

/-- chaum_pedersen.cpp:200 and 290: a proof that is valid. -/
def proofValid : List Line :=
  [plain .trace "DisjunctiveChaumPedersenProof::isValid: ",
   plain .trace "DisjunctiveChaumPedersenProof::isValid: TRUE!"]

/-- ballot.cpp:123-135 `PlaintextBallotSelection::isValid`. -/
def selectionCheck (s : PSelection) (expectedId : Str) : List Line :=
  if s.objectId ≠ expectedId then
    [{ level := .info, extra := none
       msg := "invalid object_id: expected: ".toList ++ expectedId ++ " actual: ".toList ++ s.objectId }]
  else if s.vote > 1 then [plain .warn "Currently only supporting choices of 0 or 1"]
  else []

/-- encrypt.cpp:276-321. -/
def encryptSelectionCore (s : PSelection) (d : SelectionDesc) (pub extHash nonceSeed : ℕ)
    (isPlaceholder : Bool) : W CSelection := do
  let descHash := d.hash G C
  W.tell (selectionDesc G C d)
  let nonce := ((Nonces.makeWith G C descHash (.q nonceSeed)).get G C d.seq).1
  W.tell [valued .trace "encryptSelection"
    ("encryptSelection: for ".toList ++ d.objectId ++ " hash: ".toList) (toHexQ descHash)]
  let pre ← W.lift M.getQuad
  match pre with
  | some t => do
    let c := elgamalEncryptPrecomputed G s.vote t.triple1.gToExp t.triple1.pubkeyToExp
    W.tell (elgamalPrecomputed c)
    W.tell proofStart
    W.tell (proofPrecomputed s.vote c)
    W.lift (M.lift (CSelection.makePrecomputed G C s.objectId d.seq descHash c extHash s.vote t
      isPlaceholder))
  | none => do
    let c ← W.lift (M.lift (elgamalEncrypt G s.vote nonce pub))
    W.tell (elgamal pub c)
    W.tell proofStart
    W.lift (CSelection.make G C s.objectId d.seq descHash c pub extHash s.vote isPlaceholder nonce)

/-- encrypt.cpp:260-338 `encryptSelection`. -/
def encryptSelection (s : PSelection) (d : SelectionDesc) (pub extHash nonceSeed : ℕ)
    (isPlaceholder verify : Bool) : W CSelection := do
  W.tell (selectionCheck s d.objectId)
  if !s.isValid d.objectId then W.lift (M.raise .invalidArgument)
  else do
    let encrypted ← encryptSelectionCore G C s d pub extHash nonceSeed isPlaceholder
    if !verify then W.ret encrypted
    else if encrypted.isValid G C (d.hash G C) pub extHash then do
      W.tell proofValid
      W.ret encrypted
    else W.lift (M.raise .runtimeError)

/-! ## Contests -/

/-- ballot.cpp:464-514 `PlaintextBallotContest::isValid`. -/
def contestCheck (c : PContest) (expectedId : Str) (expectedSelections expectedElected
    votesAllowed : ℕ) : List Line :=
  if c.objectId ≠ expectedId then [plain .info ": invalid objectId"]
  else if c.selections.length > expectedSelections then [plain .info ": too many selections"]
  else
    let counts := countVotes c.selections 0 0
    if counts.1 > expectedElected then [plain .info ": too many elections"]
    else
      let votesAllowed := if votesAllowed = 0 then expectedElected else votesAllowed
      if counts.2 > votesAllowed then [plain .info ": too many votes"] else []

/-- encrypt.cpp:453-482. -/
def encryptReal (pub extHash contestNonce : ℕ) (verify overvote : Bool)
    (normalized : List PSelection) : List SelectionDesc → ℕ → W (List CSelection × ℕ)
  | [], count => W.ret ([], count)
  | d :: rest, count =>
    match normalized.find? (fun s => s.objectId = d.objectId) with
    | none => W.lift (M.raise .runtimeError)
    | some s => do
      let s := if overvote then { objectId := s.objectId, vote := 0, isPlaceholder := false
                                  writeIn := [] } else s
      let e ← encryptSelection G C s d pub extHash contestNonce false verify
      let r ← encryptReal pub extHash contestNonce verify overvote normalized rest
        ((count + s.vote) % 2 ^ 64)
      W.ret (e :: r.1, r.2)

/-- encrypt.cpp:487-506; the second result is `selectionCount` afterwards. -/
def encryptPlaceholders (pub extHash contestNonce : ℕ) (verify overvote : Bool) (numberElected : ℕ) :
    List SelectionDesc → ℕ → W (List CSelection × ℕ)
  | [], count => W.ret ([], count)
  | d :: rest, count => do
    let select := overvote || decide (count < numberElected)
    let count' := if overvote then count
      else if count < numberElected then (count + 1) % 2 ^ 64 else count
    let e ← encryptSelection G C (selectionFrom d true select) d pub extHash contestNonce true verify
    let r ← encryptPlaceholders pub extHash contestNonce verify overvote numberElected rest count'
    W.ret (e :: r.1, r.2)

/-- encrypt.cpp:520-525. -/
def countWarning (count votesAllowed : ℕ) : List Line :=
  if count < votesAllowed then
    [plain .warn "mismatching selection count: only n-of-m style elections are currently supported"]
  else []

/-- chaum_pedersen.cpp:580. -/
def constStart : List Line := [plain .trace "ConstantChaumPedersenProof:: making proof"]

/-- chaum_pedersen.cpp:617 and 676: a proof that is valid. -/
def constValid : List Line :=
  [plain .trace "ConstantChaumPedersenProof::isValid: checking validity",
   plain .trace "ConstantChaumPedersenProof::isValid: TRUE!"]

/-- encrypt.cpp:407-550 `encryptContest`. -/
def encryptContest (S : StdSort) (c : PContest) (m : IManifest) (d : ContestDescP)
    (pub extHash nonceSeed : ℕ) (verify : Bool) : W CContest := do
  let check := c.isValid d.desc.objectId (d.desc.getSelections S).length d.desc.numberElected
    d.desc.votesAllowed true
  W.tell (contestCheck c d.desc.objectId (d.desc.getSelections S).length d.desc.numberElected
    d.desc.votesAllowed)
  if check ≠ .success ∧ check ≠ .overvote then W.lift (M.raise .invalidArgument)
  else do
    let descHash ← W.lift (M.lift (d.desc.hash G C))
    W.tell (contestDesc G C d.desc descHash)
    let nonces := Nonces.makeWith G C descHash (.q nonceSeed)
    let contestNonce := (nonces.get G C d.desc.seq).1
    let proofNonce := ((nonces.get G C d.desc.seq).2.next G C).1
    let data := overvoteAndWriteIns S m c check
    let overvote := decide (check = .overvote)
    let normalized := emplaceContest S c d.desc
    let real ← encryptReal G C pub extHash contestNonce verify overvote normalized.selections
      (d.desc.getSelections S) 0
    let placeholders ← encryptPlaceholders G C pub extHash contestNonce verify overvote
      d.desc.numberElected (d.getPlaceholders S) real.2
    let extended ← W.lift (encryptExtended G C data contestNonce pub extHash)
    W.tell (countWarning placeholders.2 d.desc.votesAllowed)
    let encrypted ← W.lift (CContest.make G C S c.objectId d.desc.seq descHash
      (real.1 ++ placeholders.1) pub extHash proofNonce d.desc.numberElected (some contestNonce)
      (some extended))
    W.tell constStart
    if !verify then W.ret encrypted
    else do
      let valid ← W.lift (M.lift (encrypted.isValid G C S descHash pub extHash))
      if valid then do
        W.tell constValid
        W.ret encrypted
      else W.lift (M.raise .runtimeError)

/-! ## Ballots -/

/-- encrypt.cpp:552-583 `encryptContests`. -/
def encryptContests (S : StdSort) (b : PBallot) (m : IManifest) (ctx : Context) (nonceSeed : ℕ)
    (verify : Bool) : W (List CContest) := do
  let normalized ← W.lift (M.lift (emplaceBallot S b m))
  match m.getBallotStyle b.styleId with
  | none => W.lift (M.lift .ub)
  | some style => do
    let descriptions ← W.lift (M.lift (m.getContestsFor S style.objectId))
    W.forEach (fun d : ContestDescP =>
      match normalized.contests.find? (fun c => c.objectId = d.desc.objectId) with
      | some c => encryptContest G C S c m d ctx.pub ctx.extHash nonceSeed verify
      | none => W.lift (M.raise .runtimeError)) descriptions

/-- ballot.cpp:1076-1085, if all proofs are valid. -/
def ballotChecks (S : StdSort) (b : CBallot) : List Line :=
  (b.getContests S).flatMap (fun c => (c.getSelections S).flatMap (fun _ => proofValid) ++ constValid)

/-- encrypt.cpp:585-646 `encryptBallot`. -/
def encryptBallot (S : StdSort) (b : PBallot) (m : IManifest) (ctx : Context) (encryptionSeed : ℕ)
    (nonce : Option ℕ) (timestamp : ℕ) (verify : Bool) : W CBallot := do
  W.tell [plain .trace "encryptBallot:: encrypting"]
  match m.getBallotStyle b.styleId with
  | none => W.lift (M.raise .invalidArgument)
  | some _ => do
    let nonce ← W.lift (nonceOr nonce)
    let nonceSeed := nonceSeedOf G C m.manifestHash b.objectId nonce
    W.tell [valued .trace "encryptBallot" "manifestHash   :".toList (toHexQ m.manifestHash),
      valued .trace "encryptBallot" "encryptionSeed :".toList (toHexQ encryptionSeed),
      valued .trace "encryptBallot" "timestamp      :".toList (placeholderFrom.decimalU64 timestamp)]
    let contests ← encryptContests G C S b m ctx nonceSeed verify
    let timestamp ← W.lift (timestampOr timestamp)
    let encrypted ← W.lift (CBallot.make G C b.objectId b.styleId m.manifestHash contests (some nonce)
      timestamp (some encryptionSeed) none)
    if !verify then do
      W.tell [plain .trace "encryptBallot:: bypass proof verification"]
      W.ret encrypted
    else do
      let valid ← W.lift (M.lift (encrypted.isValid G C S m.manifestHash ctx.pub ctx.extHash))
      if valid then do
        W.tell (ballotChecks S encrypted)
        W.tell [plain .trace "encryptBallot:: proof verification success"]
        W.ret encrypted
      else W.lift (M.raise .runtimeError)

end EG.Log
