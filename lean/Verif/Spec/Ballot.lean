import Verif.Model.Ballot
import Verif.Spec.ChaumPedersen
import Verif.Spec.Manifest
import Verif.Lemmas.ChaumPedersen

/-!
# Specification of valid encrypted ballots

What a verifier must check, in terms of hashes, products and the equations of the proofs.
-/

namespace EG

variable (G : Params) (C : Crypto) (S : StdSort)

/-- A selection whose hash and disjunctive proof are right. -/
structure SelectionSpec (pub extHash : ℕ) (s : CSelection) : Prop where
  hash : s.cryptoHash = hashElems G C [.str s.objectId, .q s.descHash,
    .q (hashElems G C [.p s.ciphertext.pad, .p s.ciphertext.data])]
  proof : ∃ π, s.proof = some π ∧ DisjSpec G
    (hashElems G C [.q extHash, .p s.ciphertext.pad, .p s.ciphertext.data, .p π.zeroPad,
      .p π.zeroData, .p π.onePad, .p π.oneData]) pub s.ciphertext.pad s.ciphertext.data
    π.zeroPad π.zeroData π.onePad π.oneData π.zeroChallenge π.oneChallenge π.challenge
    π.zeroResponse π.oneResponse

/-- A contest whose hash, product of ciphertexts and constant proof are right. -/
structure ContestSpec (pub extHash : ℕ) (c : CContest) : Prop where
  nonempty : c.selections ≠ []
  hash : c.cryptoHash = hashElems G C (.str c.objectId :: .q c.descHash ::
    (S.sort CSelection.seq c.selections).map (fun s => .q s.cryptoHash))
  pad : c.accumulation.pad = (c.selections.map (·.ciphertext.pad)).prod % G.p
  data : c.accumulation.data = (c.selections.map (·.ciphertext.data)).prod % G.p
  proof : ∃ π, c.proof = some π ∧ ConstSpec G
    (hashElems G C [.q extHash, .p c.accumulation.pad, .p c.accumulation.data, .p π.pad, .p π.data])
    pub c.accumulation.pad c.accumulation.data π.pad π.data π.challenge π.response π.constant

/-- A ballot for the manifest whose hash is right and whose contests and selections are all right. -/
structure BallotSpec (manifestHash pub extHash : ℕ) (b : CBallot) : Prop where
  manifest : b.manifestHash = manifestHash
  nonempty : b.contests ≠ []
  hash : b.cryptoHash = hashElems G C (.str b.objectId :: .q manifestHash ::
    (S.sort CContest.seq b.contests).map (fun c => .q c.cryptoHash))
  contests : ∀ c ∈ b.contests, ContestSpec G C S pub extHash c
  selections : ∀ c ∈ b.contests, ∀ s ∈ c.selections, SelectionSpec G C pub extHash s

/-- The names under which the results of the checks are stored: `c` for a contest, `c-s` for a
selection. -/
def CBallot.keys (b : CBallot) : List Str :=
  b.contests.flatMap (fun c => c.objectId :: c.selections.map (fun s => c.objectId ++ '-' :: s.objectId))

/-- The components are what their C++ types can hold. -/
structure CSelection.Typed (s : CSelection) : Prop where
  pad : s.ciphertext.pad < 2 ^ 4096
  data : s.ciphertext.data < 2 ^ 4096
  proof : ∀ π ∈ s.proof, π.Typed

structure CContest.Typed (c : CContest) : Prop where
  selections : ∀ s ∈ c.selections, s.Typed
  proof : ∀ π ∈ c.proof, π.Typed

/-! ## What a ballot hash covers -/

/-- The hashed content of a selection. -/
def CSelection.content (s : CSelection) : Str × ℕ × Ciphertext := (s.objectId, s.descHash, s.ciphertext)

/-- The hashed content of a contest. -/
def CContest.content (c : CContest) : Str × ℕ × List (Str × ℕ × Ciphertext) :=
  (c.objectId, c.descHash, (S.sort CSelection.seq c.selections).map CSelection.content)

/-- The strings hashed for a selection. -/
def CSelection.queries (s : CSelection) : List Str :=
  hashQueries G C [.str s.objectId, .q s.descHash, .q (s.ciphertext.hash G C)] ++
    hashQueries G C [.p s.ciphertext.pad, .p s.ciphertext.data]

/-- The strings hashed for a contest. -/
def CContest.queries (c : CContest) : List Str :=
  hashQueries G C (.str c.objectId :: .q c.descHash ::
    (S.sort CSelection.seq c.selections).map (fun s => .q s.cryptoHash)) ++
  c.selections.flatMap (CSelection.queries G C)

/-- The strings hashed for a ballot. -/
def CBallot.queries (b : CBallot) : List Str :=
  hashQueries G C (.str b.objectId :: .q b.manifestHash ::
    (S.sort CContest.seq b.contests).map (fun c => .q c.cryptoHash)) ++
  b.contests.flatMap (CContest.queries G C S)

structure CSelection.Plain (s : CSelection) : Prop where
  id : Str.Plain s.objectId
  desc : s.descHash < 2 ^ 256
  pad : s.ciphertext.pad < 2 ^ 4096
  data : s.ciphertext.data < 2 ^ 4096

structure CContest.Plain (c : CContest) : Prop where
  id : Str.Plain c.objectId
  desc : c.descHash < 2 ^ 256
  selections : ∀ s ∈ c.selections, s.Plain

structure CBallot.Plain (b : CBallot) : Prop where
  id : Str.Plain b.objectId
  manifest : b.manifestHash < 2 ^ 256
  contests : ∀ c ∈ b.contests, c.Plain

end EG
