import Verif.Model.Serialize

/-!
# What the serializers can represent

Numbers of the library are 64 bit.  Group elements are at most their modulus; that they are not zero
is a condition of the text format, in which zero cannot be read.
-/

namespace EG

/-- The numbers of a device. -/
def Device.Fits (d : Device) : Prop :=
  d.deviceUuid < 2 ^ 64 ∧ d.sessionUuid < 2 ^ 64 ∧ d.launchCode < 2 ^ 64

/-- The votes of a ballot. -/
def PBallot.Fits (b : PBallot) : Prop := ∀ c ∈ b.contests, ∀ s ∈ c.selections, s.vote < 2 ^ 64

/-- An element modulo `m` that is not zero. -/
def Nonzero (m v : ℕ) : Prop := v ≠ 0 ∧ v ≤ m

/-- The elements and numbers of a context. -/
structure Context.Readable (G : Params) (c : Context) : Prop where
  guardians : c.numberOfGuardians < 2 ^ 64
  quorum : c.quorum < 2 ^ 64
  pub : Nonzero G.p c.pub
  commitment : Nonzero G.q c.commitmentHash
  manifest : Nonzero G.q c.manifestHash
  base : Nonzero G.q c.baseHash
  ext : Nonzero G.q c.extHash

/-- The configuration and the extended data: a map. -/
structure ContextExtras.Readable (e : ContextExtras) : Prop where
  max : e.maxBallots < 2 ^ 64
  keys : (e.extendedData.map (·.1)).Nodup

/-- Bytes that begin with a byte other than zero. -/
def LeadingNonzero (bs : List UInt8) : Prop := ∃ b rest, bs = b :: rest ∧ b ≠ 0

/-- The numbers of a compact ballot. -/
def CompactPlain.Fits (c : CompactPlain) : Prop := ∀ v ∈ c.selections, v < 2 ^ 64

/-- The numbers of an encrypted compact ballot. -/
structure CompactCipher.Readable (G : Params) (c : CompactCipher) : Prop where
  plaintext : c.plaintext.Fits
  seed : Nonzero G.q c.ballotCodeSeed
  code : Nonzero G.q c.ballotCode
  nonce : Nonzero G.q c.nonce
  timestamp : c.timestamp < 2 ^ 64

/-- The ballot with every write-in replaced by its JSON text. -/
def PBallot.quoted (b : PBallot) : PBallot :=
  { b with contests := b.contests.map quotedContest }
where
  /-- The contest with every write-in replaced. -/
  quotedContest (c : PContest) : PContest := { c with selections := c.selections.map quotedSelection }
  /-- The selection with its write-in replaced. -/
  quotedSelection (s : PSelection) : PSelection := { s with writeIn := dumpStr s.writeIn }

/-! ## Ciphertexts and encrypted ballots -/

/-- A ciphertext without zero. -/
def Ciphertext.Readable (G : Params) (c : Ciphertext) : Prop := Nonzero G.p c.pad ∧ Nonzero G.p c.data

/-- A hashed ciphertext whose bytes survive. -/
def HashedCiphertext.Readable (G : Params) (c : HashedCiphertext) : Prop :=
  Nonzero G.p c.pad ∧ LeadingNonzero c.data ∧ LeadingNonzero c.mac

/-- A disjunctive proof without zero. -/
structure DisjProof.Readable (G : Params) (p : DisjProof) : Prop where
  zeroPad : Nonzero G.p p.zeroPad
  zeroData : Nonzero G.p p.zeroData
  onePad : Nonzero G.p p.onePad
  oneData : Nonzero G.p p.oneData
  zeroChallenge : Nonzero G.q p.zeroChallenge
  oneChallenge : Nonzero G.q p.oneChallenge
  challenge : Nonzero G.q p.challenge
  zeroResponse : Nonzero G.q p.zeroResponse
  oneResponse : Nonzero G.q p.oneResponse

/-- A constant proof without zero. -/
structure ConstProof.Readable (G : Params) (p : ConstProof) : Prop where
  pad : Nonzero G.p p.pad
  data : Nonzero G.p p.data
  challenge : Nonzero G.q p.challenge
  response : Nonzero G.q p.response
  constant : p.constant < 2 ^ 64

/-- A nonce that is there and not zero, if nonces are written. -/
def NonceReadable (G : Params) (withNonces : Bool) (nonce : Option ℕ) : Prop :=
  withNonces = true → ∃ n, nonce = some n ∧ Nonzero G.q n

/-- A selection that can be written and read. -/
structure CSelection.Readable (G : Params) (withNonces : Bool) (s : CSelection) : Prop where
  seq : s.seq < 2 ^ 64
  descHash : Nonzero G.q s.descHash
  ciphertext : s.ciphertext.Readable G
  cryptoHash : Nonzero G.q s.cryptoHash
  proof : ∃ p, s.proof = some p ∧ p.Readable G
  nonce : NonceReadable G withNonces s.nonce

/-- A contest that can be written and read. -/
structure CContest.Readable (G : Params) (withNonces : Bool) (c : CContest) : Prop where
  seq : c.seq < 2 ^ 64
  descHash : Nonzero G.q c.descHash
  selections : ∀ s ∈ c.selections, s.Readable G withNonces
  accumulation : c.accumulation.Readable G
  cryptoHash : Nonzero G.q c.cryptoHash
  proof : ∃ p, c.proof = some p ∧ p.Readable G
  extended : ∃ e, c.extended = some e ∧ e.Readable G
  nonce : NonceReadable G withNonces c.nonce

/-- A ballot that can be written and read. -/
structure CBallot.Readable (G : Params) (withNonces : Bool) (b : CBallot) : Prop where
  manifestHash : Nonzero G.q b.manifestHash
  seed : Nonzero G.q b.ballotCodeSeed
  contests : ∀ c ∈ b.contests, c.Readable G withNonces
  code : Nonzero G.q b.ballotCode
  timestamp : b.timestamp < 2 ^ 64
  cryptoHash : Nonzero G.q b.cryptoHash
  nonce : NonceReadable G withNonces b.nonce

/-- The nonce after reading: zero if it was not written. -/
def nonceRead (withNonces : Bool) (nonce : Option ℕ) : Option ℕ := if withNonces then nonce else some 0

/-- The ballot after reading: contests and selections in the order of the getters, and nonces that
were not written replaced by zero. -/
def CBallot.read (S : StdSort) (withNonces : Bool) (b : CBallot) : CBallot :=
  { b with
    contests := (b.getContests S).map readContest
    nonce := nonceRead withNonces b.nonce }
where
  /-- The contest after reading. -/
  readContest (c : CContest) : CContest :=
    { c with
      selections := (c.getSelections S).map readSelection
      nonce := nonceRead withNonces c.nonce }
  /-- The selection after reading. -/
  readSelection (s : CSelection) : CSelection := { s with nonce := nonceRead withNonces s.nonce }

end EG
