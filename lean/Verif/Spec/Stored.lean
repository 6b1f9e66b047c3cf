import Verif.Spec.Tally
import Verif.Spec.Serialize
import Verif.Model.Serialize
import Verif.Model.Ballot

/-!
# The record of an election

A ballot goes into the record as text: it is encrypted, submitted with a state and written.  Whoever
counts reads the texts.
-/

namespace EG

/-- The numbers of a ballot are those of 64-bit types. -/
def CBallot.Numbers (b : CBallot) : Prop :=
  b.timestamp < 2 ^ 64 ∧ ∀ c ∈ b.contests, c.seq < 2 ^ 64 ∧
    (∀ p, c.proof = some p → p.constant < 2 ^ 64) ∧ ∀ s ∈ c.selections, s.seq < 2 ^ 64

/-- No hash, challenge or response is zero. -/
def CSelection.NoZero (G : Params) (s : CSelection) : Prop :=
  Nonzero G.q s.descHash ∧ Nonzero G.q s.cryptoHash ∧ ∀ p ∈ s.proof,
    Nonzero G.q p.zeroChallenge ∧ Nonzero G.q p.oneChallenge ∧ Nonzero G.q p.challenge ∧
    Nonzero G.q p.zeroResponse ∧ Nonzero G.q p.oneResponse

/-- No hash, challenge or response is zero, and the encrypted write-ins do not begin with a zero. -/
def CContest.NoZero (G : Params) (c : CContest) : Prop :=
  Nonzero G.q c.descHash ∧ Nonzero G.q c.cryptoHash ∧
    (∀ p ∈ c.proof, Nonzero G.q p.challenge ∧ Nonzero G.q p.response) ∧
    (∀ x ∈ c.extended, LeadingNonzero x.data ∧ LeadingNonzero x.mac) ∧ ∀ s ∈ c.selections, s.NoZero G

/-- No hash, challenge or response is zero, and no encrypted write-ins begin with a zero. -/
def CBallot.NoZero (G : Params) (b : CBallot) : Prop :=
  Nonzero G.q b.manifestHash ∧ Nonzero G.q b.ballotCodeSeed ∧ Nonzero G.q b.ballotCode ∧
    Nonzero G.q b.cryptoHash ∧ ∀ c ∈ b.contests, c.NoZero G

/-- A voter filled in `b`, the encrypted ballot was submitted with the state, and `r` was read from the
text that was written. -/
def Stored (G : Params) (C : Crypto) (S : StdSort) (ctx : Context) (m : IManifest) (b : PBallot)
    (state : BallotBoxState) (r : SBallot) : Prop :=
  ∃ e sb text, Encrypted G C S ctx m b e ∧ e.Numbers ∧ SBallot.from e state = .ok sb ∧
    writeText (sb.toDoc S) = .ok text ∧ readText (SBallot.ofDoc G) text = .ok r

/-- The ballots of a record that have a state. -/
def withState (state : BallotBoxState) (rs : List SBallot) : List CBallot :=
  (rs.filter (fun r => r.state = state)).map (·.ballot)

end EG
