import Verif.Model.CJson

/-!
# An encrypted ballot without its nonces
-/

namespace EG

def CSelection.withoutNonce (s : CSelection) : CSelection := { s with nonce := none }

def CContest.withoutNonces (c : CContest) : CContest :=
  { c with selections := c.selections.map CSelection.withoutNonce, nonce := none }

def CBallot.withoutNonces (b : CBallot) : CBallot :=
  { b with contests := b.contests.map CContest.withoutNonces, nonce := none }

/-- No two contests of the ballot, and no two selections of a contest, have the same place. -/
def CBallot.Ordered (b : CBallot) : Prop :=
  (b.contests.map CContest.seq).Nodup ∧ ∀ c ∈ b.contests, (c.selections.map CSelection.seq).Nodup

end EG
