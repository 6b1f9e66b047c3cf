import Verif.Model.Encrypt
import Verif.Props.ChaumPedersen

/-!
# Specification of encryption
-/

namespace EG

variable (G : Params) (C : Crypto)

/-- The environment is in order for the key `K`: `rand_q` returns numbers below `q` (C10) and the
precompute buffers were filled for this key (C30). -/
structure World.Ok (K : ℕ) (w : World) : Prop where
  rng : ∀ n, w.rng n < G.q
  triples : ∀ t ∈ w.pre.triples, t.ForKey G K
  quads : ∀ e ∈ w.pre.quads, e.ForKey G K

/-- What the encryption of one vote must look like. -/
structure EncryptsVote (K extHash vote : ℕ) (d : SelectionDesc) (placeholder : Bool) (e : CSelection) :
    Prop where
  id : e.objectId = d.objectId
  seq : e.seq = d.seq
  desc : e.descHash = d.hash G C
  placeholder : e.isPlaceholder = placeholder
  vote_le : vote ≤ 1
  hash : e.cryptoHash = hashElems G C [.str d.objectId, .q (d.hash G C),
    .q (hashElems G C [.p e.ciphertext.pad, .p e.ciphertext.data])]
  encryption : ∃ n, n < G.q ∧ e.nonce = some n ∧ IsEncryption G K vote n e.ciphertext
  proof : ∃ π, e.proof = some π ∧ AcceptedUnlessZero G C π e.ciphertext K extHash

/-- The vote of a contest for a selection id: that of the first entry, 0 without entry. -/
def PContest.voteFor (c : PContest) (id : Str) : ℕ :=
  match c.selections.find? (fun s => s.objectId = id) with
  | some s => s.vote
  | none => 0

end EG
