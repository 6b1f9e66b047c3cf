import Verif.Model.Encrypt

/-!
# What the record of a contest should hold

C65.
-/

namespace EG

/-- The candidate of a selection of the contest in the manifest is a write-in candidate. -/
def IsWriteInSelection (m : IManifest) (contestId selectionId : Str) : Prop :=
  ∃ d ∈ m.contests, d.desc.objectId = contestId ∧ ∃ sd ∈ d.desc.selections, sd.objectId = selectionId ∧
    ∃ cand ∈ m.candidates, cand.objectId = sd.candidateId ∧ cand.isWriteIn = true

/-- The voter wrote `text` for the selection. -/
def WroteIn (m : IManifest) (c : PContest) (id text : Str) : Prop :=
  IsWriteInSelection m c.objectId id ∧
    ∃ s ∈ c.selections, s.objectId = id ∧ s.vote = 1 ∧ s.writeIn = text

end EG
