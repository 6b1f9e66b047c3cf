import Verif.Spec.Encrypt

/-!
# What an election should count

Stated on the plaintext ballots as the voters filled them in.
-/

namespace EG

/-- What a ballot says about a selection of a contest: the first entry for the selection in the first
entry for the contest, 0 without entry. -/
def PBallot.markFor (b : PBallot) (contestId selectionId : Str) : ℕ :=
  match b.contests.find? (fun c => c.objectId = contestId) with
  | some c => c.voteFor selectionId
  | none => 0

/-- The ballot marks more selections of the contest than there are seats, or gives more votes than
allowed; a limit of 0 votes stands for the number of seats. -/
def PBallot.OvervotedIn (b : PBallot) (d : ContestDesc) : Prop :=
  d.numberElected < (d.selections.filter (fun s => b.markFor d.objectId s.objectId ≠ 0)).length ∨
  (if d.votesAllowed = 0 then d.numberElected else d.votesAllowed) <
    (d.selections.map (fun s => b.markFor d.objectId s.objectId)).sum

open Classical in
/-- What the ballot contributes to the count of a selection. -/
noncomputable def PBallot.counted (b : PBallot) (d : ContestDesc) (selectionId : Str) : ℕ :=
  if b.OvervotedIn d then 0 else b.markFor d.objectId selectionId

open Classical in
/-- The votes that the placeholders with an id get from a ballot: the first ones, as many as votes are
missing; all of them if the contest is overvoted. -/
noncomputable def PBallot.padding (S : StdSort) (b : PBallot) (d : ContestDescP) (sid : Str) : ℕ :=
  (List.range d.placeholders.length).countP (fun i =>
    (d.getPlaceholders S)[i]?.map (·.objectId) = some sid ∧
    (b.OvervotedIn d.desc ∨
      (d.desc.selections.map (fun s => b.markFor d.desc.objectId s.objectId)).sum + i < d.desc.numberElected))

/-- The ciphertexts of an encrypted ballot for a selection of a contest. -/
def CBallot.ciphertextsFor (e : CBallot) (contestId selectionId : Str) : List Ciphertext :=
  (e.contests.filter (fun c => c.objectId = contestId)).flatMap (fun c =>
    (c.selections.filter (fun s => s.objectId = selectionId)).map (·.ciphertext))

/-- The totals of the contest in an encrypted ballot. -/
def CBallot.accumulationsFor (e : CBallot) (contestId : Str) : List Ciphertext :=
  (e.contests.filter (fun c => c.objectId = contestId)).map (·.accumulation)

/-- `e` is a result of encrypting `b`, in some state of the environment. -/
def Encrypted (G : Params) (C : Crypto) (S : StdSort) (ctx : Context) (m : IManifest) (b : PBallot)
    (e : CBallot) : Prop :=
  ∃ codeSeed nonce timestamp verify w w', w.Ok G ctx.pub ∧
    encryptBallot G C S b m ctx codeSeed nonce timestamp verify w = (.ok e, w')

/-- How often the style of a ballot lists the district of a contest (once, if the manifest is sensible). -/
def IManifest.timesListed (m : IManifest) (styleId : Str) (d : ContestDesc) : ℕ :=
  match m.styles.find? (fun s => s.objectId = styleId) with
  | some style => style.gpUnitIds.count d.districtId
  | none => 0

end EG
