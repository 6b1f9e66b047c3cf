import Verif.Model.Serialize

/-!
# Manifests after writing and reading

C62 and C63: `read` says what becomes of each part of a manifest, `Canonical` which parts come back
unchanged.
-/

namespace EG

/-- No information at all. -/
def Contact.blank : Contact := { addressLine := [], email := [], phone := [], name := [] }

/-- A contact without any information is lost. -/
def GpUnit.read (u : GpUnit) : GpUnit :=
  { u with contact := u.contact.bind (fun c => if c = Contact.blank then none else some c) }

/-- No name becomes an empty name. -/
def Party.read (p : Party) : Party := { p with name := some (p.name.getD []) }

/-- No name becomes an empty name. -/
def Candidate.read (c : Candidate) : Candidate := { c with name := some (c.name.getD []) }

/-- The votes allowed after reading: 0 is not written. -/
def votesAllowedRead (v : VoteVariationType) (numberElected votesAllowed : ℕ) : ℕ :=
  if votesAllowed = 0 then (if v = .n_of_m ∨ v = .one_of_m then numberElected else 0) else votesAllowed

/-- Selections are sorted, the primary parties lost. -/
def ContestDesc.read (S : StdSort) (c : ContestDesc) : ContestDesc :=
  { c with
    selections := S.sort SelectionDesc.seq c.selections
    votesAllowed := votesAllowedRead c.variation c.numberElected c.votesAllowed
    primaryPartyIds := [] }

/-- The contact of the manifest is kept if there is a name; a name without contact gets an empty
contact. -/
def Manifest.read (S : StdSort) (m : Manifest) : Manifest :=
  { m with
    gpUnits := m.gpUnits.map GpUnit.read
    parties := m.parties.map Party.read
    candidates := m.candidates.map Candidate.read
    contests := (S.sort ContestDesc.seq m.contests).map (ContestDesc.read S)
    contact := m.name.map (fun _ => m.contact.getD Contact.blank) }

/-- Numbers of 64 bits, and a vote variation that has a name. -/
structure ContestDesc.Fits (c : ContestDesc) : Prop where
  seq : c.seq < 2 ^ 64
  elected : c.numberElected < 2 ^ 64
  allowed : c.votesAllowed < 2 ^ 64
  variation : c.variation ≠ .approval
  selections : ∀ s ∈ c.selections, s.seq < 2 ^ 64

/-- A contest description that reading leaves as it is. -/
structure ContestDesc.Canonical (c : ContestDesc) : Prop where
  sorted : c.selections.Pairwise (fun a b => a.seq ≤ b.seq)
  distinct : (c.selections.map (·.seq)).Nodup
  allowed : c.votesAllowed = 0 → ¬ (c.variation = .n_of_m ∨ c.variation = .one_of_m) ∨
    c.numberElected = 0
  primary : c.primaryPartyIds = []

/-- A manifest that reading leaves as it is. -/
structure Manifest.Canonical (m : Manifest) : Prop where
  units : ∀ u ∈ m.gpUnits, u.contact ≠ some Contact.blank
  parties : ∀ p ∈ m.parties, p.name ≠ none
  candidates : ∀ c ∈ m.candidates, c.name ≠ none
  sorted : m.contests.Pairwise (fun a b => a.seq ≤ b.seq)
  distinct : (m.contests.map (·.seq)).Nodup
  contests : ∀ c ∈ m.contests, c.Canonical
  contact : m.contact.isSome = m.name.isSome

/-- A manifest whose hash reading leaves as it is: the candidates, the primary parties and contact
information without a name may change. -/
structure Manifest.HashStable (m : Manifest) : Prop where
  units : ∀ u ∈ m.gpUnits, u.contact ≠ some Contact.blank
  parties : ∀ p ∈ m.parties, p.name ≠ none
  sorted : m.contests.Pairwise (fun a b => a.seq ≤ b.seq)
  distinct : (m.contests.map (·.seq)).Nodup
  contests : ∀ c ∈ m.contests, ({ c with primaryPartyIds := [] } : ContestDesc).Canonical
  contact : m.name.isSome = true → m.contact.isSome = true

/-- Selections and placeholders are sorted; subtitles without title and the primary parties are lost,
the votes allowed become the default. -/
def ContestDescP.read (S : StdSort) (c : ContestDescP) : ContestDescP :=
  { desc := { c.desc with
      selections := S.sort SelectionDesc.seq c.desc.selections
      votesAllowed := if c.desc.variation = .n_of_m ∨ c.desc.variation = .one_of_m
        then c.desc.numberElected else 0
      subtitle := none
      primaryPartyIds := [] }
    placeholders := S.sort SelectionDesc.seq c.placeholders }

def IManifest.read (S : StdSort) (m : IManifest) : IManifest :=
  { m with
    gpUnits := m.gpUnits.map GpUnit.read
    candidates := m.candidates.map Candidate.read
    contests := (S.sort (fun c => c.desc.seq) m.contests).map (ContestDescP.read S) }

/-- An internal contest description that reading leaves as it is. -/
structure ContestDescP.Canonical (c : ContestDescP) : Prop where
  untitled : c.desc.title = none ∧ c.desc.subtitle = none
  sorted : c.desc.selections.Pairwise (fun a b => a.seq ≤ b.seq)
  distinct : (c.desc.selections.map (·.seq)).Nodup
  placeholdersSorted : c.placeholders.Pairwise (fun a b => a.seq ≤ b.seq)
  placeholdersDistinct : (c.placeholders.map (·.seq)).Nodup
  allowed : c.desc.votesAllowed = if c.desc.variation = .n_of_m ∨ c.desc.variation = .one_of_m
    then c.desc.numberElected else 0
  primary : c.desc.primaryPartyIds = []

/-- An internal manifest that reading leaves as it is. -/
structure IManifest.Canonical (m : IManifest) : Prop where
  units : ∀ u ∈ m.gpUnits, u.contact ≠ some Contact.blank
  candidates : ∀ c ∈ m.candidates, c.name ≠ none
  sorted : m.contests.Pairwise (fun a b => a.desc.seq ≤ b.desc.seq)
  distinct : (m.contests.map (fun c => c.desc.seq)).Nodup
  contests : ∀ c ∈ m.contests, c.Canonical

/-- Numbers of 64 bits, and a vote variation that has a name. -/
structure ContestDescP.Fits (c : ContestDescP) : Prop where
  desc : c.desc.Fits
  placeholders : ∀ s ∈ c.placeholders, s.seq < 2 ^ 64

end EG
