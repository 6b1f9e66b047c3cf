import Verif.Model.Manifest
import Verif.Spec.Hash

/-!
# What the manifest hash is meant to bind

For every part of a manifest: the strings hashed for it (`queries`), the condition that its texts are
unambiguous (`Plain`), and the part of its content that enters the hash (`covered`).
-/

namespace EG

variable (G : Params) (C : Crypto)

/-- A text that cannot be mistaken for something else. -/
def Str.Plain (s : Str) : Prop := s ≠ nullString ∧ '|' ∉ s

/-- The string of an enumeration value, if it has one. -/
def textOr (r : Res Str) : Str := match r with
  | .ok s => s
  | _ => []

def Annotated.queries (a : Annotated) : List Str :=
  hashQueries G C [.str a.annotation, .str a.value]

def Annotated.Plain (a : Annotated) : Prop := Str.Plain a.annotation ∧ Str.Plain a.value

def Language.queries (l : Language) : List Str := hashQueries G C [.str l.value, .str l.language]

def Language.Plain (l : Language) : Prop := Str.Plain l.value ∧ Str.Plain l.language

def IText.queries (t : IText) : List Str :=
  t.flatMap (Language.queries G C) ++ hashQueries G C [.vec (t.map (fun l => .q (l.hash G C)))]

def IText.Plain (t : IText) : Prop := ∀ l ∈ t, l.Plain

def Contact.queries (c : Contact) : List Str :=
  (c.email ++ c.phone).flatMap (Annotated.queries G C) ++
    hashQueries G C [.str c.name, .vec (c.addressLine.map .str),
      .vec (c.email.map (fun a => .q (a.hash G C))), .vec (c.phone.map (fun a => .q (a.hash G C)))]

def Contact.Plain (c : Contact) : Prop :=
  Str.Plain c.name ∧ (∀ s ∈ c.addressLine, Str.Plain s) ∧ ∀ a ∈ c.email ++ c.phone, a.Plain

def GpUnit.queries (u : GpUnit) : List Str :=
  u.contact.elim [] (Contact.queries G C) ++
    hashQueries G C [.str u.objectId, .str u.name, .str (textOr u.type.string),
      optHash (u.contact.map (·.hash G C))]

def GpUnit.Plain (u : GpUnit) : Prop :=
  Str.Plain u.objectId ∧ Str.Plain u.name ∧ ∀ c ∈ u.contact, c.Plain

def BallotStyle.queries (s : BallotStyle) : List Str :=
  hashQueries G C [.str s.objectId, .vec (s.gpUnitIds.map .str), .vec (s.partyIds.map .str),
    .str s.imageUri]

def BallotStyle.Plain (s : BallotStyle) : Prop :=
  Str.Plain s.objectId ∧ (∀ i ∈ s.gpUnitIds, Str.Plain i) ∧ (∀ i ∈ s.partyIds, Str.Plain i) ∧
    Str.Plain s.imageUri

def Party.queries (p : Party) : List Str :=
  p.name.elim [] (IText.queries G C) ++
    hashQueries G C [.str p.objectId, optHash (p.name.map (·.hash G C)), .str p.abbreviation,
      .str p.color, .str p.logoUri]

def Party.Plain (p : Party) : Prop :=
  Str.Plain p.objectId ∧ (∀ t ∈ p.name, IText.Plain t) ∧ Str.Plain p.abbreviation ∧
    Str.Plain p.color ∧ Str.Plain p.logoUri

def Candidate.queries (c : Candidate) : List Str :=
  c.name.elim [] (IText.queries G C) ++
    hashQueries G C [.str c.objectId, optHash (c.name.map (·.hash G C)), .str c.partyId, .str c.imageUri]

def Candidate.Plain (c : Candidate) : Prop :=
  Str.Plain c.objectId ∧ (∀ t ∈ c.name, IText.Plain t) ∧ Str.Plain c.partyId ∧ Str.Plain c.imageUri

def SelectionDesc.queries (s : SelectionDesc) : List Str :=
  hashQueries G C [.str s.objectId, .u64 s.seq, .str s.candidateId]

def SelectionDesc.Plain (s : SelectionDesc) : Prop := Str.Plain s.objectId ∧ Str.Plain s.candidateId

/-- What is hashed of a contest. -/
def ContestDesc.elems (c : ContestDesc) : List HElem :=
  [.str c.objectId, .u64 c.seq, .str c.districtId, .str (textOr c.variation.string),
    optHash (c.title.map (·.hash G C)),
    optHash (c.title.elim none (fun _ => c.subtitle.map (·.hash G C))), .str c.name,
    .u64 c.numberElected, .u64 c.votesAllowed, .vec (c.selections.map (fun s => .q (s.hash G C)))]

def ContestDesc.queries (c : ContestDesc) : List Str :=
  c.selections.flatMap (SelectionDesc.queries G C) ++ c.title.elim [] (IText.queries G C) ++
    c.subtitle.elim [] (IText.queries G C) ++ hashQueries G C (c.elems G C)

def ContestDesc.Plain (c : ContestDesc) : Prop :=
  Str.Plain c.objectId ∧ Str.Plain c.districtId ∧ Str.Plain c.name ∧
    (∀ t ∈ c.title, IText.Plain t) ∧ (∀ t ∈ c.subtitle, IText.Plain t) ∧
    ∀ s ∈ c.selections, s.Plain

/-- The part of a contest that enters its hash: not the primary parties, and the subtitle only beside
a title. -/
def ContestDesc.covered (c : ContestDesc) : ContestDesc :=
  { c with primaryPartyIds := [], subtitle := c.title.elim none (fun _ => c.subtitle) }

/-- What is hashed of a manifest. -/
def Manifest.elems (m : Manifest) : List HElem :=
  [.str m.scopeId, .str (textOr m.type.string), .str m.startDate, .str m.endDate,
    optHash (m.name.map (·.hash G C)),
    optHash (m.name.elim none (fun _ => m.contact.map (·.hash G C))),
    .vec (m.gpUnits.map (fun u => .q (hashElems G C [.str u.objectId, .str u.name,
      .str (textOr u.type.string), optHash (u.contact.map (·.hash G C))]))),
    .vec (m.parties.map (fun p => .q (p.hash G C))),
    .vec (m.contests.map (fun c => .q (hashElems G C (c.elems G C)))),
    .vec (m.styles.map (fun s => .q (s.hash G C)))]

def Manifest.queries (m : Manifest) : List Str :=
  m.gpUnits.flatMap (GpUnit.queries G C) ++ m.parties.flatMap (Party.queries G C) ++
    m.contests.flatMap (ContestDesc.queries G C) ++ m.styles.flatMap (BallotStyle.queries G C) ++
    m.name.elim [] (IText.queries G C) ++ m.contact.elim [] (Contact.queries G C) ++
    hashQueries G C (m.elems G C)

def Manifest.Plain (m : Manifest) : Prop :=
  Str.Plain m.scopeId ∧ Str.Plain m.startDate ∧ Str.Plain m.endDate ∧ (∀ u ∈ m.gpUnits, u.Plain) ∧
    (∀ p ∈ m.parties, p.Plain) ∧ (∀ c ∈ m.contests, c.Plain) ∧ (∀ s ∈ m.styles, s.Plain) ∧
    (∀ t ∈ m.name, IText.Plain t) ∧ ∀ c ∈ m.contact, c.Plain

/-- The part of a manifest that enters its hash: not the candidates, and the contact information only
beside a name. -/
def Manifest.covered (m : Manifest) : Manifest :=
  { m with
    candidates := []
    contests := m.contests.map ContestDesc.covered
    contact := m.name.elim none (fun _ => m.contact) }

end EG
