import Verif.Model.Manifest
import Verif.Model.CText

/-!
# Manifests made and read through the C interface (src/electionguard/facades/manifest.cpp)

The constructors `eg_…_new…` and the getters, on values.  A pointer is `none` if it is null; using a null pointer is
undefined.  Elements of arrays are moved out of the objects given, which are taken to be different and whole (C82 and
C102 are about objects that are given twice); numbers are below 2^64.  Dates are given as their texts (C101).
-/

namespace EG.CMan

/-- `string(in_text)`: the characters before the first zero. -/
def cstr : Option Str → Res Str
  | none => .ub
  | some s => .ok (s.takeWhile (· ≠ Char.ofNat 0))

/-- `*element`. -/
def deref {α : Type} : Option α → Res α
  | none => .ub
  | some a => .ok a

/-! ## Constructors -/

/-- facades/manifest.cpp:47-61 `eg_annotated_string_new`; manifest.cpp:193-196. -/
def annotatedNew (annotation value : Option Str) : Res Annotated := do
  let annotation ← cstr annotation
  let value ← cstr value
  .ok { annotation, value }

/-- facades/manifest.cpp:119-133 `eg_language_new`. -/
def languageNew (value language : Option Str) : Res Language := do
  let value ← cstr value
  let language ← cstr language
  .ok { value, language }

/-- facades/manifest.cpp:189-211 `eg_internationalized_text_new`: the elements are copied. -/
def textNew (text : List (Option Language)) : Res IText := mapRes deref text

/-- facades/manifest.cpp:263-276 `eg_contact_information_new`; manifest.cpp:379. -/
def contactNew (name : Option Str) : Res Contact := do
  let name ← cstr name
  .ok { addressLine := [], email := [], phone := [], name }

/-- facades/manifest.cpp:278-316 `eg_contact_information_new_with_collections`; manifest.cpp:392-397. -/
def contactNewWith (name : Option Str) (address : List (Option Str)) (email phone : List (Option Annotated)) :
    Res Contact := do
  let address ← mapRes cstr address
  let email ← mapRes deref email
  let phone ← mapRes deref phone
  let name ← cstr name
  .ok { addressLine := address, email, phone, name }

/-- facades/manifest.cpp:426-443 `eg_geopolitical_unit_new`; manifest.cpp:527-531. -/
def gpUnitNew (objectId name : Option Str) (type : ReportingUnitType) : Res GpUnit := do
  let objectId ← cstr objectId
  let name ← cstr name
  .ok { objectId, name, type, contact := none }

/-- facades/manifest.cpp:445-464 `eg_geopolitical_unit_new_with_contact_info`; manifest.cpp:519-525. -/
def gpUnitNewWith (objectId name : Option Str) (type : ReportingUnitType) (contact : Option Contact) :
    Res GpUnit := do
  let objectId ← cstr objectId
  let name ← cstr name
  let contact ← deref contact
  .ok { objectId, name, type, contact := some contact }

/-- facades/manifest.cpp:527-547 `eg_ballot_style_new`; manifest.cpp:613-618. -/
def styleNew (objectId : Option Str) (gpUnitIds : List (Option Str)) : Res BallotStyle := do
  let objectId ← cstr objectId
  let gpUnitIds ← mapRes cstr gpUnitIds
  .ok { objectId, gpUnitIds, partyIds := [], imageUri := [] }

/-- facades/manifest.cpp:549-578 `eg_ballot_style_new_with_parties`; manifest.cpp:620-626. -/
def styleNewWith (objectId : Option Str) (gpUnitIds partyIds : List (Option Str)) (imageUri : Option Str) :
    Res BallotStyle := do
  let objectId ← cstr objectId
  let imageUri ← cstr imageUri
  let gpUnitIds ← mapRes cstr gpUnitIds
  let partyIds ← mapRes cstr partyIds
  .ok { objectId, gpUnitIds, partyIds, imageUri }

/-- facades/manifest.cpp:678-691 `eg_party_new`; manifest.cpp:703-710: the name is empty, not missing. -/
def partyNew (objectId : Option Str) : Res Party := do
  let objectId ← cstr objectId
  .ok { objectId, name := some [], abbreviation := [], color := [], logoUri := [] }

/-- facades/manifest.cpp:695-718 `eg_party_new_with_extras`; manifest.cpp:725-730. -/
def partyNewWith (objectId : Option Str) (name : Option IText) (abbreviation color logoUri : Option Str) :
    Res Party := do
  let objectId ← cstr objectId
  let abbreviation ← cstr abbreviation
  let color ← cstr color
  let name ← deref name
  let logoUri ← cstr logoUri
  .ok { objectId, name := some name, abbreviation, color, logoUri }

/-- facades/manifest.cpp:813-827 `eg_candidate_new`; manifest.cpp:811-815. -/
def candidateNew (objectId : Option Str) (isWriteIn : Bool) : Res Candidate := do
  let objectId ← cstr objectId
  .ok { objectId, name := none, partyId := [], imageUri := [], isWriteIn }

/-- facades/manifest.cpp:831-847 `eg_candidate_new_with_party`; manifest.cpp:817-822. -/
def candidateNewParty (objectId partyId : Option Str) (isWriteIn : Bool) : Res Candidate := do
  let objectId ← cstr objectId
  let partyId ← cstr partyId
  .ok { objectId, name := none, partyId, imageUri := [], isWriteIn }

/-- facades/manifest.cpp:849-872 `eg_candidate_new_with_extras`; manifest.cpp:848-854. -/
def candidateNewWith (objectId : Option Str) (name : Option IText) (partyId imageUri : Option Str)
    (isWriteIn : Bool) : Res Candidate := do
  let objectId ← cstr objectId
  let partyId ← cstr partyId
  let imageUri ← cstr imageUri
  let name ← deref name
  .ok { objectId, name := some name, partyId, imageUri, isWriteIn }

/-- facades/manifest.cpp:981-997 `eg_selection_description_new`; manifest.cpp:944-949. -/
def selectionNew (objectId candidateId : Option Str) (seq : ℕ) : Res SelectionDesc := do
  let objectId ← cstr objectId
  let candidateId ← cstr candidateId
  .ok { objectId, candidateId, seq }

/-- facades/manifest.cpp:1066-1097 `eg_contest_description_new`; manifest.cpp:1020-1036. -/
def contestNew (objectId districtId : Option Str) (seq : ℕ) (variation : VoteVariationType) (numberElected : ℕ)
    (name : Option Str) (selections : List (Option SelectionDesc)) : Res ContestDesc := do
  let objectId ← cstr objectId
  let districtId ← cstr districtId
  let name ← cstr name
  let selections ← mapRes deref selections
  .ok { objectId, districtId, seq, variation, numberElected
        votesAllowed := defaultVotesAllowed variation numberElected
        name, title := none, subtitle := none, selections, primaryPartyIds := [] }

/-- facades/manifest.cpp:1099-1135 `eg_contest_description_new_with_title`; manifest.cpp:1054-1069. -/
def contestNewTitle (objectId districtId : Option Str) (seq : ℕ) (variation : VoteVariationType)
    (numberElected votesAllowed : ℕ) (name : Option Str) (title subtitle : Option IText)
    (selections : List (Option SelectionDesc)) : Res ContestDesc := do
  let objectId ← cstr objectId
  let districtId ← cstr districtId
  let name ← cstr name
  let selections ← mapRes deref selections
  let title ← deref title
  let subtitle ← deref subtitle
  .ok { objectId, districtId, seq, variation, numberElected, votesAllowed
        name, title := some title, subtitle := some subtitle, selections, primaryPartyIds := [] }

/-- facades/manifest.cpp:1137-1174 `eg_contest_description_new_with_parties`; manifest.cpp:1037-1052. -/
def contestNewParties (objectId districtId : Option Str) (seq : ℕ) (variation : VoteVariationType)
    (numberElected : ℕ) (name : Option Str) (selections : List (Option SelectionDesc))
    (primaryPartyIds : List (Option Str)) : Res ContestDesc := do
  let objectId ← cstr objectId
  let districtId ← cstr districtId
  let name ← cstr name
  let selections ← mapRes deref selections
  let primaryPartyIds ← mapRes cstr primaryPartyIds
  .ok { objectId, districtId, seq, variation, numberElected
        votesAllowed := defaultVotesAllowed variation numberElected
        name, title := none, subtitle := none, selections, primaryPartyIds }

/-- facades/manifest.cpp:1176-1220 `eg_contest_description_new_with_title_and_parties`; manifest.cpp:1071-1086. -/
def contestNewTitleParties (objectId districtId : Option Str) (seq : ℕ) (variation : VoteVariationType)
    (numberElected votesAllowed : ℕ) (name : Option Str) (title subtitle : Option IText)
    (selections : List (Option SelectionDesc)) (primaryPartyIds : List (Option Str)) : Res ContestDesc := do
  let objectId ← cstr objectId
  let districtId ← cstr districtId
  let name ← cstr name
  let selections ← mapRes deref selections
  let primaryPartyIds ← mapRes cstr primaryPartyIds
  let title ← deref title
  let subtitle ← deref subtitle
  .ok { objectId, districtId, seq, variation, numberElected, votesAllowed
        name, title := some title, subtitle := some subtitle, selections, primaryPartyIds }

/-- The parts of a manifest, as arrays of pointers. -/
structure PartsArg where
  gpUnits : List (Option GpUnit)
  parties : List (Option Party)
  candidates : List (Option Candidate)
  contests : List (Option ContestDesc)
  styles : List (Option BallotStyle)

/-- facades/manifest.cpp:1625-1691 `eg_election_manifest_new`; manifest.cpp:1468-1481. -/
def manifestNew (scopeId : Option Str) (type : ElectionType) (startDate endDate : Str) (p : PartsArg) :
    Res Manifest := do
  let scopeId ← cstr scopeId
  let gpUnits ← mapRes deref p.gpUnits
  let parties ← mapRes deref p.parties
  let candidates ← mapRes deref p.candidates
  let contests ← mapRes deref p.contests
  let styles ← mapRes deref p.styles
  .ok { scopeId, type, startDate, endDate, gpUnits, parties, candidates, contests, styles, name := none
        contact := none }

/-- facades/manifest.cpp:1693-1763 `eg_election_manifest_new_with_contact`; manifest.cpp:1483-1499. -/
def manifestNewWith (scopeId : Option Str) (type : ElectionType) (startDate endDate : Str) (p : PartsArg)
    (name : Option IText) (contact : Option Contact) : Res Manifest := do
  let scopeId ← cstr scopeId
  let gpUnits ← mapRes deref p.gpUnits
  let parties ← mapRes deref p.parties
  let candidates ← mapRes deref p.candidates
  let contests ← mapRes deref p.contests
  let styles ← mapRes deref p.styles
  let name ← deref name
  let contact ← deref contact
  .ok { scopeId, type, startDate, endDate, gpUnits, parties, candidates, contests, styles, name := some name
        contact := some contact }

/-! ## Getters -/

/-- A getter of text, such as `eg_annotated_string_get_annotation` (facades/manifest.cpp:74-86): the text of the
allocation of `dynamicCopy`. -/
def outText (s : Str) : Str := s.takeWhile (· ≠ Char.ofNat 0)

/-- A getter at an index, such as `eg_internationalized_text_get_text_at_index` (facades/manifest.cpp:229-244): `at`
throws out of range. -/
def getAt {α : Type} (l : List α) (i : ℕ) : CText.Status × Option α :=
  match l[i]? with
  | some a => (.success, some a)
  | none => (.badAlloc, none)

/-- What a client reads that goes from 0 to the size, which is reported by a function such as
`eg_internationalized_text_get_text_size` (facades/manifest.cpp:224-227). -/
def readAll {α β : Type} (f : α → β) (l : List α) : List β :=
  (List.range l.length).filterMap (fun i => (getAt l i).2.map f)

/-- facades/manifest.cpp:74-100 the getters of `AnnotatedString`. -/
def seeAnnotated (a : Annotated) : Str × Str := (outText a.annotation, outText a.value)

/-- facades/manifest.cpp:146-170 the getters of `Language`. -/
def seeLanguage (l : Language) : Str × Str := (outText l.value, outText l.language)

/-- facades/manifest.cpp:224-244 the getters of `InternationalizedText`. -/
def seeText (t : IText) : List (Str × Str) := readAll seeLanguage t

/-- facades/manifest.cpp:329-393 the getters of `ContactInformation`; the getter of the name (395-407) and the hash
(409-420) take the object for one of another class, which is undefined (C83). -/
def seeContact (c : Contact) : List Str × List (Str × Str) × List (Str × Str) :=
  (readAll outText c.addressLine, readAll seeAnnotated c.email, readAll seeAnnotated c.phone)

/-- facades/manifest.cpp:477-508 the getters of `GeopoliticalUnit`; there is none for the contact information. -/
def seeGpUnit (u : GpUnit) : Str × Str × ReportingUnitType := (outText u.objectId, outText u.name, u.type)

/-- facades/manifest.cpp:591-659 the getters of `BallotStyle`. -/
def seeStyle (s : BallotStyle) : Str × List Str × List Str × Str :=
  (outText s.objectId, readAll outText s.gpUnitIds, readAll outText s.partyIds, outText s.imageUri)

/-- facades/manifest.cpp:731-795 the getters of `Party`. -/
def seeParty (p : Party) : Str × Str × Option (List (Str × Str)) × Str × Str :=
  (outText p.objectId, outText p.abbreviation, p.name.map seeText, outText p.color, outText p.logoUri)

/-- facades/manifest.cpp:885-962 the getters of `Candidate`. -/
def seeCandidate (c : Candidate) : Str × Option (List (Str × Str)) × Str × Str × Bool :=
  (outText c.objectId, c.name.map seeText, outText c.partyId, outText c.imageUri, c.isWriteIn)

/-- facades/manifest.cpp:1010-1047 the getters of `SelectionDescription`. -/
def seeSelection (s : SelectionDesc) : Str × Str × ℕ := (outText s.objectId, outText s.candidateId, s.seq)

set_option synthInstance.maxSize 1024

/-- What is read of a contest. -/
structure ContestView where
  objectId : Str
  districtId : Str
  seq : ℕ
  variation : VoteVariationType
  numberElected : ℕ
  votesAllowed : ℕ
  name : Str
  title : Option (List (Str × Str))
  subtitle : Option (List (Str × Str))
  selections : List (Str × Str × ℕ)
  deriving DecidableEq

/-- facades/manifest.cpp:1234-1345 the getters of `ContestDescription`; there is none for the primary parties. -/
def seeContest (S : StdSort) (c : ContestDesc) : ContestView :=
  { objectId := outText c.objectId
    districtId := outText c.districtId
    seq := c.seq
    variation := c.variation
    numberElected := c.numberElected
    votesAllowed := c.votesAllowed
    name := outText c.name
    title := c.title.map seeText
    subtitle := c.subtitle.map seeText
    selections := readAll seeSelection (c.getSelections S) }

/-- What is read of a manifest, besides its dates (C101). -/
structure ManifestView where
  scopeId : Str
  type : ElectionType
  gpUnits : List (Str × Str × ReportingUnitType)
  parties : List (Str × Str × Option (List (Str × Str)) × Str × Str)
  candidates : List (Str × Option (List (Str × Str)) × Str × Str × Bool)
  contests : List ContestView
  styles : List (Str × List Str × List Str × Str)
  name : Option (List (Str × Str))
  contact : Option (List Str × List (Str × Str) × List (Str × Str))
  deriving DecidableEq

/-- facades/manifest.cpp:1776-1793, 1819-1957 the getters of `Manifest`; the contests are those of `getContests`
(manifest.cpp:1621-1636). -/
def seeManifest (S : StdSort) (m : Manifest) : ManifestView :=
  { scopeId := outText m.scopeId
    type := m.type
    gpUnits := readAll seeGpUnit m.gpUnits
    parties := readAll seeParty m.parties
    candidates := readAll seeCandidate m.candidates
    contests := readAll (seeContest S) (S.sort ContestDesc.seq m.contests)
    styles := readAll seeStyle m.styles
    name := m.name.map seeText
    contact := m.contact.map seeContact }

/-! ## The numbers of the enumerators -/

/-- manifest.hpp:21-30, and the same numbers in manifest.h:21-30 and NativeInterface.cs:113-150. -/
def electionTypeCode : ElectionType → ℕ
  | .unknown => 0 | .general => 1 | .partisanPrimaryClosed => 2 | .partisanPrimaryOpen => 3 | .primary => 4
  | .runoff => 5 | .special => 6 | .other => 7

/-- manifest.hpp:94-108, and the same numbers in manifest.h:80-94 and NativeInterface.cs:283-340. -/
def variationCode : VoteVariationType → ℕ
  | .unknown => 0 | .one_of_m => 1 | .approval => 2 | .borda => 3 | .cumulative => 4 | .majority => 5 | .n_of_m => 6
  | .plurality => 7 | .proportional => 8 | .range => 9 | .rcv => 10 | .super_majority => 11 | .other => 12

/-- The text that is hashed for a number given as `eg_election_type_t` (manifest.cpp:49-52, `_map.find(value)->second`). -/
def electionTypeText (n : ℕ) : Res Str := findKey (electionTypeMap.map (fun e => (electionTypeCode e.1, e.2))) n

/-- The same for `eg_vote_variation_type_t` (manifest.cpp:145-148). -/
def variationText (n : ℕ) : Res Str := findKey (voteVariationTypeMap.map (fun e => (variationCode e.1, e.2))) n

end EG.CMan
