import Verif.Model.Json
import Verif.Model.Encrypt

/-!
# Serialization (src/electionguard/serialize.hpp)

Each class has a pair of functions between objects and JSON documents.  The texts are
`Json.dump` and `Json.parse` of the documents; the binary formats BSON and MessagePack, which hold the
same documents, are in Model/Binary.lean.

Dates are texts in the model of the manifest: `timePointFromIsoString` is taken to invert
`timePointToIsoString` (see Model/Date.lean for when it does).  Getters that sort are modelled as sorting.  Dereferencing a null pointer is
undefined behaviour.
-/

namespace EG

/-- The name of a member. -/
abbrev key (s : String) : Str := s.toList

/-- A member of an object that is read as a string: `j[name].get<string>()`. -/
def Json.strAt (j : Json) (name : Str) : Res Str := do
  let v ← j.at name
  v.asStr

/-- `j[name].get<uint64_t>()`. -/
def Json.natAt (j : Json) (name : Str) : Res ℕ := do
  let v ← j.at name
  v.asNat

/-- `j[name].get<bool>()`. -/
def Json.boolAt (j : Json) (name : Str) : Res Bool := do
  let v ← j.at name
  v.asBool

/-- `j[name].get<string>()` on a constant document. -/
def Json.strAtConst (j : Json) (name : Str) : Res Str := do
  let v ← j.atConst name
  v.asStr

/-- `j[name].get<uint64_t>()` on a constant document. -/
def Json.natAtConst (j : Json) (name : Str) : Res ℕ := do
  let v ← j.atConst name
  v.asNat

/-- `j.contains(name) && !j[name].is_null() ? f(j[name]) : otherwise`. -/
def Json.optWith {α : Type} (j : Json) (name : Str) (f : Json → Res α) (otherwise : α) : Res α :=
  match j.opt name with
  | some v => f v
  | none => .ok otherwise

/-- An assignment to a member under a condition. -/
def Json.setIf (j : Json) (cond : Bool) (name : Str) (value : Json) : Json :=
  if cond then j.set name value else j

/-- An assignment to a member if there is a value. -/
def Json.setSome (j : Json) (name : Str) (value : Option Json) : Json :=
  match value with
  | some v => j.set name v
  | none => j

/-! ## Manifest -/

/-- serialize.hpp:36-39 `annotatedStringToJson`. -/
def Annotated.toDoc (a : Annotated) : Json :=
  .object [(key "annotation", .str a.annotation), (key "value", .str a.value)]

/-- serialize.hpp:41-46 `annotatedStringFromJson`. -/
def Annotated.ofDoc (j : Json) : Res Annotated := do
  let value ← j.strAtConst (key "value")
  let annotation ← j.strAtConst (key "annotation")
  .ok { annotation, value }

/-- serialize.hpp:48-51 `languageToJson`. -/
def Language.toDoc (l : Language) : Json :=
  .object [(key "value", .str l.value), (key "language", .str l.language)]

/-- serialize.hpp:53-58 `languageFromJson`. -/
def Language.ofDoc (j : Json) : Res Language := do
  let value ← j.strAtConst (key "value")
  let language ← j.strAtConst (key "language")
  .ok { value, language }

/-- serialize.hpp:60-67 `internationalizedTextToJson`. -/
def IText.toDoc (t : IText) : Json := .object [(key "text", .arr (t.map Language.toDoc))]

/-- serialize.hpp:69-78 `internationalizedTextFromJson`. -/
def IText.ofDoc (j : Json) : Res IText :=
  j.optWith (key "text") (fun v => mapRes Language.ofDoc v.items) []

/-- serialize.hpp:80-112 `contactInformationToJson`; without any information it is `null`. -/
def Contact.toDoc (c : Contact) : Json :=
  (((Json.null.setIf (!c.name.isEmpty) (key "name") (.str c.name)).setIf (!c.addressLine.isEmpty)
      (key "address_line") (.arr (c.addressLine.map .str))).setIf (!c.email.isEmpty) (key "email")
      (.arr (c.email.map Annotated.toDoc))).setIf (!c.phone.isEmpty) (key "phone")
      (.arr (c.phone.map Annotated.toDoc))

/-- serialize.hpp:114-142 `contactInformationFromJson`. -/
def Contact.ofDoc (j : Json) : Res Contact := do
  let addressLine ← j.optWith (key "address_line") (fun v => mapRes Json.asStr v.items) []
  let email ← j.optWith (key "email") (fun v => mapRes Annotated.ofDoc v.items) []
  let phone ← j.optWith (key "phone") (fun v => mapRes Annotated.ofDoc v.items) []
  let name ← j.optWith (key "name") Json.asStr []
  .ok { addressLine, email, phone, name }

/-- serialize.hpp:144-157 `geopoliticalUnitToJson`. -/
def GpUnit.toDoc (u : GpUnit) : Res Json := do
  let type ← u.type.string
  .ok ((Json.object [(key "object_id", .str u.objectId), (key "name", .str u.name),
    (key "type", .str type)]).setSome (key "contact_information") (u.contact.map Contact.toDoc))

/-- serialize.hpp:159-169 `geopoliticalUnitFromJson`. -/
def GpUnit.ofDoc (j : Json) : Res GpUnit := do
  let objectId ← j.strAtConst (key "object_id")
  let name ← j.strAtConst (key "name")
  let typeName ← j.strAtConst (key "type")
  let type ← reportingUnitTypeOf typeName
  let contact ← j.optWith (key "contact_information")
    (fun v => do let c ← Contact.ofDoc v; .ok (some c)) none
  .ok { objectId, name, type, contact }

/-- serialize.hpp:190-212 `partyToJson`. -/
def Party.toDoc (p : Party) : Json :=
  (((((Json.null.set (key "object_id") (.str p.objectId)).setIf (!p.abbreviation.isEmpty)
      (key "abbreviation") (.str p.abbreviation)).setIf (!p.color.isEmpty) (key "color")
      (.str p.color)).setIf (!p.logoUri.isEmpty) (key "logo_uri") (.str p.logoUri))).setSome
      (key "name") (p.name.map IText.toDoc)

/-- serialize.hpp:214-235 `partyFromJson`: without a name, the name is read from the text `"{}"`. -/
def Party.ofDoc (j : Json) : Res Party := do
  let abbreviation ← j.optWith (key "abbreviation") Json.asStr []
  let color ← j.optWith (key "color") Json.asStr []
  let logoUri ← j.optWith (key "logo_uri") Json.asStr []
  let name ← match j.opt (key "name") with
    | some v => IText.ofDoc v
    | none => IText.ofDoc (.str (key "{}"))
  let objectId ← j.strAtConst (key "object_id")
  .ok { objectId, name := some name, abbreviation, color, logoUri }

/-- serialize.hpp:256-278 `candidateToJson`. -/
def Candidate.toDoc (c : Candidate) : Json :=
  ((((Json.null.set (key "object_id") (.str c.objectId)).setIf c.isWriteIn (key "is_write_in")
      (.bool c.isWriteIn)).setSome (key "name") (c.name.map IText.toDoc)).setIf (!c.partyId.isEmpty)
      (key "party_id") (.str c.partyId)).setIf (!c.imageUri.isEmpty) (key "image_uri")
      (.str c.imageUri)

/-- serialize.hpp:280-295 `candidateFromJson`. -/
def Candidate.ofDoc (j : Json) : Res Candidate := do
  let objectId ← j.strAtConst (key "object_id")
  let name ← match j.opt (key "name") with
    | some v => IText.ofDoc v
    | none => IText.ofDoc (.str (key "{}"))
  let isWriteIn ← j.optWith (key "is_write_in") Json.asBool false
  let partyId ← j.optWith (key "party_id") Json.asStr []
  let imageUri ← j.optWith (key "image_uri") Json.asStr []
  .ok { objectId, name := some name, partyId, imageUri, isWriteIn }

/-- serialize.hpp:316-341 `ballotStyleToJson`. -/
def BallotStyle.toDoc (s : BallotStyle) : Json :=
  ((Json.object [(key "object_id", .str s.objectId),
      (key "geopolitical_unit_ids", .pushed (s.gpUnitIds.map .str))]).setIf (!s.partyIds.isEmpty)
      (key "party_ids") (.arr (s.partyIds.map .str))).setIf (!s.imageUri.isEmpty) (key "image_uri")
      (.str s.imageUri)

/-- serialize.hpp:343-361 `ballotStyleFromJson`. -/
def BallotStyle.ofDoc (j : Json) : Res BallotStyle := do
  let units ← j.atConst (key "geopolitical_unit_ids")
  let gpUnitIds ← mapRes Json.asStr units.items
  let partyIds ← j.optWith (key "party_ids") (fun v => mapRes Json.asStr v.items) []
  let imageUri ← j.optWith (key "image_uri") Json.asStr []
  let objectId ← j.strAtConst (key "object_id")
  .ok { objectId, gpUnitIds, partyIds, imageUri }

/-- serialize.hpp:381-388 `selectionDescriptionToJson`. -/
def SelectionDesc.toDoc (s : SelectionDesc) : Json :=
  .object [(key "object_id", .str s.objectId), (key "candidate_id", .str s.candidateId),
    (key "sequence_order", .num s.seq)]

/-- serialize.hpp:390-395 `selectionDescriptionFromJson`. -/
def SelectionDesc.ofDoc (j : Json) : Res SelectionDesc := do
  let objectId ← j.strAtConst (key "object_id")
  let candidateId ← j.strAtConst (key "candidate_id")
  let seq ← j.natAtConst (key "sequence_order")
  .ok { objectId, candidateId, seq }

/-- serialize.hpp:416-444 `contestDescriptionToJson`; the selections come sorted from
`getSelections`. -/
def ContestDesc.toDoc (S : StdSort) (c : ContestDesc) : Res Json := do
  let variation ← c.variation.string
  .ok ((((((Json.object [(key "object_id", .str c.objectId),
      (key "electoral_district_id", .str c.districtId), (key "sequence_order", .num c.seq),
      (key "vote_variation", .str variation), (key "number_elected", .num c.numberElected)]).setIf
      (decide (c.votesAllowed > 0)) (key "votes_allowed") (.num c.votesAllowed)).set (key "name")
      (.str c.name)).setSome (key "ballot_title") (c.title.map IText.toDoc)).setSome
      (key "ballot_subtitle") (c.subtitle.map IText.toDoc)).set (key "ballot_selections")
      (.pushed ((c.getSelections S).map SelectionDesc.toDoc)))

/-- serialize.hpp:446-473 `contestDescriptionFromJson`. -/
def ContestDesc.ofDoc (j : Json) : Res ContestDesc := do
  let objectId ← j.strAtConst (key "object_id")
  let districtId ← j.strAtConst (key "electoral_district_id")
  let seq ← j.natAtConst (key "sequence_order")
  let variationName ← j.strAtConst (key "vote_variation")
  let variation ← voteVariationTypeOf variationName
  let numberElected ← j.natAtConst (key "number_elected")
  let votesAllowed ← j.optWith (key "votes_allowed") Json.asNat
    (defaultVotesAllowed variation numberElected)
  let name ← j.strAtConst (key "name")
  let title ← j.optWith (key "ballot_title") (fun v => do let t ← IText.ofDoc v; .ok (some t)) none
  let subtitle ← j.optWith (key "ballot_subtitle")
    (fun v => do let t ← IText.ofDoc v; .ok (some t)) none
  let selectionDocs ← j.atConst (key "ballot_selections")
  let selections ← mapRes SelectionDesc.ofDoc selectionDocs.items
  .ok (.make10 objectId districtId seq variation numberElected votesAllowed name title subtitle
    selections)

/-- serialize.hpp:500-538 `Manifest::fromObject`; the contests come sorted from `getContests`. -/
def Manifest.toDoc (S : StdSort) (m : Manifest) : Res Json := do
  let type ← m.type.string
  let gpUnits ← mapRes GpUnit.toDoc m.gpUnits
  let contests ← mapRes (ContestDesc.toDoc S) (S.sort ContestDesc.seq m.contests)
  .ok ((((Json.object [(key "election_scope_id", .str m.scopeId), (key "type", .str type),
      (key "start_date", .str m.startDate), (key "end_date", .str m.endDate),
      (key "geopolitical_units", .arr gpUnits), (key "parties", .arr (m.parties.map Party.toDoc)),
      (key "candidates", .arr (m.candidates.map Candidate.toDoc)), (key "contests", .arr contests),
      (key "ballot_styles", .arr (m.styles.map BallotStyle.toDoc))]).setSome (key "name")
      (m.name.map IText.toDoc)).setSome (key "contact_information")
      (m.contact.map Contact.toDoc)).set (key "spec_version") (.str (key "1.0")))

/-- serialize.hpp:540-569 `Manifest::toObject`. -/
def Manifest.ofDoc (j : Json) : Res Manifest := do
  let scopeId ← j.strAt (key "election_scope_id")
  let typeName ← j.strAt (key "type")
  let startDate ← j.strAt (key "start_date")
  let endDate ← j.strAt (key "end_date")
  let unitDocs ← j.at (key "geopolitical_units")
  let gpUnits ← mapRes GpUnit.ofDoc unitDocs.items
  let partyDocs ← j.at (key "parties")
  let parties ← mapRes Party.ofDoc partyDocs.items
  let candidateDocs ← j.at (key "candidates")
  let candidates ← mapRes Candidate.ofDoc candidateDocs.items
  let contestDocs ← j.at (key "contests")
  let contests ← mapRes ContestDesc.ofDoc contestDocs.items
  let styleDocs ← j.at (key "ballot_styles")
  let styles ← mapRes BallotStyle.ofDoc styleDocs.items
  match j.opt (key "name") with
  | some v => do
    let name ← IText.ofDoc v
    let contactDoc ← j.at (key "contact_information")
    let contact ← Contact.ofDoc contactDoc
    let type ← electionTypeOf typeName
    .ok { scopeId, type, startDate, endDate, gpUnits, parties, candidates, contests, styles,
          name := some name, contact := some contact }
  | none => do
    let type ← electionTypeOf typeName
    .ok { scopeId, type, startDate, endDate, gpUnits, parties, candidates, contests, styles,
          name := none, contact := none }

/-- serialize.hpp:614-643: a contest of `InternalManifest::fromObject`.  The titles are put into an
object `{"text": …}` although `internationalizedTextToJson` does that already. -/
def ContestDescP.toDoc (S : StdSort) (c : ContestDescP) : Res Json := do
  let variation ← c.desc.variation.string
  .ok (((Json.object [(key "object_id", .str c.desc.objectId),
      (key "electoral_district_id", .str c.desc.districtId),
      (key "sequence_order", .num c.desc.seq), (key "vote_variation", .str variation),
      (key "number_elected", .num c.desc.numberElected),
      (key "votes_allowed", .num c.desc.votesAllowed), (key "name", .str c.desc.name),
      (key "ballot_selections", .pushed ((c.desc.getSelections S).map SelectionDesc.toDoc)),
      (key "ballot_placeholders", .pushed ((c.getPlaceholders S).map SelectionDesc.toDoc))]).setSome
      (key "ballot_title") (c.desc.title.map (fun t => .object [(key "text", IText.toDoc t)]))).setSome
      (key "ballot_subtitle") (c.desc.subtitle.map (fun t => .object [(key "text", IText.toDoc t)])))

/-- serialize.hpp:667-701: a contest of `InternalManifest::toObject`. -/
def ContestDescP.ofDoc (j : Json) : Res ContestDescP := do
  let objectId ← j.strAt (key "object_id")
  let districtId ← j.strAt (key "electoral_district_id")
  let seq ← j.natAt (key "sequence_order")
  let variationName ← j.strAt (key "vote_variation")
  let numberElected ← j.natAt (key "number_elected")
  let name ← j.strAt (key "name")
  let selectionDocs ← j.at (key "ballot_selections")
  let selections ← mapRes SelectionDesc.ofDoc selectionDocs.items
  let placeholderDocs ← j.at (key "ballot_placeholders")
  let placeholders ← mapRes SelectionDesc.ofDoc placeholderDocs.items
  match j.opt (key "ballot_title") with
  | some v => do
    let votesAllowed ← j.natAt (key "votes_allowed")
    let title ← IText.ofDoc v
    let subtitleDoc ← j.at (key "ballot_subtitle")
    let subtitle ← IText.ofDoc subtitleDoc
    let variation ← voteVariationTypeOf variationName
    .ok { desc := .make10 objectId districtId seq variation numberElected votesAllowed name
            (some title) (some subtitle) selections
          placeholders }
  | none => do
    let variation ← voteVariationTypeOf variationName
    .ok { desc := .make7 objectId districtId seq variation numberElected name selections
          placeholders }

/-- serialize.hpp:605-656 `InternalManifest::fromObject`. -/
def IManifest.toDoc (S : StdSort) (m : IManifest) : Res Json := do
  let gpUnits ← mapRes GpUnit.toDoc m.gpUnits
  let contests ← mapRes (ContestDescP.toDoc S) (m.getContests S)
  .ok (.object [(key "manifest_hash", .str (toHexQ m.manifestHash)),
    (key "geopolitical_units", .arr gpUnits),
    (key "candidates", .arr (m.candidates.map Candidate.toDoc)), (key "contests", .pushed contests),
    (key "ballot_styles", .arr (m.styles.map BallotStyle.toDoc))])

/-- serialize.hpp:657-711 `InternalManifest::toObject`. -/
def IManifest.ofDoc (G : Params) (j : Json) : Res IManifest := do
  let unitDocs ← j.at (key "geopolitical_units")
  let gpUnits ← mapRes GpUnit.ofDoc unitDocs.items
  let candidateDocs ← j.at (key "candidates")
  let candidates ← mapRes Candidate.ofDoc candidateDocs.items
  let contestDocs ← j.at (key "contests")
  let contests ← mapRes ContestDescP.ofDoc contestDocs.items
  let styleDocs ← j.at (key "ballot_styles")
  let styles ← mapRes BallotStyle.ofDoc styleDocs.items
  let hash ← j.strAt (key "manifest_hash")
  let manifestHash ← fromHexQ G false hash
  .ok { gpUnits, candidates, contests, styles, manifestHash }

/-! ## Context and device -/

/-- `ContextConfiguration` (include/electionguard/election.hpp:20-37) and the extended data, which the
model of the context leaves out; the keys of the extended data are distinct. -/
structure ContextExtras where
  allowOvervotes : Bool
  maxBallots : ℕ
  extendedData : List (Str × Str)
  deriving DecidableEq

/-- serialize.hpp:748-772 `CiphertextelectionContext::fromObject`. -/
def Context.toDoc (c : Context) (e : ContextExtras) : Json :=
  (Json.object [(key "crypto_base_hash", .str (toHexQ c.baseHash)),
    (key "crypto_extended_base_hash", .str (toHexQ c.extHash)),
    (key "commitment_hash", .str (toHexQ c.commitmentHash)),
    (key "manifest_hash", .str (toHexQ c.manifestHash)),
    (key "elgamal_public_key", .str (toHexP c.pub)),
    (key "number_of_guardians", .num c.numberOfGuardians), (key "quorum", .num c.quorum),
    (key "configuration", .object [(key "allow_overvotes", .bool e.allowOvervotes),
      (key "max_votes", .num e.maxBallots)])]).setIf (!e.extendedData.isEmpty) (key "extended_data")
    (.object (e.extendedData.map (fun d => (d.1, .str d.2))))

/-- `DEFAULT_MAX_BALLOTS` (include/electionguard/constants.h:23). -/
def defaultMaxBallots : ℕ := 1000000

/-- `items()` of a document: the members of an object, the elements of an array under their indices. -/
def Json.members : Json → List (Str × Json)
  | .null => []
  | .obj m => m
  | .arr l => l.zipIdx.map (fun e => (dumpNum e.2, e.1))
  | j => [([], j)]

/-- serialize.hpp:773-817 `CiphertextelectionContext::toObject`.  The hashes are taken from the
document. -/
def Context.ofDoc (G : Params) (j : Json) : Res (Context × ContextExtras) := do
  let baseHash ← j.strAt (key "crypto_base_hash")
  let extHash ← j.strAt (key "crypto_extended_base_hash")
  let commitment ← j.strAt (key "commitment_hash")
  let manifest ← j.strAt (key "manifest_hash")
  let pub ← j.strAt (key "elgamal_public_key")
  let numberOfGuardians ← j.natAt (key "number_of_guardians")
  let quorum ← j.natAt (key "quorum")
  let configuration ← j.optWith (key "configuration") (fun v => do
    let allow ← v.boolAt (key "allow_overvotes")
    let max ← v.natAt (key "max_votes")
    .ok (allow, max)) (true, defaultMaxBallots)
  let commitmentHash ← fromHexQ G false commitment
  let manifestHash ← fromHexQ G false manifest
  let cryptoBaseHash ← fromHexQ G false baseHash
  let cryptoExtendedBaseHash ← fromHexQ G false extHash
  let publicKey ← fromHexP G false pub
  let extendedData ← j.optWith (key "extended_data")
    (fun v => mapRes (fun e => do let s ← e.2.asStr; .ok (e.1, s)) v.members) []
  .ok ({ numberOfGuardians, quorum, pub := publicKey, commitmentHash, manifestHash,
         baseHash := cryptoBaseHash, extHash := cryptoExtendedBaseHash },
       { allowOvervotes := configuration.1, maxBallots := configuration.2, extendedData })

/-- serialize.hpp:940-951 `EncryptionDevice::fromObject`. -/
def Device.toDoc (d : Device) : Json :=
  .object [(key "device_id", .num d.deviceUuid), (key "session_id", .num d.sessionUuid),
    (key "launch_code", .num d.launchCode), (key "location", .str d.location)]

/-- serialize.hpp:953-962 `EncryptionDevice::toObject`. -/
def Device.ofDoc (j : Json) : Res Device := do
  let deviceUuid ← j.natAt (key "device_id")
  let sessionUuid ← j.natAt (key "session_id")
  let launchCode ← j.natAt (key "launch_code")
  let location ← j.strAt (key "location")
  .ok { deviceUuid, sessionUuid, launchCode, location }

/-! ## Plaintext ballots -/

/-- serialize.hpp:849-855. -/
def PSelection.toDoc (s : PSelection) : Json :=
  .object [(key "object_id", .str s.objectId), (key "vote", .num s.vote),
    (key "is_placeholder_selection", .bool s.isPlaceholder), (key "write_in", .str s.writeIn)]

/-- serialize.hpp:883-901. -/
def PSelection.ofDoc (j : Json) : Res PSelection := do
  let objectId ← j.strAt (key "object_id")
  let vote ← j.natAt (key "vote")
  let isPlaceholder ← j.optWith (key "is_placeholder_selection") Json.asBool false
  let writeIn ← j.optWith (key "write_in") Json.asStr []
  .ok { objectId, vote, isPlaceholder, writeIn }

/-- serialize.hpp:846-860. -/
def PContest.toDoc (c : PContest) : Json :=
  .object [(key "object_id", .str c.objectId),
    (key "ballot_selections", .pushed (c.selections.map PSelection.toDoc))]

/-- serialize.hpp:877-905. -/
def PContest.ofDoc (j : Json) : Res PContest := do
  let objectId ← j.strAt (key "object_id")
  let docs ← j.at (key "ballot_selections")
  let selections ← mapRes PSelection.ofDoc docs.items
  .ok { objectId, selections }

/-- serialize.hpp:843-866 `PlaintextBallot::fromObject`. -/
def PBallot.toDoc (b : PBallot) : Json :=
  .object [(key "object_id", .str b.objectId), (key "style_id", .str b.styleId),
    (key "contests", .pushed (b.contests.map PContest.toDoc))]

/-- serialize.hpp:867-909 `PlaintextBallot::toObject`. -/
def PBallot.ofDoc (j : Json) : Res PBallot := do
  let objectId ← j.strAt (key "object_id")
  let styleId ← j.strAt (key "style_id")
  let docs ← j.at (key "contests")
  let contests ← mapRes PContest.ofDoc docs.items
  .ok { objectId, styleId, contests }

/-- serialize.hpp:985-1003 `CompactPlaintextBallot::fromObject`. -/
def CompactPlain.toDoc (c : CompactPlain) : Json :=
  .object [(key "object_id", .str c.objectId), (key "style_id", .str c.styleId),
    (key "selections", .pushed (c.selections.map .num)),
    (key "writeins", .pushed (c.writeIns.map .str))]

/-- `get<vector<uint64_t>>()`, by which a document becomes a vector: it must be an array. -/
def Json.asNats : Json → Res (List ℕ)
  | .arr l => mapRes Json.asNat l
  | _ => .throw .json

/-- serialize.hpp:1004-1026 `CompactPlaintextBallot::toObject`.  The vector of votes is built but not
used: the constructor gets the document itself, converted.  The write-ins are read as the texts of
the documents. -/
def CompactPlain.ofDoc (j : Json) : Res CompactPlain := do
  let objectId ← j.strAt (key "object_id")
  let styleId ← j.strAt (key "style_id")
  let selectionDocs ← j.at (key "selections")
  let writeInDocs ← j.at (key "writeins")
  let _votes ← mapRes Json.asNat selectionDocs.items
  let writeIns := writeInDocs.items.map Json.dump
  let selections ← selectionDocs.asNats
  .ok { objectId, styleId, selections, writeIns }

/-! ## Ciphertext ballots -/

/-- serialize.hpp:1067-1069, 1098-1100. -/
def Ciphertext.toDoc (c : Ciphertext) : Json :=
  .object [(key "pad", .str (toHexP c.pad)), (key "data", .str (toHexP c.data))]

/-- serialize.hpp:1168-1175, 1220-1226. -/
def Ciphertext.ofDoc (G : Params) (j : Json) : Res Ciphertext := do
  let padHex ← j.strAt (key "pad")
  let dataHex ← j.strAt (key "data")
  let pad ← fromHexP G false padHex
  let data ← fromHexP G false dataHex
  .ok { pad, data }

/-- serialize.hpp:1070-1081. -/
def DisjProof.toDoc (p : DisjProof) : Json :=
  .object [(key "proof_zero_pad", .str (toHexP p.zeroPad)),
    (key "proof_zero_data", .str (toHexP p.zeroData)), (key "proof_one_pad", .str (toHexP p.onePad)),
    (key "proof_one_data", .str (toHexP p.oneData)),
    (key "proof_zero_challenge", .str (toHexQ p.zeroChallenge)),
    (key "proof_one_challenge", .str (toHexQ p.oneChallenge)),
    (key "challenge", .str (toHexQ p.challenge)),
    (key "proof_zero_response", .str (toHexQ p.zeroResponse)),
    (key "proof_one_response", .str (toHexQ p.oneResponse))]

/-- serialize.hpp:1228-1257. -/
def DisjProof.ofDoc (G : Params) (j : Json) : Res DisjProof := do
  let zp ← j.strAt (key "proof_zero_pad")
  let zd ← j.strAt (key "proof_zero_data")
  let op ← j.strAt (key "proof_one_pad")
  let od ← j.strAt (key "proof_one_data")
  let zc ← j.strAt (key "proof_zero_challenge")
  let oc ← j.strAt (key "proof_one_challenge")
  let c ← j.strAt (key "challenge")
  let zr ← j.strAt (key "proof_zero_response")
  let or ← j.strAt (key "proof_one_response")
  let zeroPad ← fromHexP G false zp
  let zeroData ← fromHexP G false zd
  let onePad ← fromHexP G false op
  let oneData ← fromHexP G false od
  let zeroChallenge ← fromHexQ G false zc
  let oneChallenge ← fromHexQ G false oc
  let challenge ← fromHexQ G false c
  let zeroResponse ← fromHexQ G false zr
  let oneResponse ← fromHexQ G false or
  .ok { zeroPad, zeroData, onePad, oneData, zeroChallenge, oneChallenge, challenge, zeroResponse,
        oneResponse }

/-- serialize.hpp:1102-1109. -/
def ConstProof.toDoc (p : ConstProof) : Json :=
  .object [(key "pad", .str (toHexP p.pad)), (key "data", .str (toHexP p.data)),
    (key "challenge", .str (toHexQ p.challenge)), (key "response", .str (toHexQ p.response)),
    (key "constant", .num p.constant)]

/-- serialize.hpp:1192-1203. -/
def ConstProof.ofDoc (G : Params) (j : Json) : Res ConstProof := do
  let p ← j.strAt (key "pad")
  let d ← j.strAt (key "data")
  let c ← j.strAt (key "challenge")
  let r ← j.strAt (key "response")
  let constant ← j.natAt (key "constant")
  let pad ← fromHexP G false p
  let data ← fromHexP G false d
  let challenge ← fromHexQ G false c
  let response ← fromHexQ G false r
  .ok { pad, data, challenge, response, constant }

/-- serialize.hpp:1111-1115. -/
def HashedCiphertext.toDoc (c : HashedCiphertext) : Json :=
  .object [(key "pad", .str (toHexP c.pad)), (key "data", .str (bytesToHex c.data)),
    (key "mac", .str (bytesToHex c.mac))]

/-- serialize.hpp:1178-1190. -/
def HashedCiphertext.ofDoc (G : Params) (j : Json) : Res HashedCiphertext := do
  let p ← j.strAt (key "pad")
  let d ← j.strAt (key "data")
  let m ← j.strAt (key "mac")
  let d ← sanitizeHex d
  let m ← sanitizeHex m
  let pad ← fromHexP G false p
  let data ← hexToBytes d
  let mac ← hexToBytes m
  .ok { pad, data, mac }

/-- A nonce that is written if `withNonces` is set; the pointer is dereferenced. -/
def setNonce (j : Json) (withNonces : Bool) (nonce : Option ℕ) : Res Json :=
  if withNonces then
    match nonce with
    | some n => .ok (j.set (key "nonce") (.str (toHexQ n)))
    | none => .ub
  else .ok j

/-- The text of a nonce (serialize.hpp:1155, 1166-1167, 1216-1217). -/
def nonceText (j : Json) : Res Str := do
  let v ← j.at (key "nonce")
  match v with
  | .null => .ok []
  | v => v.asStr

/-- The nonce given by its text (serialize.hpp:1259-1261, 1272-1273, 1284-1285). -/
def nonceFromText (G : Params) (s : Str) : Res ℕ := if s.isEmpty then .ok 0 else fromHexQ G false s

/-- serialize.hpp:1066-1096: a selection of `CiphertextBallot::fromObject`. -/
def CSelection.toDoc (withNonces : Bool) (s : CSelection) : Res Json :=
  match s.proof with
  | none => .ub
  | some p => setNonce (.object [(key "object_id", .str s.objectId),
      (key "sequence_order", .num s.seq), (key "description_hash", .str (toHexQ s.descHash)),
      (key "ciphertext", s.ciphertext.toDoc), (key "is_placeholder_selection", .bool s.isPlaceholder),
      (key "crypto_hash", .str (toHexQ s.cryptoHash)), (key "proof", p.toDoc)]) withNonces s.nonce

/-- serialize.hpp:1209-1270: a selection of `CiphertextBallot::toObject`. -/
def CSelection.ofDoc (G : Params) (j : Json) : Res CSelection := do
  let objectId ← j.strAt (key "object_id")
  let seq ← j.natAt (key "sequence_order")
  let desc ← j.strAt (key "description_hash")
  let isPlaceholder ← j.boolAt (key "is_placeholder_selection")
  let n ← nonceText j
  let crypto ← j.strAt (key "crypto_hash")
  let ciphertextDoc ← j.at (key "ciphertext")
  let ciphertext ← Ciphertext.ofDoc G ciphertextDoc
  let proofDoc ← j.at (key "proof")
  let proof ← DisjProof.ofDoc G proofDoc
  let nonce ← nonceFromText G n
  let descHash ← fromHexQ G false desc
  let cryptoHash ← fromHexQ G false crypto
  .ok { objectId, seq, descHash, ciphertext, isPlaceholder, nonce := some nonce, cryptoHash,
        proof := some proof }

/-- serialize.hpp:1064-1131: a contest of `CiphertextBallot::fromObject`. -/
def CContest.toDoc (S : StdSort) (withNonces : Bool) (c : CContest) : Res Json := do
  let selections ← mapRes (CSelection.toDoc withNonces) (c.getSelections S)
  match c.proof, c.extended with
  | some p, some e => setNonce (.object [(key "object_id", .str c.objectId),
      (key "sequence_order", .num c.seq), (key "description_hash", .str (toHexQ c.descHash)),
      (key "ballot_selections", .pushed selections),
      (key "ciphertext_accumulation", c.accumulation.toDoc),
      (key "crypto_hash", .str (toHexQ c.cryptoHash)), (key "proof", p.toDoc),
      (key "extended_data", e.toDoc)]) withNonces c.nonce
  | _, _ => .ub

/-- serialize.hpp:1162-1282: a contest of `CiphertextBallot::toObject`. -/
def CContest.ofDoc (G : Params) (j : Json) : Res CContest := do
  let objectId ← j.strAt (key "object_id")
  let seq ← j.natAt (key "sequence_order")
  let desc ← j.strAt (key "description_hash")
  let n ← nonceText j
  let accumulationDoc ← j.at (key "ciphertext_accumulation")
  let accumulation ← Ciphertext.ofDoc G accumulationDoc
  let crypto ← j.strAt (key "crypto_hash")
  let extendedDoc ← j.at (key "extended_data")
  let extended ← HashedCiphertext.ofDoc G extendedDoc
  let proofDoc ← j.at (key "proof")
  let proof ← ConstProof.ofDoc G proofDoc
  let selectionDocs ← j.at (key "ballot_selections")
  let selections ← mapRes (CSelection.ofDoc G) selectionDocs.items
  let nonce ← nonceFromText G n
  let descHash ← fromHexQ G false desc
  let cryptoHash ← fromHexQ G false crypto
  .ok { objectId, seq, descHash, selections, nonce := some nonce, accumulation, cryptoHash,
        proof := some proof, extended := some extended }

/-- serialize.hpp:1060-1146 `CiphertextBallot::fromObject`. -/
def CBallot.toDoc (S : StdSort) (withNonces : Bool) (b : CBallot) : Res Json := do
  let contests ← mapRes (CContest.toDoc S withNonces) (b.getContests S)
  setNonce (.object [(key "object_id", .str b.objectId), (key "style_id", .str b.styleId),
    (key "manifest_hash", .str (toHexQ b.manifestHash)),
    (key "code_seed", .str (toHexQ b.ballotCodeSeed)), (key "contests", .pushed contests),
    (key "code", .str (toHexQ b.ballotCode)), (key "timestamp", .num b.timestamp),
    (key "crypto_hash", .str (toHexQ b.cryptoHash))]) withNonces b.nonce

/-- serialize.hpp:1147-1292 `CiphertextBallot::toObject`. -/
def CBallot.ofDoc (G : Params) (j : Json) : Res CBallot := do
  let objectId ← j.strAt (key "object_id")
  let styleId ← j.strAt (key "style_id")
  let manifest ← j.strAt (key "manifest_hash")
  let seed ← j.strAt (key "code_seed")
  let code ← j.strAt (key "code")
  let timestamp ← j.natAt (key "timestamp")
  let n ← nonceText j
  let crypto ← j.strAt (key "crypto_hash")
  let contestDocs ← j.at (key "contests")
  let contests ← mapRes (CContest.ofDoc G) contestDocs.items
  let nonce ← nonceFromText G n
  let manifestHash ← fromHexQ G false manifest
  let ballotCodeSeed ← fromHexQ G false seed
  let ballotCode ← fromHexQ G false code
  let cryptoHash ← fromHexQ G false crypto
  .ok { objectId, styleId, manifestHash, ballotCodeSeed, contests, ballotCode, timestamp,
        nonce := some nonce, cryptoHash }

/-- include/electionguard/ballot.hpp:21-34: the values of the enumerators. -/
def BallotBoxState.value : BallotBoxState → ℕ
  | .cast => 1
  | .spoiled => 2
  | .unknown => 999

/-- The conversion of a number to `BallotBoxState`.  Other numbers make a state that is none of the
enumerators; what happens then is not modelled and counts as undefined. -/
def BallotBoxState.ofValue (n : ℕ) : Res BallotBoxState :=
  if n % 2 ^ 32 = 1 then .ok .cast
  else if n % 2 ^ 32 = 2 then .ok .spoiled
  else if n % 2 ^ 32 = 999 then .ok .unknown
  else .ub

/-- serialize.hpp:1340-1347 `SubmittedBallot::fromObject`: never with nonces. -/
def SBallot.toDoc (S : StdSort) (b : SBallot) : Res Json := do
  let j ← b.ballot.toDoc S false
  .ok (j.set (key "state") (.num b.state.value))

/-- serialize.hpp:1349-1355 `SubmittedBallot::toObject`. -/
def SBallot.ofDoc (G : Params) (j : Json) : Res SBallot := do
  let ballot ← CBallot.ofDoc G j
  let number ← j.natAt (key "state")
  let state ← BallotBoxState.ofValue number
  SBallot.from ballot state

/-- serialize.hpp:1401-1413 `CompactCiphertextBallot::fromObject`. -/
def CompactCipher.toDoc (c : CompactCipher) : Json :=
  .object [(key "plaintext", c.plaintext.toDoc), (key "code_seed", .str (toHexQ c.ballotCodeSeed)),
    (key "code", .str (toHexQ c.ballotCode)), (key "nonce", .str (toHexQ c.nonce)),
    (key "timestamp", .num c.timestamp), (key "ballot_box_state", .num c.state.value)]

/-- serialize.hpp:1414-1429 `CompactCiphertextBallot::toObject`. -/
def CompactCipher.ofDoc (G : Params) (j : Json) : Res CompactCipher := do
  let seed ← j.strAt (key "code_seed")
  let code ← j.strAt (key "code")
  let n ← j.strAt (key "nonce")
  let timestamp ← j.natAt (key "timestamp")
  let number ← j.natAt (key "ballot_box_state")
  let state ← BallotBoxState.ofValue number
  let plaintextDoc ← j.at (key "plaintext")
  let plaintext ← CompactPlain.ofDoc plaintextDoc
  let ballotCodeSeed ← fromHexQ G false seed
  let ballotCode ← fromHexQ G false code
  let nonce ← fromHexQ G false n
  .ok { plaintext, state, ballotCodeSeed, ballotCode, timestamp, nonce }

/-- serialize.hpp:1464-1472 `Constants::fromObject`. -/
def constantsDoc (G : Params) : Json :=
  .object [(key "large_prime", .str (toHexP G.p)), (key "small_prime", .str (toHexQ G.q)),
    (key "cofactor", .str (toHexP G.r)), (key "generator", .str (toHexP G.g))]

/-! ## Texts: `toJson` and `fromJson` of the classes -/

/-- `toObject(json::parse(data))`. -/
def readText {α : Type} (ofDoc : Json → Res α) (text : Str) : Res α := do
  let j ← Json.parse text
  ofDoc j

/-- `fromObject(serializable).dump()`. -/
def writeText (doc : Res Json) : Res Str := do
  let j ← doc
  .ok j.dump

end EG
