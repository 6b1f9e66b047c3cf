import Verif.Model.Enums

/-!
# Election manifest (src/electionguard/manifest.cpp)

Dates are represented by the text `timePointToIsoString` gives for them; nothing else of a date is
used here.  Exhaustion of memory is not modelled.
-/

namespace EG

/-- `AnnotatedString` (manifest.cpp:164-187). -/
structure Annotated where
  annotation : Str
  value : Str
  deriving DecidableEq

/-- manifest.cpp:179-184. -/
def Annotated.hash (G : Params) (C : Crypto) (a : Annotated) : ℕ :=
  hashElems G C [.str a.annotation, .str a.value]

/-- `Language` (manifest.cpp:230-251). -/
structure Language where
  value : Str
  language : Str
  deriving DecidableEq

/-- manifest.cpp:244-249. -/
def Language.hash (G : Params) (C : Crypto) (l : Language) : ℕ :=
  hashElems G C [.str l.value, .str l.language]

/-- `InternationalizedText` (manifest.cpp:294-323). -/
abbrev IText := List Language

/-- manifest.cpp:310-321: the vector is the only argument of `hash_elems`. -/
def IText.hash (G : Params) (C : Crypto) (t : IText) : ℕ :=
  hashElem G C (.vec (t.map (fun l => .q (l.hash G C))))

/-- `ContactInformation` (manifest.cpp:373-441). -/
structure Contact where
  addressLine : List Str
  email : List Annotated
  phone : List Annotated
  name : Str
  deriving DecidableEq

/-- manifest.cpp:423-440. -/
def Contact.hash (G : Params) (C : Crypto) (c : Contact) : ℕ :=
  hashElems G C [.str c.name, .vec (c.addressLine.map .str),
    .vec (c.email.map (fun a => .q (a.hash G C))), .vec (c.phone.map (fun a => .q (a.hash G C)))]

/-- A possibly null pointer to a hashable object, given the hash of the object. -/
def optHash (h : Option ℕ) : HElem := h.elim .nul .q

/-- `GeopoliticalUnit` (manifest.cpp:514-560). -/
structure GpUnit where
  objectId : Str
  name : Str
  type : ReportingUnitType
  contact : Option Contact
  deriving DecidableEq

/-- manifest.cpp:545-559. -/
def GpUnit.hash (G : Params) (C : Crypto) (u : GpUnit) : Res ℕ := do
  let t ← u.type.string
  .ok (hashElems G C [.str u.objectId, .str u.name, .str t, optHash (u.contact.map (·.hash G C))])

/-- `BallotStyle` (manifest.cpp:608-652). -/
structure BallotStyle where
  objectId : Str
  gpUnitIds : List Str
  partyIds : List Str
  imageUri : Str
  deriving DecidableEq

/-- manifest.cpp:645-650. -/
def BallotStyle.hash (G : Params) (C : Crypto) (s : BallotStyle) : ℕ :=
  hashElems G C [.str s.objectId, .vec (s.gpUnitIds.map .str), .vec (s.partyIds.map .str),
    .str s.imageUri]

/-- `Party` (manifest.cpp:697-755). -/
structure Party where
  objectId : Str
  name : Option IText
  abbreviation : Str
  color : Str
  logoUri : Str
  deriving DecidableEq

/-- manifest.cpp:742-754. -/
def Party.hash (G : Params) (C : Crypto) (p : Party) : ℕ :=
  hashElems G C [.str p.objectId, optHash (p.name.map (·.hash G C)), .str p.abbreviation,
    .str p.color, .str p.logoUri]

/-- `Candidate` (manifest.cpp:805-880). -/
structure Candidate where
  objectId : Str
  name : Option IText
  partyId : Str
  imageUri : Str
  isWriteIn : Bool
  deriving DecidableEq

/-- manifest.cpp:867-879. -/
def Candidate.hash (G : Params) (C : Crypto) (c : Candidate) : ℕ :=
  hashElems G C [.str c.objectId, optHash (c.name.map (·.hash G C)), .str c.partyId, .str c.imageUri]

/-- `SelectionDescription` (manifest.cpp:940-963). -/
structure SelectionDesc where
  objectId : Str
  candidateId : Str
  seq : ℕ
  deriving DecidableEq

/-- manifest.cpp:956-961. -/
def SelectionDesc.hash (G : Params) (C : Crypto) (s : SelectionDesc) : ℕ :=
  hashElems G C [.str s.objectId, .u64 s.seq, .str s.candidateId]

/-- `ContestDescription` (manifest.cpp:1008-1133). -/
structure ContestDesc where
  objectId : Str
  districtId : Str
  seq : ℕ
  variation : VoteVariationType
  numberElected : ℕ
  votesAllowed : ℕ
  name : Str
  title : Option IText
  subtitle : Option IText
  selections : List SelectionDesc
  primaryPartyIds : List Str
  deriving DecidableEq

/-- manifest.cpp:1030-1033, 1049-1052: the value of `votesAllowed` if none is given. -/
def defaultVotesAllowed (v : VoteVariationType) (numberElected : ℕ) : ℕ :=
  if v = .n_of_m ∨ v = .one_of_m then numberElected else 0

/-- manifest.cpp:1020-1035, 1143-1153: the constructor without titles and parties. -/
def ContestDesc.make7 (objectId districtId : Str) (seq : ℕ) (variation : VoteVariationType)
    (numberElected : ℕ) (name : Str) (selections : List SelectionDesc) : ContestDesc :=
  { objectId, districtId, seq, variation, numberElected, name, selections,
    votesAllowed := defaultVotesAllowed variation numberElected
    title := none, subtitle := none, primaryPartyIds := [] }

/-- manifest.cpp:1055-1070: the constructor with titles. -/
def ContestDesc.make10 (objectId districtId : Str) (seq : ℕ) (variation : VoteVariationType)
    (numberElected votesAllowed : ℕ) (name : Str) (title subtitle : Option IText)
    (selections : List SelectionDesc) : ContestDesc :=
  { objectId, districtId, seq, variation, numberElected, votesAllowed, name, title, subtitle,
    selections, primaryPartyIds := [] }

/-- manifest.cpp:1088-1107 `clone`, used by the copy constructor (1137-1140).  The subtitle is
dereferenced if there is a title. -/
def ContestDesc.clone (c : ContestDesc) : Res ContestDesc :=
  match c.title with
  | some t =>
    match c.subtitle with
    | some s => .ok (ContestDesc.make10 c.objectId c.districtId c.seq c.variation c.numberElected
        c.votesAllowed c.name (some t) (some s) c.selections)
    | none => .ub
  | none => .ok (ContestDesc.make7 c.objectId c.districtId c.seq c.variation c.numberElected c.name
      c.selections)

/-- manifest.cpp:1109-1132 `crypto_hash`.  The selections are hashed in the order of the vector. -/
def ContestDesc.hash (G : Params) (C : Crypto) (c : ContestDesc) : Res ℕ := do
  let sels := HElem.vec (c.selections.map (fun s => .q (s.hash G C)))
  let v ← c.variation.string
  match c.title with
  | some t =>
    match c.subtitle with
    | some s => .ok (hashElems G C [.str c.objectId, .u64 c.seq, .str c.districtId, .str v,
        .q (t.hash G C), .q (s.hash G C), .str c.name, .u64 c.numberElected, .u64 c.votesAllowed,
        sels])
    | none => .ub
  | none => .ok (hashElems G C [.str c.objectId, .u64 c.seq, .str c.districtId, .str v, .nul, .nul,
      .str c.name, .u64 c.numberElected, .u64 c.votesAllowed, sels])

/-- manifest.cpp:1219-1234 `getSelections`. -/
def ContestDesc.getSelections (S : StdSort) (c : ContestDesc) : List SelectionDesc :=
  S.sort SelectionDesc.seq c.selections

/-- manifest.cpp:1241-1291 `ContestDescription::isValid`.  The three sets do not depend on the order
of the selections, which is left out. -/
def ContestDesc.isValid (c : ContestDesc) : Bool :=
  let n := c.selections.length
  decide (c.numberElected ≤ n) &&
    decide (c.votesAllowed = 0 ∨ c.numberElected ≤ c.votesAllowed) &&
    decide ((setOf ((c.selections.map (·.candidateId)).filter (· ≠ []))).length = n) &&
    decide ((setOf ((c.selections.map (·.objectId)).filter (· ≠ []))).length = n) &&
    decide ((setOf (c.selections.map (·.seq))).length = n)

/-- `ContestDescriptionWithPlaceholders` (manifest.cpp:1297-1449). -/
structure ContestDescP where
  desc : ContestDesc
  placeholders : List SelectionDesc
  deriving DecidableEq

/-- manifest.cpp:1403-1419 `getPlaceholders`. -/
def ContestDescP.getPlaceholders (S : StdSort) (c : ContestDescP) : List SelectionDesc :=
  S.sort SelectionDesc.seq c.placeholders

/-- manifest.cpp:1423-1431 `IsPlaceholder`. -/
def ContestDescP.isPlaceholder (c : ContestDescP) (s : SelectionDesc) : Bool :=
  c.placeholders.any (fun p => s.objectId = p.objectId)

/-- manifest.cpp:1433-1449 `selectionFor`. -/
def ContestDescP.selectionFor (S : StdSort) (c : ContestDescP) (id : Str) : Res SelectionDesc :=
  match (c.desc.getSelections S).find? (fun s => id = s.objectId) with
  | some s => .ok s
  | none =>
    match (c.getPlaceholders S).find? (fun s => id = s.objectId) with
    | some s => .ok s
    | none => .throw .outOfRange

/-- manifest.cpp:2057-2063 `generatePlaceholderSelectionFrom`. -/
def placeholderFrom (contestId : Str) (seq : ℕ) : SelectionDesc :=
  let base := contestId ++ ['-'] ++ decimalU64 seq
  { objectId := base ++ "-placeholder".toList, candidateId := base ++ "-candidate".toList, seq := seq }
where
  /-- `to_string` of an unsigned number. -/
  decimalU64 (n : ℕ) : Str := if n = 0 then ['0'] else decimal n

/-- The loop of manifest.cpp:2001-2006: the maximum is kept in a `uint32_t`. -/
def maxSeq32 (l : List SelectionDesc) : ℕ :=
  l.foldl (fun m s => if s.seq > m then s.seq % 2 ^ 32 else m) 0

/-- manifest.cpp:1999-2014: the placeholders of one contest. -/
def placeholdersFor (S : StdSort) (c : ContestDesc) : List SelectionDesc :=
  let start := (maxSeq32 (c.getSelections S) + 1) % 2 ^ 32
  (List.range c.numberElected).map (fun i => placeholderFrom c.objectId ((start + i) % 2 ^ 64))

/-- `Manifest` (manifest.cpp:1455-1498). -/
structure Manifest where
  scopeId : Str
  type : ElectionType
  startDate : Str
  endDate : Str
  gpUnits : List GpUnit
  parties : List Party
  candidates : List Candidate
  contests : List ContestDesc
  styles : List BallotStyle
  name : Option IText
  contact : Option Contact
  deriving DecidableEq

/-- Calls of a function on every element of a vector, in order. -/
def mapRes {α β : Type} (f : α → Res β) : List α → Res (List β)
  | [] => .ok []
  | x :: xs => do
    let y ← f x
    let ys ← mapRes f xs
    .ok (y :: ys)

/-- manifest.cpp:1500-1544 `Manifest::crypto_hash`.  The contact information is dereferenced if there
is a name. -/
def Manifest.hash (G : Params) (C : Crypto) (m : Manifest) : Res ℕ := do
  let t ← m.type.string
  let units ← mapRes (GpUnit.hash G C) m.gpUnits
  let contests ← mapRes (ContestDesc.hash G C) m.contests
  let tail : List HElem := [.vec (units.map .q), .vec (m.parties.map (fun p => .q (p.hash G C))),
    .vec (contests.map .q), .vec (m.styles.map (fun s => .q (s.hash G C)))]
  match m.name with
  | none => .ok (hashElems G C ([.str m.scopeId, .str t, .str m.startDate, .str m.endDate, .nul,
      .nul] ++ tail))
  | some n =>
    match m.contact with
    | some c => .ok (hashElems G C ([.str m.scopeId, .str t, .str m.startDate, .str m.endDate,
        .q (n.hash G C), .q (c.hash G C)] ++ tail))
    | none => .ub

/-- The loop of manifest.cpp:1679-1693, with its `break`; returns the collected ids and the flag. -/
def styleLoop (gpUnitIds : List Str) : List BallotStyle → List Str → Bool → List Str × Bool
  | [], ids, ok => (ids, ok)
  | s :: rest, ids, ok =>
    let ids := if s.objectId ≠ [] then setInsert ids s.objectId else ids
    if s.gpUnitIds.length = 0 then (ids, false)
    else styleLoop gpUnitIds rest ids (s.gpUnitIds.foldl (fun ok u => ok && gpUnitIds.contains u) ok)

/-- The ids collected in a set (manifest.cpp:1666-1671 and similar). -/
def idSet (ids : List Str) : List Str := setOf (ids.filter (· ≠ []))

/-- manifest.cpp:1656-1791 `Manifest::isValid`. -/
def Manifest.isValid (m : Manifest) : Bool :=
  let gpUnitIds := idSet (m.gpUnits.map (·.objectId))
  let gpValid := decide (gpUnitIds.length = m.gpUnits.length)
  let styles := styleLoop gpUnitIds m.styles [] true
  let stylesValid := decide (styles.1.length = m.styles.length) && styles.2
  let partyIds := idSet (m.parties.map (·.objectId))
  let partiesValid := decide (partyIds.length = m.parties.length)
  let candidateIds := idSet (m.candidates.map (·.objectId))
  let candidatesValid := decide (candidateIds.length = m.candidates.length) &&
    m.candidates.all (fun c => c.partyId.isEmpty || partyIds.contains c.partyId)
  let contestIds := idSet (m.contests.map (·.objectId))
  let contestSeqs := setOf (m.contests.map (·.seq))
  let contestsValid := decide (contestIds.length = m.contests.length) &&
    decide (contestSeqs.length = m.contests.length) && m.contests.all (·.isValid) &&
    m.contests.all (fun c => !c.districtId.isEmpty && gpUnitIds.contains c.districtId)
  gpValid && stylesValid && partiesValid && candidatesValid && contestsValid

/-- `InternalManifest` (manifest.cpp:1823-1838). -/
structure IManifest where
  gpUnits : List GpUnit
  candidates : List Candidate
  contests : List ContestDescP
  styles : List BallotStyle
  manifestHash : ℕ

/-- manifest.cpp:1992-2019 `generateContestsWithPlaceholders`; the contests come from `getContests`
(1623-1640), which sorts them. -/
def contestsWithPlaceholders (S : StdSort) (m : Manifest) : Res (List ContestDescP) :=
  mapRes (fun c => do
    let d ← c.clone
    .ok { desc := d, placeholders := placeholdersFor S c }) (S.sort ContestDesc.seq m.contests)

/-- manifest.cpp:1854-1859: construction from a manifest. -/
def IManifest.ofManifest (G : Params) (C : Crypto) (S : StdSort) (m : Manifest) : Res IManifest := do
  let contests ← contestsWithPlaceholders S m
  let h ← m.hash G C
  .ok { gpUnits := m.gpUnits, candidates := m.candidates, contests := contests, styles := m.styles,
        manifestHash := h }

/-- manifest.cpp:1897-1911 `InternalManifest::getContests`. -/
def IManifest.getContests (S : StdSort) (m : IManifest) : List ContestDescP :=
  S.sort (fun c => c.desc.seq) m.contests

/-- manifest.cpp:1925-1933 `getBallotStyle`. -/
def IManifest.getBallotStyle (m : IManifest) (id : Str) : Option BallotStyle :=
  m.styles.find? (fun s => s.objectId = id)

/-- The loops of manifest.cpp:1944-1950. -/
def contestsOfUnits (contests : List ContestDescP) (units : List Str) : List ContestDescP :=
  contests.flatMap (fun c => (units.filter (fun u => c.desc.districtId = u)).map (fun _ => c))

/-- manifest.cpp:1935-1959 `getContestsFor`. -/
def IManifest.getContestsFor (S : StdSort) (m : IManifest) (styleId : Str) :
    Res (List ContestDescP) :=
  match m.getBallotStyle styleId with
  | none => .throw .runtimeError
  | some style =>
    if style.gpUnitIds.isEmpty then .throw .runtimeError
    else .ok (S.sort (fun c => c.desc.seq) (contestsOfUnits m.contests style.gpUnitIds))

end EG
