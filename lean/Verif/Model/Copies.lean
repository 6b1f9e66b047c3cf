import Verif.Model.Manifest
import Verif.Model.Ballot
import Verif.Model.Group

/-!
# Objects that are copied: elements, key pairs, parts of manifests and plaintext ballots

Copying follows the copy constructors; null pointers are `none`.  Copies of proofs, encrypted ballots and
contests are in Model/ChaumPedersen.lean, Model/Ballot.lean and Model/ContestObj.lean.
-/

namespace EG.Copies

/-! ## `ElementModP` with its flag and its hexadecimal form -/

/-- group.cpp:108-112 `ElementModP::Impl`; the empty text is `none`. -/
structure PObj where
  val : ℕ
  fixed : Bool
  hex : Option Str
  deriving DecidableEq

/-- group.cpp:127-135, 174-178: the constructor. -/
def PObj.new (v : ℕ) (fixed : Bool) : PObj := ⟨v, fixed, none⟩

/-- group.cpp:139-142, 166, the copy constructor, and 241-244 `clone`. -/
def PObj.copy (e : PObj) : PObj := .new e.val e.fixed

/-- group.cpp:184-188 `operator=`: the argument is a copy, the pointers are exchanged. -/
def PObj.assign (_a b : PObj) : PObj := b.copy

/-- group.cpp:226-239 `toHex`: the text and the object afterwards. -/
def PObj.toHex (e : PObj) : Str × PObj :=
  match e.hex with
  | some h => (h, e)
  | none => (toHexP e.val, { e with hex := some (toHexP e.val) })

/-- What a program does with elements, which it knows by numbers.  `write` goes through the pointer of
`get` (group.cpp:198) or `ref` (200). -/
inductive POp where
  | new (x v : ℕ) (fixed : Bool)
  | copy (x y : ℕ)
  | assign (x y : ℕ)
  | setFixed (x : ℕ) (fixed : Bool)
  | hex (x : ℕ)
  | write (x v : ℕ)

/-- Elements by number. -/
def upd {α : Type} (s : ℕ → Option α) (x : ℕ) (a : α) : ℕ → Option α := fun y => if y = x then some a else s y

/-- One step, and the text it gives. -/
def pStep (s : ℕ → Option PObj) : POp → Res (Option Str × (ℕ → Option PObj))
  | .new x v f => .ok (none, upd s x (.new v f))
  | .copy x y => match s y with
    | some e => .ok (none, upd s x e.copy)
    | none => .ub
  | .assign x y => match s x, s y with
    | some a, some e => .ok (none, upd s x (a.assign e))
    | _, _ => .ub
  | .setFixed x f => match s x with
    | some e => .ok (none, upd s x { e with fixed := f })
    | none => .ub
  | .hex x => match s x with
    | some e => .ok (some e.toHex.1, upd s x e.toHex.2)
    | none => .ub
  | .write x v => match s x with
    | some e => .ok (none, upd s x { e with val := v })
    | none => .ub

/-- A run, and the texts it gives. -/
def pRun (s : ℕ → Option PObj) : List POp → Res (List (Option Str) × (ℕ → Option PObj))
  | [] => .ok ([], s)
  | o :: os => do
    let r ← pStep s o
    let q ← pRun r.2 os
    .ok (r.1 :: q.1, q.2)

/-! ## `ElGamalKeyPair` -/

/-- elgamal.cpp:29-37 `ElGamalKeyPair::Impl`: two pointers. -/
structure KObj where
  secret : Option ℕ
  pub : Option ℕ
  deriving DecidableEq

/-- elgamal.cpp:46-50: the constructor. -/
def KObj.new (s p : ℕ) : KObj := ⟨some s, some p⟩

/-- elgamal.cpp:41-44, the copy constructor: `move(*other.pimpl)` is the move constructor of `Impl`, since
`pimpl` points to an object that is not constant.  The new object and the source afterwards. -/
def KObj.copy (k : KObj) : KObj × KObj := (k, ⟨none, none⟩)

/-- What a program does with key pairs; `get` uses both elements (elgamal.cpp:62-64). -/
inductive KOp where
  | new (x s p : ℕ)
  | copy (x y : ℕ)
  | assign (x y : ℕ)
  | get (x : ℕ)

/-- One step, and the elements it gives.  The argument of `operator=` (elgamal.cpp:52-56) is made by the copy
constructor, then the pointers are exchanged. -/
def kStep (s : ℕ → Option KObj) : KOp → Res (Option (ℕ × ℕ) × (ℕ → Option KObj))
  | .new x a b => .ok (none, upd s x (.new a b))
  | .copy x y => match s y with
    | some k => .ok (none, upd (upd s y k.copy.2) x k.copy.1)
    | none => .ub
  | .assign x y => match s x, s y with
    | some _, some k => .ok (none, upd (upd s y k.copy.2) x k.copy.1)
    | _, _ => .ub
  | .get x => match s x with
    | some ⟨some a, some b⟩ => .ok (some (a, b), s)
    | _ => .ub

/-- A run. -/
def kRun (s : ℕ → Option KObj) : List KOp → Res (List (Option (ℕ × ℕ)) × (ℕ → Option KObj))
  | [] => .ok ([], s)
  | o :: os => do
    let r ← kStep s o
    let q ← kRun r.2 os
    .ok (r.1 :: q.1, q.2)

/-! ## Parts of manifests -/

/-- manifest.cpp:173-177, 189. -/
def copyAnnotated (a : Annotated) : Annotated := { annotation := a.annotation, value := a.value }

/-- manifest.cpp:238-242, 254. -/
def copyLanguage (l : Language) : Language := { value := l.value, language := l.language }

/-- manifest.cpp:299-308, 326-329. -/
def copyText (t : IText) : IText := t.foldl (fun acc e => acc ++ [copyLanguage e]) []

/-- manifest.cpp:399-421, 444-447. -/
def copyContact (c : Contact) : Contact :=
  { addressLine := c.addressLine.foldl (fun acc e => acc ++ [e]) []
    email := c.email.foldl (fun acc e => acc ++ [copyAnnotated e]) []
    phone := c.phone.foldl (fun acc e => acc ++ [copyAnnotated e]) []
    name := c.name }

/-- manifest.cpp:534-543, 562-564. -/
def copyGpUnit (u : GpUnit) : GpUnit :=
  match u.contact with
  | some c => { objectId := u.objectId, name := u.name, type := u.type, contact := some (copyContact c) }
  | none => { objectId := u.objectId, name := u.name, type := u.type, contact := none }

/-- manifest.cpp:628-643, 655. -/
def copyStyle (s : BallotStyle) : BallotStyle :=
  { objectId := s.objectId
    gpUnitIds := s.gpUnitIds.foldl (fun acc e => acc ++ [e]) []
    partyIds := s.partyIds.foldl (fun acc e => acc ++ [e]) []
    imageUri := s.imageUri }

/-- manifest.cpp:718-723 with 703-708 `init`: the constructor without a name. -/
def partyNoName (objectId abbreviation color logoUri : Str) : Party :=
  { objectId, name := some [], abbreviation, color, logoUri }

/-- manifest.cpp:732-740, 757. -/
def copyParty (p : Party) : Party :=
  match p.name with
  | some t => { objectId := p.objectId, name := some (copyText t), abbreviation := p.abbreviation
                color := p.color, logoUri := p.logoUri }
  | none => partyNoName p.objectId p.abbreviation p.color p.logoUri

/-- manifest.cpp:856-865, 882; without a name the constructor is that of 824-830. -/
def copyCandidate (c : Candidate) : Candidate :=
  match c.name with
  | some t => { objectId := c.objectId, name := some (copyText t), partyId := c.partyId
                imageUri := c.imageUri, isWriteIn := c.isWriteIn }
  | none => { objectId := c.objectId, name := none, partyId := c.partyId
              imageUri := c.imageUri, isWriteIn := c.isWriteIn }

/-- manifest.cpp:951-954, 966-969. -/
def copySelectionDesc (s : SelectionDesc) : SelectionDesc :=
  { objectId := s.objectId, candidateId := s.candidateId, seq := s.seq }

/-- manifest.cpp:2021-2053 `copyGeopoliticalUnits`, `copyCandidates`, `copyBallotStyles`: the parts of an
internal manifest that are copied from the manifest. -/
def copyParts (m : Manifest) : List GpUnit × List Candidate × List BallotStyle :=
  (m.gpUnits.foldl (fun acc e => acc ++ [copyGpUnit e]) [],
   m.candidates.foldl (fun acc e => acc ++ [copyCandidate e]) [],
   m.styles.foldl (fun acc e => acc ++ [copyStyle e]) [])

/-! ## Plaintext ballots -/

/-- ballot.cpp:78-83, 88-91, and 137-142 `clone`. -/
def copyPSelection (s : PSelection) : PSelection :=
  { objectId := s.objectId, vote := s.vote, isPlaceholder := s.isPlaceholder, writeIn := s.writeIn }

/-- ballot.cpp:403-411, 416-419. -/
def copyPContest (c : PContest) : PContest :=
  { objectId := c.objectId, selections := c.selections.foldl (fun acc e => acc ++ [copyPSelection e]) [] }

/-- ballot.cpp:814-823, 828. -/
def copyPBallot (b : PBallot) : PBallot :=
  { objectId := b.objectId, styleId := b.styleId
    contests := b.contests.foldl (fun acc e => acc ++ [copyPContest e]) [] }

end EG.Copies
