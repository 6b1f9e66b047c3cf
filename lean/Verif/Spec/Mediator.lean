import Verif.Model.Encrypt
import Verif.Spec.Hash

/-!
# Specification of the chain of ballot codes
-/

namespace EG

variable (G : Params) (C : Crypto) (S : StdSort)

/-- A call of a mediator. -/
inductive Call where
  | encrypt (b : PBallot) (verify : Bool)
  | compact (b : PBallot) (verify : Bool)

/-- What the mediator hands out. -/
inductive Output where
  | full (e : CBallot)
  | compact (c : CompactCipher)

/-- The calls of one mediator, each in an arbitrary environment (other parts of the program draw random
numbers, fill buffers and let time pass in between).  Exceptions are caught by the caller; undefined
behaviour ends the history. -/
def Mediator.run : Mediator → List (Call × World) → List Output × Mediator
  | md, [] => ([], md)
  | md, (.encrypt b verify, w) :: calls =>
    match md.encrypt G C S b verify w with
    | (.ok e, md', _) => (.full e :: (Mediator.run md' calls).1, (Mediator.run md' calls).2)
    | (.throw _, md', _) => Mediator.run md' calls
    | (.ub, md', _) => ([], md')
  | md, (.compact b verify, w) :: calls =>
    match md.compactEncrypt G C S b verify w with
    | (.ok c, md', _) => (.compact c :: (Mediator.run md' calls).1, (Mediator.run md' calls).2)
    | (.throw _, md', _) => Mediator.run md' calls
    | (.ub, md', _) => ([], md')

/-- What a ballot contributes to the chain of codes. -/
structure Link where
  seed : ℕ
  timestamp : ℕ
  hash : ℕ
  code : ℕ
  deriving DecidableEq

def CBallot.link (e : CBallot) : Link := ⟨e.ballotCodeSeed, e.timestamp, e.cryptoHash, e.ballotCode⟩

/-- The link of an output.  A compact ballot does not carry its hash: the ciphertext ballot it stands
for does. -/
def Output.Is : Output → Link → Prop
  | .full e, x => x = e.link
  | .compact c, x => ∃ e : CBallot, x = e.link ∧ e.objectId = c.plaintext.objectId ∧
      c.ballotCodeSeed = x.seed ∧ c.timestamp = x.timestamp ∧ c.ballotCode = x.code

/-- The links form a chain from the given start: each code is the hash of the previous code, the time
and the ballot hash. -/
def Chained : ℕ → List Link → Prop
  | _, [] => True
  | start, x :: l => x.seed = start ∧
      x.code = hashElems G C [.q start, .u64 x.timestamp, .q x.hash] ∧ Chained x.code l

/-- The code after which the next ballot is chained. -/
def endCode (start : ℕ) : List Link → ℕ
  | [] => start
  | x :: l => endCode x.code l

/-- The strings hashed for a device and the codes of a chain. -/
def chainQueries (d : Device) (l : List Link) : List (List Char) :=
  hashInput ([HElem.u64 d.deviceUuid, .u64 d.sessionUuid, .u64 d.launchCode, .str d.location].map
    (HElem.render G C)) ::
  l.map (fun x => hashInput ([HElem.q x.seed, .u64 x.timestamp, .q x.hash].map (HElem.render G C)))

end EG
