import Verif.Props.NonceUse
import Verif.Spec.Oracle
import Verif.Spec.Freq
import Mathlib.Data.Fintype.Sum

/-!
# The ballots of an election as places of nonces

For C117: ballots, contests and items (selections and extended data) are numbered by the elements of finite types.
-/

namespace EG.Derived

open EG.NonceUse

variable (B K L : Type)

/-- The ballots `B`, contests `K` and items `L` of an election: which contest is on which ballot, and which item in which
contest. -/
structure Layout where
  manifestHash : ℕ
  ballotId : B → Str
  ballot : K → B
  contestHash : K → ℕ
  contestSeq : K → ℕ
  contest : L → K
  item : L → Item

variable {B K L}

/-- What tells the items of a contest apart: the description of the selection, or that it is the extended data. -/
def itemKey : Item → Option ℕ
  | .selection h _ => some h
  | .extended => none

/-- Ballots have different ids, the contests of a ballot and the selections of a contest have different descriptions. -/
structure Layout.Proper (E : Layout B K L) : Prop where
  manifestHash : E.manifestHash < 2 ^ 256
  ballotId : ∀ b, E.ballotId b ≠ "null".toList
  ballots : Function.Injective E.ballotId
  contestHash : ∀ c, E.contestHash c < 2 ^ 256
  contestSeq : ∀ c, E.contestSeq c < 2 ^ 64
  contests : ∀ c c', E.ballot c = E.ballot c' → E.contestHash c = E.contestHash c' → c = c'
  itemHash : ∀ i h s, E.item i = .selection h s → h < 2 ^ 256
  items : ∀ i i', E.contest i = E.contest i' → itemKey (E.item i) = itemKey (E.item i') → i = i'

/-- The place of an item, if the ballots have the nonces `n`. -/
def Layout.place (E : Layout B K L) (n : B → ℕ) (i : L) : Place :=
  { manifestHash := E.manifestHash, ballotId := E.ballotId (E.ballot (E.contest i)), ballotNonce := n (E.ballot (E.contest i))
    contestHash := E.contestHash (E.contest i), contestSeq := E.contestSeq (E.contest i), item := E.item i }

/-- The nonce of an item. -/
def Layout.nonce (E : Layout B K L) (G : Params) (C : Crypto) (n : B → ℕ) (i : L) : ℕ := (E.place n i).nonce G C

/-- The seed of the proof of a contest. -/
def Layout.proofSeed (E : Layout B K L) (G : Params) (C : Crypto) (n : B → ℕ) (c : K) : ℕ :=
  (((Nonces.makeWith G C (E.contestHash c) (.q (nonceSeedOf G C E.manifestHash (E.ballotId (E.ballot c))
    (n (E.ballot c))))).get G C (E.contestSeq c)).2.next G C).1

/-- The random number of the proof of a contest, which is computed from the seed (chaum_pedersen.cpp:575-610). -/
def Layout.proofNonce (E : Layout B K L) (G : Params) (C : Crypto) (n : B → ℕ) (c : K) : ℕ :=
  ((Nonces.makeWith G C (E.proofSeed G C n c) (.str "constant-chaum-pedersen-proof".toList)).get G C 0).1

/-! ## The layout of encrypted ballots -/

/-- A contest of an encrypted ballot: hash and number of its description, and those of its selections. -/
structure Shape where
  descHash : ℕ
  seq : ℕ
  selections : List (ℕ × ℕ)
  deriving DecidableEq

/-- The contests of an encrypted ballot. -/
def shapes (e : CBallot) : List Shape :=
  e.contests.map (fun c => ⟨c.descHash, c.seq, c.selections.map (fun s => (s.descHash, s.seq))⟩)

/-- The layout of ballots with given ids and contests.  The items of a contest are its selections and its extended data. -/
def Layout.of (manifestHash : ℕ) (ballotId : B → Str) (cs : B → List Shape) :
    Layout B ((b : B) × Fin (cs b).length) ((c : (b : B) × Fin (cs b).length) × Option (Fin (cs c.1)[c.2].selections.length)) where
  manifestHash := manifestHash
  ballotId := ballotId
  ballot c := c.1
  contestHash c := (cs c.1)[c.2].descHash
  contestSeq c := (cs c.1)[c.2].seq
  contest i := i.1
  item i := match i.2 with
    | some j => .selection ((cs i.1.1)[i.1.2].selections[j]).1 ((cs i.1.1)[i.1.2].selections[j]).2
    | none => .extended

/-- The items of a ballot in their order. -/
def itemsOf (cs : B → List Shape) (b : B) :
    List ((c : (b : B) × Fin (cs b).length) × Option (Fin (cs c.1)[c.2].selections.length)) :=
  (List.finRange (cs b).length).flatMap (fun i =>
    (List.finRange (cs b)[i].selections.length).map (fun j => ⟨⟨b, i⟩, some j⟩) ++ [⟨⟨b, i⟩, none⟩])

/-! ## What is hashed -/

/-- The values that are used: the random numbers of the proofs and the nonces. -/
inductive Leaf (K L : Type)
  | proof (c : K)
  | item (i : L)

/-- The values that are computed from others. -/
inductive Inner (K L : Type)
  | seed (c : K)
  | nonce (c : K)
  | itemSeed (i : L)
  | proofSeed (c : K)
  | proofHead (c : K)
  | proof (c : K)
  | item (i : L)

def leafEquiv {K L : Type} : K ⊕ L ≃ Leaf K L where
  toFun
    | .inl c => .proof c
    | .inr i => .item i
  invFun
    | .proof c => .inl c
    | .item i => .inr i
  left_inv := by rintro (_ | _) <;> rfl
  right_inv := by rintro (_ | _) <;> rfl

def innerEquiv {K L : Type} : K ⊕ K ⊕ L ⊕ K ⊕ K ⊕ K ⊕ L ≃ Inner K L where
  toFun
    | .inl c => .seed c
    | .inr (.inl c) => .nonce c
    | .inr (.inr (.inl i)) => .itemSeed i
    | .inr (.inr (.inr (.inl c))) => .proofSeed c
    | .inr (.inr (.inr (.inr (.inl c)))) => .proofHead c
    | .inr (.inr (.inr (.inr (.inr (.inl c))))) => .proof c
    | .inr (.inr (.inr (.inr (.inr (.inr i))))) => .item i
  invFun
    | .seed c => .inl c
    | .nonce c => .inr (.inl c)
    | .itemSeed i => .inr (.inr (.inl i))
    | .proofSeed c => .inr (.inr (.inr (.inl c)))
    | .proofHead c => .inr (.inr (.inr (.inr (.inl c))))
    | .proof c => .inr (.inr (.inr (.inr (.inr (.inl c)))))
    | .item i => .inr (.inr (.inr (.inr (.inr (.inr i)))))
  left_inv := by rintro (_ | _ | _ | _ | _ | _ | _) <;> rfl
  right_inv := by rintro (_ | _ | _ | _ | _ | _ | _) <;> rfl

instance [Fintype K] [Fintype L] : Fintype (Leaf K L) := Fintype.ofEquiv _ leafEquiv
instance [Fintype K] [Fintype L] : Fintype (Inner K L) := Fintype.ofEquiv _ innerEquiv

variable (E : Layout B K L) (G : Params) (C : Crypto)

/-- What is hashed for a value, from the one it is computed from. -/
def elems (a : ℕ) : Inner K L → List HElem
  | .seed c => [.q (E.contestHash c), .q a]
  | .nonce c => [.q a, .u64 (E.contestSeq c)]
  | .itemSeed i =>
    match E.item i with
    | .selection h _ => [.q h, .q a]
    | .extended => [.q a, .str "constant-extended-data".toList]
  | .proofSeed c => [.q a, .u64 ((E.contestSeq c + 1) % 2 ^ 64)]
  | .proofHead _ => [.q a, .str "constant-chaum-pedersen-proof".toList]
  | .proof _ => [.q a, .u64 0]
  | .item i =>
    match E.item i with
    | .selection _ s => [.q a, .u64 s]
    | .extended => [.q a, .u64 0]

def text (a : ℕ) (j : Inner K L) : Str := hashInput ((elems E a j).map (HElem.render G C))

/-- What is hashed for a ballot. -/
def rootText (n : ℕ) (b : B) : Str :=
  hashInput ([HElem.q E.manifestHash, .str (E.ballotId b), .q n].map (HElem.render G C))

/-- All strings that are hashed to compute seeds and nonces, whatever the hash function gives, if the nonces of the
ballots are in `S`. -/
noncomputable def Layout.strings [Fintype B] [Fintype K] [Fintype L] (S : Finset ℕ) : Finset Str :=
  open Classical in
  (S ×ˢ Finset.univ).image (fun p : ℕ × B => rootText E G C p.1 p.2) ∪
    (Finset.range (2 ^ 256) ×ˢ Finset.univ).image (fun p : ℕ × Inner K L => text E G C p.1 p.2)

end EG.Derived
