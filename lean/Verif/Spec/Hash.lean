import Verif.Model.Hash

/-!
# Specification notions for hashing

A hash function into a finite set always has collisions, so "unless the hash collides" is
expressed as: no two *of the strings actually hashed* collide.
-/

namespace EG

/-- No two different strings of the list have the same hash. -/
def NoCollision (G : Params) (C : Crypto) (strings : List (List Char)) : Prop :=
  ∀ s ∈ strings, ∀ t ∈ strings, digestQ G C s = digestQ G C t → s = t

/-- Values whose text determines them once their type is known: group elements of the right size,
integers, strings without the delimiter other than the string "null". -/
def HAtom.Plain : HAtom → Prop
  | .p v => v < 2 ^ 4096
  | .q v => v < 2 ^ 256
  | .u64 _ => True
  | .str s => s ≠ nullString ∧ '|' ∉ s

/-- The two values have the same C++ type. -/
def HAtom.SameType : HAtom → HAtom → Prop
  | .p _, .p _ => True
  | .q _, .q _ => True
  | .u64 _, .u64 _ => True
  | .str _, .str _ => True
  | _, _ => False

def HElem.Plain : HElem → Prop
  | .nul => True
  | .atom a => a.Plain
  | .vec l => ∀ a ∈ l, a.Plain
  | .bytes _ => True

/-- Same C++ type, where a group element may be a null pointer; byte vectors also need the same length
(leading zeros are not hashed). -/
def HElem.SameType : HElem → HElem → Prop
  | .nul, .nul => True
  | .nul, .atom (.q _) => True
  | .nul, .atom (.p _) => True
  | .atom (.q _), .nul => True
  | .atom (.p _), .nul => True
  | .atom a, .atom b => a.SameType b
  | .vec l, .vec m => ∀ a ∈ l, ∀ b ∈ m, a.SameType b
  | .bytes b, .bytes c => b.length = c.length
  | _, _ => False

/-- The strings hashed while rendering one argument. -/
def HElem.queries : HElem → List (List Char)
  | .vec l => if l.isEmpty then [] else [hashInput (l.map HAtom.render)]
  | _ => []

/-- The strings hashed by `hash_elems`. -/
def hashQueries (G : Params) (C : Crypto) (xs : List HElem) : List (List Char) :=
  (if xs.isEmpty then hashInput [nullString] else hashInput (xs.map (HElem.render G C))) ::
    xs.flatMap HElem.queries

end EG
