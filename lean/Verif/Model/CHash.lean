import Verif.Model.CGroup
import Verif.Model.Hash

/-!
# Hashing through C

Source: `src/electionguard/facades/hash.cpp` (16-52).

A pointer is null (`none`) or leads to a text that ends with a zero, or to an array.  Allocation does not fail.
-/

namespace EG.CHash

open EG.CGroup (Out caught deref cText)

/-- facades/hash.cpp:16-26 `eg_hash_elems_string`: a `CryptoHashableType` with a `string` made from the pointer,
which is undefined for a null pointer. -/
def hashString (G : Params) (C : Crypto) (a : Option (List Char)) : Res (Out ℕ) :=
  caught .badAlloc (do
    let s ← deref a
    .ok (hashElem G C (.str (cText s))))

/-- The strings made from pointers. -/
def texts : List (Option (List Char)) → Res (List (List Char))
  | [] => .ok []
  | p :: ps => do
    let s ← deref p
    let rest ← texts ps
    .ok (cText s :: rest)

/-- facades/hash.cpp:32 `vector<string> v(a, a + in_length)`: nothing is read if the length is zero. -/
def readTexts (a : Option (List (Option (List Char)))) (len : UInt64) : Res (List (List Char)) :=
  if len.toNat = 0 then .ok []
  else do
    let l ← deref a
    if l.length < len.toNat then .ub else texts (l.take len.toNat)

/-- facades/hash.cpp:28-40 `eg_hash_elems_strings`: there is no conversion from `vector<string>` to
`vector<CryptoHashableType>`, so that `hash_elems` of a single argument is called. -/
def hashStrings (G : Params) (C : Crypto) (a : Option (List (Option (List Char)))) (len : UInt64) : Res (Out ℕ) :=
  caught .badAlloc (do
    let v ← readTexts a len
    .ok (hashElem G C (.vec (v.map .str))))

/-- facades/hash.cpp:42-52 `eg_hash_elems_int`. -/
def hashInt (G : Params) (C : Crypto) (a : UInt64) : Res (Out ℕ) :=
  caught .badAlloc (.ok (hashElem G C (.u64 a.toNat)))

end EG.CHash
