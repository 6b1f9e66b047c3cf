import Verif.Model.LookupTable
import Mathlib.Data.Nat.Digits.Defs

/-!
# Hashing (src/electionguard/hash.cpp, nonces.cpp)

SHA-256 and HMAC-SHA256 are arbitrary functions with the right output size.
-/

namespace EG

/-- The external hash functions.  Nothing but the output length is assumed about them. -/
structure Crypto where
  /-- SHA-256 of a string of bytes, as big endian number -/
  sha256 : List Char → ℕ
  sha256_lt : ∀ s, sha256 s < 2 ^ 256
  /-- HMAC-SHA256 of a key and a message -/
  hmac : List UInt8 → List UInt8 → List UInt8
  hmac_length : ∀ k m, (hmac k m).length = 32

/-- hash.cpp:56 `null_string`. -/
def nullString : List Char := ['n', 'u', 'l', 'l']

/-- `std::to_string` of a positive integer. -/
def decimal (n : ℕ) : List Char := (Nat.digits 10 n).reverse.map (fun d => Char.ofNat (48 + d))

/-- The scalar alternatives of `CryptoHashableType`.  Pointers and references are modelled by the
value they refer to; a `CryptoHashable` is represented by the q-element `crypto_hash()` returns
(`q`). -/
inductive HAtom where
  | p (v : ℕ)
  | q (v : ℕ)
  | u64 (n : ℕ)
  | str (s : List Char)
  deriving DecidableEq

/-- `CryptoHashableType`, hash.hpp:10-28. -/
inductive HElem where
  | nul
  | atom (a : HAtom)
  | vec (l : List HAtom)
  | bytes (b : List UInt8)
  deriving DecidableEq

abbrev HElem.p (v : ℕ) : HElem := .atom (.p v)
abbrev HElem.q (v : ℕ) : HElem := .atom (.q v)
abbrev HElem.u64 (v : ℕ) : HElem := .atom (.u64 v)
abbrev HElem.str (s : List Char) : HElem := .atom (.str s)

/-- The bytes fed to SHA-256: a delimiter, then each string followed by a delimiter
(hash.cpp:82-87, 250-256). -/
def hashInput (ss : List (List Char)) : List Char := '|' :: ss.flatMap (fun s => s ++ ['|'])

/-- hash.cpp:89-115 `hash_close`: the digest as number, passed through `add_mod_q(·, 0)`. -/
def digestQ (G : Params) (C : Crypto) (s : List Char) : ℕ := addModQ G (C.sha256 s) 0

/-- hash.cpp:126-248 `get_hash_string`, scalar cases. -/
def HAtom.render : HAtom → List Char
  | .p v => toHexP v
  | .q v => toHexQ v
  | .u64 n => if n ≠ 0 then decimal n else nullString
  | .str s => if s.isEmpty then nullString else s

/-- hash.cpp:117-124 `hash_inner_vector` and 126-248 `get_hash_string`. -/
def HElem.render (G : Params) (C : Crypto) : HElem → List Char
  | .nul => nullString
  | .atom a => a.render
  | .vec l =>
    if l.isEmpty then nullString else toHexQ (digestQ G C (hashInput (l.map HAtom.render)))
  | .bytes b => bytesToHex b

/-- hash.cpp:60-73 `hash_elems` of a vector. -/
def hashElems (G : Params) (C : Crypto) (xs : List HElem) : ℕ :=
  if xs.isEmpty then digestQ G C (hashInput [HElem.render G C .nul])
  else digestQ G C (hashInput (xs.map (HElem.render G C)))

/-- hash.cpp:75-80 `hash_elems` of a single argument. -/
def hashElem (G : Params) (C : Crypto) (x : HElem) : ℕ := digestQ G C (hashInput [x.render G C])

/-! ## Nonces -/

/-- nonces.cpp:13-15, the state of a `Nonces` object. -/
structure Nonces where
  seed : ℕ
  nextItem : ℕ

/-- nonces.cpp:24-28 constructor without headers. -/
def Nonces.make (seed : ℕ) : Nonces := ⟨seed, 0⟩

/-- nonces.cpp:18-23 constructor with headers. -/
def Nonces.makeWith (G : Params) (C : Crypto) (seed : ℕ) (headers : HElem) : Nonces :=
  ⟨hashElems G C [.q seed, headers], 0⟩

/-- nonces.cpp:30-34 `get(item)`; the index is a `uint64_t`. -/
def Nonces.get (G : Params) (C : Crypto) (s : Nonces) (item : ℕ) : ℕ × Nonces :=
  (hashElems G C [.q s.seed, .u64 item], { s with nextItem := (item + 1) % 2 ^ 64 })

/-- nonces.cpp:36-40 `get(item, headers)`. -/
def Nonces.getWith (G : Params) (C : Crypto) (s : Nonces) (item : ℕ) (headers : List Char) :
    ℕ × Nonces :=
  (hashElems G C [.q s.seed, .u64 item, .str headers], { s with nextItem := (item + 1) % 2 ^ 64 })

/-- nonces.cpp:42 `next()`. -/
def Nonces.next (G : Params) (C : Crypto) (s : Nonces) : ℕ × Nonces := s.get G C s.nextItem

/-- The loop of nonces.cpp:72-74, with the number of remaining iterations. -/
def Nonces.getLoop (G : Params) (C : Crypto) (s : Nonces) (i : ℕ) : ℕ → List ℕ × Nonces
  | 0 => ([], s)
  | n + 1 =>
    let r := s.get G C i
    let rest := Nonces.getLoop G C r.2 (i + 1) n
    (r.1 :: rest.1, rest.2)

/-- nonces.cpp:67-76 `get(startItem, count)`: `endItem` wraps around. -/
def Nonces.getRange (G : Params) (C : Crypto) (s : Nonces) (start count : ℕ) : List ℕ × Nonces :=
  let endItem := (start + count) % 2 ^ 64
  Nonces.getLoop G C s start (endItem - start)

end EG
