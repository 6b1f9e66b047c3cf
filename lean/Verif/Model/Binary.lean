import Verif.Model.Serialize

/-!
# MessagePack and BSON (nlohmann/json 3.11.2, a dependency: src/CMakeLists.txt:16-20)

`toMsgPack`, `fromMsgPack`, `toBson` and `fromBson` of the classes (serialize.hpp 572-595, 714-737, 821-833, 912-935,
965-976, 1029-1054, 1295-1321, 1358-1381, 1433-1458) are `json::to_msgpack` … applied to the document of the
object, or the reader of documents applied to what `json::from_msgpack` … gives.  `binary_writer` and `binary_reader` of the
library are modelled here.

The model of documents has no binary values, no infinities and no text that is not UTF-8.  The reader accepts them
(in arrays of BSON the keys may be any bytes, they are dropped); that outcome is `foreign`, and nothing is said
about what comes after it.  The writers write no floating-point numbers, as in `Json.dump`.  The depth of the
recursion is not limited.
-/

namespace EG.Binary

/-- Why there is no document. -/
inductive Bad
  /-- `parse_error` -/
  | refused
  /-- a value that the model of documents does not have -/
  | foreign
  deriving DecidableEq, Repr

/-- What is read, and the rest of the bytes. -/
abbrev Read (α : Type) := Except Bad (α × List UInt8)

/-! ## Numbers -/

/-- The number with these bytes, the least significant first. -/
def leNum : List UInt8 → ℕ
  | [] => 0
  | b :: l => b.toNat + 256 * leNum l

/-- `k` bytes of a number, the least significant first. -/
def leBytes : ℕ → ℕ → List UInt8
  | 0, _ => []
  | k + 1, n => UInt8.ofNat (n % 256) :: leBytes k (n / 256)

def beNum (l : List UInt8) : ℕ := leNum l.reverse

def beBytes (k n : ℕ) : List UInt8 := (leBytes k n).reverse

/-- A number in two's complement of `k` bytes. -/
def signed (k n : ℕ) : Json := if n < 2 ^ (8 * k - 1) then .num n else .int (2 ^ (8 * k) - n)

/-- A floating-point number with `e` bits of exponent and `m` bits of mantissa; `none` is an infinity or not a
number. -/
def ieee (e m n : ℕ) : Option ℚ :=
  let sign : ℚ := if n / 2 ^ (m + e) % 2 = 1 then -1 else 1
  let exp := n / 2 ^ m % 2 ^ e
  let bias : ℤ := 2 ^ (e - 1) - 1
  if exp = 2 ^ e - 1 then none
  else if exp = 0 then some (sign * ((n % 2 ^ m : ℕ) * 2 ^ (1 - bias - m)))
  else some (sign * ((2 ^ m + n % 2 ^ m : ℕ) * 2 ^ (exp - bias - m)))

/-- `get_number`, `get_string`: `k` bytes. -/
def take (k : ℕ) (s : List UInt8) : Read (List UInt8) :=
  if k ≤ s.length then .ok (s.take k, s.drop k) else .error .refused

/-- The text with these bytes. -/
def decode (b : List UInt8) : Except Bad Str :=
  match b.toByteArray.utf8Decode? with
  | some a => .ok a.toList
  | none => .error .foreign

/-- `sax->number_float`. -/
def float (e m n : ℕ) : Except Bad Json :=
  match ieee e m n with
  | some v => .ok (.float v)
  | none => .error .foreign

/-! ## MessagePack: writing -/

/-- `write_msgpack`, numbers that are not negative. -/
def packNum (n : ℕ) : List UInt8 :=
  if n < 128 then [UInt8.ofNat n]
  else if n < 2 ^ 8 then 0xCC :: beBytes 1 n
  else if n < 2 ^ 16 then 0xCD :: beBytes 2 n
  else if n < 2 ^ 32 then 0xCE :: beBytes 4 n
  else 0xCF :: beBytes 8 n

/-- `write_msgpack`, the number `-n`. -/
def packNeg (n : ℕ) : List UInt8 :=
  if n ≤ 32 then [UInt8.ofNat (256 - n)]
  else if n ≤ 2 ^ 7 then 0xD0 :: beBytes 1 (2 ^ 8 - n)
  else if n ≤ 2 ^ 15 then 0xD1 :: beBytes 2 (2 ^ 16 - n)
  else if n ≤ 2 ^ 31 then 0xD2 :: beBytes 4 (2 ^ 32 - n)
  else 0xD3 :: beBytes 8 (2 ^ 64 - n)

/-- The head of a string of `n` bytes; nothing is written if it is too long. -/
def strHead (n : ℕ) : List UInt8 :=
  if n < 32 then [UInt8.ofNat (0xA0 + n)]
  else if n < 2 ^ 8 then 0xD9 :: beBytes 1 n
  else if n < 2 ^ 16 then 0xDA :: beBytes 2 n
  else if n < 2 ^ 32 then 0xDB :: beBytes 4 n
  else []

/-- The head of an array. -/
def arrHead (n : ℕ) : List UInt8 :=
  if n < 16 then [UInt8.ofNat (0x90 + n)]
  else if n < 2 ^ 16 then 0xDC :: beBytes 2 n
  else if n < 2 ^ 32 then 0xDD :: beBytes 4 n
  else []

/-- The head of an object. -/
def objHead (n : ℕ) : List UInt8 :=
  if n < 16 then [UInt8.ofNat (0x80 + n)]
  else if n < 2 ^ 16 then 0xDE :: beBytes 2 n
  else if n < 2 ^ 32 then 0xDF :: beBytes 4 n
  else []

def packStr (s : Str) : List UInt8 := strHead s.bytes.length ++ s.bytes

mutual

/-- `json::to_msgpack`. -/
def pack : Json → List UInt8
  | .null => [0xC0]
  | .bool true => [0xC3]
  | .bool false => [0xC2]
  | .num n => packNum n
  | .int n => if n = 0 then packNum 0 else packNeg n
  | .float _ => []
  | .str s => packStr s
  | .arr l => arrHead l.length ++ packArr l
  | .obj m => objHead m.length ++ packMembers m

def packArr : List Json → List UInt8
  | [] => []
  | x :: l => pack x ++ packArr l

def packMembers : List (Str × Json) → List UInt8
  | [] => []
  | (k, x) :: l => packStr k ++ (pack x ++ packMembers l)

end

/-! ## MessagePack: reading -/

/-- A length is part of the first byte, or in the `k` bytes behind it. -/
inductive Len
  | now (n : ℕ)
  | behind (k : ℕ)
  deriving DecidableEq, Repr

/-- What the first byte tells. -/
inductive Head
  | value (j : Json)
  | unsigned (k : ℕ)
  | signed (k : ℕ)
  | float32
  | float64
  | str (l : Len)
  | arr (l : Len)
  | obj (l : Len)
  | binary
  | unused

/-- The `switch` in `parse_msgpack_internal`. -/
def head (b : UInt8) : Head :=
  let n := b.toNat
  if n < 0x80 then .value (.num n)
  else if n < 0x90 then .obj (.now (n - 0x80))
  else if n < 0xA0 then .arr (.now (n - 0x90))
  else if n < 0xC0 then .str (.now (n - 0xA0))
  else if n = 0xC0 then .value .null
  else if n = 0xC1 then .unused
  else if n = 0xC2 then .value (.bool false)
  else if n = 0xC3 then .value (.bool true)
  else if n < 0xCA then .binary
  else if n = 0xCA then .float32
  else if n = 0xCB then .float64
  else if n < 0xD0 then .unsigned (2 ^ (n - 0xCC))
  else if n < 0xD4 then .signed (2 ^ (n - 0xD0))
  else if n < 0xD9 then .binary
  else if n < 0xDC then .str (.behind (2 ^ (n - 0xD9)))
  else if n < 0xDE then .arr (.behind (2 ^ (n - 0xDB)))
  else if n < 0xE0 then .obj (.behind (2 ^ (n - 0xDD)))
  else .value (.int (256 - n))

def readLen : Len → List UInt8 → Read ℕ
  | .now n, s => .ok (n, s)
  | .behind k, s =>
    match take k s with
    | .ok (x, s) => .ok (beNum x, s)
    | .error e => .error e

/-- A string behind its first byte. -/
def readStr (l : Len) (s : List UInt8) : Read Str :=
  match readLen l s with
  | .error e => .error e
  | .ok (n, s) =>
    match take n s with
    | .error e => .error e
    | .ok (x, s) =>
      match decode x with
      | .error e => .error e
      | .ok t => .ok (t, s)

/-- `get_msgpack_string` for a key: anything but a string is refused. -/
def readKey : List UInt8 → Read Str
  | [] => .error .refused
  | b :: s =>
    match head b with
    | .str l => readStr l s
    | _ => .error .refused

/-- A number of `k` bytes. -/
def readNum (k : ℕ) (s : List UInt8) (f : ℕ → Except Bad Json) : Read Json :=
  match take k s with
  | .error e => .error e
  | .ok (x, s) =>
    match f (beNum x) with
    | .error e => .error e
    | .ok j => .ok (j, s)

mutual

/-- `parse_msgpack_internal`; the first argument bounds the recursion. -/
def readValue : ℕ → List UInt8 → Read Json
  | 0, _ => .error .refused
  | _ + 1, [] => .error .refused
  | fuel + 1, b :: s =>
    match head b with
    | .value j => .ok (j, s)
    | .unsigned k => readNum k s (fun n => .ok (.num n))
    | .signed k => readNum k s (fun n => .ok (signed k n))
    | .float32 => readNum 4 s (float 8 23)
    | .float64 => readNum 8 s (float 11 52)
    | .str l =>
      match readStr l s with
      | .error e => .error e
      | .ok (t, s) => .ok (.str t, s)
    | .arr l =>
      match readLen l s with
      | .error e => .error e
      | .ok (n, s) =>
        match readArr fuel n s with
        | .error e => .error e
        | .ok (l, s) => .ok (.arr l, s)
    | .obj l =>
      match readLen l s with
      | .error e => .error e
      | .ok (n, s) =>
        match readMembers fuel n s [] with
        | .error e => .error e
        | .ok (m, s) => .ok (.obj m, s)
    | .binary => .error .foreign
    | .unused => .error .refused

/-- `get_msgpack_array`. -/
def readArr : ℕ → ℕ → List UInt8 → Read (List Json)
  | _, 0, s => .ok ([], s)
  | 0, _ + 1, _ => .error .refused
  | fuel + 1, n + 1, s =>
    match readValue fuel s with
    | .error e => .error e
    | .ok (x, s) =>
      match readArr fuel n s with
      | .error e => .error e
      | .ok (l, s) => .ok (x :: l, s)

/-- `get_msgpack_object`; a later member replaces an earlier one. -/
def readMembers : ℕ → ℕ → List UInt8 → List (Str × Json) → Read (List (Str × Json))
  | _, 0, s, m => .ok (m, s)
  | 0, _ + 1, _, _ => .error .refused
  | fuel + 1, n + 1, s, m =>
    match readKey s with
    | .error e => .error e
    | .ok (k, s) =>
      match readValue fuel s with
      | .error e => .error e
      | .ok (x, s) => readMembers fuel n s (mapSet m k x)

end

/-- Nothing may follow. -/
def whole {α : Type} : Read α → Except Bad α
  | .error e => .error e
  | .ok (x, []) => .ok x
  | .ok (_, _ :: _) => .error .refused

/-- `json::from_msgpack`. -/
def unpack (s : List UInt8) : Except Bad Json := whole (readValue (2 * s.length + 1) s)

/-! ## BSON: writing -/

/-- A document of BSON: the size (a cast to 32 bits), the elements, a zero. -/
def bsonDoc (body : List UInt8) : List UInt8 := leBytes 4 (body.length + 5) ++ (body ++ [0])

/-- An element: type, name, content.  A name cannot contain a zero. -/
def bsonEntry (k : Str) (x : UInt8 × List UInt8) : Res (List UInt8) :=
  if 0 ∈ k.bytes then .throw .json else .ok (x.1 :: (k.bytes ++ 0 :: x.2))

mutual

/-- `write_bson_element`: type and content. -/
def bsonValue : Json → Res (UInt8 × List UInt8)
  | .null => .ok (0x0A, [])
  | .bool b => .ok (0x08, [if b then 1 else 0])
  | .num n =>
    if n < 2 ^ 31 then .ok (0x10, leBytes 4 n)
    else if n < 2 ^ 63 then .ok (0x12, leBytes 8 n)
    else .throw .json
  | .int n => if n ≤ 2 ^ 31 then .ok (0x10, leBytes 4 (2 ^ 32 - n)) else .ok (0x12, leBytes 8 (2 ^ 64 - n))
  | .float _ => .ok (0x01, [])
  | .str s => .ok (0x02, leBytes 4 (s.bytes.length + 1) ++ (s.bytes ++ [0]))
  | .arr l => do
    let body ← bsonArr 0 l
    .ok (0x04, bsonDoc body)
  | .obj m => do
    let body ← bsonMembers m
    .ok (0x03, bsonDoc body)

/-- The elements of an array; their names are their indices. -/
def bsonArr : ℕ → List Json → Res (List UInt8)
  | _, [] => .ok []
  | i, x :: l => do
    let v ← bsonValue x
    let e ← bsonEntry (dumpNum i) v
    let r ← bsonArr (i + 1) l
    .ok (e ++ r)

def bsonMembers : List (Str × Json) → Res (List UInt8)
  | [] => .ok []
  | (k, x) :: l => do
    let v ← bsonValue x
    let e ← bsonEntry k v
    let r ← bsonMembers l
    .ok (e ++ r)

end

/-- `json::to_bson`. -/
def toBson : Json → Res (List UInt8)
  | .obj m => do
    let body ← bsonMembers m
    .ok (bsonDoc body)
  | _ => .throw .json

/-! ## BSON: reading -/

/-- `get_bson_cstr`. -/
def cstr : List UInt8 → Read (List UInt8)
  | [] => .error .refused
  | b :: s =>
    if b = 0 then .ok ([], s)
    else
      match cstr s with
      | .error e => .error e
      | .ok (k, s) => .ok (b :: k, s)

/-- The names of the members of an object. -/
def decodeKeys : List (List UInt8 × Json) → Except Bad (List (Str × Json))
  | [] => .ok []
  | (k, x) :: l =>
    match decode k with
    | .error e => .error e
    | .ok k =>
      match decodeKeys l with
      | .error e => .error e
      | .ok l => .ok ((k, x) :: l)

/-- `get_bson_string`: the length counts one byte behind the text, which is not looked at. -/
def bsonStr (s : List UInt8) : Read Str :=
  match take 4 s with
  | .error e => .error e
  | .ok (n, s) =>
    if leNum n = 0 ∨ 2 ^ 31 ≤ leNum n then .error .refused
    else
      match take (leNum n - 1) s with
      | .error e => .error e
      | .ok (x, s) =>
        match s with
        | [] => .error .refused
        | _ :: s =>
          match decode x with
          | .error e => .error e
          | .ok t => .ok (t, s)

/-- A number of `k` bytes. -/
def bsonNum (k : ℕ) (s : List UInt8) (f : ℕ → Except Bad Json) : Read Json :=
  match take k s with
  | .error e => .error e
  | .ok (x, s) =>
    match f (leNum x) with
    | .error e => .error e
    | .ok j => .ok (j, s)

/-- `BSON boolean`: whatever is not zero is true. -/
def bsonBool : List UInt8 → Read Json
  | [] => .error .refused
  | b :: s => .ok (.bool (b != 0), s)

mutual

/-- `parse_bson_element_internal` for an element of type `t`. -/
def readElem : ℕ → UInt8 → List UInt8 → Read Json
  | 0, _, _ => .error .refused
  | fuel + 1, t, s =>
    if t = 0x01 then bsonNum 8 s (float 11 52)
    else if t = 0x02 then
      match bsonStr s with
      | .error e => .error e
      | .ok (x, s) => .ok (.str x, s)
    else if t = 0x03 then
      match readDoc fuel s with
      | .error e => .error e
      | .ok (l, s) =>
        match decodeKeys l with
        | .error e => .error e
        | .ok l => .ok (.obj (l.foldl (fun m e => mapSet m e.1 e.2) []), s)
    else if t = 0x04 then
      match readDoc fuel s with
      | .error e => .error e
      | .ok (l, s) => .ok (.arr (l.map (·.2)), s)
    else if t = 0x05 then .error .foreign
    else if t = 0x08 then bsonBool s
    else if t = 0x0A then .ok (.null, s)
    else if t = 0x10 then bsonNum 4 s (fun n => .ok (signed 4 n))
    else if t = 0x12 then bsonNum 8 s (fun n => .ok (signed 8 n))
    else .error .refused

/-- `parse_bson_element_list`. -/
def readElems : ℕ → List UInt8 → Read (List (List UInt8 × Json))
  | 0, _ => .error .refused
  | _ + 1, [] => .error .refused
  | fuel + 1, t :: s =>
    if t = 0 then .ok ([], s)
    else
      match cstr s with
      | .error e => .error e
      | .ok (k, s) =>
        match readElem fuel t s with
        | .error e => .error e
        | .ok (x, s) =>
          match readElems fuel s with
          | .error e => .error e
          | .ok (l, s) => .ok ((k, x) :: l, s)

/-- `parse_bson_internal`, `parse_bson_array`: the size is read and not looked at. -/
def readDoc : ℕ → List UInt8 → Read (List (List UInt8 × Json))
  | 0, _ => .error .refused
  | fuel + 1, s =>
    match take 4 s with
    | .error e => .error e
    | .ok (_, s) => readElems fuel s

end

/-- `json::from_bson`. -/
def ofBson (s : List UInt8) : Except Bad Json :=
  match whole (readDoc (3 * s.length + 3) s) with
  | .error e => .error e
  | .ok l =>
    match decodeKeys l with
    | .error e => .error e
    | .ok l => .ok (.obj (l.foldl (fun m e => mapSet m e.1 e.2) []))

/-! ## The classes -/

/-- `fromObject(serializable)` and `to_msgpack`. -/
def writePack (doc : Res Json) : Res (List UInt8) := do
  let j ← doc
  .ok (pack j)

/-- `fromObject(serializable)` and `to_bson`. -/
def writeBson (doc : Res Json) : Res (List UInt8) := do
  let j ← doc
  toBson j

/-- `toObject` of what was read; `none` if the model does not tell. -/
def load {α : Type} (ofDoc : Json → Res α) : Except Bad Json → Option (Res α)
  | .ok j => some (ofDoc j)
  | .error .refused => some (.throw .json)
  | .error .foreign => none

/-- `toObject(json::from_msgpack(data))`. -/
def readPack {α : Type} (ofDoc : Json → Res α) (data : List UInt8) : Option (Res α) := load ofDoc (unpack data)

/-- `toObject(json::from_bson(data))`. -/
def readBson {α : Type} (ofDoc : Json → Res α) (data : List UInt8) : Option (Res α) := load ofDoc (ofBson data)

end EG.Binary
