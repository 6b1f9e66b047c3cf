import Verif.Model.Std
import Mathlib.Data.Int.Log
import Mathlib.Data.Rat.Floor

/-!
# JSON documents (nlohmann/json 3.11.2, a dependency: src/CMakeLists.txt:16-20)

A text is a list of characters, the code points of valid UTF-8 (the library refuses other bytes).  Objects are
ordered maps, so their members are kept in the order of the keys.  Negative zero is zero here.
-/

namespace EG

/-! ## Texts -/

/-- Hexadecimal digits of an escape sequence. -/
def escapeHex (n : ℕ) : Str := ['0', '0', hexLower (n / 16), hexLower (n % 16)]
where
  hexLower (n : ℕ) : Char := if n < 10 then Char.ofNat (48 + n) else Char.ofNat (87 + n)

/-- nlohmann/json `serializer::dump_escaped` for one character, without `ensure_ascii`. -/
def escapeChar (c : Char) : Str :=
  if c = '"' then ['\\', '"']
  else if c = '\\' then ['\\', '\\']
  else if c.toNat = 8 then ['\\', 'b']
  else if c.toNat = 9 then ['\\', 't']
  else if c.toNat = 10 then ['\\', 'n']
  else if c.toNat = 12 then ['\\', 'f']
  else if c.toNat = 13 then ['\\', 'r']
  else if c.toNat < 32 then ['\\', 'u'] ++ escapeHex c.toNat
  else [c]

/-- A JSON string. -/
def dumpStr (s : Str) : Str := '"' :: s.flatMap escapeChar ++ ['"']

/-- Elements of an array or object separated by commas. -/
def joinComma : List Str → Str
  | [] => []
  | [x] => x
  | x :: y :: rest => x ++ ',' :: joinComma (y :: rest)

/-- A JSON array of strings. -/
def dumpStrs (l : List Str) : Str := '[' :: joinComma (l.map dumpStr) ++ [']']

/-- A member of a JSON object. -/
def dumpMember (key : Str) (value : Str) : Str := dumpStr key ++ ':' :: value

/-- A JSON object given by its members in the order of their keys. -/
def dumpObj (l : List (Str × Str)) : Str := '{' :: joinComma (l.map (fun e => dumpMember e.1 e.2)) ++ ['}']

/-- `std::map::operator[]` followed by an assignment: the keys stay sorted. -/
def mapSet {V : Type} (m : List (Str × V)) (key : Str) (value : V) : List (Str × V) :=
  match m with
  | [] => [(key, value)]
  | e :: rest =>
    if key = e.1 then (key, value) :: rest
    else if key < e.1 then (key, value) :: e :: rest
    else e :: mapSet rest key value

/-! ## Documents -/

/-- `nlohmann::json`: `num` is `number_unsigned`, `int n` is `number_integer` with the value `-n`, `float` is
`number_float`. -/
inductive Json where
  | null
  | bool (b : Bool)
  | num (n : ℕ)
  | int (n : ℕ)
  | float (v : ℚ)
  | str (s : Str)
  | arr (l : List Json)
  | obj (m : List (Str × Json))

/-- A number (`serializer::dump_integer`). -/
def dumpNum (n : ℕ) : Str := if n = 0 then ['0'] else decimal n

mutual

/-- `dump()` without indentation.  The texts of floating-point numbers are left out (the library writes none; only
the write-ins in the text of a compact ballot are dumped after they were read). -/
def Json.dump : Json → Str
  | .null => ['n', 'u', 'l', 'l']
  | .bool true => ['t', 'r', 'u', 'e']
  | .bool false => ['f', 'a', 'l', 's', 'e']
  | .num n => dumpNum n
  | .int n => if n = 0 then ['0'] else '-' :: dumpNum n
  | .float _ => []
  | .str s => dumpStr s
  | .arr l => '[' :: dumpArr l ++ [']']
  | .obj m => '{' :: dumpMembers m ++ ['}']

/-- The elements of an array. -/
def dumpArr : List Json → Str
  | [] => []
  | [x] => x.dump
  | x :: y :: rest => x.dump ++ ',' :: dumpArr (y :: rest)

/-- The members of an object. -/
def dumpMembers : List (Str × Json) → Str
  | [] => []
  | [(k, x)] => dumpStr k ++ ':' :: x.dump
  | (k, x) :: y :: rest => dumpStr k ++ ':' :: (x.dump ++ ',' :: dumpMembers (y :: rest))

end

/-- `basic_json(initializer_list)` for a list of pairs with distinct keys. -/
def Json.object (l : List (Str × Json)) : Json :=
  .obj (l.foldl (fun m e => mapSet m e.1 e.2) [])

/-- `operator[](key) = value` on an object, or on `null`, which becomes an object. -/
def Json.set (j : Json) (key : Str) (value : Json) : Json :=
  match j with
  | .obj m => .obj (mapSet m key value)
  | .null => .obj [(key, value)]
  | j => j

/-- A `json` variable that is `null` at first and gets its elements by `push_back`. -/
def Json.pushed (l : List Json) : Json := if l.isEmpty then .null else .arr l

/-! ## Access -/

/-- `find`. -/
def mapGet {V : Type} (m : List (Str × V)) (key : Str) : Option V :=
  (m.find? (fun e => e.1 = key)).map (·.2)

/-- `operator[](key)` on a document that is not constant: a missing member is `null` (and inserted,
which nothing observes); anything but an object or `null` throws. -/
def Json.at (j : Json) (key : Str) : Res Json :=
  match j with
  | .obj m => .ok ((mapGet m key).getD .null)
  | .null => .ok .null
  | _ => .throw .json

/-- `operator[](key)` on a constant document: a missing member is undefined behaviour, anything but an
object throws. -/
def Json.atConst (j : Json) (key : Str) : Res Json :=
  match j with
  | .obj m =>
    match mapGet m key with
    | some v => .ok v
    | none => .ub
  | _ => .throw .json

/-- `j.contains(key) && !j[key].is_null()`: the member, if there is one. -/
def Json.opt (j : Json) (key : Str) : Option Json :=
  match j with
  | .obj m =>
    match mapGet m key with
    | some .null => none
    | r => r
  | _ => none

/-- `get<string>()`. -/
def Json.asStr : Json → Res Str
  | .str s => .ok s
  | _ => .throw .json

/-- `get<uint64_t>()` is a `static_cast`: negative integers are taken modulo 2^64, fractions are cut off, and
floating-point numbers that are out of range are undefined behaviour. -/
def Json.asNat : Json → Res ℕ
  | .num n => .ok n
  | .int n => .ok ((2 ^ 64 - n % 2 ^ 64) % 2 ^ 64)
  | .float v => if -1 < v ∧ v < 2 ^ 64 then .ok ⌊v⌋.toNat else .ub
  | _ => .throw .json

/-- `get<bool>()`. -/
def Json.asBool : Json → Res Bool
  | .bool b => .ok b
  | _ => .throw .json

/-- Iteration over a document: the elements of an array, the values of an object, nothing for `null`,
and the document itself otherwise. -/
def Json.items : Json → List Json
  | .null => []
  | .arr l => l
  | .obj m => m.map (·.2)
  | j => [j]

/-! ## Parsing

`json::parse` accepts the texts of RFC 8259; white space may surround every token.  A byte order mark may come
first, and a text ends at a NUL character. -/

/-- `lexer::skip_whitespace`. -/
def skipWs : Str → Str
  | [] => []
  | c :: rest => if c = ' ' ∨ c = '\t' ∨ c = '\n' ∨ c = '\r' then skipWs rest else c :: rest

/-- A hexadecimal digit (`lexer::get_codepoint`). -/
def hexNibble (c : Char) : Option ℕ :=
  let n := c.toNat
  if 48 ≤ n ∧ n ≤ 57 then some (n - 48)
  else if 65 ≤ n ∧ n ≤ 70 then some (n - 55)
  else if 97 ≤ n ∧ n ≤ 102 then some (n - 87)
  else none

/-- Four hexadecimal digits. -/
def hexQuad (a b c d : Char) : Option ℕ := do
  let a ← hexNibble a
  let b ← hexNibble b
  let c ← hexNibble c
  let d ← hexNibble d
  some (((a * 16 + b) * 16 + c) * 16 + d)

/-- `lexer::scan_string`, behind the opening quote: the string and the rest of the text. -/
def scanString : Str → Option (Str × Str)
  | [] => none
  | '"' :: rest => some ([], rest)
  | '\\' :: 'u' :: a :: b :: c :: d :: rest =>
    match hexQuad a b c d with
    | none => none
    | some n =>
      if 0xD800 ≤ n ∧ n ≤ 0xDBFF then
        match rest with
        | '\\' :: 'u' :: a' :: b' :: c' :: d' :: rest' =>
          match hexQuad a' b' c' d' with
          | none => none
          | some n' =>
            if 0xDC00 ≤ n' ∧ n' ≤ 0xDFFF then
              (scanString rest').map (fun r =>
                (Char.ofNat ((n - 0xD800) * 1024 + (n' - 0xDC00) + 0x10000) :: r.1, r.2))
            else none
        | _ => none
      else if 0xDC00 ≤ n ∧ n ≤ 0xDFFF then none
      else (scanString rest).map (fun r => (Char.ofNat n :: r.1, r.2))
  | '\\' :: e :: rest =>
    if e = '"' ∨ e = '\\' ∨ e = '/' then (scanString rest).map (fun r => (e :: r.1, r.2))
    else if e = 'b' then (scanString rest).map (fun r => (Char.ofNat 8 :: r.1, r.2))
    else if e = 't' then (scanString rest).map (fun r => (Char.ofNat 9 :: r.1, r.2))
    else if e = 'n' then (scanString rest).map (fun r => (Char.ofNat 10 :: r.1, r.2))
    else if e = 'f' then (scanString rest).map (fun r => (Char.ofNat 12 :: r.1, r.2))
    else if e = 'r' then (scanString rest).map (fun r => (Char.ofNat 13 :: r.1, r.2))
    else none
  | '\\' :: [] => none
  | c :: rest =>
    if c.toNat < 32 then none
    else (scanString rest).map (fun r => (c :: r.1, r.2))

/-- Decimal digits. -/
def isDigit (c : Char) : Bool := 48 ≤ c.toNat && c.toNat ≤ 57

/-- The value of decimal digits. -/
def digitsVal (s : Str) : ℕ := s.foldl (fun acc c => 10 * acc + (c.toNat - 48)) 0

/-- `lexer::scan_number`, the digits before the point. -/
def scanInt : Str → Option (Str × Str)
  | [] => none
  | c :: rest =>
    if c = '0' then some (['0'], rest)
    else if isDigit c then some (c :: rest.takeWhile isDigit, rest.dropWhile isDigit)
    else none

/-- One or more digits. -/
def scanDigits (s : Str) : Option (Str × Str) :=
  if s.takeWhile isDigit = [] then none else some (s.takeWhile isDigit, s.dropWhile isDigit)

/-- The digits behind the point, if there is one. -/
def scanFrac : Str → Option (Option Str × Str)
  | '.' :: rest => (scanDigits rest).map (fun r => (some r.1, r.2))
  | s => some (none, s)

/-- The exponent, if there is one, and whether it is negative. -/
def scanExp : Str → Option (Option (Bool × Str) × Str)
  | [] => some (none, [])
  | c :: rest =>
    if c = 'e' ∨ c = 'E' then
      match rest with
      | '+' :: rest => (scanDigits rest).map (fun r => (some (false, r.1), r.2))
      | '-' :: rest => (scanDigits rest).map (fun r => (some (true, r.1), r.2))
      | rest => (scanDigits rest).map (fun r => (some (false, r.1), r.2))
    else some (none, c :: rest)

/-- The number a literal denotes. -/
def decimalValue (neg : Bool) (digits frac : Str) (exp : ℤ) : ℚ :=
  (if neg then -1 else 1) * (digitsVal (digits ++ frac) * 10 ^ (exp - frac.length))

/-- Rounding to an integer, to the even one if two are equally near. -/
def roundEven (x : ℚ) : ℤ :=
  if x - ⌊x⌋ < 1 / 2 then ⌊x⌋
  else if 1 / 2 < x - ⌊x⌋ then ⌊x⌋ + 1
  else if ⌊x⌋ % 2 = 0 then ⌊x⌋ else ⌊x⌋ + 1

/-- `strtod`, correctly rounded: the nearest number with 53 binary digits (fewer below 2^-1022); `none` is an
infinity. -/
def toDouble (x : ℚ) : Option ℚ :=
  let e := max (Int.log 2 |x|) (-1022)
  let r : ℚ := roundEven (x / 2 ^ (e - 52)) * 2 ^ (e - 52)
  if |r| < 2 ^ 1024 then some r else none

/-- The conversion at the end of `lexer::scan_number`: integers that fit are `number_unsigned` or, with a sign,
`number_integer`, others become floating-point numbers.  `sax_parse_internal` refuses infinities. -/
def numberOf (neg : Bool) (digits : Str) (frac : Option Str) (exp : Option (Bool × Str)) : Option Json :=
  let float := (toDouble (decimalValue neg digits (frac.getD [])
    (match exp with
      | none => 0
      | some (true, e) => -digitsVal e
      | some (false, e) => digitsVal e))).map Json.float
  if frac = none ∧ exp = none then
    if neg then if digitsVal digits ≤ 2 ^ 63 then some (.int (digitsVal digits)) else float
    else if digitsVal digits < 2 ^ 64 then some (.num (digitsVal digits)) else float
  else float

/-- `lexer::scan_number`. -/
def scanNumber (s : Str) : Option (Json × Str) := do
  let (neg, s) := match s with
    | '-' :: rest => (true, rest)
    | s => (false, s)
  let (digits, s) ← scanInt s
  let (frac, s) ← scanFrac s
  let (exp, s) ← scanExp s
  let j ← numberOf neg digits frac exp
  some (j, s)

mutual

/-- `parser::sax_parse_internal`, as a recursive descent; the first argument bounds the recursion. -/
def parseValue : ℕ → Str → Option (Json × Str)
  | 0, _ => none
  | fuel + 1, s =>
    match skipWs s with
    | [] => none
    | '"' :: rest => (scanString rest).map (fun r => (.str r.1, r.2))
    | '[' :: rest =>
      match skipWs rest with
      | ']' :: rest' => some (.arr [], rest')
      | _ => (parseArr fuel rest).map (fun r => (.arr r.1, r.2))
    | '{' :: rest =>
      match skipWs rest with
      | '}' :: rest' => some (.obj [], rest')
      | _ => (parseMembers fuel rest []).map (fun r => (.obj r.1, r.2))
    | 'n' :: 'u' :: 'l' :: 'l' :: rest => some (.null, rest)
    | 't' :: 'r' :: 'u' :: 'e' :: rest => some (.bool true, rest)
    | 'f' :: 'a' :: 'l' :: 's' :: 'e' :: rest => some (.bool false, rest)
    | c :: rest => scanNumber (c :: rest)

/-- The elements of an array and the closing bracket. -/
def parseArr : ℕ → Str → Option (List Json × Str)
  | 0, _ => none
  | fuel + 1, s =>
    match parseValue fuel s with
    | none => none
    | some (x, rest) =>
      match skipWs rest with
      | ',' :: rest' => (parseArr fuel rest').map (fun r => (x :: r.1, r.2))
      | ']' :: rest' => some ([x], rest')
      | _ => none

/-- The members of an object and the closing brace; a later member replaces an earlier one. -/
def parseMembers : ℕ → Str → List (Str × Json) → Option (List (Str × Json) × Str)
  | 0, _, _ => none
  | fuel + 1, s, m =>
    match skipWs s with
    | '"' :: rest =>
      match scanString rest with
      | none => none
      | some (key, rest) =>
        match skipWs rest with
        | ':' :: rest =>
          match parseValue fuel rest with
          | none => none
          | some (x, rest) =>
            match skipWs rest with
            | ',' :: rest' => parseMembers fuel rest' (mapSet m key x)
            | '}' :: rest' => some (mapSet m key x, rest')
            | _ => none
        | _ => none
    | _ => none

end

/-- `lexer::skip_bom`. -/
def skipBom : Str → Str
  | c :: rest => if c.toNat = 0xFEFF then rest else c :: rest
  | [] => []

/-- `token_type::end_of_input`: a NUL character ends the text too. -/
def atEnd : Str → Bool
  | [] => true
  | c :: _ => c.toNat = 0

/-- `json::parse`: nothing but white space may follow. -/
def Json.parse (s : Str) : Res Json :=
  match parseValue (2 * s.length + 2) (skipBom s) with
  | some (j, rest) => if atEnd (skipWs rest) then .ok j else .throw .json
  | none => .throw .json

end EG
