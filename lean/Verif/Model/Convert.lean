import Verif.Model.Res

/-!
# Byte and hex conversion (src/electionguard/convert.hpp, HACL* byte loads and stores)

Strings are lists of characters, each standing for one byte of the `std::string`.
-/

namespace EG

/-- The `len` low bytes of `n`, least significant first. -/
def toBytesLE : ℕ → ℕ → List UInt8
  | 0, _ => []
  | len + 1, n => UInt8.ofNat (n % 256) :: toBytesLE len (n / 256)

/-- Hacl_Bignum4096.c:1811-1830 / Hacl_Bignum256.c:2024-2046 `bn_to_bytes_be`: the number as
`len` bytes, most significant first (the limb-wise `store64_be` loop is flattened). -/
def toBytesBE (len n : ℕ) : List UInt8 := (toBytesLE len n).reverse

/-- The number denoted by bytes, least significant first. -/
def ofBytesLE : List UInt8 → ℕ
  | [] => 0
  | b :: bs => b.toNat + 256 * ofBytesLE bs

/-- Hacl_Bignum4096.c:1698-1745 / Hacl_Bignum256.c:1911-1958 `new_bn_from_bytes_be`: the number
denoted by bytes, most significant first (limb-wise loads flattened). -/
def ofBytesBE (bs : List UInt8) : ℕ := ofBytesLE bs.reverse

/-- Upper-case hex digit, as printed by `stream << hex << uppercase`. -/
def hexDigit (n : ℕ) : Char :=
  if n < 10 then Char.ofNat (48 + n) else Char.ofNat (55 + n)

/-- Value of a hex digit character of either case. -/
def hexVal (c : Char) : Option ℕ :=
  if '0' ≤ c ∧ c ≤ '9' then some (c.toNat - 48)
  else if 'A' ≤ c ∧ c ≤ 'F' then some (c.toNat - 55)
  else if 'a' ≤ c ∧ c ≤ 'f' then some (c.toNat - 87)
  else none

/-- `setw(2) << setfill('0') << byte`. -/
def byteToHex (b : UInt8) : List Char := [hexDigit (b.toNat / 16), hexDigit (b.toNat % 16)]

/-- convert.hpp:183-200 `bytes_to_hex`: leading zero bytes are skipped, `"00"` if all are zero. -/
def bytesToHex (bs : List UInt8) : List Char :=
  match bs.dropWhile (· = 0) with
  | [] => ['0', '0']
  | b :: rest => (b :: rest).flatMap byteToHex

/-- `isspace` in the "C" locale. -/
def isSpaceC (c : Char) : Bool :=
  c = ' ' || c = '\n' || c = '\r' || c = '\t' || c = Char.ofNat 12 || c = Char.ofNat 11

/-- convert.hpp:38 `LEADING_CHARS`. -/
def isLeadingChar (c : Char) : Bool := c = '0' || isSpaceC c

/-- convert.hpp:170-181 `sanitize_hex_string`: `substr(npos)` throws when nothing but leading
characters is present. -/
def sanitizeHex (s : List Char) : Res (List Char) :=
  match s.dropWhile isLeadingChar with
  | [] => .throw .outOfRange
  | c :: rest => .ok (if (c :: rest).length % 2 ≠ 0 then '0' :: c :: rest else c :: rest)

/-- Value of a run of hex digits. -/
def hexDigitsVal (s : List Char) : ℕ := s.foldl (fun acc c => 16 * acc + (hexVal c).getD 0) 0

/-- `static_cast<uint8_t>(static_cast<uint16_t>(stoi(s, nullptr, 16)))` for the short strings
passed by `hex_to_bytes` (convert.hpp:60-62, 72-76).  `stoi` skips white space, accepts a sign
and a `0x` prefix, stops at the first non-digit, and throws `invalid_argument` when there is no
digit.  (`out_of_range` cannot occur for strings of at most two characters.) -/
def stoi16Byte (s : List Char) : Res UInt8 :=
  let s1 := s.dropWhile isSpaceC
  let neg := match s1 with | '-' :: _ => true | _ => false
  let s2 := match s1 with | '-' :: t => t | '+' :: t => t | t => t
  let s3 := match s2 with
    | '0' :: 'x' :: d :: t => if (hexVal d).isSome then d :: t else s2
    | '0' :: 'X' :: d :: t => if (hexVal d).isSome then d :: t else s2
    | t => t
  match s3.takeWhile (fun c => (hexVal c).isSome) with
  | [] => .throw .invalidArgument
  | d :: ds =>
    let v := hexDigitsVal (d :: ds)
    .ok (UInt8.ofNat ((if neg then 2 ^ 16 - v % 2 ^ 16 else v) % 256))

/-- convert.hpp:67-80 `hex_to_bytes`. -/
def hexToBytes : List Char → Res (List UInt8)
  | [] => .ok []
  | [c] => do
    let b ← stoi16Byte [c]
    pure [b]
  | c1 :: c2 :: rest => do
    let b ← stoi16Byte [c1, c2]
    let bs ← hexToBytes rest
    pure (b :: bs)

end EG
