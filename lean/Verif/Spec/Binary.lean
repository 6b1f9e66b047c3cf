import Verif.Model.Serialize
import Verif.Spec.JsonText

/-!
# MessagePack and BSON as grammars

The bytes and the document they denote, after the specifications of the two formats, without the functions that read and
write.  Floating-point numbers are finite; binary values and extensions are left out.
-/

namespace EG.Spec.Binary

open EG.Spec.JsonText (IsMap)

/-- A number in base 256, the most significant byte first. -/
inductive Big : List UInt8 → ℕ → Prop
  | nil : Big [] 0
  | snoc {t n b} : Big t n → Big (t ++ [b]) (256 * n + b.toNat)

/-- The least significant byte first. -/
def Little (t : List UInt8) (n : ℕ) : Prop := Big t.reverse n

/-- Two's complement of `k` bytes. -/
def Signed (k n : ℕ) (j : Json) : Prop :=
  ∃ v : ℤ, -(2 ^ (8 * k - 1) : ℤ) ≤ v ∧ v < 2 ^ (8 * k - 1) ∧ (n : ℤ) = v % 2 ^ (8 * k) ∧
    ((0 ≤ v ∧ j = .num v.toNat) ∨ (v < 0 ∧ j = .int (-v).toNat))

/-- IEEE 754 with `e` bits of exponent and `m` bits of mantissa: sign, exponent, mantissa. -/
def Ieee (e m n : ℕ) (v : ℚ) : Prop :=
  ∃ s x f : ℕ, s < 2 ∧ x < 2 ^ e - 1 ∧ f < 2 ^ m ∧ n = (s * 2 ^ e + x) * 2 ^ m + f ∧
    v = (-1) ^ s * (if x = 0 then (f / 2 ^ m : ℚ) * 2 ^ (1 - (2 ^ (e - 1) - 1) : ℤ)
      else (1 + f / 2 ^ m : ℚ) * 2 ^ ((x : ℤ) - (2 ^ (e - 1) - 1)))

/-! ## MessagePack -/

/-- The head of a string with `n` bytes. -/
inductive StrHead : List UInt8 → ℕ → Prop
  | fix {b : UInt8} {n} : n < 32 → b.toNat = 0xA0 + n → StrHead [b] n
  | str8 {t n} : t.length = 1 → Big t n → StrHead (0xD9 :: t) n
  | str16 {t n} : t.length = 2 → Big t n → StrHead (0xDA :: t) n
  | str32 {t n} : t.length = 4 → Big t n → StrHead (0xDB :: t) n

/-- The head of an array with `n` elements. -/
inductive ArrHead : List UInt8 → ℕ → Prop
  | fix {b : UInt8} {n} : n < 16 → b.toNat = 0x90 + n → ArrHead [b] n
  | arr16 {t n} : t.length = 2 → Big t n → ArrHead (0xDC :: t) n
  | arr32 {t n} : t.length = 4 → Big t n → ArrHead (0xDD :: t) n

/-- The head of a map with `n` members. -/
inductive MapHead : List UInt8 → ℕ → Prop
  | fix {b : UInt8} {n} : n < 16 → b.toNat = 0x80 + n → MapHead [b] n
  | map16 {t n} : t.length = 2 → Big t n → MapHead (0xDE :: t) n
  | map32 {t n} : t.length = 4 → Big t n → MapHead (0xDF :: t) n

/-- A number. -/
inductive PackNumber : List UInt8 → Json → Prop
  | positive {b : UInt8} : b.toNat < 128 → PackNumber [b] (.num b.toNat)
  | negative {b : UInt8} {n} : 0 < n → n ≤ 32 → b.toNat + n = 256 → PackNumber [b] (.int n)
  | uint8 {t n} : t.length = 1 → Big t n → PackNumber (0xCC :: t) (.num n)
  | uint16 {t n} : t.length = 2 → Big t n → PackNumber (0xCD :: t) (.num n)
  | uint32 {t n} : t.length = 4 → Big t n → PackNumber (0xCE :: t) (.num n)
  | uint64 {t n} : t.length = 8 → Big t n → PackNumber (0xCF :: t) (.num n)
  | int8 {t n j} : t.length = 1 → Big t n → Signed 1 n j → PackNumber (0xD0 :: t) j
  | int16 {t n j} : t.length = 2 → Big t n → Signed 2 n j → PackNumber (0xD1 :: t) j
  | int32 {t n j} : t.length = 4 → Big t n → Signed 4 n j → PackNumber (0xD2 :: t) j
  | int64 {t n j} : t.length = 8 → Big t n → Signed 8 n j → PackNumber (0xD3 :: t) j
  | float32 {t n v} : t.length = 4 → Big t n → Ieee 8 23 n v → PackNumber (0xCA :: t) (.float v)
  | float64 {t n v} : t.length = 8 → Big t n → Ieee 11 52 n v → PackNumber (0xCB :: t) (.float v)

mutual

/-- A value. -/
inductive Pack : List UInt8 → Json → Prop
  | nil : Pack [0xC0] .null
  | false : Pack [0xC2] (.bool false)
  | true : Pack [0xC3] (.bool true)
  | number {t j} : PackNumber t j → Pack t j
  | str {h : List UInt8} {s : Str} : StrHead h s.bytes.length → Pack (h ++ s.bytes) (.str s)
  | arr {h t l} : ArrHead h l.length → Packs t l → Pack (h ++ t) (.arr l)
  | map {h t l m} : MapHead h l.length → PackMap t l → IsMap l m → Pack (h ++ t) (.obj m)

/-- Values in sequence. -/
inductive Packs : List UInt8 → List Json → Prop
  | nil : Packs [] []
  | cons {t j u l} : Pack t j → Packs u l → Packs (t ++ u) (j :: l)

/-- Keys and values in sequence. -/
inductive PackMap : List UInt8 → List (Str × Json) → Prop
  | nil : PackMap [] []
  | cons {h : List UInt8} {s : Str} {t j u l} : StrHead h s.bytes.length → Pack t j → PackMap u l →
      PackMap ((h ++ s.bytes) ++ (t ++ u)) ((s, j) :: l)

end

/-! ## BSON

The four bytes of a size and the byte behind a text may have any value here: `strict` says that they are as the
specification demands. -/

/-- The size of a document: the bytes of its elements, and five more. -/
def Size (strict : Bool) (t : List UInt8) (n : ℕ) : Prop := t.length = 4 ∧ (strict = true → Little t (n + 5))

mutual

/-- The content of an element of a type. -/
inductive Elem (strict : Bool) : UInt8 → List UInt8 → Json → Prop
  | double {t n v} : t.length = 8 → Little t n → Ieee 11 52 n v → Elem strict 0x01 t (.float v)
  | string {t z} {s : Str} : t.length = 4 → Little t (s.bytes.length + 1) → s.bytes.length + 1 < 2 ^ 31 →
      (strict = true → z = 0) → Elem strict 0x02 (t ++ (s.bytes ++ [z])) (.str s)
  | doc {t j} : Doc strict t j → Elem strict 0x03 t j
  | array {n t l} : Size strict n t.length → Elems strict t l →
      Elem strict 0x04 (n ++ (t ++ [0])) (.arr (l.map (·.2)))
  | bool {b} : (strict = true → b = 0 ∨ b = 1) → Elem strict 0x08 [b] (.bool (b != 0))
  | null : Elem strict 0x0A [] .null
  | int32 {t n j} : t.length = 4 → Little t n → Signed 4 n j → Elem strict 0x10 t j
  | int64 {t n j} : t.length = 8 → Little t n → Signed 8 n j → Elem strict 0x12 t j

/-- Elements: type, name, zero, content. -/
inductive Elems (strict : Bool) : List UInt8 → List (List UInt8 × Json) → Prop
  | nil : Elems strict [] []
  | cons {y k t j u l} : 0 ∉ k → Elem strict y t j → Elems strict u l →
      Elems strict (y :: (k ++ 0 :: (t ++ u))) ((k, j) :: l)

/-- A document. -/
inductive Doc (strict : Bool) : List UInt8 → Json → Prop
  | mk {n t l m} : Size strict n t.length → Elems strict t (l.map fun e : Str × Json => (e.1.bytes, e.2)) → IsMap l m →
      Doc strict (n ++ (t ++ [0])) (.obj m)

end

/-! ## Documents that BSON can represent -/

mutual

/-- Numbers below 2^63, no zero character in a key. -/
def Fits : Json → Prop
  | .num n => n < 2 ^ 63
  | .arr l => fitsArr l
  | .obj m => fitsMembers m
  | _ => True

def fitsArr : List Json → Prop
  | [] => True
  | x :: l => Fits x ∧ fitsArr l

def fitsMembers : List (Str × Json) → Prop
  | [] => True
  | (k, x) :: l => Char.ofNat 0 ∉ k ∧ Fits x ∧ fitsMembers l

end

end EG.Spec.Binary
