import Verif.Model.Json

/-!
# JSON texts (RFC 8259) and what they denote

Written as a grammar, without the functions that read.
-/

namespace EG.Spec.JsonText

/-- White space. -/
def Ws (t : Str) : Prop := ∀ c ∈ t, c = ' ' ∨ c = '\t' ∨ c = '\n' ∨ c = '\r'

/-! ## Strings -/

/-- A hexadecimal digit. -/
def HexDigit (c : Char) (v : ℕ) : Prop :=
  "0123456789abcdef".toList[v]? = some c ∨ "0123456789ABCDEF".toList[v]? = some c

/-- Four hexadecimal digits. -/
def Hex4 (a b c d : Char) (n : ℕ) : Prop :=
  ∃ x y z w, HexDigit a x ∧ HexDigit b y ∧ HexDigit c z ∧ HexDigit d w ∧
    n = x * 16 ^ 3 + y * 16 ^ 2 + z * 16 + w

/-- What stands between the quotes, and the string it denotes. -/
inductive Chars : Str → Str → Prop
  | nil : Chars [] []
  | plain {c t s} : 32 ≤ c.toNat → c ≠ '"' → c ≠ '\\' → Chars t s → Chars (c :: t) (c :: s)
  | quote {t s} : Chars t s → Chars ('\\' :: '"' :: t) ('"' :: s)
  | backslash {t s} : Chars t s → Chars ('\\' :: '\\' :: t) ('\\' :: s)
  | slash {t s} : Chars t s → Chars ('\\' :: '/' :: t) ('/' :: s)
  | backspace {t s} : Chars t s → Chars ('\\' :: 'b' :: t) (Char.ofNat 8 :: s)
  | formFeed {t s} : Chars t s → Chars ('\\' :: 'f' :: t) (Char.ofNat 12 :: s)
  | newline {t s} : Chars t s → Chars ('\\' :: 'n' :: t) ('\n' :: s)
  | return {t s} : Chars t s → Chars ('\\' :: 'r' :: t) ('\r' :: s)
  | tab {t s} : Chars t s → Chars ('\\' :: 't' :: t) ('\t' :: s)
  /-- A code point other than a surrogate. -/
  | unicode {a b c d n t s} : Hex4 a b c d n → n < 0xD800 ∨ 0xE000 ≤ n → Chars t s →
      Chars ('\\' :: 'u' :: a :: b :: c :: d :: t) (Char.ofNat n :: s)
  /-- A surrogate pair; `h` and `l` are ten bits each. -/
  | pair {a b c d a' b' c' d' h l t s} : Hex4 a b c d (0xD800 + h) → Hex4 a' b' c' d' (0xDC00 + l) →
      h < 1024 → l < 1024 → Chars t s →
      Chars ('\\' :: 'u' :: a :: b :: c :: d :: '\\' :: 'u' :: a' :: b' :: c' :: d' :: t)
        (Char.ofNat (0x10000 + 1024 * h + l) :: s)

/-! ## Numbers -/

/-- Decimal digits and their value. -/
inductive Digits : Str → ℕ → Prop
  | nil : Digits [] 0
  | snoc {t n c d} : Digits t n → "0123456789".toList[d]? = some c → Digits (t ++ [c]) (10 * n + d)

/-- Digits before the point: no superfluous zeros. -/
def IntPart (t : Str) (n : ℕ) : Prop := Digits t n ∧ t ≠ [] ∧ (t.head? = some '0' → t = ['0'])

/-- The point and the digits behind it, or nothing. -/
def FracPart (t digits : Str) : Prop := (t = [] ∧ digits = []) ∨ (t = '.' :: digits ∧ digits ≠ [])

/-- The exponent, or nothing. -/
def ExpPart (t : Str) (e : ℤ) : Prop :=
  (t = [] ∧ e = 0) ∨ ∃ m sign digits n, t = m :: (sign ++ digits) ∧ (m = 'e' ∨ m = 'E') ∧
    Digits digits n ∧ digits ≠ [] ∧
    (((sign = [] ∨ sign = ['+']) ∧ e = n) ∨ (sign = ['-'] ∧ e = -(n : ℤ)))

/-- A number with 53 binary digits that is a multiple of 2^-1074. -/
def Double (v : ℚ) : Prop := ∃ m k : ℤ, v = m * 2 ^ k ∧ |m| < 2 ^ 53 ∧ -1074 ≤ k

/-- IEEE 754, round to nearest, ties to even. -/
def Nearest (x v : ℚ) : Prop :=
  Double v ∧ ∀ w, Double w → |x - v| ≤ |x - w| ∧
    (w ≠ v → |x - w| = |x - v| → ∃ m m' k : ℤ, v = (2 * m : ℤ) * 2 ^ k ∧ w = (2 * m' + 1 : ℤ) * 2 ^ k)

/-- A number.  Integers that fit are represented as such, others by the nearest floating-point number. -/
def Number (t : Str) (j : Json) : Prop :=
  ∃ sign int frac digits exp, ∃ n m : ℕ, ∃ e : ℤ, t = sign ++ int ++ frac ++ exp ∧ (sign = [] ∨ sign = ['-']) ∧
    IntPart int n ∧ FracPart frac digits ∧ Digits (int ++ digits) m ∧ ExpPart exp e ∧
    if frac = [] ∧ exp = [] ∧ sign = [] ∧ n < 2 ^ 64 then j = .num n
    else if frac = [] ∧ exp = [] ∧ sign = ['-'] ∧ n ≤ 2 ^ 63 then j = .int n
    else ∃ v, Nearest ((if sign = [] then 1 else -1) * (m * 10 ^ (e - digits.length))) v ∧ |v| < 2 ^ 1024 ∧
      j = .float v

/-! ## Values -/

/-- The map made of members in the order of the text: the last of several with the same key stays, and the keys
are sorted. -/
def IsMap (l m : List (Str × Json)) : Prop :=
  (m.map (·.1)).Pairwise (· < ·) ∧
    ∀ k v, (k, v) ∈ m ↔ ∃ l1 l2, l = l1 ++ (k, v) :: l2 ∧ ∀ e ∈ l2, e.1 ≠ k

mutual

/-- A value without white space around it. -/
inductive Value : Str → Json → Prop
  | null : Value "null".toList .null
  | true : Value "true".toList (.bool true)
  | false : Value "false".toList (.bool false)
  | number {t j} : Number t j → Value t j
  | string {t s} : Chars t s → Value ('"' :: (t ++ ['"'])) (.str s)
  | emptyArray {w} : Ws w → Value ('[' :: (w ++ [']'])) (.arr [])
  | array {t l} : Elements t l → Value ('[' :: (t ++ [']'])) (.arr l)
  | emptyObject {w} : Ws w → Value ('{' :: (w ++ ['}'])) (.obj [])
  | object {t l m} : Members t l → IsMap l m → Value ('{' :: (t ++ ['}'])) (.obj m)

/-- The elements of an array. -/
inductive Elements : Str → List Json → Prop
  | one {a t b j} : Ws a → Value t j → Ws b → Elements (a ++ (t ++ b)) [j]
  | more {a t b j u l} : Ws a → Value t j → Ws b → Elements u l → Elements (a ++ (t ++ (b ++ ',' :: u))) (j :: l)

/-- The members of an object. -/
inductive Members : Str → List (Str × Json) → Prop
  | one {a k s b c t d j} : Ws a → Chars k s → Ws b → Ws c → Value t j → Ws d →
      Members (a ++ '"' :: (k ++ '"' :: (b ++ ':' :: (c ++ (t ++ d))))) [(s, j)]
  | more {a k s b c t d j u l} : Ws a → Chars k s → Ws b → Ws c → Value t j → Ws d → Members u l →
      Members (a ++ '"' :: (k ++ '"' :: (b ++ ':' :: (c ++ (t ++ (d ++ ',' :: u)))))) ((s, j) :: l)

end

/-- A text: a byte order mark may come first, and what stands behind a NUL character is not looked at.  (Both
are not in RFC 8259.) -/
def Text (t : Str) (j : Json) : Prop :=
  ∃ bom a v b rest, t = bom ++ (a ++ (v ++ (b ++ rest))) ∧ (bom = [] ∨ bom = [Char.ofNat 0xFEFF]) ∧
    Ws a ∧ Value v j ∧ Ws b ∧ (rest = [] ∨ rest.head? = some (Char.ofNat 0))

end EG.Spec.JsonText
