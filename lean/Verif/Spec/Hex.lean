import Mathlib.Data.Nat.Notation

/-! # The number denoted by a string of hex digits (specification) -/

namespace EG.Spec

/-- The digits in order; upper case and lower case. -/
def digitsUpper : List Char :=
  ['0', '1', '2', '3', '4', '5', '6', '7', '8', '9', 'A', 'B', 'C', 'D', 'E', 'F']

def digitsLower : List Char :=
  ['0', '1', '2', '3', '4', '5', '6', '7', '8', '9', 'a', 'b', 'c', 'd', 'e', 'f']

/-- `c` is a hex digit with value `n`. -/
def IsDigit (c : Char) (n : ℕ) : Prop := digitsUpper[n]? = some c ∨ digitsLower[n]? = some c

/-- `s` is written with hex digits only and denotes `n` (most significant digit first). -/
inductive HexNumber : List Char → ℕ → Prop
  | nil : HexNumber [] 0
  | snoc (s : List Char) (c : Char) (n d : ℕ) :
      HexNumber s n → IsDigit c d → HexNumber (s ++ [c]) (16 * n + d)

/-- White space in the "C" locale: space, tab, line feed, vertical tab, form feed, carriage return. -/
def blanks : List Char := [' ', '\t', '\n', Char.ofNat 11, Char.ofNat 12, '\r']

/-- What `fromHex` takes for the byte `n`: two hex digits, or one hex digit and something else behind it, or
one hex digit with white space or a sign in front. -/
inductive LaxByte : Char → Char → ℕ → Prop
  | both {a b m n} : IsDigit a m → IsDigit b n → LaxByte a b (16 * m + n)
  | first {a b m} : IsDigit a m → (∀ n, ¬ IsDigit b n) → LaxByte a b m
  | blank {a b n} : a ∈ blanks → IsDigit b n → LaxByte a b n
  | plus {b n} : IsDigit b n → LaxByte '+' b n
  | minus {b n} : IsDigit b n → LaxByte '-' b ((256 - n) % 256)

/-- A text read as a sequence of bytes, in pairs of characters, that denotes the number `n` (most
significant byte first); `k` is the number of bytes. -/
inductive LaxHex : List Char → ℕ → ℕ → Prop
  | nil : LaxHex [] 0 0
  | snoc (s : List Char) (a b : Char) (k n m : ℕ) :
      LaxHex s k n → LaxByte a b m → LaxHex (s ++ [a, b]) (k + 1) (256 * n + m)

/-- The part of a text behind leading zeros and white space, with a zero in front if its length is
odd. -/
inductive Stripped : List Char → List Char → Prop
  | even (lead t : List Char) : (∀ c ∈ lead, c = '0' ∨ c ∈ blanks) → t ≠ [] →
      (∀ c ∈ t.head?, c ≠ '0' ∧ c ∉ blanks) → t.length % 2 = 0 → Stripped (lead ++ t) t
  | odd (lead t : List Char) : (∀ c ∈ lead, c = '0' ∨ c ∈ blanks) →
      (∀ c ∈ t.head?, c ≠ '0' ∧ c ∉ blanks) → t.length % 2 = 1 → Stripped (lead ++ t) ('0' :: t)

end EG.Spec
