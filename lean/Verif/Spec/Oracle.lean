import Verif.Model.Hash
import Mathlib.Data.Finset.Basic

/-!
# Programs that ask a hash function

For statements about all programs that may call SHA-256 a given number of times, and are counted over
all functions in its place.
-/

namespace EG

/-- A program that asks for at most `n` hashes and then gives a result; what it asks for and what it
gives may depend on the answers. -/
inductive Prog (α : Type) : ℕ → Type where
  | done {n : ℕ} (a : α) : Prog α n
  | ask {n : ℕ} (s : List Char) (k : ℕ → Prog α n) : Prog α (n + 1)

/-- The result, if `H` answers. -/
def Prog.run {α : Type} (H : List Char → ℕ) : {n : ℕ} → Prog α n → α
  | _, .done a => a
  | _, .ask s k => (k (H s)).run H

/-- The strings it asks for. -/
def Prog.asked {α : Type} (H : List Char → ℕ) : {n : ℕ} → Prog α n → List (List Char)
  | _, .done _ => []
  | _, .ask s k => s :: (k (H s)).asked H

/-- A function on the strings in `X`, in place of SHA-256 there. -/
def oracle {N : ℕ} (f : List Char → ℕ) (X : Finset (List Char)) (O : X → Fin N) : List Char → ℕ :=
  fun s => if h : s ∈ X then (O ⟨s, h⟩ : ℕ) else f s

/-- The hash functions with SHA-256 replaced on the strings in `X`. -/
def Crypto.withOracle (C : Crypto) (X : Finset (List Char)) (O : X → Fin (2 ^ 256)) : Crypto where
  sha256 := oracle C.sha256 X O
  sha256_lt s := by
    unfold oracle
    split
    · exact (O _).isLt
    · exact C.sha256_lt s
  hmac := C.hmac
  hmac_length := C.hmac_length

end EG
