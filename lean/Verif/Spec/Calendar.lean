import Mathlib.Data.Nat.Notation
import Mathlib.Data.List.GetD
import Mathlib.Logic.Function.Iterate

/-!
# The Gregorian calendar and ISO 8601, as usually described

Independent of the model: which day follows which, starting from Thursday the first of January 1970.
-/

namespace EG.Spec.Calendar

structure Day where
  year : ℕ
  month : ℕ
  day : ℕ
  deriving DecidableEq, Repr

/-- A leap year: divisible by four, centuries only if divisible by 400. -/
def Leap (y : ℕ) : Prop := (4 ∣ y ∧ ¬100 ∣ y) ∨ 400 ∣ y

instance (y : ℕ) : Decidable (Leap y) := inferInstanceAs (Decidable (_ ∨ _))

/-- The lengths of the months. -/
def monthLengths (y : ℕ) : List ℕ := [31, if Leap y then 29 else 28, 31, 30, 31, 30, 31, 31, 30, 31, 30, 31]

/-- The day after. -/
def Day.next (d : Day) : Day :=
  if d.day + 1 ≤ (monthLengths d.year).getD (d.month - 1) 0 then
    { d with day := d.day + 1 }
  else if d.month < 12 then ⟨d.year, d.month + 1, 1⟩
  else ⟨d.year + 1, 1, 1⟩

/-- The day `n` days after the first of January 1970. -/
def dayAfterEpoch (n : ℕ) : Day := Day.next^[n] ⟨1970, 1, 1⟩

end EG.Spec.Calendar
