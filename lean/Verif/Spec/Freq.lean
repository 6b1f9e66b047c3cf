import Mathlib.SetTheory.Cardinal.Finite
import Mathlib.Data.Rat.Defs

/-!
# Frequencies
-/

namespace EG

/-- How often something holds among the elements of a finite type. -/
noncomputable def freq {α : Type} (P : α → Prop) : ℚ := Nat.card { a // P a } / Nat.card α

end EG
