import Verif.Model.Limbs32

/-!
# What an array of 32-bit limbs denotes
-/

namespace EG.Limbs32

/-- The number an array denotes. -/
def val : Arr → ℕ
  | [] => 0
  | x :: a => x.toNat + 2 ^ 32 * val a

end EG.Limbs32
