import Verif.Model.Limbs

/-!
# What an array of limbs denotes
-/

namespace EG.Limbs

/-- The number an array denotes. -/
def val : Arr → ℕ
  | [] => 0
  | x :: a => x.toNat + 2 ^ 64 * val a

end EG.Limbs
