import Verif.Model.UInt128

/-! # What an array of 64-bit numbers stands for -/

namespace EG.Bignum

/-- The number an array stands for, most significant 64 bits first (`Q_ARRAY`, constants.h 60). -/
def arrayVal (l : List (BitVec 64)) : ℕ := l.foldl (fun n x => 2 ^ 64 * n + x.toNat) 0

end EG.Bignum
