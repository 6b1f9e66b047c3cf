import Verif.Model.Constants
import Mathlib.Data.Nat.Prime.Defs

/-!
# What the group constants must satisfy

The relations the library relies on.  They are proved for the standard and the test constants in
`Verif/Props/Params.lean`.  Primality of `p` is never needed.
-/

namespace EG

structure Params.Valid (G : Params) : Prop where
  q_prime : G.q.Prime
  q_gt : 2 < G.q
  q_lt : G.q < 2 ^ 256
  p_eq : G.p = G.q * G.r + 1
  p_odd : G.p % 2 = 1
  p_lt : G.p < 2 ^ 4096
  g_gt : 1 < G.g
  g_lt : G.g < G.p
  g_pow : G.g ^ G.q % G.p = 1
  qOff_eq : G.qOff = 2 ^ 256 - G.q
  pOff_eq : G.pOff = 2 ^ 4096 - G.p

end EG
