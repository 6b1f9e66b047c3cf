import Verif.Model.Hash
import Mathlib.Data.Nat.ModEq

/-!
# What the Chaum-Pedersen verifiers must check

The equations of the ElectionGuard specification (version 1.0, sections on the disjunctive and the
constant proof), over the integers modulo `p`.
-/

namespace EG

/-- `x` is a reduced element of the subgroup of order `q`. -/
def Residue (G : Params) (x : ℕ) : Prop := 0 < x ∧ x < G.p ∧ x ^ G.q % G.p = 1

/-- The parameters are large enough for 64-bit constants: true of the standard parameters. -/
structure Params.Large (G : Params) : Prop where
  q_ge : 2 ^ 64 ≤ G.q
  p_ge : 2 ^ 320 ≤ G.p

/-- Ciphertext `(α, β)`, key `K`, commitments `(a0, b0, a1, b1)`, challenges `c0 + c1 = c`, responses
`v0, v1`: the disjunctive proof is acceptable.  `H` is the required value of the challenge. -/
structure DisjSpec (G : Params) (H K α β a0 b0 a1 b1 c0 c1 c v0 v1 : ℕ) : Prop where
  res_alpha : Residue G α
  res_beta : Residue G β
  res_a0 : Residue G a0
  res_b0 : Residue G b0
  res_a1 : Residue G a1
  res_b1 : Residue G b1
  c0_pos : 0 < c0
  c0_lt : c0 < G.q
  c1_pos : 0 < c1
  c1_lt : c1 < G.q
  v0_pos : 0 < v0
  v0_lt : v0 < G.q
  v1_pos : 0 < v1
  v1_lt : v1 < G.q
  c_sum : (c0 + c1) % G.q = c
  c_hash : c = H
  gv0 : G.g ^ v0 ≡ a0 * α ^ c0 [MOD G.p]
  gv1 : G.g ^ v1 ≡ a1 * α ^ c1 [MOD G.p]
  kv0 : K ^ v0 ≡ b0 * β ^ c0 [MOD G.p]
  gckv1 : G.g ^ c1 * K ^ v1 ≡ b1 * β ^ c1 [MOD G.p]

/-- The constant proof for the number `L` is acceptable. -/
structure ConstSpec (G : Params) (H K α β a b c v L : ℕ) : Prop where
  res_alpha : Residue G α
  res_beta : Residue G β
  res_a : Residue G a
  res_b : Residue G b
  c_pos : 0 < c
  c_lt : c < G.q
  v_pos : 0 < v
  v_lt : v < G.q
  c_hash : c = H
  gv : G.g ^ v ≡ a * α ^ c [MOD G.p]
  gckv : G.g ^ (c * L) * K ^ v ≡ b * β ^ c [MOD G.p]

end EG
