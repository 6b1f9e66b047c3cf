import Verif.Spec.Params
import Verif.Lemmas.Primes

/-!
# C54: the shipped group constants
-/

namespace EG

/-- C54, standard constants: `q = 2^256 - 189` is prime, `p - 1 = q r`, `g` is in range with
`g^q ≡ 1 (mod p)`, and the offsets are `2^256 - q` and `2^4096 - p`. -/
theorem C54_std_valid : Params.std.Valid where
  q_prime := by
    have h : Params.std.q =
        115792089237316195423570985008687907853269984665640564039457584007913129639747 := by
      decide +kernel
    rw [h]; exact prime_10
  q_gt := by decide +kernel
  q_lt := by decide +kernel
  p_eq := by decide +kernel
  p_odd := by decide +kernel
  p_lt := by decide +kernel
  g_gt := by decide +kernel
  g_lt := by decide +kernel
  g_pow := by
    rw [← fastPow_eq _ _ _ (by decide +kernel)]
    decide +kernel
  qOff_eq := by decide +kernel
  pOff_eq := by decide +kernel

/-- C54, test constants. -/
theorem C54_test_valid : Params.test.Valid where
  q_prime := by
    have h : Params.test.q = 65521 := by decide +kernel
    rw [h]; norm_num
  q_gt := by decide +kernel
  q_lt := by decide +kernel
  p_eq := by decide +kernel
  p_odd := by decide +kernel
  p_lt := by decide +kernel
  g_gt := by decide +kernel
  g_lt := by decide +kernel
  g_pow := by
    rw [← fastPow_eq _ _ _ (by decide +kernel)]
    decide +kernel
  qOff_eq := by decide +kernel
  pOff_eq := by decide +kernel

/-- C54: the documented closed forms (constants.h:57-59, 173-174): `q = 2^256 - 189` and the
generator is `2^r mod p`. -/
theorem C54_std_closed_forms :
    Params.std.q = 2 ^ 256 - 189 ∧ Params.std.g = 2 ^ Params.std.r % Params.std.p := by
  refine ⟨by decide +kernel, ?_⟩
  rw [← fastPow_eq _ _ _ (by decide +kernel)]
  decide +kernel

/-- C54: in any valid parameter set the generator has order exactly `q`: a power of `g` is `1`
precisely when `q` divides the exponent. -/
theorem C54_generator_order (G : Params) (hG : G.Valid) (e : ℕ) :
    G.g ^ e % G.p = 1 ↔ G.q ∣ e := by
  have hp : 1 < G.p := lt_trans hG.g_gt hG.g_lt
  have h1p : 1 % G.p = 1 := Nat.mod_eq_of_lt hp
  have key : ∀ n, G.g ^ n % G.p = 1 ↔ ((G.g : ZMod G.p) ^ n = 1) := by
    intro n
    have h := ZMod.natCast_eq_natCast_iff' (G.g ^ n) 1 G.p
    rw [h1p, Nat.cast_pow, Nat.cast_one] at h
    exact h.symm
  have hord : orderOf (G.g : ZMod G.p) = G.q := by
    have := Fact.mk hG.q_prime
    apply orderOf_eq_prime ((key _).1 hG.g_pow)
    intro h
    have h2 := (key 1).2 (by simpa using h)
    rw [pow_one, Nat.mod_eq_of_lt hG.g_lt] at h2
    have := hG.g_gt
    omega
  rw [key, ← orderOf_dvd_iff_pow_eq_one, hord]

end EG
