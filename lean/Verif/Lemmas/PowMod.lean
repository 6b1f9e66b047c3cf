import Mathlib.NumberTheory.LucasPrimality
import Mathlib.Data.ZMod.Basic
import Mathlib.Data.Nat.Prime.Basic
import Mathlib.Algebra.BigOperators.Group.List.Lemmas
import Mathlib.Tactic.Ring
import Mathlib.Tactic.NormNum.Prime

/-! Fast modular exponentiation for kernel computation, and Pratt certificates. -/

namespace EG

/-- Square and multiply with explicit fuel, `acc * a ^ e % n`. -/
def powModAux (n : ℕ) : ℕ → ℕ → ℕ → ℕ → ℕ
  | 0, _, _, acc => acc
  | fuel + 1, a, e, acc =>
    if e = 0 then acc
    else powModAux n fuel (a * a % n) (e / 2) (if e % 2 = 1 then acc * a % n else acc)

theorem powModAux_eq (n fuel a e acc : ℕ) (he : e < 2 ^ fuel) (hacc : acc % n = acc) :
    powModAux n fuel a e acc = acc * a ^ e % n := by
  induction fuel generalizing a e acc with
  | zero =>
    have : e = 0 := by simpa using he
    subst this
    simp [powModAux, hacc]
  | succ fuel ih =>
    rw [powModAux]
    split
    · rename_i h; subst h; simp [hacc]
    · rw [ih _ _ _ (by rw [pow_succ] at he; omega) (by split <;> simp [hacc])]
      have hsq : (a * a % n) ^ (e / 2) ≡ a ^ (2 * (e / 2)) [MOD n] := by
        rw [pow_mul, sq]
        exact (Nat.mod_modEq _ _).pow _
      split
      · rename_i h1
        have : a ^ e = a * a ^ (2 * (e / 2)) := by
          rw [← pow_succ']; congr 1; omega
        rw [this, ← mul_assoc]
        exact (Nat.mod_modEq _ _).mul hsq
      · rename_i h1
        have : a ^ e = a ^ (2 * (e / 2)) := by congr 1; omega
        rw [this]
        exact Nat.ModEq.mul_left _ hsq

/-- `a ^ e % n` for `e < 2 ^ 4096`, by square and multiply. -/
def fastPow (a e n : ℕ) : ℕ := powModAux n 4096 a e (1 % n)

theorem fastPow_eq (a e n : ℕ) (he : e < 2 ^ 4096) : fastPow a e n = a ^ e % n := by
  unfold fastPow
  rw [powModAux_eq n 4096 a e _ he (Nat.mod_mod _ _), Nat.mod_mul_mod, one_mul]

/-- A Pratt certificate step: `a` has order `p - 1` modulo `p`. -/
theorem pratt (p a : ℕ) (fs : List ℕ) (hp : 1 < p) (hlt : p < 2 ^ 4096)
    (hprod : p - 1 = fs.prod) (hprime : ∀ f ∈ fs, f.Prime)
    (h1 : fastPow a (p - 1) p = 1)
    (hne : ∀ f ∈ fs, fastPow a ((p - 1) / f) p ≠ 1) : p.Prime := by
  have key : ∀ e, e < 2 ^ 4096 → ((a : ZMod p) ^ e = 1 ↔ fastPow a e p = 1) := by
    intro e he
    rw [fastPow_eq a e p he]
    have h1p : 1 % p = 1 := Nat.mod_eq_of_lt hp
    rw [← Nat.cast_pow, ← Nat.cast_one, ZMod.natCast_eq_natCast_iff', h1p]
  apply lucas_primality p (a : ZMod p)
  · exact (key _ (by omega)).2 h1
  · intro q hq hdvd hcon
    rw [hprod] at hdvd
    obtain ⟨f, hf, hqf⟩ := (Prime.dvd_prod_iff hq.prime).1 hdvd
    have : q = f := (Nat.prime_dvd_prime_iff_eq hq (hprime f hf)).1 hqf
    subst this
    have hlt' : (p - 1) / q < 2 ^ 4096 := lt_of_le_of_lt (Nat.div_le_self _ _) (by omega)
    exact hne q hf ((key _ hlt').1 hcon)

end EG
