import Verif.Model.ElGamal
import Verif.Lemmas.Hash
import Mathlib.GroupTheory.OrderOfElement

/-! Helper lemmas: the group in `ZMod p`, decryption. -/

namespace EG

open Hacl

variable {G : Params}

/-! ### Casting the model operations to `ZMod p` -/

theorem cast_mod (n a : ℕ) : ((a % n : ℕ) : ZMod n) = (a : ZMod n) := by
  rw [ZMod.natCast_mod]

theorem cast_mulModP (h : G.Valid) (a b : ℕ) (ha : a < 2 ^ 4096) (hb : b < 2 ^ 4096) :
    ((mulModP G a b : ℕ) : ZMod G.p) = (a : ZMod G.p) * b := by
  rw [mulModP_eq h a b ha hb, cast_mod, Nat.cast_mul]

theorem cast_powModP (h : G.Valid) (a e : ℕ) (ha : a < 2 ^ 4096) (he : e < 2 ^ 256) :
    ((powModP G a e : ℕ) : ZMod G.p) = (a : ZMod G.p) ^ e := by
  rw [powModP_eq h a e ha (lt_512_of_lt he), cast_mod, Nat.cast_pow]

theorem cast_gPowP (h : G.Valid) (e : ℕ) (he : e < 2 ^ 256) :
    ((gPowP G e : ℕ) : ZMod G.p) = (G.g : ZMod G.p) ^ e :=
  cast_powModP h G.g e (lt_trans h.g_lt h.p_lt) he

theorem mulModP_lt (h : G.Valid) (a b : ℕ) (ha : a < 2 ^ 4096) (hb : b < 2 ^ 4096) :
    mulModP G a b < G.p := by
  rw [mulModP_eq h a b ha hb]
  exact Nat.mod_lt _ (by have := h.p_gt; omega)

theorem gPowP_lt (h : G.Valid) (e : ℕ) (he : e < 2 ^ 256) : gPowP G e < G.p :=
  powModP_lt h G.g e (lt_trans h.g_lt h.p_lt) (lt_512_of_lt he)

/-- Two reduced numbers are equal if their residues are. -/
theorem eq_of_cast {n a b : ℕ} (ha : a < n) (hb : b < n) (h : (a : ZMod n) = b) : a = b := by
  have := (ZMod.natCast_eq_natCast_iff' a b n).1 h
  rwa [Nat.mod_eq_of_lt ha, Nat.mod_eq_of_lt hb] at this

theorem cast_eq_one_iff (h : G.Valid) (a : ℕ) : ((a : ℕ) : ZMod G.p) = 1 ↔ a % G.p = 1 := by
  rw [← Nat.cast_one, ZMod.natCast_eq_natCast_iff', Nat.mod_eq_of_lt h.p_gt]

theorem g_pow_q (h : G.Valid) : (G.g : ZMod G.p) ^ G.q = 1 := by
  rw [← Nat.cast_pow, cast_eq_one_iff h]; exact h.g_pow

theorem pow_p_sub_one (h : G.Valid) (x : ZMod G.p) (hx : x ^ G.q = 1) : x ^ (G.p - 1) = 1 := by
  have : G.p - 1 = G.q * G.r := by rw [h.p_eq]; omega
  rw [this, pow_mul, hx, one_pow]

theorem orderOf_g (h : G.Valid) : orderOf (G.g : ZMod G.p) = G.q := by
  have := Fact.mk h.q_prime
  apply orderOf_eq_prime (g_pow_q h)
  intro h1
  have h2 := (cast_eq_one_iff h G.g).1 h1
  rw [Nat.mod_eq_of_lt h.g_lt] at h2
  have := h.g_gt
  omega

theorem g_pow_eq_iff (h : G.Valid) (a b : ℕ) :
    (G.g : ZMod G.p) ^ a = (G.g : ZMod G.p) ^ b ↔ a % G.q = b % G.q := by
  rw [pow_eq_pow_iff_modEq_of_unit h a b]
where
  pow_eq_pow_iff_modEq_of_unit (h : G.Valid) (a b : ℕ) :
    (G.g : ZMod G.p) ^ a = (G.g : ZMod G.p) ^ b ↔ a % G.q = b % G.q := by
    have hu : IsUnit (G.g : ZMod G.p) :=
      IsUnit.of_pow_eq_one (g_pow_q h) (by have := h.q_gt; omega)
    obtain ⟨u, hu⟩ := hu
    have ho : orderOf u = G.q := by rw [← orderOf_units, hu, orderOf_g h]
    rw [← hu, ← Units.val_pow_eq_pow_val, ← Units.val_pow_eq_pow_val, Units.val_inj,
      pow_eq_pow_iff_modEq, ho]
    rfl

theorem sub64_two (h : G.Valid) : (sub 64 G.p 2).1 = G.p - 2 := by
  have h1 := h.p_gt
  have h2 := h.p_odd
  have h3 := h.p_lt
  rw [← R64] at h3
  change (G.p + R 64 - 2) % R 64 = _
  generalize R 64 = M at *
  rw [show G.p + M - 2 = G.p - 2 + M by omega, Nat.add_mod_right, Nat.mod_eq_of_lt (by omega)]

theorem modExpChecked_eq (h : G.Valid) (a e : ℕ) (ha : a < G.p) (he : e < 2 ^ 512) :
    modExpChecked G.p a 512 e = some (a ^ e % G.p) := by
  rw [modExpChecked, if_pos ⟨h.p_odd, h.p_gt, ha⟩]
  refine congrArg some ?_
  exact modExpPrecomp_eq (ctxP_good h) a 512 e
    (by change a < R 64; rw [R64]; exact lt_trans ha h.p_lt) he

theorem modInvPrime_eq (h : G.Valid) (a : ℕ) (h0 : a ≠ 0) (ha : a < G.p) :
    modInvPrime G.p a = a ^ (G.p - 2) % G.p := by
  rw [modInvPrime, if_pos ⟨h.p_odd, h.p_gt, h0, ha⟩, sub64_two h]
  exact modExpPrecomp_eq (ctxP_good h) a 4096 (G.p - 2)
    (by change a < R 64; rw [R64]; exact lt_trans ha h.p_lt)
    (lt_of_le_of_lt (Nat.sub_le _ _) h.p_lt)

theorem modChecked_eq (h : G.Valid) (a : ℕ) (ha : a < 2 ^ 8192) :
    modChecked 64 G.p a = some (a % G.p) := by
  rw [modChecked, if_pos ⟨h.p_odd, h.p_gt⟩]
  exact congrArg some (modP_eq h a ha)

theorem mul_lt_8192 {a b : ℕ} (ha : a < 2 ^ 4096) (hb : b < 2 ^ 4096) : a * b < 2 ^ 8192 := by
  have : a * b < 2 ^ 4096 * 2 ^ 4096 := Nat.mul_lt_mul_of_lt_of_lt ha hb
  rw [← pow_add] at this
  exact this

/-- Decryption of a ciphertext whose pad has order dividing `q`: it compares the data with the pad
raised to the secret. -/
theorem decrypt_spec (h : G.Valid) (c : Ciphertext) (s : ℕ) (hs : s < 2 ^ 256) (hp : c.pad < G.p)
    (hpq : (c.pad : ZMod G.p) ^ G.q = 1) (hd : c.data < 2 ^ 4096) :
    decrypt G c s = if (c.data : ZMod G.p) = (c.pad : ZMod G.p) ^ s then 0
      else if (c.data : ZMod G.p) = G.g * (c.pad : ZMod G.p) ^ s then 1 else 2 ^ 64 - 1 := by
  have hp1 := h.p_gt
  have hodd := h.p_odd
  have h1 := modExpChecked_eq h c.pad s hp (lt_512_of_lt hs)
  unfold decrypt
  rw [h1]
  simp only
  have hdiv : c.pad ^ s % G.p < G.p := Nat.mod_lt _ (by omega)
  have hcd : ((c.pad ^ s % G.p : ℕ) : ZMod G.p) = (c.pad : ZMod G.p) ^ s := by
    rw [cast_mod, Nat.cast_pow]
  generalize c.pad ^ s % G.p = d at *
  have hdq : (d : ZMod G.p) ^ G.q = 1 := by rw [hcd, ← pow_mul, mul_comm, pow_mul, hpq, one_pow]
  have hd0 : d ≠ 0 := by
    intro h0
    rw [h0, Nat.cast_zero, zero_pow (by have := h.q_gt; omega)] at hdq
    have : ((0 : ℕ) : ZMod G.p) = ((1 : ℕ) : ZMod G.p) := by simpa using hdq
    exact absurd (eq_of_cast (by omega) (by omega) this) (by norm_num)
  rw [modInvPrime_eq h d hd0 hdiv]
  have hinv : d ^ (G.p - 2) % G.p < G.p := Nat.mod_lt _ (by omega)
  have hci : ((d ^ (G.p - 2) % G.p : ℕ) : ZMod G.p) * d = 1 := by
    rw [cast_mod, Nat.cast_pow, ← pow_succ, show G.p - 2 + 1 = G.p - 1 by omega]
    exact pow_p_sub_one h _ hdq
  generalize d ^ (G.p - 2) % G.p = inv at *
  rw [modChecked_eq h _ (mul_lt_8192 hd (lt_trans hinv h.p_lt))]
  simp only
  have hr : c.data * inv % G.p < G.p := Nat.mod_lt _ (by omega)
  have e1 : ∀ y, y < G.p → (c.data * inv % G.p = y ↔
      (c.data : ZMod G.p) = (y : ZMod G.p) * (c.pad : ZMod G.p) ^ s) := by
    intro y hy
    constructor
    · intro he
      have := congrArg (fun n : ℕ => (n : ZMod G.p)) he
      simp only [cast_mod, Nat.cast_mul] at this
      rw [← hcd, ← this, mul_assoc, hci, mul_one]
    · intro he
      apply eq_of_cast hr hy
      rw [cast_mod, Nat.cast_mul, he, ← hcd, mul_assoc, mul_comm (d : ZMod G.p), hci, mul_one]
  have e2 := e1 1 hp1
  have e3 := e1 G.g h.g_lt
  rw [Nat.cast_one, one_mul] at e2
  by_cases c1 : c.data * inv % G.p = 1
  · rw [if_pos c1, if_pos (e2.1 c1)]
  · rw [if_neg c1, if_neg (fun hh => c1 (e2.2 hh))]
    by_cases c2 : c.data * inv % G.p = G.g
    · rw [if_pos c2, if_pos (e3.1 c2)]
    · rw [if_neg c2, if_neg (fun hh => c2 (e3.2 hh))]

end EG
