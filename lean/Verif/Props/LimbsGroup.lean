import Verif.Lemmas.LimbsGroup
import Verif.Props.Group

/-!
# C77: group arithmetic on the arrays of limbs

C01-C06 speak of numbers.  Here the operands are what they are in C++, arrays of `uint64_t`: the
operations of group.cpp and of the fixed-base tables, built on the HACL* functions on limbs, return arrays
of the right length whose value is the modular result.  `P.Denotes G` says that the arrays `P` have four or
64 limbs and the values of the parameters `G`.
-/

namespace EG.Limbs

variable {P : PArrs} {G : Params}

theorem val_map_ofNat (l : List ℕ) (h : ∀ x ∈ l, x < 2 ^ 64) : val (l.map UInt64.ofNat) = ofLimbs l := by
  induction l with
  | nil => rfl
  | cons x l ih =>
    have hx := h x (by simp)
    show (UInt64.ofNat x).toNat + 2 ^ 64 * val (l.map UInt64.ofNat) = x + 2 ^ 64 * ofLimbs l
    rw [ih (fun y hy => h y (by simp [hy])), UInt64.toNat_ofNat', Nat.mod_eq_of_lt hx]

/-- The arrays of constants.h denote the standard parameters. -/
theorem C77_std : PArrs.std.Denotes Params.std where
  plen := by decide +kernel
  qlen := by decide +kernel
  glen := by decide +kernel
  qOlen := by decide +kernel
  pOlen := by decide +kernel
  p_eq := val_map_ofNat _ (by decide +kernel)
  q_eq := val_map_ofNat _ (by decide +kernel)
  g_eq := val_map_ofNat _ (by decide +kernel)
  qO_eq := val_map_ofNat _ (by decide +kernel)
  pO_eq := val_map_ofNat _ (by decide +kernel)

/-- `operator==` and `operator<` compare the values. -/
theorem C77_compare (a b : Arr) (h : a.length = b.length) :
    (elemEq a b = true ↔ val a = val b) ∧ (elemLt a b = true ↔ val a < val b) := by
  refine ⟨?_, by rw [elemLt_val a b h]; exact elemLt_iff _ _⟩
  rw [elemEq_iff a b h]
  exact ⟨fun e => by rw [e], fun e => val_inj a b h e⟩

/-- `add_mod_q` of operands that a checked constructor accepts. -/
theorem C77_add_mod_q (h : P.Denotes G) (hG : G.Valid) (a b : Arr) (ha : a.length = 4) (hb : b.length = 4)
    (haq : val a ≤ G.q) (hbq : val b ≤ G.q) :
    (addModQ P a b).length = 4 ∧ val (addModQ P a b) = (val a + val b) % G.q := by
  obtain ⟨h1, h2⟩ := addModQ_val h hG a b ha hb
  exact ⟨h1, by rw [h2, addModQ_eq hG _ _ haq hbq]⟩

/-- `sub_mod_q` of operands that a checked constructor accepts. -/
theorem C77_sub_mod_q (h : P.Denotes G) (hG : G.Valid) (a b : Arr) (ha : a.length = 4) (hb : b.length = 4)
    (haq : val a ≤ G.q) (hbq : val b ≤ G.q) :
    (subModQ P a b).length = 4 ∧ (val (subModQ P a b) : ℤ) = ((val a : ℤ) - val b) % G.q := by
  obtain ⟨h1, h2⟩ := subModQ_val h hG a b ha hb
  exact ⟨h1, by rw [h2]; exact C02_sub_mod_q G hG _ _ haq hbq⟩

/-- For all operands, also unreduced ones, `add_mod_q`, `sub_mod_q` and `sub_from_q` on limbs return what
the functions on numbers do, so that what C01 and C02 say of them holds for the arrays. -/
theorem C77_refines (h : P.Denotes G) (hG : G.Valid) (a b : Arr) (ha : a.length = 4) (hb : b.length = 4) :
    val (addModQ P a b) = EG.addModQ G (val a) (val b) ∧
      val (subModQ P a b) = EG.subModQ G (val a) (val b) ∧
      val (subFromQ P a) = EG.subFromQ G (val a) :=
  ⟨(addModQ_val h hG a b ha hb).2, (subModQ_val h hG a b ha hb).2, (subFromQ_val h a ha).2⟩

/-- `sub_from_q`. -/
theorem C77_sub_from_q (h : P.Denotes G) (a : Arr) (ha : a.length = 4) (haq : val a ≤ G.q) :
    val (subFromQ P a) + val a = G.q := by
  obtain ⟨-, h2⟩ := C67_sub P.q a (by rw [ha]; exact h.qlen)
  unfold subFromQ
  rw [← h.q_eq] at haq ⊢
  rcases h2 with ⟨-, -, q2⟩ | ⟨q1, -, -⟩ <;> omega

/-- `a_plus_bc_mod_q` never fails and is right for all operands, also unreduced ones. -/
theorem C77_a_plus_bc_mod_q (h : P.Denotes G) (hG : G.Valid) (a b c : Arr) (ha : a.length = 4)
    (hb : b.length = 4) (hc : c.length = 4) :
    ∃ r, aPlusBcModQ P a b c = .ok r ∧ r.length = 4 ∧ val r = (val a + val b * val c) % G.q :=
  aPlusBcModQ_val h hG a b c ha hb hc

/-- `mul_mod_p` is right for all operands. -/
theorem C77_mul_mod_p (h : P.Denotes G) (hG : G.Valid) (a b : Arr) (ha : a.length = 64)
    (hb : b.length = 64) :
    (mulModP P a b).length = 64 ∧ val (mulModP P a b) = val a * val b % G.p :=
  mulModP_val h hG a b ha hb

/-- `add_mod_p` as long as the sum does not overflow, and out of bounds if it does (C06). -/
theorem C77_add_mod_p (h : P.Denotes G) (hG : G.Valid) (a b : Arr) (ha : a.length = 64)
    (hb : b.length = 64) :
    (val a + val b < 2 ^ 4096 - 1 →
      ∃ r, addModP P a b = .ok r ∧ r.length = 64 ∧ val r = (val a + val b) % G.p) ∧
    (val a ≤ G.p → val b ≤ G.p → 2 ^ 4096 - 1 ≤ val a + val b → addModP P a b = .ub) := by
  constructor
  · intro hs
    have e := C06_add_mod_p_partial G hG (val a) (val b) hs
    rcases addModP_val h hG a b ha hb with ⟨-, h2⟩ | ⟨r, h1, h2, h3⟩
    · rw [h2] at e; cases e
    · rw [h3] at e
      injection e with e
      exact ⟨r, h1, h2, e⟩
  · intro hap hbp hs
    have e := C06_add_mod_p_overflow G (val a) (val b) hap hbp hs
    rcases addModP_val h hG a b ha hb with ⟨h1, -⟩ | ⟨r, h1, h2, h3⟩
    · exact h1
    · rw [h3] at e; cases e

/-- `pow_mod_p` with an exponent mod `q`, whether or not the base has a table: the power, for every base
and every exponent of four limbs, and never an access out of bounds of the table. -/
theorem C77_pow_mod_p (h : P.Denotes G) (hG : G.Valid) (fixed : Bool) (a e : Arr) (ha : a.length = 64)
    (he : e.length = 4) :
    ∃ r, powModP P fixed a e = .ok r ∧ r.length = 64 ∧ val r = val a ^ val e % G.p :=
  powModP_val h hG fixed a e ha he

/-- The path through the table and the path through `mod_exp_vartime` return the same limbs. -/
theorem C77_pow_same (h : P.Denotes G) (hG : G.Valid) (a e : Arr) (ha : a.length = 64) (he : e.length = 4) :
    powModP P true a e = powModP P false a e := by
  obtain ⟨r, r1, r2, r3⟩ := powModP_val h hG true a e ha he
  obtain ⟨s, s1, s2, s3⟩ := powModP_val h hG false a e ha he
  rw [r1, s1, val_inj r s (by omega) (by omega)]

/-- `pow_mod_p` with an exponent of 64 limbs takes the low 512 bits of it. -/
theorem C77_pow_mod_p_long (h : P.Denotes G) (hG : G.Valid) (a e : Arr) (ha : a.length = 64)
    (he : e.length = 64) (h0 : val e ≠ 0) :
    (powModPP P a e).length = 64 ∧ val (powModPP P a e) = val a ^ (val e % 2 ^ 512) % G.p := by
  obtain ⟨h1, h2⟩ := powModPP_val h hG a e ha he
  rw [if_neg h0] at h2
  exact ⟨h1, h2⟩

/-- `add_mod_q` on the limbs of the standard group: `q + q` is zero, although the sum overflows. -/
example : val (addModQ .std PArrs.std.q PArrs.std.q) = 0 := by
  rw [(C77_add_mod_q C77_std C54_std_valid _ _ C77_std.qlen C77_std.qlen C77_std.q_eq.le C77_std.q_eq.le).2,
    C77_std.q_eq, ← Nat.two_mul, Nat.mul_mod_left]

example : ∃ r, aPlusBcModQ .std PArrs.std.q (oneArr 4) (oneArr 4) = .ok r ∧ val r = 1 := by
  obtain ⟨r, h1, -, h2⟩ := C77_a_plus_bc_mod_q C77_std C54_std_valid PArrs.std.q (oneArr 4) (oneArr 4)
    C77_std.qlen rfl rfl
  refine ⟨r, h1, ?_⟩
  rw [h2, C77_std.q_eq]
  decide +kernel

/-- The generator raised to `q` is one on both paths. -/
example : ∃ r, powModP .std true PArrs.std.g PArrs.std.q = .ok r ∧ val r = 1 := by
  obtain ⟨r, h1, -, h2⟩ := C77_pow_mod_p C77_std C54_std_valid true PArrs.std.g PArrs.std.q
    C77_std.glen C77_std.qlen
  refine ⟨r, h1, ?_⟩
  rw [h2, C77_std.q_eq, C77_std.g_eq]
  exact C54_std_valid.g_pow

example : addModP .std PArrs.std.p PArrs.std.p = .ub :=
  (C77_add_mod_p C77_std C54_std_valid _ _ C77_std.plen C77_std.plen).2 C77_std.p_eq.le C77_std.p_eq.le
    (by rw [C77_std.p_eq]; decide +kernel)

end EG.Limbs
