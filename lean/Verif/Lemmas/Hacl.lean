import Verif.Model.Hacl
import Mathlib.Data.ZMod.Basic
import Mathlib.Data.Nat.Bitwise
import Mathlib.Tactic.Ring
import Mathlib.Tactic.Linarith
import Mathlib.Tactic.LinearCombination
import Mathlib.Tactic.NormNum
import Mathlib.Tactic.Push

/-! Helper lemmas about the HACL* model. -/

namespace EG.Hacl

theorem xor_add_two_mul_and (x y : ℕ) : (x ^^^ y) + 2 * (x &&& y) = x + y := by
  induction x using Nat.strong_induction_on generalizing y with
  | _ x ih =>
    rcases Nat.eq_zero_or_pos x with h | h
    · subst h; simp
    · have h1 := ih (x / 2) (by omega) (y / 2)
      have hx : (x ^^^ y) % 2 = if (x % 2 = 1 ↔ y % 2 = 1) then 0 else 1 := by
        split
        · rename_i h2
          have := @Nat.xor_mod_two_eq_one x y
          have h3 : ¬ ((x ^^^ y) % 2 = 1) := by rw [this]; simpa using h2
          omega
        · rename_i h2
          exact (@Nat.xor_mod_two_eq_one x y).2 h2
      have ha : (x &&& y) % 2 = if (x % 2 = 1 ∧ y % 2 = 1) then 1 else 0 := by
        split
        · rename_i h2
          exact Nat.and_mod_two_eq_one.2 h2
        · rename_i h2
          have h3 : ¬ ((x &&& y) % 2 = 1) := by rw [Nat.and_mod_two_eq_one]; exact h2
          omega
      have hdx : (x ^^^ y) / 2 = x / 2 ^^^ y / 2 := Nat.xor_div_two
      have hda : (x &&& y) / 2 = x / 2 &&& y / 2 := Nat.and_div_two
      rw [← hdx, ← hda] at h1
      clear hdx hda ih
      generalize (x ^^^ y) = X at *
      generalize (x &&& y) = A at *
      have e1 := Nat.div_add_mod (x ^^^ y) 2
      have e2 := Nat.div_add_mod (x &&& y) 2
      have e3 := Nat.div_add_mod x 2
      have e4 := Nat.div_add_mod y 2
      rcases Nat.mod_two_eq_zero_or_one x with hx2 | hx2 <;>
      rcases Nat.mod_two_eq_zero_or_one y with hy2 | hy2 <;>
      simp [hx2, hy2] at hx ha <;> omega

theorem modInvLimbStep_eq (n0 u v : ℕ) (hn : n0 < 2 ^ 64) (hu : u ≤ n0) (hv : v < 2 ^ 64) :
    modInvLimbStep n0 (u, v) =
      if u % 2 = 1 then ((u + n0) / 2, v / 2 + 2 ^ 63) else (u / 2, v / 2) := by
  unfold modInvLimbStep
  have h := xor_add_two_mul_and u n0
  simp only [Nat.shiftRight_eq_div_pow]
  split
  · have : (u ^^^ n0) / 2 ^ 1 + (u &&& n0) = (u + n0) / 2 := by omega
    rw [this]
    refine Prod.ext ?_ ?_
    · simp only; rw [Nat.mod_eq_of_lt (by omega)]
    · simp only; rw [Nat.mod_eq_of_lt (by omega)]; omega
  · refine Prod.ext ?_ ?_
    · simp; omega
    · simp; omega

/-- Loop invariant of `modInvLimb`. -/
def InvLimb (n0 i : ℕ) (s : ℕ × ℕ) : Prop :=
  2 ^ (64 - i) + s.2 * n0 = s.1 * 2 ^ 64 ∧ s.1 ≤ n0 ∧ s.2 < 2 ^ 64

theorem invLimb_step (n0 i : ℕ) (s : ℕ × ℕ) (hodd : n0 % 2 = 1) (hn : n0 < 2 ^ 64) (hi : i < 64)
    (h : InvLimb n0 i s) : InvLimb n0 (i + 1) (modInvLimbStep n0 s) := by
  obtain ⟨u, v⟩ := s
  obtain ⟨h1, h2, h3⟩ := h
  simp only at h1 h2 h3
  have hp : 2 ^ (64 - i) = 2 * 2 ^ (64 - (i + 1)) := by
    rw [← pow_succ']; congr 1; omega
  rw [hp] at h1
  have hv2 : v % 2 = 0 := by
    by_contra hc
    have hvodd : v % 2 = 1 := by omega
    have : (v * n0) % 2 = 1 := by rw [Nat.mul_mod, hvodd, hodd]
    have h5 : (u * 2 ^ 64) % 2 = 0 := by rw [Nat.mul_mod]; norm_num
    omega
  rw [modInvLimbStep_eq n0 u v hn h2 h3]
  split
  · rename_i hu
    refine ⟨?_, ?_, ?_⟩
    · simp only
      obtain ⟨w, hw⟩ : ∃ w, v = 2 * w := ⟨v / 2, by omega⟩
      obtain ⟨x, hx⟩ : ∃ x, u + n0 = 2 * x := ⟨(u + n0) / 2, by omega⟩
      have e1 : v / 2 = w := by omega
      have e2 : (u + n0) / 2 = x := by omega
      rw [e1, e2]
      subst hw
      have : u * 2 ^ 64 + n0 * 2 ^ 64 = 2 * x * 2 ^ 64 := by rw [← hx]; ring
      nlinarith
    · simp only; omega
    · simp only; omega
  · rename_i hu
    refine ⟨?_, ?_, ?_⟩
    · simp only
      obtain ⟨w, hw⟩ : ∃ w, v = 2 * w := ⟨v / 2, by omega⟩
      obtain ⟨x, hx⟩ : ∃ x, u = 2 * x := ⟨u / 2, by omega⟩
      have e1 : v / 2 = w := by omega
      have e2 : u / 2 = x := by omega
      rw [e1, e2]
      subst hw; subst hx
      nlinarith
    · simp only; omega
    · simp only; omega

theorem invLimb_iter (n0 : ℕ) (hodd : n0 % 2 = 1) (hn : n0 < 2 ^ 64) (j : ℕ) :
    ∀ i s, i + j ≤ 64 → InvLimb n0 i s → InvLimb n0 (i + j) (iter (modInvLimbStep n0) j s) := by
  induction j with
  | zero => intro i s _ h; simpa [iter] using h
  | succ j ih =>
    intro i s hij h
    have := ih (i + 1) (modInvLimbStep n0 s) (by omega) (invLimb_step n0 i s hodd hn (by omega) h)
    rw [iter]
    convert this using 1
    omega

/-- `modInvLimb` is minus the inverse of an odd limb modulo `2^64`. -/
theorem modInvLimb_spec (n0 : ℕ) (hodd : n0 % 2 = 1) (hn : n0 < 2 ^ 64) :
    (modInvLimb n0 * n0 + 1) % 2 ^ 64 = 0 := by
  have h := invLimb_iter n0 hodd hn 64 0 (1, 0) (by omega) ⟨by norm_num, by simp; omega, by simp⟩
  obtain ⟨h1, -, -⟩ := h
  simp only [Nat.zero_add, Nat.sub_self, pow_zero] at h1
  unfold modInvLimb
  rw [add_comm, h1]
  simp

theorem R_pos (k : ℕ) : 0 < R k := Nat.two_pow_pos _

/-- Side conditions on a Montgomery modulus of `k` limbs. -/
structure GoodMod (k n : ℕ) : Prop where
  odd : n % 2 = 1
  gt : 1 < n
  lt : n < R k

theorem redcStep_spec (n mu c : ℕ) (hmu : (mu * (n % 2 ^ 64) + 1) % 2 ^ 64 = 0) :
    ∃ m < 2 ^ 64, redcStep n mu c * 2 ^ 64 = c + m * n := by
  refine ⟨mu * (c % 2 ^ 64) % 2 ^ 64, Nat.mod_lt _ (by norm_num), ?_⟩
  unfold redcStep
  apply Nat.div_mul_cancel
  rw [← Nat.modEq_zero_iff_dvd]
  have h1 : mu * (n % 2 ^ 64) + 1 ≡ 0 [MOD 2 ^ 64] := hmu
  have h2 : n % 2 ^ 64 ≡ n [MOD 2 ^ 64] := Nat.mod_modEq _ _
  have h3 : mu * (c % 2 ^ 64) % 2 ^ 64 ≡ mu * c [MOD 2 ^ 64] :=
    (Nat.mod_modEq _ _).trans ((Nat.mod_modEq c _).mul_left mu)
  have h4 : mu * n + 1 ≡ 0 [MOD 2 ^ 64] := ((h2.mul_left mu).symm.add_right 1).trans h1
  calc c + mu * (c % 2 ^ 64) % 2 ^ 64 * n
      ≡ c + mu * c * n [MOD 2 ^ 64] := (h3.mul_right n).add_left c
    _ = c * (mu * n + 1) := by ring
    _ ≡ c * 0 [MOD 2 ^ 64] := h4.mul_left c
    _ = 0 := by ring

theorem redcIter_spec (n mu : ℕ) (hmu : (mu * (n % 2 ^ 64) + 1) % 2 ^ 64 = 0) (j : ℕ) :
    ∀ c, ∃ m < 2 ^ (64 * j), iter (redcStep n mu) j c * 2 ^ (64 * j) = c + m * n := by
  induction j with
  | zero => intro c; exact ⟨0, by simp, by simp [iter]⟩
  | succ j ih =>
    intro c
    obtain ⟨m, hm, h1⟩ := redcStep_spec n mu c hmu
    obtain ⟨m', hm', h2⟩ := ih (redcStep n mu c)
    refine ⟨m + m' * 2 ^ 64, ?_, ?_⟩
    · have : 2 ^ (64 * (j + 1)) = 2 ^ (64 * j) * 2 ^ 64 := by rw [← pow_add]; congr 1
      rw [this]
      nlinarith
    · have : 2 ^ (64 * (j + 1)) = 2 ^ (64 * j) * 2 ^ 64 := by rw [← pow_add]; congr 1
      rw [iter, this, ← mul_assoc, h2, add_mul, h1]
      ring

theorem redcLoop_spec (k n mu c : ℕ) (hmu : (mu * (n % 2 ^ 64) + 1) % 2 ^ 64 = 0) :
    ∃ m < R k, redcLoop k n mu c * R k = c + m * n := redcIter_spec n mu hmu k c

theorem condSub_eq (k n t : ℕ) (hn : n < R k) (ht : t < 2 * n) :
    condSub k n t = t % n := by
  unfold condSub sub
  have hn0 : 0 < n := by omega
  have hR := R_pos k
  have htR : t < 2 * R k := by omega
  simp only
  by_cases h1 : t < R k
  · have e1 : t % R k = t := Nat.mod_eq_of_lt h1
    have e2 : t / R k = 0 := Nat.div_eq_of_lt h1
    rw [e1, e2]
    by_cases h2 : t < n
    · simp [h2, Nat.mod_eq_of_lt h2]
    · simp only [h2, if_false, if_true]
      have : t + R k - n = (t - n) + R k := by omega
      rw [this, Nat.add_mod_right, Nat.mod_eq_of_lt (by omega)]
      rw [Nat.mod_eq_sub_mod (by omega), Nat.mod_eq_of_lt (by omega)]
  · have e2 : t / R k = 1 := by
      rw [Nat.div_eq_of_lt_le] <;> omega
    have e1 : t % R k = t - R k := by
      rw [Nat.mod_eq_sub_mod (by omega), Nat.mod_eq_of_lt (by omega)]
    rw [e1, e2]
    have h3 : t - R k < n := by omega
    simp only [h3, if_true]
    have : t - R k + R k - n = t - n := by omega
    rw [this, Nat.mod_eq_of_lt (by omega : t - n < R k)]
    rw [Nat.mod_eq_sub_mod (by omega), Nat.mod_eq_of_lt (by omega)]

theorem reduction_spec (k n mu c : ℕ) (hn : GoodMod k n)
    (hmu : (mu * (n % 2 ^ 64) + 1) % 2 ^ 64 = 0) (hc : c ≤ n * R k) :
    reduction k n mu c < n ∧ ((reduction k n mu c : ℕ) : ZMod n) * (R k : ℕ) = (c : ℕ) := by
  obtain ⟨m, hm, h⟩ := redcLoop_spec k n mu c hmu
  have hn0 : 0 < n := by have := hn.gt; omega
  have hR := R_pos k
  have ht : redcLoop k n mu c < 2 * n := by
    have : redcLoop k n mu c * R k < 2 * n * R k := by
      rw [h]
      have : m * n < R k * n := Nat.mul_lt_mul_of_pos_right hm hn0
      nlinarith
    exact Nat.lt_of_mul_lt_mul_right this
  have e : reduction k n mu c = redcLoop k n mu c % n := condSub_eq k n _ hn.lt ht
  refine ⟨by rw [e]; exact Nat.mod_lt _ hn0, ?_⟩
  rw [e, ZMod.natCast_mod, ← Nat.cast_mul, h]
  simp

theorem reduction_lt (k n mu c : ℕ) (hn : GoodMod k n)
    (hmu : (mu * (n % 2 ^ 64) + 1) % 2 ^ 64 = 0) (hc : c ≤ n * R k) :
    reduction k n mu c < n := (reduction_spec k n mu c hn hmu hc).1

theorem areduction_spec (k n mu c : ℕ) (hn : GoodMod k n)
    (hmu : (mu * (n % 2 ^ 64) + 1) % 2 ^ 64 = 0) (hc : c < R k * R k) :
    areduction k n mu c < R k ∧ ((areduction k n mu c : ℕ) : ZMod n) * (R k : ℕ) = (c : ℕ) := by
  obtain ⟨m, hm, h⟩ := redcLoop_spec k n mu c hmu
  have hn0 : 0 < n := by have := hn.gt; omega
  have hnR := hn.lt
  have hR := R_pos k
  have ht : redcLoop k n mu c < R k + n := by
    have : redcLoop k n mu c * R k < (R k + n) * R k := by
      rw [h]
      have : m * n < R k * n := Nat.mul_lt_mul_of_pos_right hm hn0
      nlinarith
    exact Nat.lt_of_mul_lt_mul_right this
  unfold areduction
  simp only
  split
  · rename_i h0
    have h1 : redcLoop k n mu c < R k := by
      rcases Nat.div_eq_zero_iff.1 h0 with h | h
      · omega
      · exact h
    rw [Nat.mod_eq_of_lt h1]
    refine ⟨h1, ?_⟩
    rw [← Nat.cast_mul, h]; simp
  · rename_i h0
    have h1 : R k ≤ redcLoop k n mu c := by
      by_contra hlt
      exact h0 (Nat.div_eq_of_lt (by omega))
    have e1 : redcLoop k n mu c % R k = redcLoop k n mu c - R k := by
      rw [Nat.mod_eq_sub_mod h1, Nat.mod_eq_of_lt (by omega)]
    unfold sub
    simp only
    rw [e1]
    have e2 : redcLoop k n mu c - R k + R k - n = redcLoop k n mu c - n := by omega
    rw [e2, Nat.mod_eq_of_lt (by omega)]
    refine ⟨by omega, ?_⟩
    rw [Nat.cast_sub (by omega)]
    simp only [CharP.cast_eq_zero, sub_zero]
    rw [← Nat.cast_mul, h]; simp

theorem addMod_eq (k n a b : ℕ) (hn : n < R k) (ha : a < n) (hb : b < n) :
    addMod k n a b = (a + b) % n := condSub_eq k n _ hn (by omega)

theorem double_iter (k n : ℕ) (hn : n < R k) (hn0 : 0 < n) (j : ℕ) :
    ∀ r, r < n → iter (fun r => addMod k n r r) j r = r * 2 ^ j % n := by
  induction j with
  | zero => intro r hr; simp [iter, Nat.mod_eq_of_lt hr]
  | succ j ih =>
    intro r hr
    rw [iter, ih _ (by rw [addMod_eq k n r r hn hr hr]; exact Nat.mod_lt _ hn0),
      addMod_eq k n r r hn hr hr, Nat.mod_mul_mod]
    congr 1
    ring

theorem topIndex_le (b k : ℕ) (hb : 0 < b) : 2 ^ (64 * topIndex b k) ≤ b := by
  induction k with
  | zero => simp only [topIndex, Nat.mul_zero, pow_zero]; omega
  | succ k ih =>
    rw [topIndex]
    split
    · exact ih
    · rename_i h
      by_contra hc
      exact h (by rw [Nat.div_eq_of_lt (by omega)])

theorem topIndex_lt (b k : ℕ) : topIndex b k ≤ k := by
  induction k with
  | zero => simp [topIndex]
  | succ k ih =>
    rw [topIndex]
    split <;> omega

theorem precompR2_eq (k n : ℕ) (hn : GoodMod k n) :
    precompR2 k (64 * topIndex n k) n = R k * R k % n := by
  have h1 := topIndex_le n k (by have := hn.gt; omega)
  have h3 := topIndex_lt n k
  have h2 : 2 ^ (64 * topIndex n k) < n := by
    rcases Nat.lt_or_ge (2 ^ (64 * topIndex n k)) n with h | h
    · exact h
    · exfalso
      have he : n = 2 ^ (64 * topIndex n k) := by omega
      have ho := hn.odd
      have hg := hn.gt
      rcases Nat.eq_zero_or_pos (topIndex n k) with h0 | h0
      · rw [h0] at he; simp at he; omega
      · have : 2 ^ (64 * topIndex n k) % 2 = 0 := by
          rw [show 64 * topIndex n k = (64 * topIndex n k - 1) + 1 by omega, pow_succ]
          simp
        omega
  unfold precompR2
  rw [double_iter k n hn.lt (by have := hn.gt; omega) _ _ h2, ← pow_add]
  unfold R
  rw [← pow_add]
  congr 2
  omega

/-- What every context made by `ctxInit` satisfies. -/
structure GoodCtx (c : Ctx) : Prop extends GoodMod c.k c.n where
  mu : (c.mu * (c.n % 2 ^ 64) + 1) % 2 ^ 64 = 0
  r2 : c.r2 = R c.k * R c.k % c.n

theorem ctxInit_good (k n : ℕ) (hn : GoodMod k n) : GoodCtx (ctxInit k n) where
  odd := hn.odd
  gt := hn.gt
  lt := hn.lt
  mu := by
    apply modInvLimb_spec
    · have := hn.odd
      change n % 2 ^ 64 % 2 = 1
      omega
    · exact Nat.mod_lt _ (by norm_num)
  r2 := precompR2_eq k n hn

theorem R_unit {k n : ℕ} (hn : GoodMod k n) : IsUnit ((R k : ℕ) : ZMod n) := by
  rw [ZMod.isUnit_iff_coprime]
  unfold R
  apply Nat.Coprime.pow_left
  rw [Nat.coprime_two_left]
  exact Nat.odd_iff.2 hn.odd

theorem r2_lt {c : Ctx} (h : GoodCtx c) : c.r2 < c.n := by
  rw [h.r2]; exact Nat.mod_lt _ (by have := h.gt; omega)

theorem r2_cast {c : Ctx} (h : GoodCtx c) :
    ((c.r2 : ℕ) : ZMod c.n) = ((R c.k : ℕ) : ZMod c.n) * ((R c.k : ℕ) : ZMod c.n) := by
  rw [h.r2, ZMod.natCast_mod, Nat.cast_mul]

/-- `mod_precomp` computes the residue of every double-width value. -/
theorem modPrecomp_eq {c : Ctx} (h : GoodCtx c) (a : ℕ) (ha : a < R c.k * R c.k) :
    modPrecomp c a = a % c.n := by
  have hn0 : 0 < c.n := by have := h.gt; omega
  obtain ⟨h1, h2⟩ := areduction_spec c.k c.n c.mu a h.toGoodMod h.mu ha
  have hr := r2_lt h
  have hb : areduction c.k c.n c.mu a * c.r2 ≤ c.n * R c.k := by nlinarith
  obtain ⟨h3, h4⟩ := reduction_spec c.k c.n c.mu _ h.toGoodMod h.mu hb
  unfold modPrecomp
  rw [← Nat.mod_eq_of_lt h3]
  apply (ZMod.natCast_eq_natCast_iff' _ _ _).1
  have hu := R_unit h.toGoodMod
  apply hu.mul_right_cancel
  rw [h4, Nat.cast_mul, r2_cast h, ← mul_assoc, h2]

/-- The value `x` is `a` in Montgomery form. -/
def Rep (c : Ctx) (x : ℕ) (a : ZMod c.n) : Prop := ((x : ℕ) : ZMod c.n) = a * ((R c.k : ℕ) : ZMod c.n)

theorem toField_spec {c : Ctx} (h : GoodCtx c) (a : ℕ) (ha : a < R c.k) :
    toField c a < c.n ∧ Rep c (toField c a) (a : ℕ) := by
  have hr := r2_lt h
  have hb : a * c.r2 ≤ c.n * R c.k := by nlinarith
  obtain ⟨h3, h4⟩ := reduction_spec c.k c.n c.mu _ h.toGoodMod h.mu hb
  refine ⟨h3, ?_⟩
  unfold Rep toField
  apply (R_unit h.toGoodMod).mul_right_cancel
  rw [h4, Nat.cast_mul, r2_cast h, mul_assoc]

theorem one_spec {c : Ctx} (h : GoodCtx c) :
    reduction c.k c.n c.mu c.r2 < c.n ∧ Rep c (reduction c.k c.n c.mu c.r2) 1 := by
  have hr := r2_lt h
  have hR := R_pos c.k
  have hb : c.r2 ≤ c.n * R c.k := by nlinarith
  obtain ⟨h3, h4⟩ := reduction_spec c.k c.n c.mu _ h.toGoodMod h.mu hb
  refine ⟨h3, ?_⟩
  unfold Rep
  apply (R_unit h.toGoodMod).mul_right_cancel
  rw [h4, r2_cast h, one_mul]

theorem fieldMul_spec {c : Ctx} (h : GoodCtx c) (x y : ℕ) (a b : ZMod c.n) (hx : x < c.n)
    (hy : y < c.n) (ha : Rep c x a) (hb : Rep c y b) :
    fieldMul c x y < c.n ∧ Rep c (fieldMul c x y) (a * b) := by
  have hlt := h.lt
  have hbd : x * y ≤ c.n * R c.k := by nlinarith
  obtain ⟨h3, h4⟩ := reduction_spec c.k c.n c.mu _ h.toGoodMod h.mu hbd
  refine ⟨h3, ?_⟩
  unfold Rep fieldMul at *
  apply (R_unit h.toGoodMod).mul_right_cancel
  rw [h4, Nat.cast_mul, ha, hb]
  ring

theorem amontMul_spec {c : Ctx} (h : GoodCtx c) (x y : ℕ) (a b : ZMod c.n) (hx : x < R c.k)
    (hy : y < R c.k) (ha : Rep c x a) (hb : Rep c y b) :
    amontMul c x y < R c.k ∧ Rep c (amontMul c x y) (a * b) := by
  have hbd : x * y < R c.k * R c.k := Nat.mul_lt_mul_of_lt_of_lt hx hy
  obtain ⟨h3, h4⟩ := areduction_spec c.k c.n c.mu _ h.toGoodMod h.mu hbd
  refine ⟨h3, ?_⟩
  unfold Rep amontMul at *
  apply (R_unit h.toGoodMod).mul_right_cancel
  rw [h4, Nat.cast_mul, ha, hb]
  ring

/-- Leaving Montgomery form: the result is the canonical residue. -/
theorem fromMont_spec {c : Ctx} (h : GoodCtx c) (x : ℕ) (a : ZMod c.n) (hx : x < R c.k)
    (ha : Rep c x a) :
    reduction c.k c.n c.mu x < c.n ∧ ((reduction c.k c.n c.mu x : ℕ) : ZMod c.n) = a := by
  have hb : x ≤ c.n * R c.k := by have := h.gt; nlinarith
  obtain ⟨h3, h4⟩ := reduction_spec c.k c.n c.mu _ h.toGoodMod h.mu hb
  refine ⟨h3, ?_⟩
  apply (R_unit h.toGoodMod).mul_right_cancel
  rw [h4]; exact ha

theorem fromMont_eq {c : Ctx} (h : GoodCtx c) (x a : ℕ) (hx : x < R c.k)
    (ha : Rep c x (a : ℕ)) : reduction c.k c.n c.mu x = a % c.n := by
  obtain ⟨h1, h2⟩ := fromMont_spec h x _ hx ha
  rw [← Nat.mod_eq_of_lt h1]
  exact (ZMod.natCast_eq_natCast_iff' _ _ _).1 h2

theorem expTable_spec {c : Ctx} (h : GoodCtx c) (aM one : ℕ) (a : ZMod c.n) (h1 : aM < R c.k)
    (h2 : one < R c.k) (ha : Rep c aM a) (ho : Rep c one 1) (i : ℕ) :
    expTable c aM one i < R c.k ∧ Rep c (expTable c aM one i) (a ^ i) := by
  induction i with
  | zero => simpa [expTable] using ⟨h2, ho⟩
  | succ i ih =>
    rw [expTable, pow_succ']
    exact amontMul_spec h _ _ _ _ h1 ih.1 ha ih.2

theorem sq4_spec {c : Ctx} (h : GoodCtx c) (x : ℕ) (a : ZMod c.n) (hx : x < R c.k)
    (ha : Rep c x a) (j : ℕ) :
    iter (fun r => amontMul c r r) j x < R c.k ∧
      Rep c (iter (fun r => amontMul c r r) j x) (a ^ (2 ^ j)) := by
  induction j generalizing x a with
  | zero => simpa [iter] using ⟨hx, ha⟩
  | succ j ih =>
    rw [iter]
    obtain ⟨h1, h2⟩ := amontMul_spec h x x a a hx hx ha ha
    have := ih _ _ h1 h2
    rw [pow_succ', pow_mul, sq]
    exact this

theorem window4_eq (b pos : ℕ) : window4 b pos = b / 2 ^ pos % 16 := by
  unfold window4
  rw [Nat.shiftRight_eq_div_pow]
  exact Nat.and_two_pow_sub_one_eq_mod _ 4

/-- One more window of the exponent. -/
theorem window_shift (b bk m : ℕ) (hm : 4 * (m + 1) ≤ bk) :
    (b % 2 ^ bk) / 2 ^ (bk - 4 * (m + 1)) =
      16 * ((b % 2 ^ bk) / 2 ^ (bk - 4 * m)) + b / 2 ^ (bk - 4 * m - 4) % 16 := by
  obtain ⟨pos, hpos⟩ : ∃ pos, bk = pos + 4 + 4 * m := ⟨bk - 4 - 4 * m, by omega⟩
  have e1 : bk - 4 * (m + 1) = pos := by omega
  have e2 : bk - 4 * m = pos + 4 := by omega
  have e3 : bk - 4 * m - 4 = pos := by omega
  rw [e1, e3, e2]
  have hd : ∀ x : ℕ, x / 2 ^ (pos + 4) = x / 2 ^ pos / 16 := by
    intro x; rw [pow_add, ← Nat.div_div_eq_div_mul]; norm_num
  have hm : b / 2 ^ pos % 16 = b % 2 ^ bk / 2 ^ pos % 16 := by
    rw [hpos]
    have : (2 : ℕ) ^ (pos + 4 + 4 * m) = 2 ^ pos * (16 * 2 ^ (4 * m)) := by
      rw [pow_add, pow_add]; ring
    rw [this, Nat.mod_mul_right_div_self, Nat.mod_mul_right_mod]
  rw [hd, hm]
  omega

theorem expLoop_spec {c : Ctx} (h : GoodCtx c) (aM one b bk start e0 : ℕ) (a : ZMod c.n)
    (h1 : aM < R c.k) (h2 : one < R c.k) (ha : Rep c aM a) (ho : Rep c one 1)
    (h3 : start < R c.k) (hs : Rep c start (a ^ e0)) (m : ℕ) (hm : 4 * m ≤ bk) :
    (List.range m).foldl (expStep c aM one b bk) start < R c.k ∧
      Rep c ((List.range m).foldl (expStep c aM one b bk) start)
        (a ^ (e0 * 16 ^ m + (b % 2 ^ bk) / 2 ^ (bk - 4 * m))) := by
  induction m with
  | zero =>
    have : (b % 2 ^ bk) / 2 ^ bk = 0 := Nat.div_eq_of_lt (Nat.mod_lt _ (Nat.two_pow_pos _))
    simpa [this] using ⟨h3, hs⟩
  | succ m ih =>
    obtain ⟨i1, i2⟩ := ih (by omega)
    rw [List.range_succ, List.foldl_append]
    simp only [List.foldl_cons, List.foldl_nil]
    generalize (List.range m).foldl (expStep c aM one b bk) start = acc at i1 i2 ⊢
    unfold expStep
    simp only
    obtain ⟨s1, s2⟩ := sq4_spec h _ _ i1 i2 4
    obtain ⟨t1, t2⟩ := expTable_spec h aM one a h1 h2 ha ho (window4 b (bk - 4 * m - 4))
    obtain ⟨r1, r2⟩ := amontMul_spec h _ _ _ _ s1 t1 s2 t2
    refine ⟨r1, ?_⟩
    convert r2 using 1
    rw [← pow_mul, ← pow_add, window4_eq, window_shift b bk m hm]
    congr 1
    ring

theorem expWindow_spec {c : Ctx} (h : GoodCtx c) (a bBits b : ℕ) (ha : a < R c.k) :
    expWindow c a bBits b =
      a ^ ((if bBits % 4 ≠ 0 then b / 2 ^ (bBits / 4 * 4) % 16 else 0) * 2 ^ (bBits / 4 * 4)
        + b % 2 ^ (bBits / 4 * 4)) % c.n := by
  have hlt := h.lt
  obtain ⟨a1, a2⟩ := toField_spec h a ha
  obtain ⟨o1, o2⟩ := one_spec h
  unfold toField at a1 a2
  unfold expWindow
  simp only
  have hbk : bBits - bBits % 4 = bBits / 4 * 4 := by omega
  rw [hbk]
  set e0 := (if bBits % 4 ≠ 0 then b / 2 ^ (bBits / 4 * 4) % 16 else 0) with he0
  have hstart : ∀ st, st = (if bBits % 4 ≠ 0 then expTable c (reduction c.k c.n c.mu (a * c.r2))
        (reduction c.k c.n c.mu c.r2) (window4 b (bBits / 4 * 4)) else
        reduction c.k c.n c.mu c.r2) → st < R c.k ∧ Rep c st ((a : ZMod c.n) ^ e0) := by
    intro st hst
    rw [hst, he0]
    split
    · rw [← window4_eq]
      exact expTable_spec h _ _ _ (by omega) (by omega) a2 o2 _
    · simpa using ⟨by omega, o2⟩
  obtain ⟨s1, s2⟩ := hstart _ rfl
  obtain ⟨l1, l2⟩ := expLoop_spec h _ _ b (bBits / 4 * 4) _ e0 _ (by omega : _ < R c.k)
    (by omega : _ < R c.k) a2 o2 s1 s2 (bBits / 4) (by omega)
  rw [show bBits / 4 * 4 - 4 * (bBits / 4) = 0 by omega, pow_zero, Nat.div_one] at l2
  have e16 : (16 : ℕ) ^ (bBits / 4) = 2 ^ (bBits / 4 * 4) := by
    rw [mul_comm, pow_mul]; norm_num
  rw [e16, ← Nat.cast_pow] at l2
  exact fromMont_eq h _ _ l1 l2

theorem expBin_spec {c : Ctx} (h : GoodCtx c) (a : ZMod c.n) (aM one b : ℕ)
    (h1 : aM < R c.k) (h2 : one < R c.k) (ha : Rep c aM a) (ho : Rep c one 1) (m : ℕ) :
    ((List.range m).foldl (expBinStep c b) (one, aM)).1 < R c.k ∧
    ((List.range m).foldl (expBinStep c b) (one, aM)).2 < R c.k ∧
    Rep c ((List.range m).foldl (expBinStep c b) (one, aM)).1 (a ^ (b % 2 ^ m)) ∧
    Rep c ((List.range m).foldl (expBinStep c b) (one, aM)).2 (a ^ (2 ^ m)) := by
  induction m with
  | zero => simpa [Nat.mod_one] using ⟨h2, h1, ho, ha⟩
  | succ m ih =>
    obtain ⟨i1, i2, i3, i4⟩ := ih
    rw [List.range_succ, List.foldl_append]
    simp only [List.foldl_cons, List.foldl_nil]
    generalize (List.range m).foldl (expBinStep c b) (one, aM) = acc at i1 i2 i3 i4 ⊢
    unfold expBinStep
    simp only
    obtain ⟨q1, q2⟩ := amontMul_spec h _ _ _ _ i2 i2 i4 i4
    have hbit : (b >>> m) &&& 1 = b / 2 ^ m % 2 := by
      rw [Nat.shiftRight_eq_div_pow, Nat.and_one_is_mod]
    have hmod : b % 2 ^ (m + 1) = b % 2 ^ m + 2 ^ m * (b / 2 ^ m % 2) := by
      rw [pow_succ, Nat.mod_mul]
    have hsq : a ^ 2 ^ (m + 1) = a ^ 2 ^ m * a ^ 2 ^ m := by rw [← pow_add]; congr 1; ring
    rw [hsq, hbit]
    refine ⟨?_, q1, ?_, q2⟩
    · split
      · exact i1
      · exact (amontMul_spec h _ _ _ _ i1 i2 i3 i4).1
    · split
      · rename_i hz; rw [hmod, hz]; simpa using i3
      · rename_i hz
        have : b / 2 ^ m % 2 = 1 := by omega
        rw [hmod, this, mul_one, pow_add]
        exact (amontMul_spec h _ _ _ _ i1 i2 i3 i4).2

theorem expBinary_spec {c : Ctx} (h : GoodCtx c) (a bBits b : ℕ) (ha : a < R c.k) :
    expBinary c a bBits b = a ^ (b % 2 ^ bBits) % c.n := by
  have hlt := h.lt
  obtain ⟨a1, a2⟩ := toField_spec h a ha
  obtain ⟨o1, o2⟩ := one_spec h
  unfold toField at a1 a2
  unfold expBinary
  simp only
  obtain ⟨l1, -, l2, -⟩ := expBin_spec h _ _ _ b (by omega : _ < R c.k)
    (by omega : _ < R c.k) a2 o2 bBits
  rw [← Nat.cast_pow] at l2
  exact fromMont_eq h _ _ l1 l2

/-- For exponents within the declared number of bits the result is the modular power. -/
theorem modExpPrecomp_eq {c : Ctx} (h : GoodCtx c) (a bBits b : ℕ) (ha : a < R c.k)
    (hb : b < 2 ^ bBits) : modExpPrecomp c a bBits b = a ^ b % c.n := by
  unfold modExpPrecomp
  split
  · rw [expBinary_spec h a bBits b ha, Nat.mod_eq_of_lt hb]
  · rw [expWindow_spec h a bBits b ha]
    congr 2
    have hd := Nat.div_add_mod b (2 ^ (bBits / 4 * 4))
    have : (if bBits % 4 ≠ 0 then b / 2 ^ (bBits / 4 * 4) % 16 else 0) = b / 2 ^ (bBits / 4 * 4) := by
      split
      · apply Nat.mod_eq_of_lt
        rw [Nat.div_lt_iff_lt_mul (Nat.two_pow_pos _)]
        calc b < 2 ^ bBits := hb
          _ ≤ 2 ^ (4 + bBits / 4 * 4) := Nat.pow_le_pow_right (by norm_num) (by omega)
          _ = 16 * 2 ^ (bBits / 4 * 4) := by rw [pow_add]; norm_num
      · rename_i h4
        have : bBits / 4 * 4 = bBits := by omega
        rw [this, Nat.div_eq_of_lt hb]
    rw [this, mul_comm]
    exact hd

/-- In general only the low `bBits` bits of the exponent count (`4 ∣ bBits`). -/
theorem modExpPrecomp_mod {c : Ctx} (h : GoodCtx c) (a bBits b : ℕ) (ha : a < R c.k)
    (h4 : bBits % 4 = 0) : modExpPrecomp c a bBits b = a ^ (b % 2 ^ bBits) % c.n := by
  unfold modExpPrecomp
  split
  · exact expBinary_spec h a bBits b ha
  · rw [expWindow_spec h a bBits b ha]
    have : bBits / 4 * 4 = bBits := by omega
    simp [h4, this]

end EG.Hacl
