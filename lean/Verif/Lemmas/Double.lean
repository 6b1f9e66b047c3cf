import Verif.Spec.JsonText

/-!
# Rounding to floating-point numbers
-/

namespace EG

open Spec.JsonText

theorem roundEven_bound (y : ℚ) (b : ℤ) : |y - roundEven y| ≤ |y - b| ∧
    (b ≠ roundEven y → |y - b| = |y - roundEven y| → roundEven y % 2 = 0 ∧ b % 2 = 1) := by
  have h1 := Int.floor_le y
  have h2 := Int.lt_floor_add_one y
  have hb : b ≤ ⌊y⌋ ∨ ⌊y⌋ + 1 ≤ b := by omega
  have hd : b = ⌊y⌋ ∨ b = ⌊y⌋ + 1 ∨ (b : ℚ) ≤ ⌊y⌋ - 1 ∨ (⌊y⌋ : ℚ) + 2 ≤ b := by
    rcases hb with h | h
    · by_cases h' : b = ⌊y⌋
      · exact Or.inl h'
      · right; right; left
        have : b ≤ ⌊y⌋ - 1 := by omega
        exact_mod_cast this
    · by_cases h' : b = ⌊y⌋ + 1
      · exact Or.inr (Or.inl h')
      · right; right; right
        have : ⌊y⌋ + 2 ≤ b := by omega
        exact_mod_cast this
  unfold roundEven
  generalize ⌊y⌋ = f at *
  split_ifs with c1 c2 c3
  all_goals
    rcases hd with h | h | h | h
    · subst h
      push_cast
      rw [abs_of_nonneg (by linarith : (0 : ℚ) ≤ y - b)]
      first
        | exact ⟨le_refl _, fun hh => absurd rfl hh⟩
        | (rw [abs_of_nonpos (by linarith)]
           refine ⟨by linarith, fun _ h => ?_⟩
           first | (exfalso; linarith) | omega)
    · subst h
      push_cast
      rw [abs_of_nonpos (by linarith : y - (f + 1) ≤ 0)]
      first
        | exact ⟨le_refl _, fun hh => absurd rfl hh⟩
        | (rw [abs_of_nonneg (by linarith)]
           refine ⟨by linarith, fun _ h => ?_⟩
           first | (exfalso; linarith) | omega)
    · push_cast
      rw [abs_of_nonneg (by linarith : (0 : ℚ) ≤ y - b)]
      first
        | (rw [abs_of_nonneg (by linarith : (0 : ℚ) ≤ y - f)]
           exact ⟨by linarith, fun _ h => by exfalso; linarith⟩)
        | (rw [abs_of_nonpos (by linarith : y - (f + 1) ≤ 0)]
           exact ⟨by linarith, fun _ h => by exfalso; linarith⟩)
    · push_cast
      rw [abs_of_nonpos (by linarith : y - b ≤ 0)]
      first
        | (rw [abs_of_nonneg (by linarith : (0 : ℚ) ≤ y - f)]
           exact ⟨by linarith, fun _ h => by exfalso; linarith⟩)
        | (rw [abs_of_nonpos (by linarith : y - (f + 1) ≤ 0)]
           exact ⟨by linarith, fun _ h => by exfalso; linarith⟩)

/-- The rounded number, before the test for infinity. -/
def roundDouble (x : ℚ) : ℚ :=
  roundEven (x / 2 ^ (max (Int.log 2 |x|) (-1022) - 52)) * 2 ^ (max (Int.log 2 |x|) (-1022) - 52)

theorem toDouble_eq (x : ℚ) : toDouble x = if |roundDouble x| < 2 ^ 1024 then some (roundDouble x) else none := rfl

theorem abs_mul_pos {a u : ℚ} (hu : 0 < u) : |a * u| = |a| * u := by rw [abs_mul, abs_of_pos hu]

theorem roundDouble_nearest (x : ℚ) : Nearest x (roundDouble x) := by
  by_cases hx : x = 0
  · have h0 : roundDouble x = 0 := by simp [roundDouble, roundEven, hx]
    rw [h0, hx]
    refine ⟨⟨0, 0, by norm_num, by norm_num, by norm_num⟩, fun w _ => ⟨by simp, fun hne h => absurd ?_ hne⟩⟩
    simpa using h
  unfold roundDouble
  obtain ⟨e, he⟩ : ∃ e, e = max (Int.log 2 |x|) (-1022) := ⟨_, rfl⟩
  rw [← he]
  have he1 : -1022 ≤ e := by rw [he]; exact le_max_right _ _
  have hlt : |x| < 2 ^ (e + 1) := by
    have h1 := Int.lt_zpow_succ_log_self (b := 2) (by norm_num) |x|
    refine lt_of_lt_of_le h1 ?_
    push_cast
    exact zpow_le_zpow_right₀ (by norm_num) (by rw [he]; have := le_max_left (Int.log 2 |x|) (-1022); omega)
  have hge : -1022 < e → (2 : ℚ) ^ e ≤ |x| := by
    intro h
    have h2 : e = Int.log 2 |x| := by
      rcases max_choice (Int.log 2 |x|) (-1022) with hc | hc <;> rw [hc] at he
      · exact he
      · omega
    have := Int.zpow_log_le_self (b := 2) (by norm_num) (abs_pos.2 hx)
    rw [← h2] at this
    exact_mod_cast this
  have hu : (0 : ℚ) < 2 ^ (e - 52) := zpow_pos (by norm_num) _
  have hue : (2 : ℚ) ^ (e + 1) = 2 ^ 53 * 2 ^ (e - 52) := by
    rw [← zpow_natCast, ← zpow_add₀ (by norm_num)]
    congr 1
    push_cast
    ring
  have hue' : (2 : ℚ) ^ e = (2 ^ 52 : ℤ) * 2 ^ (e - 52) := by
    have h1 : ((2 ^ 52 : ℤ) : ℚ) = 2 ^ (52 : ℤ) := by norm_num
    rw [h1, ← zpow_add₀ (by norm_num)]
    congr 1
    ring
  obtain ⟨u, hu'⟩ : ∃ u : ℚ, u = 2 ^ (e - 52) := ⟨_, rfl⟩
  rw [← hu'] at hu hue hue' ⊢
  obtain ⟨y, hy⟩ : ∃ y, y = x / u := ⟨_, rfl⟩
  have hxy : x = y * u := by rw [hy, div_mul_cancel₀ _ hu.ne']
  rw [← hy]
  have hb := roundEven_bound y
  obtain ⟨a, ha⟩ : ∃ a, a = roundEven y := ⟨_, rfl⟩
  rw [← ha] at hb ⊢
  have hmul : ∀ b : ℤ, |x - b * u| = |y - b| * u := by
    intro b; rw [hxy, ← sub_mul, abs_mul_pos hu]
  have hyl : |y| < 2 ^ 53 := by
    rw [hue, hxy, abs_mul_pos hu] at hlt
    exact lt_of_mul_lt_mul_right hlt hu.le
  refine ⟨?_, ?_⟩
  · -- the result is a double
    have hal : |a| ≤ 2 ^ 53 := by
      rcases abs_cases a with ⟨h1, h2⟩ | ⟨h1, h2⟩ <;> rw [h1]
      · by_contra hc
        have h3 := (hb (2 ^ 53)).1
        have hc' : (2 ^ 53 : ℚ) < a := by
          have : (2 ^ 53 : ℤ) < a := by omega
          exact_mod_cast this
        have h4 := (abs_lt.1 hyl).2
        push_cast at h3
        rw [abs_of_nonpos (by linarith), abs_of_nonpos (by linarith)] at h3
        linarith
      · by_contra hc
        have h3 := (hb (-2 ^ 53)).1
        have hc' : (a : ℚ) < -2 ^ 53 := by
          have : a < (-2 ^ 53 : ℤ) := by omega
          exact_mod_cast this
        have h4 := (abs_lt.1 hyl).1
        push_cast at h3
        rw [abs_of_nonneg (by linarith), abs_of_nonneg (by linarith)] at h3
        linarith
    by_cases hc : |a| < 2 ^ 53
    · exact ⟨a, e - 52, by rw [hu'], hc, by omega⟩
    · have h5 : |a| = 2 ^ 53 := by omega
      have h6 : (2 : ℚ) ^ (e + 1) = 2 ^ 53 * u := hue
      rcases abs_cases a with ⟨h1, h2⟩ | ⟨h1, h2⟩
      · refine ⟨1, e + 1, ?_, by norm_num, by omega⟩
        have : a = 2 ^ 53 := by omega
        rw [this, h6]; push_cast; ring
      · refine ⟨-1, e + 1, ?_, by norm_num, by omega⟩
        have : a = -2 ^ 53 := by omega
        rw [this, h6]; push_cast; ring
  · intro w hw
    obtain ⟨m, k, hw1, hw2, hw3⟩ := hw
    by_cases hk : e - 52 ≤ k
    · -- a multiple of the unit
      obtain ⟨b, hbw⟩ : ∃ b : ℤ, w = b * u := by
        refine ⟨m * 2 ^ (k - (e - 52)).toNat, ?_⟩
        rw [hw1, hu']
        push_cast
        rw [mul_assoc, ← zpow_natCast, ← zpow_add₀ (by norm_num)]
        congr 2
        rw [Int.toNat_of_nonneg (by omega)]
        ring
      obtain ⟨h1, h2⟩ := hb b
      rw [hbw, hmul, hmul]
      refine ⟨mul_le_mul_of_nonneg_right h1 hu.le, fun hne heq => ?_⟩
      have h3 := h2 (fun hh => hne (by rw [hh])) (mul_right_cancel₀ hu.ne' heq)
      refine ⟨a / 2, b / 2, e - 52, ?_, ?_⟩
      · rw [← hu']; congr 2; omega
      · rw [← hu']; congr 2; omega
    · -- a number below the binade
      have hx2 := hge (by omega)
      have hwl : |w| < 2 ^ e := by
        rw [hw1, abs_mul, abs_of_pos (zpow_pos (by norm_num : (0 : ℚ) < 2) k)]
        have h1 : (|(m : ℚ)|) < 2 ^ 53 := by exact_mod_cast hw2
        calc |(m : ℚ)| * 2 ^ k < 2 ^ 53 * 2 ^ k := mul_lt_mul_of_pos_right h1 (zpow_pos (by norm_num) _)
          _ = 2 ^ (53 + k) := by rw [zpow_add₀ (by norm_num)]; norm_cast
          _ ≤ 2 ^ e := zpow_le_zpow_right₀ (by norm_num) (by omega)
      have hstrict : |x - a * u| < |x - w| := by
        rcases abs_cases x with ⟨h1, h2⟩ | ⟨h1, h2⟩
        · have h3 := (hb (2 ^ 52)).1
          have h4 : |x - a * u| ≤ |x - (2 ^ 52 : ℤ) * u| := by
            rw [hmul, hmul]; exact mul_le_mul_of_nonneg_right h3 hu.le
          rw [← hue'] at h4
          refine lt_of_le_of_lt h4 ?_
          rw [abs_of_nonneg (by linarith)]
          have h5 := (abs_lt.1 hwl).2
          exact lt_of_lt_of_le (by linarith) (le_abs_self _)
        · have h3 := (hb (-2 ^ 52)).1
          have h4 : |x - a * u| ≤ |x - (-2 ^ 52 : ℤ) * u| := by
            rw [hmul, hmul]; exact mul_le_mul_of_nonneg_right h3 hu.le
          have h6 : ((-2 ^ 52 : ℤ) : ℚ) * u = -2 ^ e := by rw [hue']; push_cast; ring
          rw [h6] at h4
          refine lt_of_le_of_lt h4 ?_
          rw [abs_of_nonpos (by linarith)]
          have h5 := (abs_lt.1 hwl).1
          exact lt_of_lt_of_le (by linarith) (neg_le_abs _)
      exact ⟨hstrict.le, fun _ h => absurd h hstrict.ne'⟩

theorem double_parity {m m' n n' k l : ℤ} (h1 : ((2 * m : ℤ) : ℚ) * 2 ^ k = (2 * n' + 1 : ℤ) * 2 ^ l)
    (h2 : ((2 * m' + 1 : ℤ) : ℚ) * 2 ^ k = (2 * n : ℤ) * 2 ^ l) : False := by
  rcases le_total k l with h | h
  · -- the odd number on the left of h2 is even
    obtain ⟨j, rfl⟩ : ∃ j : ℕ, l = k + j := ⟨(l - k).toNat, by omega⟩
    have hk : (2 : ℚ) ^ k ≠ 0 := zpow_ne_zero _ (by norm_num)
    rw [zpow_add₀ (by norm_num), zpow_natCast, mul_comm ((2 : ℚ) ^ k), ← mul_assoc] at h2
    have h3 := mul_right_cancel₀ hk h2
    have h4 : 2 * m' + 1 = 2 * n * 2 ^ j := by exact_mod_cast h3
    have : 2 * n * 2 ^ j = 2 * (n * 2 ^ j) := by ring
    omega
  · obtain ⟨j, rfl⟩ : ∃ j : ℕ, k = l + j := ⟨(k - l).toNat, by omega⟩
    have hk : (2 : ℚ) ^ l ≠ 0 := zpow_ne_zero _ (by norm_num)
    rw [zpow_add₀ (by norm_num), zpow_natCast, mul_comm ((2 : ℚ) ^ l), ← mul_assoc] at h1
    have h3 := mul_right_cancel₀ hk h1
    have h4 : 2 * m * 2 ^ j = 2 * n' + 1 := by exact_mod_cast h3
    have : 2 * m * 2 ^ j = 2 * (m * 2 ^ j) := by ring
    omega

/-- There is only one nearest number. -/
theorem nearest_unique {x v w : ℚ} (hv : Nearest x v) (hw : Nearest x w) : v = w := by
  by_contra hne
  obtain ⟨h1, h2⟩ := hv.2 w hw.1
  obtain ⟨h3, h4⟩ := hw.2 v hv.1
  have he : |x - w| = |x - v| := le_antisymm h3 h1
  obtain ⟨m, m', k, e1, e2⟩ := h2 (fun h => hne h.symm) he
  obtain ⟨n, n', l, e3, e4⟩ := h4 hne he.symm
  exact double_parity (e1.symm.trans e4) (e2.symm.trans e3)

theorem toDouble_iff (x v : ℚ) : toDouble x = some v ↔ Nearest x v ∧ |v| < 2 ^ 1024 := by
  rw [toDouble_eq]
  have hn := roundDouble_nearest x
  constructor
  · intro h
    split at h
    · rename_i hlt
      injection h with h
      rw [← h]
      exact ⟨hn, hlt⟩
    · cases h
  · rintro ⟨h1, h2⟩
    rw [nearest_unique hn h1, if_pos h2]

end EG
