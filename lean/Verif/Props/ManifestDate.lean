import Verif.Model.ManifestDate
import Verif.Props.Date

/-!
# C101: the dates of a manifest across the C interface and in C#
-/

namespace EG.Date

theorem toSigned_toUnsigned (t : ℤ) (h1 : -2 ^ 63 ≤ t) (h2 : t < 2 ^ 63) : toSigned (toUnsigned t) = t := by
  unfold toSigned toUnsigned
  split_ifs with h <;> omega

theorem toUnsigned_nat (n : ℕ) (h : n < 2 ^ 64) : toUnsigned n = n := by
  unfold toUnsigned
  omega

theorem toSigned_nat (n : ℕ) (h : n < 2 ^ 63) : toSigned n = n := by
  unfold toSigned
  rw [if_pos h]

theorem tdiv_nat (a b : ℕ) : (a : ℤ).tdiv b = ((a / b : ℕ) : ℤ) := rfl

/-- A date given in milliseconds comes back in seconds. -/
theorem C101_c (k ms : ℕ) (hk : 0 < k) (h : ms * k < 2 ^ 63) :
    ∃ n : ℕ, newDate (1000 * k) ms = .ok n ∧ n = ms * k ∧ getDate (1000 * k) n = ms / 1000 := by
  have hms : ms < 2 ^ 63 := lt_of_le_of_lt (Nat.le_mul_of_pos_right _ hk) h
  refine ⟨ms * k, ?_, rfl, ?_⟩
  · unfold newDate
    rw [Nat.mul_div_cancel_left _ (by norm_num), toSigned_nat _ hms]
    dsimp only
    rw [← Nat.cast_mul, if_pos (by constructor <;> omega)]
  · unfold getDate
    rw [mul_one, tdiv_nat, toUnsigned_nat _ (lt_of_le_of_lt (Nat.div_le_self _ _) (by omega)), Nat.mul_comm 1000,
      Nat.mul_comm ms, Nat.mul_div_mul_left _ _ hk]

/-- No date but the first instant of 1970 comes back as it was given. -/
theorem C101_c_violated (k ms : ℕ) (hk : 0 < k) (h : ms * k < 2 ^ 63) (h0 : ms ≠ 0) :
    ∃ n, newDate (1000 * k) ms = .ok n ∧ getDate (1000 * k) n ≠ ms := by
  obtain ⟨n, h1, -, h2⟩ := C101_c k ms hk h
  refine ⟨n, h1, ?_⟩
  rw [h2]
  omega

/-- In C#, a date of `t` milliseconds is shown as one of `t / 1000` milliseconds. -/
theorem C101_cs (k : ℕ) (hk : 0 < k) (t : ℤ) (h1 : -2 ^ 63 ≤ t * k) (h2 : t * k < 2 ^ 63) :
    ∃ n, csNewDate (1000 * k) t = .ok n ∧ csGetDate (1000 * k) n = t.tdiv 1000 := by
  have hk' : (1 : ℤ) ≤ k := by exact_mod_cast hk
  have ht1 : -2 ^ 63 ≤ t := by
    rcases le_or_gt 0 t with h | h
    · omega
    · exact le_trans h1 (by nlinarith)
  have ht2 : t < 2 ^ 63 := by
    rcases le_or_gt 0 t with h | h
    · exact lt_of_le_of_lt (by nlinarith) h2
    · omega
  refine ⟨t * k, ?_, ?_⟩
  · unfold csNewDate newDate
    rw [Nat.mul_div_cancel_left _ (by norm_num), toSigned_toUnsigned _ ht1 ht2]
    dsimp only
    rw [if_pos ⟨h1, h2⟩]
  · unfold csGetDate getDate
    have e : (t * k * 1).tdiv ((1000 * k : ℕ) : ℤ) = t.tdiv 1000 := by
      rw [mul_one, Nat.cast_mul, Int.mul_tdiv_mul_of_pos_left _ _ (by omega)]
      rfl
    rw [e]
    have hb : t.tdiv 1000 ≤ 2 ^ 63 - 1 ∧ -2 ^ 63 ≤ t.tdiv 1000 := by
      rcases le_or_gt 0 t with h | h
      · rw [Int.tdiv_eq_ediv_of_nonneg h]
        omega
      · have : t.tdiv 1000 = -((-t) / 1000) := by
          rw [← Int.tdiv_eq_ediv_of_nonneg (by omega), Int.neg_tdiv, neg_neg]
        omega
    exact toSigned_toUnsigned _ hb.2 (by omega)

/-- With the clock of libstdc++, every start date from 1970 on that is not undefined is shown as one in the first 107 days
of 1970. -/
theorem C101_cs_violated (t : ℕ) (n : ℤ) (h : csNewDate (10 ^ 9) t = .ok n) (ht : t < 2 ^ 63) :
    ∃ s : ℕ, csGetDate (10 ^ 9) n = s ∧ s < 107 * 86400000 ∧ (t ≠ 0 → s ≠ t) ∧
      (Spec.Calendar.dayAfterEpoch (s / 86400000)).year = 1970 := by
  have hr : (t : ℤ) * (10 ^ 6 : ℕ) < 2 ^ 63 := by
    unfold csNewDate newDate at h
    rw [toSigned_toUnsigned _ (by omega) (by omega)] at h
    dsimp only at h
    by_contra hc
    rw [if_neg (by intro h'; exact hc (by simpa using h'.2))] at h
    cases h
  obtain ⟨n', h1, h2⟩ := C101_cs (10 ^ 6) (by norm_num) t (by omega) hr
  have e9 : (10 ^ 9 : ℕ) = 1000 * 10 ^ 6 := by norm_num
  rw [e9, h1] at h
  injection h with h
  subst h
  rw [e9, h2]
  have hlt : t / 1000 < 107 * 86400000 := by
    have : (t : ℤ) * 1000000 < 2 ^ 63 := by simpa using hr
    omega
  refine ⟨t / 1000, ?_, hlt, by omega, ?_⟩
  · rw [Int.tdiv_eq_ediv_of_nonneg (by omega)]
    rfl
  · have hd : t / 1000 / 86400000 < 107 := by omega
    generalize t / 1000 / 86400000 = d at hd
    have : ∀ d : Fin 107, (Spec.Calendar.dayAfterEpoch d.1).year = 1970 := by decide +kernel
    exact this ⟨d, hd⟩

/-- What holds: the time stored is the right one, down to the second in texts of the manifest. -/
theorem C101_text_partial (ms : ℕ) (h : ms * 10 ^ 6 < 2 ^ 63) :
    ∃ n : ℕ, newDate (10 ^ 9) ms = .ok n ∧ toIso n = dateTime (ms / 1000) ++ ['Z'] ∧
      ∃ r : ℕ, fromIso (toIso n) = .ok r ∧ getDate (10 ^ 9) r = ms / 1000 := by
  obtain ⟨n, h1, rfl, h3⟩ := C101_c (10 ^ 6) ms (by norm_num) h
  rw [show (1000 * 10 ^ 6 : ℕ) = 10 ^ 9 by norm_num] at h1 h3
  have hs : ms * 10 ^ 6 / 10 ^ 9 = ms / 1000 := by omega
  refine ⟨_, h1, by unfold toIso; rw [hs], _, C81_round_trip_partial _ h, ?_⟩
  rw [hs]
  unfold getDate
  rw [mul_one, tdiv_nat, Nat.mul_div_cancel _ (by norm_num), toUnsigned_nat]
  omega

/-- The date of C# that a field has if nothing is assigned (0001-01-01) is undefined on Linux, as is every date after
2262. -/
theorem C101_range_violated : csNewDate (10 ^ 9) (-62135596800000) = .ub ∧
    ∀ t : ℤ, 9223372036855 ≤ t → t ≤ 253402300799999 → csNewDate (10 ^ 9) t = .ub := by
  constructor
  · decide
  · intro t h1 h2
    unfold csNewDate newDate
    rw [toSigned_toUnsigned _ (by omega) (by omega)]
    dsimp only
    rw [if_neg]
    rintro ⟨-, h3⟩
    have : t * 1000000 < 2 ^ 63 := by simpa using h3
    omega

/-- 2020-11-03 08:00:00: stored, and shown in C# as the 19th of January 1970. -/
example : csNewDate (10 ^ 9) 1604390400000 = .ok 1604390400000000000 ∧
    csGetDate (10 ^ 9) 1604390400000000000 = 1604390400 ∧
    Spec.Calendar.dayAfterEpoch (1604390400 / 86400000) = ⟨1970, 1, 19⟩ := by
  refine ⟨?_, ?_, ?_⟩ <;> decide +kernel

end EG.Date
