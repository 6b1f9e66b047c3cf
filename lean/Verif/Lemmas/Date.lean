import Verif.Model.Date
import Verif.Spec.Calendar
import Mathlib.Tactic.IntervalCases
import Mathlib.Tactic.Ring
import Mathlib.Tactic.Linarith
import Mathlib.Tactic.NormNum

/-! # Lemmas about dates -/

namespace EG.Date

theorem digit_toNat (n : ℕ) : (digit n).toNat = 48 + n % 10 := by
  unfold digit
  have h : n % 10 < 10 := Nat.mod_lt _ (by norm_num)
  generalize n % 10 = k at h
  interval_cases k <;> rfl

theorem isDigit_digit (n : ℕ) : isDigit (digit n) = true := by
  unfold isDigit
  rw [digit_toNat]
  have h : n % 10 < 10 := Nat.mod_lt _ (by norm_num)
  rw [Bool.and_eq_true, decide_eq_true_iff, decide_eq_true_iff]
  omega

theorem readNum_pad2 (n : ℕ) (h : n < 100) (s : List Char) : readNum 2 (pad2 n ++ s) = some (n, s) := by
  unfold pad2 readNum
  simp only [List.cons_append, List.nil_append, isDigit_digit, if_true, readMore, digit_toNat]
  congr 2
  omega

theorem readNum_year4 (n : ℕ) (h : n < 10000) (s : List Char) : readNum 4 (year4 n ++ s) = some (n, s) := by
  unfold year4 readNum
  rw [if_pos h]
  simp only [List.cons_append, List.nil_append, isDigit_digit, if_true, readMore, digit_toNat]
  congr 2
  omega

theorem readChar_self (c : Char) (s : List Char) : readChar c (c :: s) = some s := by
  unfold readChar; simp

theorem daysBefore_succ (y : ℕ) : daysBefore (y + 1) = daysBefore y + yearDays y := by
  unfold daysBefore yearDays isLeap
  dsimp only
  by_cases h4 : y % 4 = 0 <;> by_cases h100 : y % 100 = 0 <;> by_cases h400 : y % 400 = 0 <;>
    simp [h4, h100, h400] <;> omega

theorem daysBefore_mono {a b : ℕ} (h : a ≤ b) : daysBefore a ≤ daysBefore b := by
  induction h with
  | refl => exact le_refl _
  | step _ ih =>
    rw [daysBefore_succ]
    linarith [Int.natCast_nonneg (yearDays ‹_›)]

theorem daysBefore_1970 : daysBefore 1970 = 0 := by decide

theorem yearOf_spec (y d : ℕ) : daysBefore y + d = daysBefore (yearOf y d).1 + (yearOf y d).2 ∧
    (yearOf y d).2 < yearDays (yearOf y d).1 ∧ y ≤ (yearOf y d).1 := by
  induction y, d using yearOf.induct with
  | case1 y d h =>
    rw [yearOf, if_pos h]
    exact ⟨rfl, h, le_rfl⟩
  | case2 y d h ih =>
    rw [yearOf, if_neg h]
    obtain ⟨h1, h2, h3⟩ := ih
    refine ⟨?_, h2, by omega⟩
    rw [← h1, daysBefore_succ, Nat.cast_sub (by omega)]
    ring

theorem monthsBefore_succ (y m : ℕ) (h : 1 ≤ m) : monthsBefore y (m + 1) = monthsBefore y m + monthDays y m := by
  unfold monthsBefore
  obtain ⟨k, rfl⟩ : ∃ k, m = k + 1 := ⟨m - 1, by omega⟩
  rw [Nat.add_sub_cancel, Nat.add_sub_cancel, List.range_succ, List.map_append, List.sum_append]
  simp

theorem monthsBefore_13 (y : ℕ) : monthsBefore y 13 = yearDays y := by
  unfold yearDays
  cases h : isLeap y <;> simp [monthsBefore, List.range_succ, monthDays, h]

theorem monthOf_spec (y fuel : ℕ) : ∀ m d, m + fuel = 12 → 1 ≤ m → monthsBefore y m + d < yearDays y →
    monthsBefore y m + d = monthsBefore y (monthOf y fuel m d).1 + (monthOf y fuel m d).2 ∧
      (monthOf y fuel m d).2 < monthDays y (monthOf y fuel m d).1 ∧ 1 ≤ (monthOf y fuel m d).1 ∧
      (monthOf y fuel m d).1 ≤ 12 := by
  induction fuel with
  | zero =>
    intro m d hm h1 hlt
    have : m = 12 := by omega
    subst this
    have := monthsBefore_succ y 12 (by norm_num)
    rw [monthsBefore_13] at this
    exact ⟨rfl, by show d < monthDays y 12; omega, by show 1 ≤ 12; omega, le_rfl⟩
  | succ fuel ih =>
    intro m d hm h1 hlt
    rw [monthOf]
    split_ifs with h
    · exact ⟨rfl, h, h1, by show m ≤ 12; omega⟩
    · have hs := monthsBefore_succ y m h1
      obtain ⟨a, b, c, e⟩ := ih (m + 1) (d - monthDays y m) (by omega) (by omega) (by omega)
      exact ⟨by omega, b, c, e⟩

theorem monthDays_le (y m : ℕ) : monthDays y m ≤ 31 := by
  unfold monthDays
  split <;> (try split) <;> omega

/-- Seconds up to the end of the year 9999. -/
def endOf9999 : ℕ := 253402300800

theorem year_lt (d : ℕ) (h : d * 86400 < endOf9999) : (yearOf 1970 d).1 < 10000 := by
  obtain ⟨h1, h2, h3⟩ := yearOf_spec 1970 d
  by_contra hc
  have := daysBefore_mono (a := 10000) (b := (yearOf 1970 d).1) (by omega)
  rw [daysBefore_1970, zero_add] at h1
  have e : daysBefore 10000 = 2932897 := by decide
  rw [e] at this
  unfold endOf9999 at h
  omega

theorem parse_dateTime (secs : ℕ) (h : secs < endOf9999) (rest : List Char) :
    parseDateTime (dateTime secs ++ rest) = some ((secs : ℤ), rest) := by
  obtain ⟨h1, h2, h3⟩ := yearOf_spec 1970 (secs / 86400)
  have hy := year_lt (secs / 86400) (by omega)
  obtain ⟨m1, m2, m3, m4⟩ := monthOf_spec (yearOf 1970 (secs / 86400)).1 11 1 (yearOf 1970 (secs / 86400)).2
    rfl le_rfl (by simpa [monthsBefore] using h2)
  unfold dateTime
  generalize yearOf 1970 (secs / 86400) = yd at *
  generalize hmd : monthOf yd.1 11 1 yd.2 = md at *
  have hml := monthDays_le yd.1 md.1
  dsimp only
  rw [hmd]
  have hM : secs % 86400 / 60 % 60 < 60 := Nat.mod_lt _ (by norm_num)
  have hS : secs % 86400 % 60 < 60 := Nat.mod_lt _ (by norm_num)
  have hH : secs % 86400 / 3600 < 24 := by omega
  unfold parseDateTime
  simp only [List.append_assoc, List.cons_append, bind, Option.bind, readNum_year4 yd.1 hy,
    readNum_pad2 md.1 (by omega), readNum_pad2 (md.2 + 1) (by omega), readNum_pad2 _ (show secs % 86400 / 3600 < 100 by omega),
    readNum_pad2 _ (show secs % 86400 / 60 % 60 < 100 by omega), readNum_pad2 _ (show secs % 86400 % 60 < 100 by omega),
    readChar_self]
  rw [if_pos ⟨m3, m4, by omega, by omega, hH, hM, hS⟩]
  congr 2
  unfold instant
  rw [daysBefore_1970] at h1
  have e1 : (monthsBefore yd.1 1 : ℕ) = 0 := rfl
  rw [e1] at m1
  push_cast
  omega

theorem parseDefault_dateTime (secs : ℕ) (h : secs < endOf9999) (rest : List Char) :
    parseDefault (dateTime secs ++ 'Z' :: rest) = some (secs : ℤ) := by
  unfold parseDefault
  rw [parse_dateTime secs h]
  simp only [bind, Option.bind, readChar_self]

theorem read2_pad2 (n : ℕ) (h : n < 100) (s : List Char) : read2 (pad2 n ++ s) = some (n, s) := by
  unfold pad2 read2
  simp only [List.cons_append, List.nil_append, isDigit_digit, Bool.and_self, if_true, digit_toNat]
  congr 2
  omega

end EG.Date

namespace EG.Date

open Spec.Calendar

theorem isLeap_iff (y : ℕ) : isLeap y = true ↔ Leap y := by
  unfold isLeap Leap
  simp only [Bool.and_eq_true, Bool.or_eq_true, beq_iff_eq, bne_iff_ne, ne_eq]
  omega

theorem monthDays_spec (y m : ℕ) (h1 : 1 ≤ m) (h2 : m ≤ 12) : (monthLengths y).getD (m - 1) 0 = monthDays y m := by
  have hl := isLeap_iff y
  by_cases h : Leap y
  · interval_cases m <;> simp [monthLengths, monthDays, h, hl.2 h]
  · have hf : isLeap y = false := by simpa [h] using hl
    interval_cases m <;> simp [monthLengths, monthDays, h, hf]

theorem monthDays_pos (y m : ℕ) : 1 ≤ monthDays y m := by
  unfold monthDays
  split <;> (try split) <;> omega

theorem monthsBefore_mono (y : ℕ) {a b : ℕ} (ha : 1 ≤ a) (h : a ≤ b) : monthsBefore y a ≤ monthsBefore y b := by
  induction h with
  | refl => exact le_rfl
  | step hm ih => exact ih.trans (by rw [monthsBefore_succ _ _ (le_trans ha hm)]; omega)

/-- A date that exists, with the day counted from zero. -/
structure Fine (y m d : ℕ) : Prop where
  m1 : 1 ≤ m
  m12 : m ≤ 12
  d : d < monthDays y m

theorem Fine.lt_year {y m d : ℕ} (h : Fine y m d) : monthsBefore y m + d < yearDays y := by
  have := monthsBefore_mono y (a := m + 1) (b := 13) (by omega) (by have := h.m12; omega)
  rw [monthsBefore_13, monthsBefore_succ _ _ h.m1] at this
  have := h.d
  omega

theorem Fine.unique {y m d y' m' d' : ℕ} (h : Fine y m d) (h' : Fine y' m' d')
    (e : daysBefore y + monthsBefore y m + d = daysBefore y' + monthsBefore y' m' + d') :
    y = y' ∧ m = m' ∧ d = d' := by
  have l := h.lt_year
  have l' := h'.lt_year
  have hy : y = y' := by
    rcases lt_trichotomy y y' with c | c | c
    · have := daysBefore_mono (a := y + 1) (b := y') c
      rw [daysBefore_succ] at this
      omega
    · exact c
    · have := daysBefore_mono (a := y' + 1) (b := y) c
      rw [daysBefore_succ] at this
      omega
  subst hy
  have hm : m = m' := by
    rcases lt_trichotomy m m' with c | c | c
    · have := monthsBefore_mono y (a := m + 1) (b := m') (by omega) c
      rw [monthsBefore_succ _ _ h.m1] at this
      have := h.d
      omega
    · exact c
    · have := monthsBefore_mono y (a := m' + 1) (b := m) (by omega) c
      rw [monthsBefore_succ _ _ h'.m1] at this
      have := h'.d
      omega
  subst hm
  exact ⟨rfl, rfl, by omega⟩

/-- The date of a day number, as `gmtime_r` computes it. -/
theorem dateOf_spec (n : ℕ) :
    Fine (yearOf 1970 n).1 (monthOf (yearOf 1970 n).1 11 1 (yearOf 1970 n).2).1
      (monthOf (yearOf 1970 n).1 11 1 (yearOf 1970 n).2).2 ∧
    daysBefore (yearOf 1970 n).1 + monthsBefore (yearOf 1970 n).1 (monthOf (yearOf 1970 n).1 11 1 (yearOf 1970 n).2).1 +
      (monthOf (yearOf 1970 n).1 11 1 (yearOf 1970 n).2).2 = n := by
  obtain ⟨h1, h2, h3⟩ := yearOf_spec 1970 n
  obtain ⟨m1, m2, m3, m4⟩ := monthOf_spec (yearOf 1970 n).1 11 1 (yearOf 1970 n).2
    rfl le_rfl (by simpa [monthsBefore] using h2)
  have e1 : (monthsBefore (yearOf 1970 n).1 1 : ℕ) = 0 := rfl
  rw [e1] at m1
  rw [daysBefore_1970] at h1
  exact ⟨⟨m3, m4, m2⟩, by omega⟩

theorem dayAfterEpoch_spec (n : ℕ) : let D := dayAfterEpoch n
    1 ≤ D.day ∧ Fine D.year D.month (D.day - 1) ∧
      daysBefore D.year + monthsBefore D.year D.month + (D.day - 1 : ℕ) = n := by
  induction n with
  | zero => exact ⟨le_rfl, ⟨by decide, by decide, by decide⟩, by decide⟩
  | succ n ih =>
    have e : dayAfterEpoch (n + 1) = (dayAfterEpoch n).next := by
      unfold dayAfterEpoch; rw [Function.iterate_succ_apply']
    rw [e]
    generalize dayAfterEpoch n = D at ih
    obtain ⟨y, m, d⟩ := D
    obtain ⟨h1, h2, h3⟩ := ih
    dsimp only at h1 h2 h3
    have hm := monthDays_spec y m h2.m1 h2.m12
    have hd := h2.d
    have m1 := h2.m1
    have m12 := h2.m12
    unfold Day.next
    dsimp only
    rw [hm]
    by_cases c1 : d + 1 ≤ monthDays y m
    · rw [if_pos c1]
      exact ⟨by show 1 ≤ d + 1; omega, ⟨m1, m12, by show d + 1 - 1 < monthDays y m; omega⟩, by dsimp only; push_cast; omega⟩
    · rw [if_neg c1]
      by_cases c2 : m < 12
      · rw [if_pos c2]
        refine ⟨le_rfl, ⟨by show 1 ≤ m + 1; omega, c2, monthDays_pos _ _⟩, ?_⟩
        dsimp only
        rw [monthsBefore_succ y m m1]
        push_cast
        omega
      · rw [if_neg c2]
        have : m = 12 := by omega
        subst this
        refine ⟨le_rfl, ⟨le_rfl, by show 1 ≤ 12; omega, monthDays_pos _ _⟩, ?_⟩
        dsimp only
        have e1 : (monthsBefore (y + 1) 1 : ℕ) = 0 := rfl
        have e2 := monthsBefore_succ y 12 (by norm_num)
        rw [monthsBefore_13] at e2
        rw [e1, daysBefore_succ, e2]
        push_cast
        omega

end EG.Date
