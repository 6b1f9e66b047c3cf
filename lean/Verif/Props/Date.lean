import Verif.Lemmas.Date

/-!
# C81: dates in texts
-/

namespace EG.Date

open Spec.Calendar

/-- The text of a time is ISO 8601 in UTC: year, month and day are those of the calendar for the number of days
since the first of January 1970, and the time of day is in hours, minutes and seconds. -/
theorem C81_calendar (nanos : ℕ) (h : nanos < 2 ^ 63) :
    let day := dayAfterEpoch (nanos / (86400 * 10 ^ 9))
    let s := nanos / 10 ^ 9 % 86400
    ∃ H M S, H < 24 ∧ M < 60 ∧ S < 60 ∧ s = 3600 * H + 60 * M + S ∧
      toIso nanos = [digit (day.year / 1000), digit (day.year / 100), digit (day.year / 10), digit day.year, '-',
        digit (day.month / 10), digit day.month, '-', digit (day.day / 10), digit day.day, 'T',
        digit (H / 10), digit H, ':', digit (M / 10), digit M, ':', digit (S / 10), digit S, 'Z'] := by
  intro day s
  refine ⟨s / 3600, s / 60 % 60, s % 60, by omega, by omega, by omega, by omega, ?_⟩
  have e : nanos / 10 ^ 9 / 86400 = nanos / (86400 * 10 ^ 9) := by
    rw [Nat.div_div_eq_div_mul, Nat.mul_comm]
  obtain ⟨a1, a2⟩ := dateOf_spec (nanos / (86400 * 10 ^ 9))
  obtain ⟨b1, b2, b3⟩ := dayAfterEpoch_spec (nanos / (86400 * 10 ^ 9))
  have hy := year_lt (nanos / (86400 * 10 ^ 9)) (by unfold endOf9999; omega)
  change 1 ≤ day.day at b1
  change Fine day.year day.month (day.day - 1) at b2
  change daysBefore day.year + monthsBefore day.year day.month + (day.day - 1 : ℕ) = _ at b3
  obtain ⟨c1, c2, c3⟩ := a1.unique b2 (a2.trans b3.symm)
  unfold toIso dateTime
  dsimp only
  rw [e]
  generalize yearOf 1970 (nanos / (86400 * 10 ^ 9)) = yd at *
  generalize hmd : monthOf yd.1 11 1 yd.2 = md at *
  have c4 : md.2 + 1 = day.day := by omega
  rw [c4, c2, c1]
  unfold year4
  rw [if_pos (by omega)]
  rfl

/-- Reading back the text of a time gives the time, without the fraction of the second.  (The fraction should
not be lost: see `C81_fraction_violated`.) -/
theorem C81_round_trip_partial (nanos : ℕ) (h : nanos < 2 ^ 63) :
    fromIso (toIso nanos) = .ok (nanos / 10 ^ 9 * 10 ^ 9 : ℕ) := by
  have e : readSeconds (toIso nanos) = ((nanos / 10 ^ 9 : ℕ) : ℤ) := by
    unfold readSeconds toIso
    rw [parseDefault_dateTime _ (by unfold endOf9999; omega)]
  unfold fromIso
  dsimp only
  rw [e, if_pos (by omega)]
  rfl

/-- A text that was read and is in the default format is reproduced: texts of times with whole seconds are
fixed. -/
theorem C81_stable (nanos : ℕ) (h : nanos < 2 ^ 63) :
    ∃ t : ℕ, fromIso (toIso nanos) = .ok t ∧ toIso t = toIso nanos := by
  refine ⟨_, C81_round_trip_partial nanos h, ?_⟩
  unfold toIso
  rw [Nat.mul_div_cancel _ (by norm_num)]

/-- Times more than a second apart have different texts. -/
theorem C81_injective (a b : ℕ) (ha : a < 2 ^ 63) (hb : b < 2 ^ 63) (h : toIso a = toIso b) :
    a / 10 ^ 9 = b / 10 ^ 9 := by
  have e1 := C81_round_trip_partial a ha
  rw [h, C81_round_trip_partial b hb] at e1
  injection e1 with e2
  omega

/-- A text with a local time and its offset from UTC denotes the local time minus the offset. -/
theorem C81_offset (secs H M : ℕ) (neg : Bool) (hH : H < 100) (hM : M < 100)
    (h : secs * 10 ^ 9 < 2 ^ 62) :
    fromIso (dateTime secs ++ (if neg then '-' else '+') :: pad2 H ++ ':' :: pad2 M) =
      .ok (((secs : ℤ) - (if neg then -1 else 1) * (H * 3600 + M * 60)) * 10 ^ 9) := by
  have hs : secs < endOf9999 := by unfold endOf9999; omega
  have e : readSeconds (dateTime secs ++ (if neg then '-' else '+') :: pad2 H ++ ':' :: pad2 M) =
      (secs : ℤ) - (if neg then -1 else 1) * (H * 3600 + M * 60) := by
    have r : read2 (pad2 M) = some (M, []) := by
      have := read2_pad2 M hM []
      rwa [List.append_nil] at this
    unfold readSeconds parseDefault parseSecondary
    rw [List.append_assoc, parse_dateTime secs hs]
    cases neg
    · simp only [bind, Option.bind, parseOffset, List.cons_append, Bool.false_eq_true, if_false,
        readNum_pad2 H hH, r, Option.map_some, readChar, if_neg (show ¬('+' = 'Z') by decide)]
      ring
    · simp only [bind, Option.bind, parseOffset, List.cons_append, if_true,
        readNum_pad2 H hH, r, Option.map_some, readChar, if_neg (show ¬('-' = 'Z') by decide)]
      ring
  unfold fromIso
  dsimp only
  rw [e, if_pos]
  cases neg <;> simp only [Bool.false_eq_true, if_false, if_true] <;> omega

/-- The fraction of the second is lost. -/
theorem C81_fraction_violated (nanos : ℕ) (h : nanos < 2 ^ 63) (hf : nanos % 10 ^ 9 ≠ 0) :
    fromIso (toIso nanos) ≠ .ok (nanos : ℤ) := by
  rw [C81_round_trip_partial nanos h]
  intro e
  injection e with e
  omega

/-- A text that is not in one of the two formats should be refused.  It is read as the first of January 1970,
for example every text that does not begin with a digit, and dates without a time of day. -/
theorem C81_refuse_violated (s : List Char) (h : ∀ c ∈ s.head?, isDigit c = false) : fromIso s = .ok 0 := by
  have hp : parseDateTime s = none := by
    unfold parseDateTime readNum
    cases s with
    | nil => rfl
    | cons c s =>
      have := h c rfl
      simp only [this, Bool.false_eq_true, if_false, bind, Option.bind]
  unfold fromIso readSeconds parseDefault parseSecondary
  rw [hp]
  simp only [bind, Option.bind]
  decide

theorem C81_date_only_violated : fromIso "2020-11-03".toList = .ok 0 ∧
    fromIso "2020-11-03 09:00:00Z".toList = .ok 0 ∧ fromIso "".toList = .ok 0 := by
  refine ⟨?_, ?_, ?_⟩ <;> decide

/-- What follows the time is not looked at. -/
theorem C81_trailing_violated (secs : ℕ) (h : secs * 10 ^ 9 < 2 ^ 63) (rest : List Char) :
    fromIso (dateTime secs ++ 'Z' :: rest) = .ok ((secs : ℤ) * 10 ^ 9) := by
  have e : readSeconds (dateTime secs ++ 'Z' :: rest) = (secs : ℤ) := by
    unfold readSeconds
    rw [parseDefault_dateTime _ (by unfold endOf9999; omega)]
  unfold fromIso
  dsimp only
  rw [e, if_pos (by omega)]

/-- A date the clock cannot represent is undefined behaviour, not refused. -/
theorem C81_range_violated : fromIso "2500-01-01T00:00:00Z".toList = .ub := by decide

/-- A leap day, and the day after. -/
example : dayAfterEpoch 789 = ⟨1972, 2, 29⟩ ∧ dayAfterEpoch 790 = ⟨1972, 3, 1⟩ := by decide +kernel

example : fromIso "2020-02-29T12:30:05Z".toList = .ok (1582979405 * 10 ^ 9) ∧
    fromIso "2020-02-29T12:30:05-05:00".toList = .ok (1582997405 * 10 ^ 9) ∧
    fromIso "2021-02-29T12:30:05Z".toList = .ok 0 := by
  refine ⟨?_, ?_, ?_⟩ <;> decide

end EG.Date
