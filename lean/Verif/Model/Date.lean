import Verif.Model.Res
import Mathlib.Data.Nat.Notation
import Mathlib.Data.Int.Notation

/-!
# Dates (src/electionguard/convert.cpp:23-66)

`gmtime_r`, `std::put_time` and `date::parse` are library functions; they are modelled for the two
formats in use.  A time is a number of nanoseconds since 1970, not negative.  `date::parse` reads up to the
stated number of digits and ignores what follows in the stream.  A sign before the year, which it accepts
too, is not modelled.  The clock counts nanoseconds in 64 bits, as in libstdc++.
-/

namespace EG.Date

/-- The Gregorian calendar. -/
def isLeap (y : ℕ) : Bool := y % 4 == 0 && (y % 100 != 0 || y % 400 == 0)

def yearDays (y : ℕ) : ℕ := if isLeap y then 366 else 365

def monthDays (y : ℕ) : ℕ → ℕ
  | 2 => if isLeap y then 29 else 28
  | 4 | 6 | 9 | 11 => 30
  | _ => 31

/-- The year of the day `d`, counted from the first day of the year `y`, and the day in that year. -/
def yearOf (y d : ℕ) : ℕ × ℕ :=
  if d < yearDays y then (y, d) else yearOf (y + 1) (d - yearDays y)
termination_by d
decreasing_by
  have : 0 < yearDays y := by unfold yearDays; split <;> decide
  omega

/-- The month and the day of the month; `fuel` is the number of months left in the year. -/
def monthOf (y : ℕ) : ℕ → ℕ → ℕ → ℕ × ℕ
  | 0, m, d => (m, d)
  | fuel + 1, m, d => if d < monthDays y m then (m, d) else monthOf y fuel (m + 1) (d - monthDays y m)

/-- A decimal digit. -/
def digit (n : ℕ) : Char := Char.ofNat (48 + n % 10)

def pad2 (n : ℕ) : List Char := [digit (n / 10), digit n]

/-- The decimal digits of `n`. -/
def decimal (n : ℕ) : List Char :=
  if n < 10 then [digit n] else decimal (n / 10) ++ [digit n]
termination_by n
decreasing_by omega

/-- `%Y`: at least four digits. -/
def year4 (n : ℕ) : List Char :=
  if n < 10000 then [digit (n / 1000), digit (n / 100), digit (n / 10), digit n] else decimal n

/-- `%FT%T` for seconds since 1970: `gmtime_r` and `put_time`. -/
def dateTime (secs : ℕ) : List Char :=
  let yd := yearOf 1970 (secs / 86400)
  let md := monthOf yd.1 11 1 yd.2
  let s := secs % 86400
  year4 yd.1 ++ '-' :: pad2 md.1 ++ '-' :: pad2 (md.2 + 1) ++ 'T' ::
    pad2 (s / 3600) ++ ':' :: pad2 (s / 60 % 60) ++ ':' :: pad2 (s % 60)

/-- convert.cpp:26-40 `timePointToIsoString`; `to_time_t` drops the fraction of the second. -/
def toIso (nanos : ℕ) : List Char := dateTime (nanos / 10 ^ 9) ++ ['Z']

/-! ## Parsing -/

def isDigit (c : Char) : Bool := decide (48 ≤ c.toNat) && decide (c.toNat ≤ 57)

/-- Up to `w` further digits. -/
def readMore : ℕ → ℕ → List Char → ℕ × List Char
  | 0, acc, s => (acc, s)
  | _ + 1, acc, [] => (acc, [])
  | w + 1, acc, c :: s => if isDigit c then readMore w (acc * 10 + (c.toNat - 48)) s else (acc, c :: s)

/-- A number of one to `w` digits. -/
def readNum (w : ℕ) (s : List Char) : Option (ℕ × List Char) :=
  match s with
  | [] => none
  | c :: _ => if isDigit c then some (readMore w 0 s) else none

/-- A literal character of the format. -/
def readChar (c : Char) (s : List Char) : Option (List Char) :=
  match s with
  | [] => none
  | d :: s => if d = c then some s else none

/-- The days before the year `y`, from 1970 on. -/
def daysBefore (y : ℕ) : ℤ :=
  let f (k : ℕ) : ℤ := 365 * k + (k + 3) / 4 - (k + 99) / 100 + (k + 399) / 400
  f y - f 1970

/-- The days of the months before `m`. -/
def monthsBefore (y m : ℕ) : ℕ := ((List.range (m - 1)).map fun i => monthDays y (i + 1)).sum

/-- `date::sys_days` of a date, plus the time of day. -/
def instant (y m d H M S : ℕ) : ℤ :=
  (daysBefore y + monthsBefore y m + d - 1) * 86400 + H * 3600 + M * 60 + S

/-- `%FT%T`, with the checks that date and time of day exist. -/
def parseDateTime (s : List Char) : Option (ℤ × List Char) := do
  let (y, s) ← readNum 4 s
  let s ← readChar '-' s
  let (m, s) ← readNum 2 s
  let s ← readChar '-' s
  let (d, s) ← readNum 2 s
  let s ← readChar 'T' s
  let (H, s) ← readNum 2 s
  let s ← readChar ':' s
  let (M, s) ← readNum 2 s
  let s ← readChar ':' s
  let (S, s) ← readNum 2 s
  if 1 ≤ m ∧ m ≤ 12 ∧ 1 ≤ d ∧ d ≤ monthDays y m ∧ H < 24 ∧ M < 60 ∧ S < 60 then
    some (instant y m d H M S, s)
  else none

/-- `%FT%TZ`. -/
def parseDefault (s : List Char) : Option ℤ := do
  let (t, s) ← parseDateTime s
  let _ ← readChar 'Z' s
  some t

/-- A number of exactly two digits. -/
def read2 (s : List Char) : Option (ℕ × List Char) :=
  match s with
  | a :: b :: s => if isDigit a && isDigit b then some ((a.toNat - 48) * 10 + (b.toNat - 48), s) else none
  | _ => none

/-- `%Ez`: a sign, one or two digits of hours, and minutes after a colon; in seconds. -/
def parseOffset (s : List Char) : Option ℤ := do
  let (neg, s) ← match s with
    | '-' :: s => some (true, s)
    | '+' :: s => some (false, s)
    | s => some (false, s)
  let (H, s) ← readNum 2 s
  let M ← match s with
    | ':' :: s => (read2 s).map (·.1)
    | _ => some 0
  let o : ℤ := H * 3600 + M * 60
  some (if neg then -o else o)

/-- `%FT%T%Ez`. -/
def parseSecondary (s : List Char) : Option ℤ := do
  let (t, s) ← parseDateTime s
  let o ← parseOffset s
  some (t - o)

/-- convert.cpp:47-59: the seconds that are read; if both formats fail, `tm` keeps its initial value. -/
def readSeconds (s : List Char) : ℤ :=
  match parseDefault s with
  | some t => t
  | none =>
    match parseSecondary s with
    | some t => t
    | none => 0

/-- convert.cpp:47-60 `timePointFromIsoString`, in nanoseconds; the conversion of seconds to the time point
of the system clock multiplies in 64 bits with sign. -/
def fromIso (s : List Char) : Res ℤ :=
  let t := readSeconds s * 10 ^ 9
  if -2 ^ 63 ≤ t ∧ t < 2 ^ 63 then .ok t else .ub

end EG.Date
