import Verif.Model.Date

/-!
# The dates of a manifest across the C interface and in C# (facades/manifest.cpp, Manifest.cs)

`system_clock` counts in 64 bits with a sign, `hz` ticks in a second (10^9 in libstdc++, 10^6 in libc++, 10^7 on
Windows).  A date of C# is its number of milliseconds since 1970 in UTC; time zones are left out.
-/

namespace EG.Date

/-- The conversion of `uint64_t` to `int64_t`. -/
def toSigned (u : ℕ) : ℤ := if u < 2 ^ 63 then (u : ℤ) else (u : ℤ) - 2 ^ 64

/-- The conversion of `int64_t` to `uint64_t`. -/
def toUnsigned (i : ℤ) : ℕ := (i % 2 ^ 64).toNat

/-- facades/manifest.cpp:1638-1639 and 1705-1706: `time_point startDate(milliseconds{in_start_date})`, in ticks; the
conversion multiplies, which is undefined if the result does not fit. -/
def newDate (hz ms : ℕ) : Res ℤ :=
  let ticks := toSigned ms * ((hz / 1000 : ℕ) : ℤ)
  if -2 ^ 63 ≤ ticks ∧ ticks < 2 ^ 63 then .ok ticks else .ub

/-- facades/manifest.cpp:1795-1818 `eg_election_manifest_get_start_date` and `eg_election_manifest_get_end_date`. -/
def getDate (hz : ℕ) (ticks : ℤ) : ℕ := toUnsigned ((ticks * 1).tdiv hz)

/-- Manifest.cs:2281-2282 and 2353-2354: the constructors. -/
def csNewDate (hz : ℕ) (t : ℤ) : Res ℤ := newDate hz (toUnsigned t)

/-- Manifest.cs:2070-2089 `StartDate` and `EndDate`. -/
def csGetDate (hz : ℕ) (ticks : ℤ) : ℤ := toSigned (getDate hz ticks)

end EG.Date
