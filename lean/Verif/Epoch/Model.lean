import Mathlib.Data.Int.Log
import Mathlib.Data.Rat.Floor

/-!
Model of `thetis/timezone.py`.  Times are integer numbers of microseconds.  The Python operations used
are `datetime.__sub__`, `timedelta.total_seconds`, `timedelta(seconds=...)` and `datetime.__add__`;
their behaviour is that of the documentation and of CPython (trusted base).  Floats are binary64
numbers with round-to-nearest-even; overflow of the exponent does not occur in this range.
-/

namespace Verif.Epoch

/-- Round half to even. -/
def rhe (r : ℚ) : ℤ :=
  if r - ⌊r⌋ < 1 / 2 then ⌊r⌋
  else if 1 / 2 < r - ⌊r⌋ then ⌊r⌋ + 1
  else if ⌊r⌋ % 2 = 0 then ⌊r⌋ else ⌊r⌋ + 1

/-- Exponent of the last bit of the binary64 numbers next to `x`. -/
def lastBit (x : ℚ) : ℤ := Int.log 2 |x| - 52

/-- Rounding of a rational to binary64. -/
def fl (x : ℚ) : ℚ := if x = 0 then 0 else rhe (x / 2 ^ lastBit x) * 2 ^ lastBit x

/-- A datetime: `local'` is the microsecond count of the displayed date and time since 1970-01-01
00:00, `offset` the UTC offset in microseconds of an aware datetime (`none`: naive). -/
structure DateTime where
  local' : ℤ
  offset : Option ℤ

/-- `datetime.min` and `datetime.max` in microseconds since 1970. -/
def minLocal : ℤ := -62135596800000000
/-- See `minLocal`. -/
def maxLocal : ℤ := 253402300799999999

/-- `epoch`, timezone.py:7. -/
def epoch : DateTime := ⟨0, some 0⟩

/-- `FixedTimeZone(offset, name)`, timezone.py:10-22, for a whole number of hours: the offset in
microseconds; `none` is the ValueError of pytz for 24 hours or more. -/
def fixedTimeZone (hours : ℤ) : Option ℤ :=
  let minutes := hours * 60
  if |minutes| ≥ 1440 then none else some (minutes * 60 * 1000000)

/-- Difference of two datetimes as a microsecond count: UTC difference of aware ones; `none` is the
TypeError of mixing naive and aware ones. -/
def sub (a b : DateTime) : Option ℤ :=
  match a.offset, b.offset with
  | some x, some y => some ((a.local' - x) - (b.local' - y))
  | none, none => some (a.local' - b.local')
  | _, _ => none

/-- `timedelta.total_seconds()`: exact quotient rounded to binary64. -/
def totalSeconds (us : ℤ) : ℚ := fl (us / 1000000)

/-- Truncation towards zero, the integer part of `modf`. -/
def trunc (x : ℚ) : ℤ := if 0 ≤ x then ⌊x⌋ else -⌊-x⌋

/-- `timedelta(seconds=t)` as a microsecond count: the whole seconds exactly, plus the fraction times
1e6 in floating point, the sum rounded half to even. -/
def ofSeconds (t : ℚ) : ℤ :=
  let whole := trunc t
  rhe (whole * 1000000 + fl ((t - whole) * 1000000))

/-- `datetime_to_epoch`, timezone.py:31-35. -/
def toEpoch (t : DateTime) : Option ℚ := (sub t epoch).map totalSeconds

/-- `epoch_to_datetime`, timezone.py:38-42; `none` is the OverflowError for dates Python cannot
represent. -/
def fromEpoch (t : ℚ) : Option DateTime :=
  let l := epoch.local' + ofSeconds t
  if minLocal ≤ l ∧ l ≤ maxLocal then some ⟨l, epoch.offset⟩ else none

end Verif.Epoch
