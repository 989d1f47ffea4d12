import Mathlib.Algebra.Order.Floor.Ring
import Mathlib.Tactic.NormNum
/-!
# Model of the time functions of `chaosmagpy/data_utils.py` (lines 384-642)

NumPy's `datetime64` is modelled by NumPy's own integer algorithms (`datetime.c`:
`get_datetimestruct_days`, `days_to_yearsdays`) and by 64-bit wrap-around for the nanosecond unit.
Fractions of days and decimal years live in an arbitrary ordered field with floor (`ℚ`, `ℝ`): binary
rounding is not modelled.  `NaT` (the single value `-2^63`) is not treated specially.
-/
namespace ChaosMagPy.Time

/-- Exceptions of the time functions. -/
inductive Err where
  | valueError   -- NumPy: error parsing datetime string
  | typeError
  deriving DecidableEq, Repr

/-- Element types an array handed to `is_leap_year` can have. -/
inductive DType where
  | int64 | int32 | int16 | int8 | uint64 | uint32 | bool | float64 | float32 | object | str
  deriving DecidableEq

/-- `np.issubdtype(dtype, int)`: Python's `int` stands for NumPy's default integer (64 bit on all
platforms of NumPy ≥ 2 and on Linux/macOS before). -/
def DType.isSubInt : DType → Bool
  | .int64 => true
  | _ => false

/-- The Boolean returned by `is_leap_year`, data_utils.py:530-532; `np.remainder` has the sign of the
divisor. -/
def isLeap (year : Int) : Bool := decide (year % 4 = 0) && (decide (year % 100 ≠ 0) || decide (year % 400 = 0))

/-- `is_leap_year`, data_utils.py:498-532, for an array (here: list) with its dtype. -/
def isLeapYear (dtype : DType) (years : List Int) : Except Err (List Bool) :=
  if ¬ dtype.isSubInt then .error .typeError else .ok (years.map isLeap)

/-! ### NumPy `datetime64` -/

/-- NumPy's own leap year test (`is_leapyear` in `datetime.c`). -/
def npIsLeap (y : Int) : Bool := (y % 4 == 0) && (y % 100 != 0 || y % 400 == 0)

/-- NumPy's `_days_per_month_table`. -/
def npMonthLengths (leap : Bool) : List Int :=
  if leap then [31, 29, 31, 30, 31, 30, 31, 31, 30, 31, 30, 31]
  else [31, 28, 31, 30, 31, 30, 31, 31, 30, 31, 30, 31]

/-- NumPy's `get_datetimestruct_days`: days since 1970-01-01 (C division truncates). -/
def npDays (year : Int) (month day : Nat) : Int :=
  let y0 := year - 1970
  let d0 := y0 * 365
  let d1 :=
    if d0 ≥ 0 then
      d0 + (y0 + 1).tdiv 4 - (y0 + 1 + 68).tdiv 100 + (y0 + 1 + 68 + 300).tdiv 400
    else
      d0 + (y0 - 2).tdiv 4 - (y0 - 2 - 28).tdiv 100 + (y0 - 2 - 28).tdiv 400
  d1 + ((npMonthLengths (npIsLeap year)).take (month - 1)).sum + (day - 1 : Int)

/-- NumPy's `days_to_yearsdays`: the year of a day number since 1970-01-01 (used by
`astype('datetime64[Y]')`). -/
def npYearOfDays (days : Int) : Int :=
  let d0 := days - (365 * 30 + 7)
  let p400 : Int := 400 * 365 + 100 - 4 + 1
  let y1 := if d0 ≥ 0 then 400 * d0.tdiv p400 else 400 * (d0 - (p400 - 1)).tdiv p400
  let r := d0.tmod p400
  let d1 := if d0 ≥ 0 then r else if r < 0 then r + p400 else r
  if d1 ≥ 366 then
    let y2 := y1 + 100 * (d1 - 1).tdiv (100 * 365 + 25 - 1)
    let d2 := (d1 - 1).tmod (100 * 365 + 25 - 1)
    if d2 ≥ 365 then
      let y3 := y2 + 4 * (d2 + 1).tdiv (4 * 365 + 1)
      let d3 := (d2 + 1).tmod (4 * 365 + 1)
      if d3 ≥ 366 then y3 + (d3 - 1).tdiv 365 + 2000 else y3 + 2000
    else y2 + 2000
  else y1 + 2000

/-- Reduce an integer to a signed 64-bit value (two's complement). -/
def wrap64 (x : Int) : Int := (x + 2^63) % 2^64 - 2^63

/-- Nanoseconds per day. -/
def nsPerDay : Int := 86400000000000

/-- NumPy's ISO-8601 parser applied to the string `year-month-day` built in data_utils.py:441-447
(`str(year)`, zero-filled month and day): it insists on a four-digit year (an optional minus sign
before it), a month in 1..12 and a day inside the month.  Here the string is not materialised; `Model/TimeArr`
writes and reads its characters (`C80_date_string`). -/
def parseDate (year : Int) (month day : Int) : Except Err (Int × Nat × Nat) :=
  if year.natAbs < 1000 ∨ 9999 < year.natAbs then .error .valueError
  else if month < 1 ∨ 12 < month then .error .valueError
  else if day < 1 ∨ (npMonthLengths (npIsLeap year)).getD (month.toNat - 1) 0 < day then
    .error .valueError
  else .ok (year, month.toNat, day.toNat)

/-- A `datetime64[ns]`: nanoseconds since 1970-01-01 in 64 bits. -/
abbrev NS := Int

/-- `np.datetime64('2000-01-01', 'ns')`. -/
def epochNs : NS := wrap64 (npDays 2000 1 1 * nsPerDay)

section
variable {K : Type*} [Field K] [LinearOrder K] [IsStrictOrderedRing K]

/-- `(datetime - np.datetime64('2000-01-01', 'ns')) / np.timedelta64(1, 'D')`,
data_utils.py:461-463: the difference is again a 64-bit number of nanoseconds. -/
def nsToMjd (K : Type*) [Field K] (ns : NS) : K := ((wrap64 (ns - epochNs) : Int) : K) / (nsPerDay : K)

/-- `mjd2000`, data_utils.py:384-463, for integer date components. -/
def mjd2000 (K : Type*) [Field K] (year : Int) (month day : Int := 1) (hour minute second microsecond nanosecond : Int := 0) :
    Except Err K :=
  match parseDate year month day with
  | .error e => .error e
  | .ok (y, m, d) =>
    let t0 := wrap64 (npDays y m d * nsPerDay)
    let t1 := wrap64 (t0 + wrap64 (hour * 3600000000000))
    let t2 := wrap64 (t1 + wrap64 (minute * 60000000000))
    let t3 := wrap64 (t2 + wrap64 (second * 1000000000))
    let t4 := wrap64 (t3 + wrap64 (microsecond * 1000))
    let t5 := wrap64 (t4 + wrap64 nanosecond)
    .ok (nsToMjd K t5)

/-- `mjd2000` applied to a `datetime64` value, data_utils.py:433-436. -/
def mjd2000OfDatetime (K : Type*) [Field K] (ns : NS) : K := nsToMjd K ns

variable [FloorRing K]

/-- C's conversion of a floating point number to an integer: toward zero. -/
def truncZ (x : K) : Int := if 0 ≤ x then ⌊x⌋ else ⌈x⌉

/-- `timestamp`, data_utils.py:466-495: `time * 86400e9 * np.timedelta64(1, 'ns')` truncates the float
to an integer number of nanoseconds. -/
def timestamp (time : K) : NS := wrap64 (wrap64 (truncZ (time * 86400000000000)) + epochNs)

/-- `dyear_to_mjd`, data_utils.py:535-586.  `leapYear` is the option after the default `True`. -/
def dyearToMjd (leapYear : Bool) (time : K) : Except Err K :=
  if leapYear then
    let year := ⌊time⌋
    let fracOfYear := Int.fract time            -- np.remainder(time, 1.)
    let daysPerYear : K := if isLeap year then 366 else 365
    let days := fracOfYear * daysPerYear
    match mjd2000 K year 1 1 with
    | .error e => .error e
    | .ok m => .ok (m + days)
  else .ok ((time - 2000) * 365.25)

/-- `mjd_to_dyear`, data_utils.py:589-642.  The date has day resolution, its year comes from
`astype('datetime64[Y]')` (which counts years since 1970). -/
def mjdToDyear (leapYear : Bool) (time : K) : Except Err K :=
  if leapYear then
    let date := ⌊time⌋ + npDays 2000 1 1
    let year := (npYearOfDays date - 1970) + 1970
    match mjd2000 K year 1 1 with
    | .error e => .error e
    | .ok m =>
      let days := time - m
      let daysPerYear : K := if isLeap year then 366 else 365
      .ok (year + days / daysPerYear)
  else .ok (time / 365.25 + 2000)

end

end ChaosMagPy.Time
