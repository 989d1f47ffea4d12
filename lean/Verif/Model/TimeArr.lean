import Verif.Model.Time
import Verif.Model.Shc
import Verif.Model.NumPy
/-!
# Model of the time functions of `chaosmagpy/data_utils.py` (lines 384-642) for arrays, dates as character strings

Arrays as in `Model/NumPy`. The date strings which `mjd2000` builds are lists of characters, and NumPy's parser
(`NpyDatetime_ParseISO8601Datetime` in `datetime_strings.c`) reads them character by character.
-/
namespace ChaosMagPy.TimeArr
open ChaosMagPy.Time ChaosMagPy.NumPy
open ChaosMagPy.Shc (natVal isDigit intStr)

/-- Elementwise function of two arrays with broadcasting; shapes that do not fit give ValueError. -/
def op2 {α β γ : Type} (f : α → β → γ) (a : Arr α) (b : Arr β) : Except Err (Arr γ) :=
  (map2 f a b).mapError fun _ => .valueError

/-- `np.char.zfill(s, 2)` (a leading sign stays in front), data_utils.py:446-447. -/
def zfill2 (s : List Char) : List Char :=
  match s with
  | '-' :: t => '-' :: (List.replicate (2 - s.length) '0' ++ t)
  | _ => List.replicate (2 - s.length) '0' ++ s

/-- NumPy's parser for ISO 8601 dates: an optional minus sign, four digits of the year, `-`, two digits of the month, `-`, two digits of
the day; the date may end after the year or the month. Simplification: leading white space, the words `NaT`, `now`, `today` and a time
after the date are not read (strings that `mjd2000` builds from integers do not have them). -/
def isoDate (s : List Char) : Except Err (Int × Nat × Nat) :=
  let neg := s.head? = some '-'
  let s := if neg then s.tail else s
  if (s.take 4).length < 4 ∨ ¬ (s.take 4).all isDigit then .error .valueError
  else
    let year : Int := if neg then -(natVal (s.take 4) : Int) else natVal (s.take 4)
    match s.drop 4 with
    | [] => .ok (year, 1, 1)
    | c :: s =>
      if c ≠ '-' then .error .valueError
      else if (s.take 2).length < 2 ∨ ¬ (s.take 2).all isDigit then .error .valueError
      else
        let month := natVal (s.take 2)
        if month < 1 ∨ 12 < month then .error .valueError
        else
          match s.drop 2 with
          | [] => .ok (year, month, 1)
          | c :: s =>
            if c ≠ '-' then .error .valueError
            else if (s.take 2).length < 2 ∨ ¬ (s.take 2).all isDigit then .error .valueError
            else
              let day := natVal (s.take 2)
              if day < 1 ∨ (npMonthLengths (npIsLeap year)).getD (month - 1) 0 < day then .error .valueError
              else if s.drop 2 ≠ [] then .error .valueError
              else .ok (year, month, day)

/-- One element of `astype('datetime64[ns]')` of an array of strings. -/
def isoNs (s : List Char) : Except Err NS :=
  match isoDate s with
  | .error e => .error e
  | .ok (y, m, d) => .ok (wrap64 (npDays y m d * nsPerDay))

/-- `datetime.astype('datetime64[ns]')` of an array of strings, data_utils.py:452: the first string that cannot be read raises ValueError. -/
def parseAll (a : Arr (List Char)) : Except Err (Arr NS) :=
  match a.data.mapM isoNs with
  | .error e => .error e
  | .ok _ => .ok (a.map fun s => match isoNs s with | .ok t => t | .error _ => 0)

/-- Units of a `datetime64` array (calendar years, months and units below the nanosecond are left out). -/
inductive DateUnit where
  | D | h | m | s | ms | us | ns

/-- Nanoseconds of a unit. -/
def DateUnit.factor : DateUnit → Int
  | .D => 86400000000000
  | .h => 3600000000000
  | .m => 60000000000
  | .s => 1000000000
  | .ms => 1000000
  | .us => 1000
  | .ns => 1

/-- Python objects in an array of dtype `object`: `datetime.datetime` (without time zone) and integers. -/
inductive PyObj where
  | datetime (year : Int) (month day : Nat) (hour minute second microsecond : Int)
  | int (z : Int)

/-- NumPy's conversion of a Python object to `datetime64[ns]` (`convert_pyobject_to_datetime`): a datetime by its fields, an integer is
taken as the number of nanoseconds since 1970. -/
def PyObj.toNs : PyObj → NS
  | .datetime y m d h mi s us => wrap64 (npDays y m d * nsPerDay + (((h * 60 + mi) * 60 + s) * 1000000 + us) * 1000)
  | .int z => z

/-- The first argument of `mjd2000`. -/
inductive Years where
  | ints (a : Arr Int)                        -- integers
  | stamps (u : DateUnit) (a : Arr Int)       -- datetime64[u]
  | objects (a : Arr PyObj)                   -- dtype object: the dtype of np.dtype(datetime.datetime)

section
variable (K : Type) [Field K]

/-- `mjd2000(year, month, ...)`, data_utils.py:437-463. -/
def mjd2000 (year : Years) (month day hour minute second microsecond nanosecond : Arr Int) : Except Err (Arr K) := do
  let datetime ← match year with
    | .stamps u a => pure (a.map fun z => wrap64 (z * u.factor))
    | .objects a => pure (a.map PyObj.toNs)
    | .ints year => do
      let year := year.map intStr
      let month := (month.map intStr).map zfill2
      let day := (day.map intStr).map zfill2
      let yearMonth ← op2 (· ++ ·) (year.map (· ++ ['-'])) month
      let datetime ← op2 (· ++ ·) (yearMonth.map (· ++ ['-'])) day
      let datetime ← parseAll datetime
      let datetime ← op2 (fun t n => wrap64 (t + wrap64 (n * 3600000000000))) datetime hour
      let datetime ← op2 (fun t n => wrap64 (t + wrap64 (n * 60000000000))) datetime minute
      let datetime ← op2 (fun t n => wrap64 (t + wrap64 (n * 1000000000))) datetime second
      let datetime ← op2 (fun t n => wrap64 (t + wrap64 (n * 1000))) datetime microsecond
      op2 (fun t n => wrap64 (t + wrap64 n)) datetime nanosecond
  return datetime.map (nsToMjd K)

/-- `is_leap_year(year)`, data_utils.py:523-532. -/
def isLeapYear (dtype : DType) (year : Arr Int) : Except Err (Arr Bool) :=
  if ¬ dtype.isSubInt then .error .typeError
  else .ok (year.map fun y => decide (y % 4 = 0) && (decide (y % 100 ≠ 0) || decide (y % 400 = 0)))

/-- `np.where(isleap, 366., 365.)`, data_utils.py:572, 632. -/
def daysPerYear (isleap : Arr Bool) : Arr K := isleap.map fun b => if b then 366 else 365

variable {K} [LinearOrder K] [IsStrictOrderedRing K] [FloorRing K]

/-- `timestamp(time)`, data_utils.py:492-495. -/
def timestamp (time : Arr K) : Arr NS :=
  let ns := time.map fun t => wrap64 (truncZ (t * 86400000000000))
  ns.map fun n => wrap64 (n + epochNs)

/-- `dyear_to_mjd(time, leap_year)`, data_utils.py:565-586; `none` is the default `None`. The last branch cannot be reached. -/
def dyearToMjd (leapYear : Option Bool) (time : Arr K) : Except Err (Arr K) := do
  if leapYear.getD true then
    let year := time.map fun t => ⌊t⌋
    let fracOfYear := time.map fun t => Int.fract t
    let isleap ← isLeapYear .int64 year
    let days ← op2 (· * ·) fracOfYear (daysPerYear K isleap)
    let mjd ← mjd2000 K (.ints year) (scalar 1) (scalar 1) (scalar 0) (scalar 0) (scalar 0) (scalar 0) (scalar 0)
    op2 (· + ·) mjd days
  else
    return time.map fun t => (t - 2000) * 365.25

/-- `mjd_to_dyear(time, leap_year)`, data_utils.py:622-642. The last branch cannot be reached. -/
def mjdToDyear (leapYear : Option Bool) (time : Arr K) : Except Err (Arr K) := do
  if leapYear.getD true then
    let date := time.map fun t => ⌊t⌋ + npDays 2000 1 1
    let year := date.map fun d => (npYearOfDays d - 1970) + 1970
    let mjd ← mjd2000 K (.ints year) (scalar 1) (scalar 1) (scalar 0) (scalar 0) (scalar 0) (scalar 0) (scalar 0)
    let days ← op2 (· - ·) time mjd
    let isleap ← isLeapYear .int64 year
    let part ← op2 (· / ·) days (daysPerYear K isleap)
    op2 (fun (y : Int) (p : K) => (y : K) + p) year part
  else
    return time.map fun t => t / 365.25 + 2000

end

end ChaosMagPy.TimeArr
