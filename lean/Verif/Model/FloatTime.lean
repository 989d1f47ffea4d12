import Verif.Model.Time
import Verif.Spec.Float
import Mathlib.Data.Real.Archimedean
import Mathlib.Data.Real.Sqrt
/-!
# Model in floating point arithmetic

The functions of `data_utils.py` and `coordinate_utils.py` whose result depends on the rounding in an observable way: `R x` is the double that
the processor returns for the exact result `x` of one operation. Doubles are the real numbers `x` with `IsDouble x`; infinities, NaN, overflow
and the sign of zero are not modelled.
-/
namespace ChaosMagPy.Float
open ChaosMagPy.Spec ChaosMagPy.Time

variable (R : Rounding)

/-- C's `fmod`, which is exact: `a - b trunc(a/b)`. -/
noncomputable def fmod (a b : ℝ) : ℝ := a - truncZ (a / b) * b

open Classical in
/-- `np.remainder(a, b)` and `a % b` for doubles (NumPy's `npy_remainder`, Python's `float_rem`): the result of `fmod`, to which `b` is added
if it does not have the sign of `b`. Simplification: `b` is not zero. -/
noncomputable def remainder (a b : ℝ) : ℝ :=
  let m := fmod a b
  if m = 0 then 0 else if (b < 0) = (m < 0) then m else R (m + b)

/-- `nanoseconds / np.timedelta64(1, 'D')`, data_utils.py:461-463: NumPy divides the two 64-bit integers as doubles. -/
noncomputable def nsToMjd (ns : NS) : ℝ := R (R ((wrap64 (ns - epochNs) : Int) : ℝ) / R ((nsPerDay : Int) : ℝ))

/-- `mjd2000`, data_utils.py:384-463, for integer date components (see `Time.mjd2000`). -/
noncomputable def mjd2000 (year : Int) (month day : Int := 1) (hour minute second microsecond nanosecond : Int := 0) : Except Err ℝ :=
  match parseDate year month day with
  | .error e => .error e
  | .ok (y, m, d) =>
    let t0 := wrap64 (npDays y m d * nsPerDay)
    let t1 := wrap64 (t0 + wrap64 (hour * 3600000000000))
    let t2 := wrap64 (t1 + wrap64 (minute * 60000000000))
    let t3 := wrap64 (t2 + wrap64 (second * 1000000000))
    let t4 := wrap64 (t3 + wrap64 (microsecond * 1000))
    let t5 := wrap64 (t4 + wrap64 nanosecond)
    .ok (nsToMjd R t5)

/-- `mjd2000` applied to a `datetime64` value, data_utils.py:433-436. -/
noncomputable def mjd2000OfDatetime (ns : NS) : ℝ := nsToMjd R ns

/-- `timestamp`, data_utils.py:466-495: the product with `np.timedelta64(1, 'ns')` is taken in doubles (multiplication with one) and truncated. -/
noncomputable def timestamp (time : ℝ) : NS := wrap64 (wrap64 (truncZ (R (R (time * 86400000000000) * 1))) + epochNs)

/-- `dyear_to_mjd`, data_utils.py:535-586. -/
noncomputable def dyearToMjd (leapYear : Bool) (time : ℝ) : Except Err ℝ :=
  if leapYear then
    let year := ⌊time⌋
    let fracOfYear := remainder R time 1
    let daysPerYear : ℝ := if isLeap year then 366 else 365
    let days := R (fracOfYear * daysPerYear)
    match mjd2000 R year 1 1 with
    | .error e => .error e
    | .ok m => .ok (R (m + days))
  else .ok (R (R (time - 2000) * 365.25))

/-- `mjd_to_dyear`, data_utils.py:589-642. -/
noncomputable def mjdToDyear (leapYear : Bool) (time : ℝ) : Except Err ℝ :=
  if leapYear then
    let date := ⌊time⌋ + npDays 2000 1 1
    let year := (npYearOfDays date - 1970) + 1970
    match mjd2000 R year 1 1 with
    | .error e => .error e
    | .ok m =>
      let days := R (time - m)
      let daysPerYear : ℝ := if isLeap year then 366 else 365
      .ok (R (R (year : ℝ) + R (days / daysPerYear)))
  else .ok (R (R (time / 365.25) + 2000))

/-- `center_azimuth(phi)`, coordinate_utils.py:1591-1615. -/
noncomputable def centerAzimuth (phi : ℝ) : ℝ :=
  let phi := remainder R phi 360
  if phi > 180 then R (phi - 360) else phi

/-- `local_time(time, phi)`, coordinate_utils.py:1618-1637. -/
noncomputable def localTime (time phi : ℝ) : ℝ := R (remainder R (R (time + R (phi / 360))) 1 * 24)

/-- `int(np.sqrt(dim + 1) - 1)`, chaos.py:328 and 987, data_utils.py:328, model_utils.py:317, 1030, 1102 and 1158. -/
noncomputable def degreeOf (dim : ℕ) : ℤ := truncZ (R (R (Real.sqrt (R ((dim + 1 : ℕ) : ℝ))) - 1))

/-- `int(np.sqrt(dim + nmin**2) - 1)`, model_utils.py:519; the sum is one of integers. -/
noncomputable def degreeFrom (dim nmin : ℕ) : ℤ := truncZ (R (R (Real.sqrt (R ((dim + nmin ^ 2 : ℕ) : ℝ))) - 1))

end ChaosMagPy.Float
