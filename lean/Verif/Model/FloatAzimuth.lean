import Verif.Spec.Float
import Mathlib.Data.Real.Archimedean
/-!
# Model of `center_azimuth` and `local_time` (`chaosmagpy/coordinate_utils.py` 1591-1637) in double precision
-/
namespace ChaosMagPy.FloatAzimuth
open ChaosMagPy.Spec

/-- `fmod(x, m)` of C, which is exact: the remainder with the sign of `x`. -/
noncomputable def fmod (x m : ℝ) : ℝ := if 0 ≤ x then x - m * ⌊x / m⌋ else x + m * ⌊-x / m⌋

variable (R : Rounding)

open Classical in
/-- `x % m` and `np.remainder(x, m)` of doubles for `m > 0`: `m` is added to a negative remainder, with rounding. -/
noncomputable def remainder (x m : ℝ) : ℝ := if fmod x m < 0 then R (fmod x m + m) else fmod x m

open Classical in
/-- `center_azimuth(phi)` (lines 1609-1615). -/
noncomputable def centerAzimuth (phi : ℝ) : ℝ :=
  let phi := remainder R phi 360
  if phi > 180 then R (phi - 360) else phi

/-- `local_time(time, phi)` (line 1637). -/
noncomputable def localTime (time phi : ℝ) : ℝ := R (remainder R (R (time + R (phi / 360))) 1 * 24)

end ChaosMagPy.FloatAzimuth
