import Verif.Model.FloatGeod
import Verif.Model.FloatAzimuth
/-!
# Model of `sun_position` (`chaosmagpy/coordinate_utils.py` 758-792) in double precision

For one time after the check (lines 760-762, model of C42), with the rounding of every operation; a float is `some x` or `none` for NaN
(`FloatLegendre.F`). Decimal constants are rounded, `np.pi` is the double next to `π`.
-/
namespace ChaosMagPy.FloatSun
open ChaosMagPy.Spec ChaosMagPy.FloatLegendre ChaosMagPy.FloatGeod ChaosMagPy.FloatAzimuth

variable (R : Rounding)

/-- The functions of the platform. -/
structure SunPlatform where
  sin : ℝ → ℝ
  cos : ℝ → ℝ
  tan : ℝ → ℝ
  arctan : ℝ → ℝ
  arctan2 : ℝ → ℝ → ℝ

/-- `julian_date` (line 765): the integer `365*100 + 99//4 = 36524`, plus the time, plus 0.5. -/
noncomputable def julianDate (time : ℝ) : ℝ := R (R (36524 + time) + 1 / 2)

/-- `x*rad` with `rad = np.pi/180` (line 758), the same operations as `np.radians` (`FloatLegendre.radians`). -/
noncomputable def timesRad (x : ℝ) : ℝ := R (x * R (R Real.pi / 180))

/-- `obliq` (lines 767, 772). -/
noncomputable def obliquity (time : ℝ) : ℝ := R (R 23.45229 - R (R 0.0130125 * R (julianDate R time / 36525)))

/-- `slp` (lines 767-773). -/
noncomputable def longitude (sin : ℝ → ℝ) (time : ℝ) : ℝ :=
  let jd := julianDate R time
  let t := R (jd / 36525)
  let v := remainder R (R (R 279.696678 + R (R 0.9856473354 * jd))) 360
  let g := remainder R (R (R 358.475845 + R (R 0.985600267 * jd))) 360
  let slong := R (R (v + R (R (R 1.91946 - R (R 0.004789 * t)) * sin (timesRad R g))) + R (R 0.020094 * sin (timesRad R (R (2 * g)))))
  R (slong - R 0.005686)

/-- `gmst` (lines 764, 786-787). -/
noncomputable def siderealTime (time : ℝ) : ℝ :=
  timesRad R (remainder R (R (R (R (R 279.690983 + R (R 0.9856473354 * julianDate R time)) + R (360 * remainder R time 1)) + 180)) 360)

/-- `sun_position(time)` (lines 775-792). -/
noncomputable def sunPosition (p : SunPlatform) (time : ℝ) : F × F :=
  let obliq := timesRad R (obliquity R time)
  let slp := timesRad R (longitude R p.sin time)
  let sind : F := fmul R (some (p.sin obliq)) (some (p.sin slp))
  let cosd := fsqrt R (fsub R (some 1) (fsq R sind))
  let declination := (fdiv R sind cosd).map p.arctan
  let rightAscension := match fdiv R sind (fmul R cosd (some (p.tan obliq))), fdiv R (some (-p.cos slp)) cosd with
    | some y, some x => some (R (R Real.pi - p.arctan2 y x))
    | _, _ => none
  (declination.map fun d => FloatCoord.degrees R (R (R (R Real.pi / 2) - d)),
    rightAscension.map fun ra => centerAzimuth R (FloatCoord.degrees R (R (ra - siderealTime R time))))

/-- `zenith_angle(time, theta, phi)` (lines 817-827): position of the sun, then the angle (`FloatCoord.zenithAngle`). -/
noncomputable def zenithAngle (p : SunPlatform) (arccos : ℝ → ℝ) (time theta phi : ℝ) : F :=
  match sunPosition R p time with
  | (some thetaSun, some phiSun) => FloatCoord.zenithAngle R p.cos p.sin arccos thetaSun phiSun theta phi
  | _ => none

end ChaosMagPy.FloatSun
