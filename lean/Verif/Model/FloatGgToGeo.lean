import Verif.Model.FloatGeod
/-!
# Model of `gg_to_geo` (`chaosmagpy/coordinate_utils.py` 927-942) in double precision

For one point, with the rounding of every operation; a float is `some x` or `none` for NaN (`FloatLegendre.F`).
-/
namespace ChaosMagPy.FloatGeod
open ChaosMagPy.Spec ChaosMagPy.FloatLegendre

variable (R : Rounding)

/-- The functions of the platform: sine, cosine, tangent, `x**4` and `arctan2`. -/
structure GgPlatform where
  sin : ℝ → ℝ
  cos : ℝ → ℝ
  tan : ℝ → ℝ
  pow4 : ℝ → ℝ
  arctan2 : ℝ → ℝ → ℝ

/-- `gg_to_geo(height, beta)` without vector components (lines 927-942): radius and colatitude, for the ellipsoid with radii `a` and `b`. -/
noncomputable def ggToGeo (p : GgPlatform) (a b height beta : ℝ) : F × F :=
  let c1 : F := some 1
  let a2 := fsq R (some a)
  let b2 := fsq R (some b)
  let alpha := radians R (R (90 - beta))
  let sin2 := fsq R (some (p.sin alpha))
  let cos2 := fsq R (some (p.cos alpha))
  let factor := fmul R (some height) (fsqrt R (fadd R (fmul R a2 cos2) (fmul R b2 sin2)))
  let theta := match fmul R (fadd R factor b2) (some (p.tan alpha)), fadd R factor a2 with
    | some y, some x => some (R (90 - FloatCoord.degrees R (p.arctan2 y x)))
    | _, _ => none
  let ba := fdiv R (some b) (some a)
  let radius := fsqrt R (fadd R (fadd R (fsq R (some height)) (fmul R (some 2) factor))
    (fdiv R (fmul R a2 (fsub R c1 (fmul R (fsub R c1 (ba.map p.pow4)) sin2))) (fsub R c1 (fmul R (fsub R c1 (fsq R ba)) sin2))))
  (radius, theta)

end ChaosMagPy.FloatGeod
