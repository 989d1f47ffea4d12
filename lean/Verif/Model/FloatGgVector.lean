import Verif.Model.FloatGgToGeo
/-!
# Model of the vector components of `geo_to_gg` and `gg_to_geo` in double precision

`chaosmagpy/coordinate_utils.py` 945-953, 1051-1059 and `basevectors_gg` (1083-1099), for one point, with the rounding of every operation. The sign change of a
float is exact.
-/
namespace ChaosMagPy.FloatGeod
open ChaosMagPy.Spec ChaosMagPy.FloatLegendre

variable (R : Rounding)

/-- The two components of `gg_1` and `gg_3` of `basevectors_gg(theta, beta)` that are used (lines 1083, 1093-1094, 1098-1099). -/
noncomputable def baseGg (sin cos : ℝ → ℝ) (theta beta : ℝ) : (ℝ × ℝ) × (ℝ × ℝ) :=
  let psi := radians R (R (theta - beta))
  ((-sin psi, -cos psi), (-cos psi, sin psi))

/-- `geo_to_gg(radius, theta, B_radius, B_theta)` (lines 1008-1059): height, colatitude and the components `X`, `Z`; a colatitude that is NaN makes them NaN. -/
noncomputable def geoToGgVector (p : Platform) (a b radius theta Br Bt : ℝ) : F × F × F × F :=
  let g := geoToGg R p a b radius theta
  let base := g.2.map (baseGg R p.sin p.cos theta)
  (g.1, g.2, base.map fun e => R (R (e.1.1 * Br) + R (e.1.2 * Bt)), base.map fun e => R (R (e.2.1 * Br) + R (e.2.2 * Bt)))

/-- `gg_to_geo(height, beta, X, Z)` (lines 927-953): radius, colatitude and the components `B_radius`, `B_theta`. -/
noncomputable def ggToGeoVector (p : GgPlatform) (a b height beta X Z : ℝ) : F × F × F × F :=
  let g := ggToGeo R p a b height beta
  let base := g.2.map fun theta => baseGg R p.sin p.cos theta beta
  (g.1, g.2, base.map fun e => R (R (e.1.1 * X) + R (e.2.1 * Z)), base.map fun e => R (R (e.1.2 * X) + R (e.2.2 * Z)))

end ChaosMagPy.FloatGeod
