import Verif.Model.FloatLegendre
import Verif.Model.FloatCoord
/-!
# Model of `geo_to_gg` (`chaosmagpy/coordinate_utils.py` 1008-1048) in double precision

For one point, with the rounding of every operation; a float is `some x` or `none` for NaN (`FloatLegendre.F`).
-/
namespace ChaosMagPy.FloatGeod
open ChaosMagPy.Spec ChaosMagPy.FloatLegendre

variable (R : Rounding)

open Classical in
/-- `np.sqrt`: NaN for negative numbers. -/
noncomputable def fsqrt : F → F
  | some x => if x < 0 then none else some (R (Real.sqrt x))
  | none => none

/-- A square `x**2`, the rounded product. -/
noncomputable def fsq (x : F) : F := fmul R x x

/-- The functions of the platform: sine, cosine, `x**3`, `x**(1./3)` and `arctan2`. -/
structure Platform where
  sin : ℝ → ℝ
  cos : ℝ → ℝ
  cube : ℝ → ℝ
  cbrt : ℝ → ℝ
  arctan2 : ℝ → ℝ → ℝ

/-- `geo_to_gg(radius, theta)` without vector components (lines 1008-1048): height and geodetic colatitude, for the ellipsoid with radii `a` and `b`. -/
noncomputable def geoToGg (p : Platform) (a b radius theta : ℝ) : F × F :=
  let c1 : F := some 1
  let a2 := fsq R (some a)
  let b2 := fsq R (some b)
  let e2 := fdiv R (fsub R a2 b2) a2
  let e4 := fmul R e2 e2
  let ep2 := fdiv R (fsub R a2 b2) b2
  let r : F := some (R (radius * p.sin (radians R theta)))
  let z : F := some (R (radius * p.cos (radians R theta)))
  let r2 := fsq R r
  let z2 := fsq R z
  let bigF := fmul R (fmul R (some 54) b2) z2
  let G := fsub R (fadd R r2 (fmul R (fsub R c1 e2) z2)) (fmul R e2 (fsub R a2 b2))
  let c := fdiv R (fmul R (fmul R e4 bigF) r2) (G.map p.cube)
  let s := (fadd R (fadd R c1 c) (fsqrt R (fadd R (fsq R c) (fmul R (some 2) c)))).map p.cbrt
  let P := fdiv R bigF (fmul R (fmul R (some 3) (fsq R (fadd R (fadd R s (fdiv R c1 s)) c1))) (fsq R G))
  let Q := fsqrt R (fadd R c1 (fmul R (fmul R (some 2) e4) P))
  let radicand := fsub R (fsub R (fmul R (fmul R (some (1 / 2)) a2) (fadd R c1 (fdiv R c1 Q)))
    (fdiv R (fmul R (fmul R P (fsub R c1 e2)) z2) (fmul R Q (fadd R c1 Q)))) (fmul R (fmul R (some (1 / 2)) P) r2)
  let r0 := fadd R (fdiv R (fmul R (fmul R (fneg P) e2) r) (fadd R c1 Q)) (fsqrt R radicand)
  let U := fsqrt R (fadd R (fsq R (fsub R r (fmul R e2 r0))) z2)
  let V := fsqrt R (fadd R (fsq R (fsub R r (fmul R e2 r0))) (fmul R (fsub R c1 e2) z2))
  let z0 := fdiv R (fmul R b2 z) (fmul R (some a) V)
  let height := fmul R U (fsub R c1 (fdiv R b2 (fmul R (some a) V)))
  let beta := match fadd R z (fmul R ep2 z0), r with
    | some y, some x => some (R (90 - FloatCoord.degrees R (p.arctan2 y x)))
    | _, _ => none
  (height, beta)

end ChaosMagPy.FloatGeod
