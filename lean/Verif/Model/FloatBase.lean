import Verif.Model.FloatSun
/-!
# Model of the base vectors of GSM, SM and MAG (`chaosmagpy/coordinate_utils.py` 120-202, 1131-1154, 1182-1212, 1237-1243) in double precision

For one time and one dipole, with the rounding of every operation. A vector is three floats (`FloatLegendre.F`).
-/
namespace ChaosMagPy.FloatBase
open ChaosMagPy.Spec ChaosMagPy.FloatLegendre ChaosMagPy.FloatGeod

variable (R : Rounding)

/-- A vector of floats. -/
abbrev FVec := Fin 3 → F

/-- `np.cross(a, b)`: two rounded products and their rounded difference in each component. -/
noncomputable def fcross (a b : FVec) : FVec :=
  ![fsub R (fmul R (a 1) (b 2)) (fmul R (a 2) (b 1)), fsub R (fmul R (a 2) (b 0)) (fmul R (a 0) (b 2)), fsub R (fmul R (a 0) (b 1)) (fmul R (a 1) (b 0))]

/-- The sum of three floats by `np.add.reduce` in one of the possible orders, which NumPy does not fix: an argument of the functions below. -/
def IsSum3 (sum3 : F → F → F → F) : Prop :=
  ∀ x y z, sum3 x y z = fadd R (fadd R x y) z ∨ sum3 x y z = fadd R x (fadd R y z) ∨ sum3 x y z = fadd R (fadd R x z) y

/-- `np.linalg.norm(v, axis=-1)`: the root of the sum of the squares. -/
noncomputable def fnorm (sum3 : F → F → F → F) (v : FVec) : F := fsqrt R (sum3 (fmul R (v 0) (v 0)) (fmul R (v 1) (v 1)) (fmul R (v 2) (v 2)))

/-- `v / np.linalg.norm(v, axis=-1, keepdims=True)`. -/
noncomputable def normalize (sum3 : F → F → F → F) (v : FVec) : FVec := fun i => fdiv R (v i) (fnorm R sum3 v)

/-- `_dipole_to_unit(np.array([g10, g11, h11]))` and `_dipole_to_unit(g10, g11, h11)` (lines 140-144, 154-159): the coefficients are moved into the order
`g11`, `h11`, `g10`; minus the vector is divided by the norm of the vector. -/
noncomputable def dipoleCoeffs (sum3 : F → F → F → F) (g10 g11 h11 : ℝ) : FVec :=
  let vector : FVec := ![some g11, some h11, some g10]
  fun i => fdiv R (fneg (vector i)) (fnorm R sum3 vector)

/-- `_dipole_to_unit(theta, phi)` (lines 146-152). -/
noncomputable def dipoleAngles (sin cos : ℝ → ℝ) (theta phi : ℝ) : FVec :=
  let theta := radians R theta
  let phi := radians R phi
  ![some (R (sin theta * cos phi)), some (R (sin theta * sin phi)), some (cos theta)]

/-- The vector to the sun (lines 1134-1143, 1185-1192): `sun_position`, then `spherical_to_cartesian` with radius 1. -/
noncomputable def sunVector (p : FloatSun.SunPlatform) (time : ℝ) : FVec :=
  match FloatSun.sunPosition R p time with
  | (some thetaSun, some phiSun) =>
    let c := FloatCoord.sphericalToCartesian R p.cos p.sin 1 thetaSun phiSun
    ![some c.1, some c.2.1, some c.2.2]
  | _ => fun _ => none

/-- `basevectors_gsm` (lines 1131-1154) for the unit vector of the dipole. -/
noncomputable def baseGsm (sum3 : F → F → F → F) (p : FloatSun.SunPlatform) (time : ℝ) (vec : FVec) : FVec × FVec × FVec :=
  let gsm1 := sunVector R p time
  let gsm2 := normalize R sum3 (fcross R vec gsm1)
  (gsm1, gsm2, fcross R gsm1 gsm2)

/-- `basevectors_sm` (lines 1182-1212) for the unit vector of the dipole. -/
noncomputable def baseSm (sum3 : F → F → F → F) (p : FloatSun.SunPlatform) (time : ℝ) (vec : FVec) : FVec × FVec × FVec :=
  let sm2 := normalize R sum3 (fcross R vec (sunVector R p time))
  (fcross R sm2 vec, sm2, vec)

/-- `basevectors_mag` (lines 1237-1243) for the unit vector of the dipole. -/
noncomputable def baseMag (sum3 : F → F → F → F) (vec : FVec) : FVec × FVec × FVec :=
  let mag2 := normalize R sum3 (fcross R ![some 0, some 0, some 1] vec)
  (fcross R mag2 vec, mag2, vec)

end ChaosMagPy.FloatBase
