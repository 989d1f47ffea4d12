import Verif.Model.FloatTransform
import Verif.Spec.Coord
/-!
# Model of `basevectors_use`, `matrix_geo_to_base` and `transform_vectors` (`chaosmagpy/coordinate_utils.py` 1264-1299, 1473-1500, 1556-1588) in double precision

For one point, one time and one dipole, with the rounding of every operation. The result `none` is the `ValueError` at the poles.
-/
namespace ChaosMagPy.FloatBase
open ChaosMagPy.Spec ChaosMagPy.FloatLegendre

variable (R : Rounding)

/-- The check of `basevectors_use` (line 1267), `np.pi` is the double `R π`. -/
def polar (theta : ℝ) : Prop := radians R theta = 0 ∨ radians R theta = R Real.pi

open Classical in
/-- `basevectors_use(theta, phi)` (lines 1264-1299); `none` is the `ValueError` of line 1268. Simplification: all components are NaN if one of the angles is NaN. -/
noncomputable def basevectorsUse (sin cos : ℝ → ℝ) (theta phi : F) : Option (FVec × FVec × FVec) :=
  match theta, phi with
  | some theta, some phi =>
    if polar R theta then none
    else
      let theta := radians R theta
      let phi := radians R phi
      let sinPhi := sin phi
      let sinTheta := sin theta
      let cosPhi := cos phi
      let cosTheta := cos theta
      some (![some (R (sinTheta * cosPhi)), some (R (sinTheta * sinPhi)), some cosTheta],
        ![some (R (cosTheta * cosPhi)), some (R (cosTheta * sinPhi)), some (-sinTheta)],
        ![some (-sinPhi), some cosPhi, some 0])
  | _, _ => some (fun _ => none, fun _ => none, fun _ => none)

/-- The inner product of a row and a column in `np.matmul`, whose order of summation and use of fused multiplications NumPy does not fix: an argument of the functions below. For numbers up to 2
the result is a number with an error of at most `2e-14`. -/
def IsDot3 (dot3 : FVec → FVec → F) : Prop :=
  ∀ a b : Fin 3 → ℝ, (∀ i, |a i| ≤ 2) → (∀ i, |b i| ≤ 2) → ∃ c, dot3 (fun i => some (a i)) (fun i => some (b i)) = some c ∧ |c - dot a b| ≤ 2 / 10 ^ 14

/-- One of three vectors. -/
def nth (v : FVec × FVec × FVec) : Fin 3 → FVec := ![v.1, v.2.1, v.2.2]

/-- `np.matmul(A, B)` of two 3x3 matrices. -/
def matmul (dot3 : FVec → FVec → F) (A B : Fin 3 → Fin 3 → F) : Fin 3 → Fin 3 → F := fun i j => dot3 (fun k => A i k) (fun k => B k j)

/-- `matrix_geo_to_base(theta, phi, base_1, base_2, base_3, inverse)` (lines 1473-1500). -/
noncomputable def matrixGeoToBase (dot3 : FVec → FVec → F) (sin cos : ℝ → ℝ) (arctan2 : ℝ → ℝ → ℝ) (theta phi : ℝ) (base : FVec × FVec × FVec) (inverse : Bool) :
    Option (F × F × (Fin 3 → Fin 3 → F)) :=
  let new := geoToBase R sin cos arctan2 theta phi base inverse
  let thetaRef := if inverse then some theta else new.1
  let phiRef := if inverse then some phi else new.2
  let thetaGeo := if inverse then new.1 else some theta
  let phiGeo := if inverse then new.2 else some phi
  match basevectorsUse R sin cos thetaGeo phiGeo with
  | none => none
  | some use =>
    let useToGeo : Fin 3 → Fin 3 → F := fun i j => nth use j i
    let geoToRef : Fin 3 → Fin 3 → F := fun i j => nth base i j
    let useToRef := matmul dot3 geoToRef useToGeo
    match basevectorsUse R sin cos thetaRef phiRef with
    | none => none
    | some use2 =>
      let refToUse2 : Fin 3 → Fin 3 → F := fun i j => nth use2 i j
      let rot := matmul dot3 refToUse2 useToRef
      if inverse then some (thetaGeo, phiGeo, fun i j => rot j i) else some (thetaRef, phiRef, rot)

/-- Lines 1580-1588 of `transform_vectors` for given base vectors. -/
noncomputable def rotateVectors (dot3 : FVec → FVec → F) (sin cos : ℝ → ℝ) (arctan2 : ℝ → ℝ → ℝ) (base : FVec × FVec × FVec) (inverse : Bool) (theta phi bTheta bPhi : ℝ) :
    Option (F × F × F × F) :=
  match matrixGeoToBase R dot3 sin cos arctan2 theta phi base inverse with
  | none => none
  | some (thetaRef, phiRef, rot) =>
    let bThetaRef := fadd R (fmul R (rot 1 1) (some bTheta)) (fmul R (rot 1 2) (some bPhi))
    let bPhiRef := fadd R (fmul R (rot 2 1) (some bTheta)) (fmul R (rot 2 2) (some bPhi))
    some (thetaRef, phiRef, bThetaRef, bPhiRef)

/-- `transform_vectors(theta, phi, B_theta, B_phi, time, reference=..., inverse=..., dipole=(g10, g11, h11))` (lines 1556-1588) for a valid reference. -/
noncomputable def transformVectors (sum3 : F → F → F → F) (dot3 : FVec → FVec → F) (p : FloatSun.SunPlatform) (g10 g11 h11 : ℝ) (reference : Reference) (inverse : Bool)
    (theta phi bTheta bPhi time : ℝ) : Option (F × F × F × F) :=
  let vec := dipoleCoeffs R sum3 g10 g11 h11
  let base := match reference with
    | .gsm => baseGsm R sum3 p time vec
    | .sm => baseSm R sum3 p time vec
    | .mag => baseMag R sum3 vec
  rotateVectors R dot3 p.sin p.cos p.arctan2 base inverse theta phi bTheta bPhi

end ChaosMagPy.FloatBase
