import Mathlib.Analysis.SpecialFunctions.Complex.Arg
import Mathlib.Analysis.SpecialFunctions.Trigonometric.Arctan
import Mathlib.Analysis.SpecialFunctions.Pow.Real
import Mathlib.LinearAlgebra.Matrix.Notation
import Mathlib.Algebra.Order.Floor.Ring
/-!
# Model of the coordinate transformations of `chaosmagpy/coordinate_utils.py`

Exact reals. `np.arctan2(y, x)` is the argument of `x + i y` (no signed zeros). Broadcasting is modelled pointwise,
except for the checks that look at the whole array. Vectors whose normalisation divides by zero contain NaN and are
modelled as `none`.
-/
namespace ChaosMagPy.Coord

/-- Exceptions. -/
inductive Error where
  | valueError
  | assertionError
  deriving DecidableEq, Repr

/-- Cartesian vectors. -/
abbrev Vec := Fin 3 → ℝ

/-- `np.radians`. -/
noncomputable def radians (x : ℝ) : ℝ := x * (Real.pi / 180)

/-- `np.degrees`. -/
noncomputable def degrees (x : ℝ) : ℝ := x * (180 / Real.pi)

/-- `np.arctan2(y, x)`. -/
noncomputable def arctan2 (y x : ℝ) : ℝ := Complex.arg ⟨x, y⟩

/-- `x // y` for floats. -/
noncomputable def floorDiv (x y : ℝ) : ℝ := (⌊x / y⌋ : ℤ)

/-- `np.remainder(x, y)` and `x % y` for floats. -/
noncomputable def remainder (x y : ℝ) : ℝ := x - floorDiv x y * y

/-- `np.cross` of two vectors. -/
def cross (a b : Vec) : Vec := ![a 1 * b 2 - a 2 * b 1, a 2 * b 0 - a 0 * b 2, a 0 * b 1 - a 1 * b 0]

/-- `np.linalg.norm`. -/
noncomputable def norm (a : Vec) : ℝ := Real.sqrt (a 0 ^ 2 + a 1 ^ 2 + a 2 ^ 2)

/-- `v / np.linalg.norm(v)`, NaN for the zero vector. -/
noncomputable def normalize (a : Vec) : Option Vec := if norm a = 0 then none else some fun i => a i / norm a

/-- `center_azimuth(phi)`, coordinate_utils.py:1608-1615. -/
noncomputable def centerAzimuth (phi : ℝ) : ℝ :=
  let phi := remainder phi 360
  if phi > 180 then phi - 360 else phi

/-- `local_time(time, phi)`, coordinate_utils.py:1637. -/
noncomputable def localTime (time phi : ℝ) : ℝ := remainder (time + phi / 360) 1 * 24

/-! ### Sun -/

/-- The assertion at the beginning of `sun_position` for an array of times, coordinate_utils.py:759-761. -/
noncomputable def sunCheck (times : List ℝ) : Bool :=
  times.all (fun t => decide (2000 + floorDiv t 365.25 < 2099)) && times.all (fun t => decide (2000 - floorDiv t 365.25 > 1901))

/-- `julian_date`, coordinate_utils.py:764: `365 * (2000-1900) + (2000-1901)//4 + time + 0.5`. -/
noncomputable def julianDate (time : ℝ) : ℝ := 365 * (2000 - 1900) + floorDiv (2000 - 1901) 4 + time + 0.5

/-- `obliq` in degrees, coordinate_utils.py:766, 771. -/
noncomputable def obliquity (time : ℝ) : ℝ := 23.45229 - 0.0130125 * (julianDate time / 36525)

/-- `slp` in degrees, coordinate_utils.py:766-772. -/
noncomputable def eclipticLongitude (time : ℝ) : ℝ :=
  let t := julianDate time / 36525
  let v := remainder (279.696678 + 0.9856473354 * julianDate time) 360
  let g := remainder (358.475845 + 0.985600267 * julianDate time) 360
  let rad := Real.pi / 180
  let slong := v + (1.91946 - 0.004789 * t) * Real.sin (g * rad) + 0.020094 * Real.sin (2 * g * rad)
  slong - 0.005686

/-- `gmst` in radians, coordinate_utils.py:763, 785-786. -/
noncomputable def siderealTime (time : ℝ) : ℝ :=
  remainder (279.690983 + 0.9856473354 * julianDate time + 360 * remainder time 1 + 180) 360 * (Real.pi / 180)

/-- `sun_position(time)` for one time after the check: colatitude and longitude in degrees,
coordinate_utils.py:774-792. -/
noncomputable def sunPoint (time : ℝ) : ℝ × ℝ :=
  let rad := Real.pi / 180
  let obliq := obliquity time
  let slp := eclipticLongitude time
  let sind := Real.sin (obliq * rad) * Real.sin (slp * rad)
  let cosd := Real.sqrt (1 - sind ^ 2)
  let declination := Real.arctan (sind / cosd)
  let rightAscension := Real.pi - arctan2 (sind / (cosd * Real.tan (obliq * rad))) (-Real.cos (slp * rad) / cosd)
  let theta := degrees (Real.pi / 2 - declination)
  let phi := centerAzimuth (degrees (rightAscension - siderealTime time))
  (theta, phi)

/-- `sun_position(time)` for an array of times. -/
noncomputable def sunPosition (times : List ℝ) : Except Error (List (ℝ × ℝ)) :=
  if sunCheck times then .ok (times.map sunPoint) else .error .assertionError

/-- `zenith_angle(time, theta, phi)` for one point, coordinate_utils.py:817-827. -/
noncomputable def zenithAngle (time theta phi : ℝ) : Except Error ℝ := do
  let sun ← sunPosition [time]
  let (thetaSun, phiSun) := sun.headD (0, 0)
  let colat := radians thetaSun
  let azim := radians phiSun
  let theta := radians theta
  let phi := radians phi
  let cosZeta := Real.cos theta * Real.cos colat + Real.sin theta * Real.sin colat * Real.cos (azim - phi)
  return degrees (Real.arccos cosZeta)

/-! ### Spherical and cartesian coordinates -/

/-- `spherical_to_cartesian(radius, theta, phi)`, coordinate_utils.py:850-856. -/
noncomputable def sphericalToCartesian (radius theta phi : ℝ) : Vec :=
  let theta := radians theta
  let phi := radians phi
  ![radius * Real.cos phi * Real.sin theta, radius * Real.sin phi * Real.sin theta, radius * Real.cos theta]

/-- `cartesian_to_spherical(x, y, z)`, coordinate_utils.py:877-881. -/
noncomputable def cartesianToSpherical (v : Vec) : ℝ × ℝ × ℝ :=
  let radius := Real.sqrt (v 0 ^ 2 + v 1 ^ 2 + v 2 ^ 2)
  let theta := arctan2 (Real.sqrt (v 0 ^ 2 + v 1 ^ 2)) (v 2)
  let phi := arctan2 (v 1) (v 0)
  (radius, degrees theta, degrees phi)

/-! ### Dipole -/

/-- The argument `dipole`: left out, an array with `g10, g11, h11` in the last dimension, or a tuple (or list) of arrays. -/
inductive Dipole where
  | none
  | array (g10 g11 h11 : ℝ)
  | tuple (args : List ℝ)

/-- `_dipole_to_unit` of one array: `np.roll(..., shift=-1)`, coordinate_utils.py:146-149. -/
noncomputable def dipoleArray (g10 g11 h11 : ℝ) : Option Vec := (normalize ![g11, h11, g10]).map fun v i => -v i

/-- `dipole_to_vec(dipole)`, coordinate_utils.py:146-202; `config` is `basicConfig['params.dipole']`. A tuple with a
single array is not modelled (it is the same as the array); a tuple with a single number raises AxisError, which is a
ValueError. -/
noncomputable def dipoleToVec (config : ℝ × ℝ × ℝ) : Dipole → Except Error (Option Vec)
  | .none => .ok (dipoleArray config.1 config.2.1 config.2.2)
  | .array g10 g11 h11 => .ok (dipoleArray g10 g11 h11)
  | .tuple [theta, phi] =>
    let theta := radians theta
    let phi := radians phi
    .ok (some ![Real.sin theta * Real.cos phi, Real.sin theta * Real.sin phi, Real.cos theta])
  | .tuple [g10, g11, h11] => .ok ((normalize ![g11, h11, g10]).map fun v i => -v i)
  | .tuple _ => .error .valueError

/-- `igrf_dipole(epoch)`, coordinate_utils.py:81-117; `epoch` is `str(epoch)` of an argument that is given and not None. -/
noncomputable def igrfDipole (epoch : Option String) : Except Error (Option Vec) :=
  let epoch := epoch.getD "2015"
  if epoch = "2015" then .ok (dipoleArray (-29442) (-1501) 4797.1)
  else if epoch = "2010" then dipoleToVec (0, 0, 0) (.tuple [11.32, 289.59])
  else .error .valueError

/-! ### Base vectors -/

/-- Three base vectors. -/
structure Base where
  e1 : Vec
  e2 : Vec
  e3 : Vec

/-- `basevectors_gsm` for one time (after the check of the time) and dipole direction, coordinate_utils.py:1131-1154. -/
noncomputable def baseGsm (time : ℝ) (vec : Vec) : Option Base :=
  let sun := sunPoint time
  let gsm1 := sphericalToCartesian 1 sun.1 sun.2
  (normalize (cross vec gsm1)).map fun gsm2 => ⟨gsm1, gsm2, cross gsm1 gsm2⟩

/-- `basevectors_sm`, coordinate_utils.py:1182-1212. -/
noncomputable def baseSm (time : ℝ) (vec : Vec) : Option Base :=
  let sun := sunPoint time
  let s := sphericalToCartesian 1 sun.1 sun.2
  (normalize (cross vec s)).map fun sm2 => ⟨cross sm2 vec, sm2, vec⟩

/-- `basevectors_mag`, coordinate_utils.py:1237-1243. -/
noncomputable def baseMag (vec : Vec) : Option Base :=
  (normalize (cross ![0, 0, 1] vec)).map fun mag2 => ⟨cross mag2 vec, mag2, vec⟩

/-- `basevectors_use(theta, phi)` for one point (without the check), coordinate_utils.py:1265-1299. -/
noncomputable def usePoint (theta phi : ℝ) : Base :=
  let theta := radians theta
  let phi := radians phi
  ⟨![Real.sin theta * Real.cos phi, Real.sin theta * Real.sin phi, Real.cos theta],
   ![Real.cos theta * Real.cos phi, Real.cos theta * Real.sin phi, -Real.sin theta],
   ![-Real.sin phi, Real.cos phi, 0]⟩

/-- The check of `basevectors_use` for an array of colatitudes, coordinate_utils.py:1268-1269; `np.amin` of an empty
array raises ValueError as well. -/
noncomputable def useCheck (thetas : List ℝ) : Bool :=
  match thetas.map radians with
  | [] => false
  | x :: xs => !(decide (xs.foldl min x = 0) || decide (xs.foldl max x = Real.pi))

/-- Base vectors of the reference systems in `transform_points` and `transform_vectors`, coordinate_utils.py:1399-1421,
1555-1575. `reference` is the name after `str(reference).lower()`; all points have the same dipole. -/
noncomputable def referenceBase (config : ℝ × ℝ × ℝ) (reference : String) (dipole : Dipole) (times : List ℝ) :
    Except Error (List (Option Base)) := do
  if reference = "gsm" then
    let vec ← dipoleToVec config dipole
    if sunCheck times then return times.map fun t => vec.bind (baseGsm t) else throw .assertionError
  else if reference = "sm" then
    let vec ← dipoleToVec config dipole
    if sunCheck times then return times.map fun t => vec.bind (baseSm t) else throw .assertionError
  else if reference = "mag" then
    let vec ← dipoleToVec config dipole
    return times.map fun _ => vec.bind baseMag
  else throw .valueError

/-! ### Rotations -/

/-- `geo_to_base(theta, phi, base_1, base_2, base_3, inverse)`, coordinate_utils.py:1332-1354. -/
noncomputable def geoToBase (theta phi : ℝ) (b : Base) (inverse : Bool) : ℝ × ℝ :=
  let p := sphericalToCartesian 1 theta phi
  let q : Vec :=
    if inverse then
      ![b.e1 0 * p 0 + b.e2 0 * p 1 + b.e3 0 * p 2, b.e1 1 * p 0 + b.e2 1 * p 1 + b.e3 1 * p 2,
        b.e1 2 * p 0 + b.e2 2 * p 1 + b.e3 2 * p 2]
    else
      ![b.e1 0 * p 0 + b.e1 1 * p 1 + b.e1 2 * p 2, b.e2 0 * p 0 + b.e2 1 * p 1 + b.e2 2 * p 2,
        b.e3 0 * p 0 + b.e3 1 * p 1 + b.e3 2 * p 2]
  let s := cartesianToSpherical q
  (s.2.1, s.2.2)

/-- `transform_points` for an array of points (with their times), coordinate_utils.py:1396-1430; NaN base vectors give
NaN coordinates. -/
noncomputable def transformPoints (config : ℝ × ℝ × ℝ) (reference : String) (dipole : Dipole) (inverse : Bool)
    (pts : List (ℝ × ℝ × ℝ)) : Except Error (List (Option (ℝ × ℝ))) := do
  let bases ← referenceBase config reference dipole (pts.map fun p => p.2.2)
  return List.zipWith (fun p b => b.map fun b => geoToBase p.1 p.2.1 b inverse) pts bases

/-- Matrix whose columns are the base vectors (`np.stack(..., axis=-1)`). -/
def columns (b : Base) : Matrix (Fin 3) (Fin 3) ℝ := fun i j => ![b.e1 i, b.e2 i, b.e3 i] j

/-- Matrix whose rows are the base vectors (`np.stack(..., axis=-2)`). -/
def rows (b : Base) : Matrix (Fin 3) (Fin 3) ℝ := fun i j => ![b.e1 j, b.e2 j, b.e3 j] i

/-- The rotation matrix of one point between two local frames, coordinate_utils.py:1483-1495. -/
noncomputable def rotationMatrix (theta phi thetaRef phiRef : ℝ) (b : Base) : Matrix (Fin 3) (Fin 3) ℝ :=
  rows (usePoint thetaRef phiRef) * (rows b * columns (usePoint theta phi))

/-- `matrix_geo_to_base` for an array of points with their base vectors, coordinate_utils.py:1472-1500. -/
noncomputable def matrixGeoToBase (pts : List (ℝ × ℝ × Base)) (inverse : Bool) :
    Except Error (List (ℝ × ℝ × Matrix (Fin 3) (Fin 3) ℝ)) := do
  -- pairs of geographic and reference coordinates
  let both := pts.map fun p =>
    let q := geoToBase p.1 p.2.1 p.2.2 inverse
    if inverse then (q, (p.1, p.2.1), p.2.2) else ((p.1, p.2.1), q, p.2.2)
  if !useCheck (both.map fun x => x.1.1) then throw .valueError
  if !useCheck (both.map fun x => x.2.1.1) then throw .valueError
  return both.map fun x =>
    let R := rotationMatrix x.1.1 x.1.2 x.2.1.1 x.2.1.2 x.2.2
    if inverse then (x.1.1, x.1.2, fun i j => R j i) else (x.2.1.1, x.2.1.2, R)

/-- `transform_vectors` for an array of points, coordinate_utils.py:1552-1588. A point is
`((theta, phi), (B_theta, B_phi), time)`; base vectors with NaN are outside of the model (`none` as a whole). -/
noncomputable def transformVectors (config : ℝ × ℝ × ℝ) (reference : String) (dipole : Dipole) (inverse : Bool)
    (pts : List ((ℝ × ℝ) × (ℝ × ℝ) × ℝ)) : Except Error (Option (List ((ℝ × ℝ) × (ℝ × ℝ)))) := do
  let bases ← referenceBase config reference dipole (pts.map fun p => p.2.2)
  match bases.mapM id with
  | none => return none
  | some bases =>
    let ms ← matrixGeoToBase (List.zipWith (fun p b => (p.1.1, p.1.2, b)) pts bases) inverse
    return some (List.zipWith (fun p m =>
      ((m.1, m.2.1), (m.2.2 1 1 * p.2.1.1 + m.2.2 1 2 * p.2.1.2, m.2.2 2 1 * p.2.1.1 + m.2.2 2 2 * p.2.1.2))) pts ms)

/-! ### Geodetic coordinates -/

/-- `basevectors_gg(theta, beta)`, coordinate_utils.py:1083-1101. -/
noncomputable def baseGg (theta beta : ℝ) : Base :=
  let psi := radians (theta - beta)
  ⟨![-Real.sin psi, -Real.cos psi, 0], ![0, 0, 1], ![-Real.cos psi, Real.sin psi, 0]⟩

/-- Coordinates of `gg_to_geo(height, beta)`: radius and colatitude, coordinate_utils.py:925-942. At the poles `tan`
is undefined in exact arithmetic (and huge in floating point). -/
noncomputable def ggToGeo (a b height beta : ℝ) : ℝ × ℝ :=
  let alpha := radians (90 - beta)
  let sin2 := Real.sin alpha ^ 2
  let cos2 := Real.cos alpha ^ 2
  let factor := height * Real.sqrt (a ^ 2 * cos2 + b ^ 2 * sin2)
  let gamma := arctan2 ((factor + b ^ 2) * Real.tan alpha) (factor + a ^ 2)
  let theta := 90 - degrees gamma
  let radius := Real.sqrt (height ^ 2 + 2 * factor +
    a ^ 2 * (1 - (1 - (b / a) ^ 4) * sin2) / (1 - (1 - (b / a) ^ 2) * sin2))
  (radius, theta)

/-- `gg_to_geo(height, beta, X, Z)` with components, coordinate_utils.py:944-953. -/
noncomputable def ggToGeoVec (a b height beta X Z : ℝ) : (ℝ × ℝ) × (ℝ × ℝ) :=
  let p := ggToGeo a b height beta
  let g := baseGg p.2 beta
  (p, (g.e1 0 * X + g.e3 0 * Z, g.e1 1 * X + g.e3 1 * Z))

/-- Coordinates of `geo_to_gg(radius, theta)`: height and geodetic colatitude (Heikkinen's algorithm),
coordinate_utils.py:1006-1048. `s` is a power of a number that is at least 1 for points outside of the evolute. -/
noncomputable def geoToGg (a b radius theta : ℝ) : ℝ × ℝ :=
  let a2 := a ^ 2
  let b2 := b ^ 2
  let e2 := (a2 - b2) / a2
  let e4 := e2 * e2
  let ep2 := (a2 - b2) / b2
  let r := radius * Real.sin (radians theta)
  let z := radius * Real.cos (radians theta)
  let r2 := r ^ 2
  let z2 := z ^ 2
  let F := 54 * b2 * z2
  let G := r2 + (1 - e2) * z2 - e2 * (a2 - b2)
  let c := e4 * F * r2 / G ^ 3
  let s := (1 + c + Real.sqrt (c ^ 2 + 2 * c)) ^ ((1 : ℝ) / 3)
  let P := F / (3 * (s + 1 / s + 1) ^ 2 * G ^ 2)
  let Q := Real.sqrt (1 + 2 * e4 * P)
  let r0 := -P * e2 * r / (1 + Q) + Real.sqrt (0.5 * a2 * (1 + 1 / Q) - P * (1 - e2) * z2 / (Q * (1 + Q)) - 0.5 * P * r2)
  let U := Real.sqrt ((r - e2 * r0) ^ 2 + z2)
  let V := Real.sqrt ((r - e2 * r0) ^ 2 + (1 - e2) * z2)
  let z0 := b2 * z / (a * V)
  let height := U * (1 - b2 / (a * V))
  let beta := 90 - degrees (arctan2 (z + ep2 * z0) r)
  (height, beta)

/-- `geo_to_gg(radius, theta, B_radius, B_theta)` with components, coordinate_utils.py:1050-1059. -/
noncomputable def geoToGgVec (a b radius theta Br Bt : ℝ) : (ℝ × ℝ) × (ℝ × ℝ) :=
  let p := geoToGg a b radius theta
  let g := baseGg theta p.2
  (p, (g.e1 0 * Br + g.e1 1 * Bt, g.e3 0 * Br + g.e3 1 * Bt))

end ChaosMagPy.Coord
