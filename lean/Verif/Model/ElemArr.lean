import Verif.Model.CoordArr
/-!
# Model of the functions of `chaosmagpy/coordinate_utils.py` that treat arrays element by element

Arrays and numbers as in `Model/CoordArr` (`none` is NaN or infinite). Square roots of negative numbers, powers `1/3` of negative numbers,
`arccos` outside of [-1, 1] and divisions by zero give `none`, and every operation with `none` gives `none` (a simplification: in
floating point a division by an infinite number gives zero).
-/
namespace ChaosMagPy.ElemArr
open ChaosMagPy.Synth (Error)
open ChaosMagPy.NumPy ChaosMagPy.CoordArr

/-- Function that may give NaN, element by element. -/
def part (f : ℝ → Num) (x : NE) : NE := ⟨x.run.map fun a => a.map fun o => o.bind f⟩

/-- `np.sqrt`. -/
noncomputable def nsqrt (x : ℝ) : Num := if x < 0 then none else some (Real.sqrt x)

/-- `x**(1./3)`. -/
noncomputable def ncbrt (x : ℝ) : Num := if x < 0 then none else some (x ^ ((1 : ℝ) / 3))

/-- `np.arccos`. -/
noncomputable def narccos (x : ℝ) : Num := if x < -1 ∨ 1 < x then none else some (Real.arccos x)

/-- A number. -/
def num (x : ℝ) : NE := ne (scalar (some x))

/-- An array of real numbers. -/
def arr (a : Arr ℝ) : NE := ne (ofReal a)

/-- `zenith_angle(time, theta, phi)`, coordinate_utils.py:817-827. -/
noncomputable def zenithAngle (time theta phi : Arr ℝ) : Except Error (Arr Num) := do
  let sun ← sunPosition time
  let colat := NE.app Coord.radians (ne sun.1)
  let azim := NE.app Coord.radians (ne sun.2)
  let theta := NE.app Coord.radians (arr theta)
  let phi := NE.app Coord.radians (arr phi)
  let cosZeta := NE.app Real.cos theta * NE.app Real.cos colat + NE.app Real.sin theta * NE.app Real.sin colat * NE.app Real.cos (azim - phi)
  (NE.app Coord.degrees (part narccos cosZeta)).run

/-- `spherical_to_cartesian(radius, theta, phi)`, coordinate_utils.py:848-856. -/
noncomputable def sphericalToCartesian (radius theta phi : Arr ℝ) : Except Error (Arr Num × Arr Num × Arr Num) := do
  let theta := NE.app Coord.radians (arr theta)
  let phi := NE.app Coord.radians (arr phi)
  let x ← (arr radius * NE.app Real.cos phi * NE.app Real.sin theta).run
  let y ← (arr radius * NE.app Real.sin phi * NE.app Real.sin theta).run
  let z ← (arr radius * NE.app Real.cos theta).run
  return (x, y, z)

/-- `cartesian_to_spherical(x, y, z)`, coordinate_utils.py:877-881. -/
noncomputable def cartesianToSpherical (x y z : Arr ℝ) : Except Error (Arr Num × Arr Num × Arr Num) := do
  let sq (a : Arr ℝ) : NE := NE.app (· ^ 2) (arr a)
  let radius ← (part nsqrt (sq x + sq y + sq z)).run
  let theta ← (atan2 (part nsqrt (sq x + sq y)) (arr z)).run
  let phi ← (atan2 (arr y) (arr x)).run
  return (radius, theta.map (Option.map Coord.degrees), phi.map (Option.map Coord.degrees))

/-- `basevectors_gg(theta, beta)`, coordinate_utils.py:1083-1101. -/
noncomputable def baseGg (theta beta : Arr Num) : Except Error (Arr Num × Arr Num × Arr Num) := do
  let psi ← (NE.app Coord.radians (ne theta - ne beta)).run
  match bcast theta.shape beta.shape with
  | none => .error .valueError
  | some grid =>
    let zero : Arr Num := ⟨grid ++ [3], fun _ => some 0⟩
    let gg1 ← setComp zero 0 (psi.map (Option.map fun p => -Real.sin p))
    let gg1 ← setComp gg1 1 (psi.map (Option.map fun p => -Real.cos p))
    let gg2 ← setComp zero 2 (scalar (some 1))
    let gg3 ← setComp zero 0 (psi.map (Option.map fun p => -Real.cos p))
    let gg3 ← setComp gg3 1 (psi.map (Option.map Real.sin))
    return (gg1, gg2, gg3)

/-- The two coordinates and, if both components were given, the two rotated components. -/
structure Geo where
  first : Arr Num
  second : Arr Num
  components : Option (Arr Num × Arr Num)

/-- `gg_to_geo(height, beta, X, Z)`, coordinate_utils.py:922-956; `a`, `b` are `basicConfig['params.ellipsoid']`. -/
noncomputable def ggToGeo (a b : ℝ) (height beta : Arr ℝ) (X Z : Option (Arr ℝ)) : Except Error Geo := do
  let alpha := NE.app Coord.radians (num 90 - arr beta)
  let sin2 := NE.app (· ^ 2) (NE.app Real.sin alpha)
  let cos2 := NE.app (· ^ 2) (NE.app Real.cos alpha)
  let factor := arr height * part nsqrt (num (a ^ 2) * cos2 + num (b ^ 2) * sin2)
  let gamma := atan2 ((factor + num (b ^ 2)) * NE.app Real.tan alpha) (factor + num (a ^ 2))
  let theta ← (num 90 - NE.app Coord.degrees gamma).run
  let radius ← (part nsqrt (NE.app (· ^ 2) (arr height) + num 2 * factor +
    num (a ^ 2) * (num 1 - num (1 - (b / a) ^ 4) * sin2) / (num 1 - num (1 - (b / a) ^ 2) * sin2))).run
  match X, Z with
  | some X, some Z => do
    let gg ← baseGg theta (ofReal beta)
    let Br ← (comp gg.1 0 * arr X + comp gg.2.2 0 * arr Z).run
    let Bt ← (comp gg.1 1 * arr X + comp gg.2.2 1 * arr Z).run
    return ⟨radius, theta, some (Br, Bt)⟩
  | _, _ => return ⟨radius, theta, none⟩

/-- `geo_to_gg(radius, theta, B_radius, B_theta)`, coordinate_utils.py:1006-1062. -/
noncomputable def geoToGg (a b : ℝ) (radius theta : Arr ℝ) (Br Bt : Option (Arr ℝ)) : Except Error Geo := do
  let a2 := a ^ 2
  let b2 := b ^ 2
  let e2 := (a2 - b2) / a2
  let e4 := e2 * e2
  let ep2 := (a2 - b2) / b2
  let r := arr radius * NE.app Real.sin (NE.app Coord.radians (arr theta))
  let z := arr radius * NE.app Real.cos (NE.app Coord.radians (arr theta))
  let r2 := NE.app (· ^ 2) r
  let z2 := NE.app (· ^ 2) z
  let F := num (54 * b2) * z2
  let G := r2 + num (1 - e2) * z2 - num (e2 * (a2 - b2))
  let c := num e4 * F * r2 / NE.app (· ^ 3) G
  let s := part ncbrt (num 1 + c + part nsqrt (NE.app (· ^ 2) c + num 2 * c))
  let P := F / (num 3 * NE.app (· ^ 2) (s + num 1 / s + num 1) * NE.app (· ^ 2) G)
  let Q := part nsqrt (num 1 + num (2 * e4) * P)
  let r0 := NE.app (fun x => -x) P * num e2 * r / (num 1 + Q) +
    part nsqrt (num (0.5 * a2) * (num 1 + num 1 / Q) - P * num (1 - e2) * z2 / (Q * (num 1 + Q)) - num 0.5 * P * r2)
  let U := part nsqrt (NE.app (· ^ 2) (r - num e2 * r0) + z2)
  let V := part nsqrt (NE.app (· ^ 2) (r - num e2 * r0) + num (1 - e2) * z2)
  let z0 := num b2 * z / (num a * V)
  let height ← (U * (num 1 - num b2 / (num a * V))).run
  let beta ← (num 90 - NE.app Coord.degrees (atan2 (z + num ep2 * z0) r)).run
  match Br, Bt with
  | some Br, some Bt => do
    let gg ← baseGg (ofReal theta) beta
    let X ← (comp gg.1 0 * arr Br + comp gg.1 1 * arr Bt).run
    let Z ← (comp gg.2.2 0 * arr Br + comp gg.2.2 1 * arr Bt).run
    return ⟨height, beta, some (X, Z)⟩
  | _, _ => return ⟨height, beta, none⟩

/-- `center_azimuth(phi)` for an array (or a number, which `np.where` accepts as well), coordinate_utils.py:1608-1615. -/
noncomputable def centerAzimuth (phi : Arr ℝ) : Arr ℝ :=
  let phi := phi.map fun p => Coord.remainder p 360
  phi.map fun p => if p > 180 then p - 360 else p

/-- `local_time(time, phi)`, coordinate_utils.py:1637. -/
noncomputable def localTime (time phi : Arr ℝ) : Except Error (Arr Num) :=
  (NE.app (fun x => Coord.remainder x 1) (arr time + NE.app (fun p => p / 360) (arr phi)) * num 24).run

end ChaosMagPy.ElemArr
