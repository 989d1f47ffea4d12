import Verif.Model.NumPy
import Verif.Model.Coord
/-!
# Model of the coordinate transformations of `chaosmagpy/coordinate_utils.py` for arrays of any shape

Arrays as in `Model/NumPy`; a number is a real or NaN (`none`), NaN propagates through all operations. Division by zero gives NaN (it occurs
only as `0 / 0`, when the zero vector is normalised). Vectors and matrices sit in the last one or two axes.
-/
namespace ChaosMagPy.CoordArr
open ChaosMagPy.Synth (Error)
open ChaosMagPy.NumPy

/-- Real number or NaN. -/
abbrev Num := Option ℝ

/-- Operation on two numbers with NaN. -/
def nan2 (f : ℝ → ℝ → ℝ) (a b : Num) : Num := a.bind fun x => b.map fun y => f x y

/-- Division of two numbers. -/
noncomputable def ndiv (a b : Num) : Num := a.bind fun x => b.bind fun y => if y = 0 then none else some (x / y)

/-- An array expression: the array or the exception. -/
structure NE where
  run : Except Error (Arr Num)

noncomputable instance : Mul NE := ⟨fun x y => ⟨lift2 (nan2 (· * ·)) x.run y.run⟩⟩
noncomputable instance : Add NE := ⟨fun x y => ⟨lift2 (nan2 (· + ·)) x.run y.run⟩⟩
noncomputable instance : Sub NE := ⟨fun x y => ⟨lift2 (nan2 (· - ·)) x.run y.run⟩⟩
noncomputable instance : Div NE := ⟨fun x y => ⟨lift2 ndiv x.run y.run⟩⟩

/-- `np.arctan2` of two expressions. -/
noncomputable def atan2 (x y : NE) : NE := ⟨lift2 (nan2 Coord.arctan2) x.run y.run⟩

/-- Elementwise function of an expression. -/
def NE.app (f : ℝ → ℝ) (x : NE) : NE := ⟨x.run.map fun a => a.map (Option.map f)⟩

/-- Array as expression. -/
def ne (a : Arr Num) : NE := ⟨.ok a⟩

/-- An array of real numbers as an array of numbers. -/
def ofReal (a : Arr ℝ) : Arr Num := a.map some

/-! ### NumPy functions -/

/-- `a[..., k]`. -/
def comp (a : Arr Num) (k : ℕ) : NE :=
  ⟨match a.shape.getLast? with
    | none => .error .indexError
    | some n => if k < n then .ok ⟨a.shape.dropLast, fun i => a.get (i ++ [k])⟩ else .error .indexError⟩

/-- `a[..., j, k]`. -/
def comp2 (a : Arr Num) (j k : ℕ) : NE :=
  ⟨match a.shape.reverse with
    | n :: m :: s => if j < m ∧ k < n then .ok ⟨s.reverse, fun i => a.get (i ++ [j, k])⟩ else .error .indexError
    | _ => .error .indexError⟩

/-- `np.stack(l, axis=-1)`: all arrays must have the same shape. -/
def stackLast (l : List (Arr Num)) : Except Error (Arr Num) :=
  match l with
  | [] => .error .valueError
  | a :: _ =>
    if ∀ b ∈ l, b.shape = a.shape then .ok ⟨a.shape ++ [l.length], fun i => (l[i.getLastD 0]?).bind fun b => b.get i.dropLast⟩
    else .error .valueError

/-- `np.stack(l, axis=-2)`. -/
def stackBefore (l : List (Arr Num)) : Except Error (Arr Num) :=
  match l with
  | [] => .error .valueError
  | a :: _ =>
    match a.shape.getLast? with
    | none => .error .valueError
    | some n =>
      if ∀ b ∈ l, b.shape = a.shape then
        .ok ⟨a.shape.dropLast ++ [l.length, n], fun i => (l[i.dropLast.getLastD 0]?).bind fun b => b.get (i.dropLast.dropLast ++ [i.getLastD 0])⟩
      else .error .valueError

/-- `np.matmul(a, b)` of stacks of matrices. -/
noncomputable def matmul (a b : Arr Num) : Except Error (Arr Num) :=
  match a.shape.reverse, b.shape.reverse with
  | q :: p :: s, r :: q' :: t =>
    if q = q' then
      match bcast s.reverse t.reverse with
      | none => .error .valueError
      | some L => .ok ⟨L ++ [p, r], fun i =>
          ((List.range q).map fun x =>
            nan2 (· * ·) (a.get (proj s.reverse i.dropLast.dropLast ++ [i.dropLast.getLastD 0, x])) (b.get (proj t.reverse i.dropLast.dropLast ++ [x, i.getLastD 0]))).foldl
            (nan2 (· + ·)) (some 0)⟩
    else .error .valueError
  | _, _ => .error .valueError

/-- `np.swapaxes(a, -2, -1)`. -/
def swapLast (a : Arr Num) : Except Error (Arr Num) :=
  match a.shape.reverse with
  | n :: m :: s => .ok ⟨s.reverse ++ [n, m], fun i => a.get (i.dropLast.dropLast ++ [i.getLastD 0, i.dropLast.getLastD 0])⟩
  | _ => .error .valueError

/-- `np.cross(a, b)` of vectors with three components (two components, which NumPy accepts as well, are not modelled). -/
noncomputable def cross (a b : Arr Num) : Except Error (Arr Num) :=
  if a.shape.getLast? = some 3 ∧ b.shape.getLast? = some 3 then do
    let x ← (comp a 1 * comp b 2 - comp a 2 * comp b 1).run
    let y ← (comp a 2 * comp b 0 - comp a 0 * comp b 2).run
    let z ← (comp a 0 * comp b 1 - comp a 1 * comp b 0).run
    stackLast [x, y, z]
  else .error .valueError

/-- `np.linalg.norm(a, axis=-1, keepdims=True)`. -/
noncomputable def normKeep (a : Arr Num) : Except Error (Arr Num) :=
  match a.shape.getLast? with
  | none => .error .valueError
  | some n => .ok ⟨a.shape.dropLast ++ [1], fun i =>
      (((List.range n).map fun k => a.get (i.dropLast ++ [k])).foldl (fun s x => nan2 (· + ·) s (x.map (· ^ 2))) (some 0)).map Real.sqrt⟩

/-- `np.empty(shape)`: the values are not defined. -/
def empty (s : List ℕ) : Arr Num := ⟨s, fun _ => none⟩

/-- `a[..., k] = x`: the array `x` must fit into the shape of `a[..., k]`. -/
def setComp (a : Arr Num) (k : ℕ) (x : Arr Num) : Except Error (Arr Num) :=
  match a.shape.getLast? with
  | none => .error .indexError
  | some n =>
    if k < n then
      if bcast a.shape.dropLast x.shape = some a.shape.dropLast then
        .ok ⟨a.shape, fun i => if i.getLastD 0 = k then x.at i.dropLast else a.get i⟩
      else .error .valueError
    else .error .indexError

/-- `np.roll(a, shift=-1, axis=-1)`; AxisError (a ValueError) without axes. -/
def rollLast (a : Arr Num) : Except Error (Arr Num) :=
  match a.shape.getLast? with
  | none => .error .valueError
  | some n => .ok ⟨a.shape, fun i => a.get (i.dropLast ++ [(i.getLastD 0 + 1) % n])⟩

/-! ### Dipole -/

/-- The argument `dipole`: left out, an array with `g10, g11, h11` in the last dimension, or a tuple (or list) of arrays. -/
inductive Dipole where
  | none
  | array (a : Arr ℝ)
  | tuple (args : List (Arr ℝ))

/-- `-vector / np.linalg.norm(vector, axis=-1, keepdims=True)`, coordinate_utils.py:149, 162. -/
noncomputable def antiUnit (vector : Arr Num) : Except Error (Arr Num) := do
  let norm ← normKeep vector
  (NE.app (fun x => -x) (ne vector) / ne norm).run

/-- `_dipole_to_unit(*args)`, coordinate_utils.py:120-165. -/
noncomputable def dipoleToUnit (args : List (Arr ℝ)) : Except Error (Arr Num) :=
  match args with
  | [a] => do
    let vector ← rollLast (ofReal a)
    antiUnit vector
  | [a, b] => do
    let theta := NE.app Coord.radians (ne (ofReal a))
    let phi := NE.app Coord.radians (ne (ofReal b))
    let x ← (NE.app Real.sin theta * NE.app Real.cos phi).run
    let y ← (NE.app Real.sin theta * NE.app Real.sin phi).run
    let z ← (NE.app Real.cos theta).run
    stackLast [x, y, z]
  | [a, b, c] => do
    let vector ← stackLast [ofReal b, ofReal c, ofReal a]
    antiUnit vector
  | _ => .error .valueError

/-- The array in the configuration. -/
def configArr (config : ℝ × ℝ × ℝ) : Arr ℝ := ⟨[3], fun i => if i.headD 0 = 0 then config.1 else if i.headD 0 = 1 then config.2.1 else config.2.2⟩

/-- `dipole_to_vec(dipole)`, coordinate_utils.py:168-202; `config` is `basicConfig['params.dipole']`. -/
noncomputable def dipoleToVec (config : ℝ × ℝ × ℝ) : Dipole → Except Error (Arr Num)
  | .none => dipoleToUnit [configArr config]
  | .tuple args => dipoleToUnit args
  | .array a => dipoleToUnit [a]

/-! ### Base vectors -/

/-- `sun_position(time)`, coordinate_utils.py:757-792: the check looks at all times, the rest is elementwise. -/
noncomputable def sunPosition (time : Arr ℝ) : Except Error (Arr Num × Arr Num) :=
  if Coord.sunCheck time.data then .ok (time.map fun t => some (Coord.sunPoint t).1, time.map fun t => some (Coord.sunPoint t).2)
  else .error .assertionError

/-- `spherical_to_cartesian(radius, theta, phi)`, coordinate_utils.py:848-856. -/
noncomputable def sphericalToCartesian (radius theta phi : Arr Num) : NE × NE × NE :=
  let theta := NE.app Coord.radians (ne theta)
  let phi := NE.app Coord.radians (ne phi)
  (ne radius * NE.app Real.cos phi * NE.app Real.sin theta, ne radius * NE.app Real.sin phi * NE.app Real.sin theta, ne radius * NE.app Real.cos theta)

/-- `cartesian_to_spherical(x, y, z)` without the radius, coordinate_utils.py:877-881. -/
noncomputable def cartesianToSpherical (x y z : NE) : NE × NE :=
  let theta := atan2 (NE.app Real.sqrt (NE.app (· ^ 2) x + NE.app (· ^ 2) y)) z
  let phi := atan2 y x
  (NE.app Coord.degrees theta, NE.app Coord.degrees phi)

/-- Vectors from their components: `np.empty(x.shape + (3,))` and three assignments, coordinate_utils.py:1137-1140, 1188-1191. -/
def vectors (x y z : Arr Num) : Except Error (Arr Num) := do
  let v ← setComp (empty (x.shape ++ [3])) 0 x
  let v ← setComp v 1 y
  setComp v 2 z

/-- `v / np.linalg.norm(v, axis=-1, keepdims=True)`, coordinate_utils.py:1146-1147, 1203-1204, 1239. -/
noncomputable def unit (v : Arr Num) : Except Error (Arr Num) := do
  let norm ← normKeep v
  (ne v / ne norm).run

/-- Sun vectors, coordinate_utils.py:1130-1140, 1184-1191. -/
noncomputable def sunVectors (time : Arr ℝ) : Except Error (Arr Num) := do
  let sun ← sunPosition time
  let c := sphericalToCartesian (scalar (some 1)) sun.1 sun.2
  let x ← c.1.run
  let y ← c.2.1.run
  let z ← c.2.2.run
  vectors x y z

/-- Three arrays of base vectors. -/
structure Base where
  e1 : Arr Num
  e2 : Arr Num
  e3 : Arr Num

/-- `basevectors_gsm(time, dipole)`, coordinate_utils.py:1127-1154. -/
noncomputable def baseGsm (config : ℝ × ℝ × ℝ) (time : Arr ℝ) (dipole : Dipole) : Except Error Base := do
  let vec ← dipoleToVec config dipole
  let gsm1 ← sunVectors time
  let gsm2 ← cross vec gsm1
  let gsm2 ← unit gsm2
  let gsm3 ← cross gsm1 gsm2
  return ⟨gsm1, gsm2, gsm3⟩

/-- `basevectors_sm(time, dipole)`, coordinate_utils.py:1181-1210: the dipole is written into an array with the shape of the times. -/
noncomputable def baseSm (config : ℝ × ℝ × ℝ) (time : Arr ℝ) (dipole : Dipole) : Except Error Base := do
  let vec ← dipoleToVec config dipole
  let s ← sunVectors time
  let v0 ← (comp vec 0).run
  let v1 ← (comp vec 1).run
  let v2 ← (comp vec 2).run
  let sm3 ← setComp (empty (time.shape ++ [3])) 0 v0
  let sm3 ← setComp sm3 1 v1
  let sm3 ← setComp sm3 2 v2
  let sm2 ← cross sm3 s
  let sm2 ← unit sm2
  let sm1 ← cross sm2 sm3
  return ⟨sm1, sm2, sm3⟩

/-- `basevectors_mag(dipole)`, coordinate_utils.py:1237-1243. -/
noncomputable def baseMag (config : ℝ × ℝ × ℝ) (dipole : Dipole) : Except Error Base := do
  let mag3 ← dipoleToVec config dipole
  let mag2 ← cross ⟨[3], fun i => if i.headD 0 = 2 then some 1 else some 0⟩ mag3
  let mag2 ← unit mag2
  let mag1 ← cross mag2 mag3
  return ⟨mag1, mag2, mag3⟩

/-- The choice of the reference system, coordinate_utils.py:1399-1421, 1555-1575; `reference` is the name after `str(reference).lower()`. -/
noncomputable def referenceBase (config : ℝ × ℝ × ℝ) (reference : String) (dipole : Dipole) (time : Arr ℝ) : Except Error Base :=
  if reference = "gsm" then baseGsm config time dipole
  else if reference = "sm" then baseSm config time dipole
  else if reference = "mag" then baseMag config dipole
  else .error .valueError

/-- The check of the poles in `basevectors_use`, coordinate_utils.py:1268-1269: `np.amin` and `np.amax` are NaN if one of the values is, and then
no comparison holds; without values they raise ValueError. -/
noncomputable def useCheck (theta : Arr Num) : Bool :=
  match theta.data.mapM id with
  | none => true
  | some l => Coord.useCheck l

/-- `basevectors_use(theta, phi)`, coordinate_utils.py:1265-1299. -/
noncomputable def baseUse (theta phi : Arr Num) : Except Error Base :=
  if !useCheck theta then .error .valueError
  else
    match bcast theta.shape phi.shape with
    | none => .error .valueError
    | some s => do
      let t := NE.app Coord.radians (ne theta)
      let p := NE.app Coord.radians (ne phi)
      let fill (x y z : NE) : Except Error (Arr Num) := do
        let a ← x.run
        let v ← setComp (empty (s ++ [3])) 0 a
        let b ← y.run
        let v ← setComp v 1 b
        let c ← z.run
        setComp v 2 c
      let use1 ← fill (NE.app Real.sin t * NE.app Real.cos p) (NE.app Real.sin t * NE.app Real.sin p) (NE.app Real.cos t)
      let use2 ← fill (NE.app Real.cos t * NE.app Real.cos p) (NE.app Real.cos t * NE.app Real.sin p) (NE.app (fun x => -Real.sin x) t)
      let use3 ← fill (NE.app (fun x => -Real.sin x) p) (NE.app Real.cos p) (ne (scalar (some 0)))
      return ⟨use1, use2, use3⟩

/-! ### Rotations -/

/-- `geo_to_base(theta, phi, base_1, base_2, base_3, inverse)`, coordinate_utils.py:1332-1354. -/
noncomputable def geoToBase (theta phi : Arr Num) (b : Base) (inverse : Bool) : Except Error (Arr Num × Arr Num) :=
  let c := sphericalToCartesian (scalar (some 1)) theta phi
  let x := c.1
  let y := c.2.1
  let z := c.2.2
  let r :=
    if inverse then
      cartesianToSpherical (comp b.e1 0 * x + comp b.e2 0 * y + comp b.e3 0 * z) (comp b.e1 1 * x + comp b.e2 1 * y + comp b.e3 1 * z)
        (comp b.e1 2 * x + comp b.e2 2 * y + comp b.e3 2 * z)
    else
      cartesianToSpherical (comp b.e1 0 * x + comp b.e1 1 * y + comp b.e1 2 * z) (comp b.e2 0 * x + comp b.e2 1 * y + comp b.e2 2 * z)
        (comp b.e3 0 * x + comp b.e3 1 * y + comp b.e3 2 * z)
  do
    let thetaRef ← r.1.run
    let phiRef ← r.2.run
    return (thetaRef, phiRef)

/-- `transform_points(theta, phi, time, reference=..., inverse=..., dipole=...)`, coordinate_utils.py:1396-1430. -/
noncomputable def transformPoints (config : ℝ × ℝ × ℝ) (theta phi time : Arr ℝ) (reference : String) (inverse : Bool) (dipole : Dipole) :
    Except Error (Arr Num × Arr Num) := do
  let b ← referenceBase config reference dipole time
  geoToBase (ofReal theta) (ofReal phi) b inverse

/-- `matrix_geo_to_base(theta, phi, base_1, base_2, base_3, inverse)`, coordinate_utils.py:1472-1500. -/
noncomputable def matrixGeoToBase (theta phi : Arr Num) (b : Base) (inverse : Bool) : Except Error (Arr Num × Arr Num × Arr Num) := do
  let q ← geoToBase theta phi b inverse
  let geo := if inverse then q else (theta, phi)
  let ref := if inverse then (theta, phi) else q
  let u ← baseUse geo.1 geo.2
  let useToGeo ← stackLast [u.e1, u.e2, u.e3]
  let geoToRef ← stackBefore [b.e1, b.e2, b.e3]
  let useToRef ← matmul geoToRef useToGeo
  let u2 ← baseUse ref.1 ref.2
  let refToUse2 ← stackBefore [u2.e1, u2.e2, u2.e3]
  let R ← matmul refToUse2 useToRef
  if inverse then
    let R ← swapLast R
    return (geo.1, geo.2, R)
  else return (ref.1, ref.2, R)

/-- `transform_vectors(theta, phi, B_theta, B_phi, time, reference, inverse, dipole)`, coordinate_utils.py:1552-1588. -/
noncomputable def transformVectors (config : ℝ × ℝ × ℝ) (theta phi Btheta Bphi time : Arr ℝ) (reference : String) (inverse : Bool) (dipole : Dipole) :
    Except Error (Arr Num × Arr Num × Arr Num × Arr Num) := do
  let b ← referenceBase config reference dipole time
  let m ← matrixGeoToBase (ofReal theta) (ofReal phi) b inverse
  let R := m.2.2
  let Bt ← (comp2 R 1 1 * ne (ofReal Btheta) + comp2 R 1 2 * ne (ofReal Bphi)).run
  let Bp ← (comp2 R 2 1 * ne (ofReal Btheta) + comp2 R 2 2 * ne (ofReal Bphi)).run
  return (m.1, m.2.1, Bt, Bp)

end ChaosMagPy.CoordArr
