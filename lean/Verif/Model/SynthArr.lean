import Verif.Model.NumPy
/-!
# Model of the vectorised `synth_values` (`chaosmagpy/model_utils.py` 347-642), with shapes, broadcasting and `grid`

The same function as `Model/Synth.lean` (which is the version for the list of points after broadcasting), now array operation by array
operation. Simplification: `legendre_poly` works elementwise on arrays of the shape of `theta`, its table is taken entry by entry from the
model for one colatitude (`Model/Legendre.lean`). Exact reals.
-/
namespace ChaosMagPy.SynthArr
open ChaosMagPy.NumPy
open ChaosMagPy.Legendre (pyRange)
open ChaosMagPy.Synth (Error Source)

/-- `Pnm[n, m]` for an array of colatitudes (lines 571-572, 897-965). -/
noncomputable def legendreArr (nmax : ℕ) (theta : Arr ℝ) (p : ℕ × ℕ) : Arr ℝ :=
  theta.map fun t =>
    match Legendre.legendrePoly nmax t with
    | .ok T => T p
    | .error _ => 0

/-- `a[mask] = f(a[mask], b[mask])` for arrays of the same shape. -/
def masked (mask : Arr Bool) (f : ℝ → ℝ → ℝ) (a b : Arr ℝ) : Arr ℝ :=
  ⟨a.shape, fun i => if mask.get i then f (a.get i) (b.get i) else a.get i⟩

/-- `np.where(mask, a, b)` for arrays of the same shape. -/
def whereArr (mask : Arr Bool) (a b : Arr ℝ) : Arr ℝ := ⟨mask.shape, fun i => if mask.get i then a.get i else b.get i⟩

open Classical in
/-- `where_poles = (theta == 0.) | (theta == 180.)` (lines 577-579). -/
noncomputable def wherePoles (theta : Arr ℝ) : Arr Bool := theta.map fun t => decide (t = 0 ∨ t = 180)

/-- `div_Pnm` (lines 618-629). -/
noncomputable def divArr (poles : Bool) (theta : Arr ℝ) (P : ℕ × ℕ → Arr ℝ) (n m : ℕ) : Arr ℝ :=
  if poles then
    let mask := wherePoles theta
    let d := whereArr mask (P (m, n + 1)) (P (n, m))
    let d := masked mask (· * ·) d (P (1, 0))
    masked (mask.map not) (· / ·) d (P (1, 1))
  else ⟨theta.shape, fun i => (P (n, m)).get i / (P (1, 1)).get i⟩

/-- Running variables of the loops (lines 584-589). -/
structure State where
  num : ℕ
  rn : Arr ℝ
  br : Arr ℝ
  bt : Arr ℝ
  bp : Arr ℝ

/-- Arrays used in the loops. -/
structure Ctx where
  src : Source
  poles : Bool
  P : ℕ × ℕ → Arr ℝ
  radius : Arr ℝ  -- divided by the reference radius
  theta : Arr ℝ
  phi : Arr ℝ  -- in radians
  coeffs : Arr ℝ

/-- Body of the loop over the orders (lines 600-635). -/
noncomputable def orderStep (x : Ctx) (n : ℕ) (s : State) (m : ℕ) : Except Error State := do
  let cmp := (x.phi.map fun y => Real.cos (m * y)).e
  let smp := (x.phi.map fun y => Real.sin (m * y)).e
  let g := x.coeffs.sel s.num
  let h := x.coeffs.sel (s.num + 1)
  let br ← match x.src with
    | .internal => iadd s.br (num (n + 1) * (x.P (n, m)).e * s.rn.e * (g * cmp + h * smp))
    | .external => iadd s.br (-(num n * (x.P (n, m)).e * s.rn.e * (g * cmp + h * smp)))
  let bt ← iadd s.bt (-(x.P (m, n + 1)).e * s.rn.e * (g * cmp + h * smp))
  let bp ← iadd s.bp (num m * (divArr x.poles x.theta x.P n m).e * s.rn.e * (g * smp - h * cmp))
  return { num := s.num + 2, rn := s.rn, br, bt, bp }

/-- Update of the radial factor (lines 637-640). -/
noncomputable def rnNext (src : Source) (radius rn : Arr ℝ) : Except Error (Arr ℝ) :=
  match src with
  | .internal => (rn.e / radius.e).run
  | .external => (rn.e * radius.e).run

/-- Body of the loop over the degrees (lines 590-640). -/
noncomputable def degreeStep (x : Ctx) (mmax : ℤ) (s : State) (n : ℕ) : Except Error State := do
  let g := x.coeffs.sel s.num
  let br ← match x.src with
    | .internal => iadd s.br (num (n + 1) * (x.P (n, 0)).e * s.rn.e * g)
    | .external => iadd s.br (num (-n) * (x.P (n, 0)).e * s.rn.e * g)
  let bt ← iadd s.bt (-(x.P (0, n + 1)).e * s.rn.e * g)
  let s2 ← (pyRange 1 ((min (n : ℤ) mmax + 1).toNat)).foldlM (orderStep x n) { s with num := s.num + 1, br, bt }
  let rn ← rnNext x.src x.radius s2.rn
  return { s2 with rn }

/-- The loops (lines 563-642); `radius` is divided by the reference radius, `theta` and `phi` are in degrees. -/
noncomputable def loops (coeffs radius theta phi : Arr ℝ) (src : Source) (poles : Bool) (nmin nmax : ℕ) (mmax : ℤ) (gridShape : List ℕ) :
    Except Error (Arr ℝ × Arr ℝ × Arr ℝ) := do
  let x : Ctx := { src, poles, P := legendreArr nmax theta, radius, theta, phi := phi.map Spec.rad, coeffs }
  let s ← (pyRange nmin (nmax + 1)).foldlM (degreeStep x mmax)
    { num := 0, rn := radius.map fun r => Synth.rnInit src r nmin, br := zeros gridShape, bt := zeros gridShape, bp := zeros gridShape }
  return (s.br, s.bt, s.bp)

/-- The option `grid` (lines 540-546): new axes for `theta` and `phi`. -/
def gridded (grid : Option Bool) (theta phi : Arr ℝ) : Except Error (Arr ℝ × Arr ℝ) :=
  if grid.getD false then
    match expandBeforeLast phi with
    | .error e => .error e
    | .ok phi => .ok (expandLast theta, phi)
  else .ok (theta, phi)

/-- `coeffs.shape[-1]` (line 515) after the check of `nmin` (line 513). -/
def lastDim (coeffs : Arr ℝ) (nmin : Option ℤ) : Except Error ℕ :=
  match coeffs.shape.getLast? with
  | none => .error (if nmin.getD 1 > 0 then .indexError else .assertionError)
  | some d => .ok d

/-- `synth_values(coeffs, radius, theta, phi, nmax=, nmin=, mmax=, source=, grid=)`, lines 492-642. -/
noncomputable def synthValues (rsurf : ℝ) (coeffs radius theta phi : Arr ℝ) (nmin nmax mmax : Option ℤ) (source : Option String)
    (grid : Option Bool) : Except Error (Arr ℝ × Arr ℝ × Arr ℝ) := do
  let radius := radius.map fun r => r / rsurf
  let poles ← Synth.checkColat theta.data
  let dim ← lastDim coeffs nmin
  let (nmin, nmax, mmax) ← Synth.resolve dim nmin nmax mmax
  let (theta, phi) ← gridded grid theta phi
  match broadcast [radius.shape, theta.shape, phi.shape, coeffs.shape.dropLast] with
  | none => throw .valueError
  | some gridShape => do
    let src ← Synth.resolveSource source
    loops coeffs radius theta phi src poles nmin nmax mmax gridShape

end ChaosMagPy.SynthArr
