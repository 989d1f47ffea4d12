import Verif.Model.Legendre
import Mathlib.Analysis.Real.Sqrt
import Mathlib.Algebra.Order.Floor.Ring
/-!
# Model of `chaosmagpy/model_utils.py`: `synth_values` (347-642) and `design_gauss` (645-894)

Simplifications: exact reals instead of floats; the broadcast arrays are given as the list of points
after broadcasting (each with its own row of coefficients, so that time-dependent coefficient arrays
are covered; NumPy's broadcasting and `grid=True` are modelled in `Model/SynthArr.lean`); degrees are integers (the code would accept some floats).
-/
namespace ChaosMagPy.Synth
open ChaosMagPy.Legendre (pyRange)

/-- Exception classes raised by the two functions. -/
inductive Error where
  | valueError
  | assertionError
  | indexError
  deriving DecidableEq

/-- A point of the broadcast input: radius in km, colatitude and longitude in degrees, and the row of
Gauss coefficients that belongs to it (`coeffs[..., :]`, valid below `dim = coeffs.shape[-1]`). -/
structure Point where
  radius : ℝ
  theta : ℝ
  phi : ℝ
  coeffs : ℕ → ℝ

/-- Python's `int(x)` of a float. -/
noncomputable def pyInt (x : ℝ) : ℤ := if 0 ≤ x then ⌊x⌋ else ⌈x⌉

/-- `np.amin(theta)`, `np.amax(theta)`; ValueError for an empty array (lines 500-501, 788-789). -/
noncomputable def aminmax (ths : List ℝ) : Except Error (ℝ × ℝ) :=
  match ths with
  | [] => .error .valueError
  | x :: xs => .ok (xs.foldl min x, xs.foldl max x)

open Classical in
/-- The check of the colatitudes, result is the flag `poles` (lines 500-510, 788-799). -/
noncomputable def checkColat (ths : List ℝ) : Except Error Bool := do
  let (thMin, thMax) ← aminmax ths

  if thMin ≤ 0 ∨ thMax ≥ 180 then
    if thMin = 0 ∨ thMax = 180 then return true
    else throw .valueError
  else return false

/-- Defaults and checks of `nmin`, `nmax`, `mmax` (lines 512-534); result `(nmin, nmax, mmax)`. -/
noncomputable def resolve (dim : ℕ) (nmin nmax mmax : Option ℤ) : Except Error (ℕ × ℕ × ℤ) := do
  let nmin : ℤ := nmin.getD 1
  if ¬ (nmin > 0) then throw .assertionError
  let (nmax, mmax) : ℤ × ℤ :=
    match nmax, mmax with
    | none, none =>
      let n := pyInt (Real.sqrt ((dim : ℝ) + (nmin : ℝ) ^ 2) - 1)
      (n, n)
    | some n, none => (n, n)
    | none, some m =>
      if m ≥ nmin - 1 then
        (pyInt ((((dim : ℤ) - m * (m + 2) + nmin ^ 2 - 1 : ℤ) : ℝ) / ((2 * m + 1 : ℤ) : ℝ) + (m : ℝ)), m)
      else
        (pyInt ((dim : ℝ) / ((2 * m + 1 : ℤ) : ℝ) + (nmin : ℝ) - 1), m)
    | some n, some m => (n, m)
  if nmax < nmin then throw .valueError
  return (nmin.toNat, nmax.toNat, mmax)

/-- Field sources. -/
inductive Source where
  | internal
  | external
  deriving DecidableEq

/-- Default and check of `source` (lines 536-538, 564-569). -/
def resolveSource (s : Option String) : Except Error Source :=
  match s with
  | none => .ok .internal
  | some s =>
    if s = "internal" then .ok .internal
    else if s = "external" then .ok .external
    else .error .valueError

/-- Initial radial factor (lines 564-567, 816-819); `radius` is already divided by `r_surf`. -/
noncomputable def rnInit (src : Source) (radius : ℝ) (nmin : ℕ) : ℝ :=
  match src with
  | .internal => radius ^ (-((nmin : ℤ) + 2))
  | .external => radius ^ ((nmin : ℤ) - 1)

/-- Update of the radial factor at the end of the loop over `n` (lines 637-640, 889-892). -/
noncomputable def rnStep (src : Source) (radius rn : ℝ) : ℝ :=
  match src with
  | .internal => rn / radius
  | .external => rn * radius

/-- Factor of the radial component (lines 592-595, 605-612): `n+1` or `-n`. -/
noncomputable def rfac (src : Source) (n : ℕ) : ℝ :=
  match src with
  | .internal => (n : ℝ) + 1
  | .external => -(n : ℝ)

open Classical in
/-- `Pnm/sinth`, at the poles the limit by L'Hopital's rule (lines 618-629, 870-881). -/
noncomputable def divP (poles : Bool) (T : Legendre.Table) (theta : ℝ) (n m : ℕ) : ℝ :=
  if poles = true ∧ (theta = 0 ∨ theta = 180) then T (m, n + 1) * T (1, 0)
  else T (n, m) / T (1, 1)

/-- Running variables of the loops of `synth_values` (lines 584-589). -/
structure State where
  num : ℕ
  rn : ℝ
  br : ℝ
  bt : ℝ
  bp : ℝ

/-- `coeffs[..., i]` with NumPy's bounds check. -/
def getCoef (dim : ℕ) (c : ℕ → ℝ) (i : ℕ) : Except Error ℝ :=
  if i < dim then .ok (c i) else .error .indexError

/-- Data of the call needed in the loops. -/
structure Ctx where
  dim : ℕ
  src : Source
  poles : Bool
  T : Legendre.Table
  radius : ℝ  -- divided by the reference radius
  theta : ℝ
  phi : ℝ  -- in radians
  c : ℕ → ℝ

/-- Body of the loop over the orders (lines 600-635). -/
noncomputable def orderStep (x : Ctx) (n : ℕ) (s : State) (m : ℕ) : Except Error State := do
  let cmp := Real.cos (m * x.phi)
  let smp := Real.sin (m * x.phi)
  let g ← getCoef x.dim x.c s.num
  let h ← getCoef x.dim x.c (s.num + 1)
  return { num := s.num + 2
           rn := s.rn
           br := s.br + rfac x.src n * x.T (n, m) * s.rn * (g * cmp + h * smp)
           bt := s.bt + -x.T (m, n + 1) * s.rn * (g * cmp + h * smp)
           bp := s.bp + m * divP x.poles x.T x.theta n m * s.rn * (g * smp - h * cmp) }

/-- Body of the loop over the degrees (lines 590-640). -/
noncomputable def degreeStep (x : Ctx) (mmax : ℤ) (s : State) (n : ℕ) : Except Error State := do
  let g ← getCoef x.dim x.c s.num
  let s1 : State := { s with
    num := s.num + 1
    br := s.br + rfac x.src n * x.T (n, 0) * s.rn * g
    bt := s.bt + -x.T (0, n + 1) * s.rn * g }
  let s2 ← (pyRange 1 ((min (n : ℤ) mmax + 1).toNat)).foldlM (orderStep x n) s1
  return { s2 with rn := rnStep x.src x.radius s2.rn }

/-- The loops for one point (lines 563-642). -/
noncomputable def synthPoint (rsurf : ℝ) (src : Source) (poles : Bool) (dim nmin nmax : ℕ) (mmax : ℤ)
    (p : Point) : Except Error (ℝ × ℝ × ℝ) := do
  let radius := p.radius / rsurf
  match Legendre.legendrePoly nmax p.theta with
  | .error _ => throw .indexError
  | .ok T =>
    let x : Ctx := { dim, src, poles, T, radius, theta := p.theta, phi := Spec.rad p.phi, c := p.coeffs }
    let s ← (pyRange nmin (nmax + 1)).foldlM (degreeStep x mmax)
      { num := 0, rn := rnInit src radius nmin, br := 0, bt := 0, bp := 0 }
    return (s.br, s.bt, s.bp)

/-- `synth_values(coeffs, radius, theta, phi, nmax=, nmin=, mmax=, source=)`, lines 492-642. -/
noncomputable def synthValues (rsurf : ℝ) (dim : ℕ) (pts : List Point) (nmin nmax mmax : Option ℤ)
    (source : Option String) : Except Error (List (ℝ × ℝ × ℝ)) := do
  let poles ← checkColat (pts.map Point.theta)
  let (nmin, nmax, mmax) ← resolve dim nmin nmax mmax
  let src ← resolveSource source
  pts.mapM (synthPoint rsurf src poles dim nmin nmax mmax)

/-! ## `design_gauss` -/

/-- Rows of the three matrices and running variables (lines 839-844). -/
structure Rows where
  num : ℕ
  rn : ℝ
  ar : ℕ → ℝ
  ath : ℕ → ℝ
  ap : ℕ → ℝ

/-- `A[..., i] = v` with NumPy's bounds check. -/
noncomputable def setCol (dim : ℕ) (A : ℕ → ℝ) (i : ℕ) (v : ℝ) : Except Error (ℕ → ℝ) :=
  if i < dim then .ok (fun j => if j = i then v else A j) else .error .indexError

/-- Body of the loop over the orders (lines 855-886). -/
noncomputable def designOrder (x : Ctx) (n : ℕ) (s : Rows) (m : ℕ) : Except Error Rows := do
  let cmp := Real.cos (m * x.phi)
  let smp := Real.sin (m * x.phi)
  let ar ← setCol x.dim s.ar s.num (rfac x.src n * x.T (n, m) * s.rn * cmp)
  let ar ← setCol x.dim ar (s.num + 1) (rfac x.src n * x.T (n, m) * s.rn * smp)
  let ath ← setCol x.dim s.ath s.num (-x.T (m, n + 1) * s.rn * cmp)
  let ath ← setCol x.dim ath (s.num + 1) (-x.T (m, n + 1) * s.rn * smp)
  let ap ← setCol x.dim s.ap s.num (m * divP x.poles x.T x.theta n m * s.rn * smp)
  let ap ← setCol x.dim ap (s.num + 1) (-m * divP x.poles x.T x.theta n m * s.rn * cmp)
  return { num := s.num + 2, rn := s.rn, ar, ath, ap }

/-- Body of the loop over the degrees (lines 845-892). -/
noncomputable def designDegree (x : Ctx) (mmax : ℤ) (s : Rows) (n : ℕ) : Except Error Rows := do
  let ar ← setCol x.dim s.ar s.num (rfac x.src n * x.T (n, 0) * s.rn)
  let ath ← setCol x.dim s.ath s.num (-x.T (0, n + 1) * s.rn)
  let s1 : Rows := { s with num := s.num + 1, ar, ath }
  let s2 ← (pyRange 1 ((min (n : ℤ) mmax + 1).toNat)).foldlM (designOrder x n) s1
  return { s2 with rn := rnStep x.src x.radius s2.rn }

/-- Number of columns (lines 834-837). -/
def designDim (nmin nmax mmax : ℤ) : ℕ :=
  if mmax ≥ nmin - 1 then (mmax * (mmax + 2) + (nmax - mmax) * (2 * mmax + 1) - nmin ^ 2 + 1).toNat
  else ((nmax - nmin + 1) * (2 * mmax + 1)).toNat

/-- Rows of the design matrices for one point (lines 815-894). -/
noncomputable def designPoint (rsurf : ℝ) (src : Source) (poles : Bool) (dim nmin nmax : ℕ) (mmax : ℤ)
    (radius theta phi : ℝ) : Except Error ((ℕ → ℝ) × (ℕ → ℝ) × (ℕ → ℝ)) := do
  let radius := radius / rsurf
  match Legendre.legendrePoly nmax theta with
  | .error _ => throw .indexError
  | .ok T =>
    let x : Ctx := { dim, src, poles, T, radius, theta, phi := Spec.rad phi, c := fun _ => 0 }
    let s ← (pyRange nmin (nmax + 1)).foldlM (designDegree x mmax)
      { num := 0, rn := rnInit src radius nmin, ar := fun _ => 0, ath := fun _ => 0, ap := fun _ => 0 }
    return (s.ar, s.ath, s.ap)

/-- `design_gauss(radius, theta, phi, nmax, nmin=, mmax=, source=)`, lines 769-894. The result is the
number of columns and, per point, the three rows. -/
noncomputable def designGauss (rsurf : ℝ) (pts : List (ℝ × ℝ × ℝ)) (nmax : ℤ) (nmin mmax : Option ℤ)
    (source : Option String) : Except Error (ℕ × List ((ℕ → ℝ) × (ℕ → ℝ) × (ℕ → ℝ))) := do
  let poles ← checkColat (pts.map (fun p => p.2.1))
  if ¬ (nmax > 0) then throw .assertionError
  let nmin : ℤ := nmin.getD 1
  if ¬ (nmin ≤ nmax) then throw .assertionError
  if ¬ (nmin > 0) then throw .assertionError
  let mmax : ℤ := mmax.getD nmax
  if ¬ (mmax ≤ nmax) then throw .assertionError
  if ¬ (mmax ≥ 0) then throw .assertionError
  let src ← resolveSource source
  let dim := designDim nmin nmax mmax
  let rows ← pts.mapM (fun p => designPoint rsurf src poles dim nmin.toNat nmax.toNat mmax p.1 p.2.1 p.2.2)
  return (dim, rows)

end ChaosMagPy.Synth
