import Verif.Model.Synth
/-!
# Model of `synth_values` (`chaosmagpy/model_utils.py` 347-642) for points with NaN

The same function as in `Model/Synth.lean`; every number is `some`, and `none` is NaN or infinite. Simplification: for a colatitude that is NaN all entries of the
Legendre table are taken as NaN (the entry for degree 0 is not, but it is not used).
-/
namespace ChaosMagPy.SynthNan
open ChaosMagPy.Legendre (pyRange)
open ChaosMagPy.Synth (Error Source rfac resolve resolveSource)

/-- A float. -/
abbrev F := Option ℝ

/-- Sum. -/
noncomputable def add : F → F → F
  | some x, some y => some (x + y)
  | _, _ => none

/-- Difference. -/
noncomputable def sub : F → F → F
  | some x, some y => some (x - y)
  | _, _ => none

/-- Product. -/
noncomputable def mul : F → F → F
  | some x, some y => some (x * y)
  | _, _ => none

open Classical in
/-- Quotient; not a (finite) number if the divisor is zero. -/
noncomputable def div : F → F → F
  | some x, some y => if y = 0 then none else some (x / y)
  | _, _ => none

open Classical in
/-- Power with integer exponent: 1 for exponent 0 (also of NaN), infinite for 0 and negative exponents. -/
noncomputable def pow (a : F) (n : ℤ) : F :=
  if n = 0 then some 1
  else match a with
    | none => none
    | some x => if x = 0 ∧ n < 0 then none else some (x ^ n)

/-- A point, see `Synth.Point`. -/
structure Point where
  radius : F
  theta : F
  phi : F
  coeffs : ℕ → F

/-- `np.minimum`. -/
noncomputable def nanMin : F → F → F
  | some x, some y => some (min x y)
  | _, _ => none

/-- `np.maximum`. -/
noncomputable def nanMax : F → F → F
  | some x, some y => some (max x y)
  | _, _ => none

/-- `np.amin(theta)`, `np.amax(theta)` (lines 500-501). -/
noncomputable def aminmax : List F → Except Error (F × F)
  | [] => .error .valueError
  | x :: xs => .ok (xs.foldl nanMin x, xs.foldl nanMax x)

open Classical in
/-- The check of the colatitudes (lines 503-510); comparisons with NaN are false. -/
noncomputable def checkColat (ths : List F) : Except Error Bool :=
  match aminmax ths with
  | .error e => .error e
  | .ok (thMin, thMax) =>
    if (∃ x, thMin = some x ∧ x ≤ 0) ∨ (∃ x, thMax = some x ∧ x ≥ 180) then
      if thMin = some 0 ∨ thMax = some 180 then .ok true else .error .valueError
    else .ok false

/-- Initial radial factor (lines 564-567). -/
noncomputable def rnInit (src : Source) (radius : F) (nmin : ℕ) : F :=
  match src with
  | .internal => pow radius (-((nmin : ℤ) + 2))
  | .external => pow radius ((nmin : ℤ) - 1)

/-- Update of the radial factor (lines 637-640). -/
noncomputable def rnStep (src : Source) (radius rn : F) : F :=
  match src with
  | .internal => div rn radius
  | .external => mul rn radius

/-- The Legendre table (lines 571-572). -/
noncomputable def table (nmax : ℕ) (theta : F) (p : ℕ × ℕ) : F :=
  theta.bind fun t =>
    match Legendre.legendrePoly nmax t with
    | .ok T => some (T p)
    | .error _ => none

open Classical in
/-- `div_Pnm` (lines 618-629). -/
noncomputable def divP (poles : Bool) (T : ℕ × ℕ → F) (theta : F) (n m : ℕ) : F :=
  if poles = true ∧ (theta = some 0 ∨ theta = some 180) then mul (T (m, n + 1)) (T (1, 0))
  else div (T (n, m)) (T (1, 1))

/-- Running variables. -/
structure State where
  num : ℕ
  rn : F
  br : F
  bt : F
  bp : F

/-- `coeffs[..., i]`. -/
def getCoef (dim : ℕ) (c : ℕ → F) (i : ℕ) : Except Error F := if i < dim then .ok (c i) else .error .indexError

/-- Data of the call needed in the loops. -/
structure Ctx where
  dim : ℕ
  src : Source
  poles : Bool
  T : ℕ × ℕ → F
  radius : F
  theta : F
  phi : F
  c : ℕ → F

/-- Body of the loop over the orders (lines 600-635). -/
noncomputable def orderStep (x : Ctx) (n : ℕ) (s : State) (m : ℕ) : Except Error State := do
  let cmp := x.phi.map fun y => Real.cos (m * y)
  let smp := x.phi.map fun y => Real.sin (m * y)
  let g ← getCoef x.dim x.c s.num
  let h ← getCoef x.dim x.c (s.num + 1)
  return { num := s.num + 2
           rn := s.rn
           br := add s.br (mul (mul (mul (some (rfac x.src n)) (x.T (n, m))) s.rn) (add (mul g cmp) (mul h smp)))
           bt := add s.bt (mul (mul (mul (some (-1)) (x.T (m, n + 1))) s.rn) (add (mul g cmp) (mul h smp)))
           bp := add s.bp (mul (mul (mul (some (m : ℝ)) (divP x.poles x.T x.theta n m)) s.rn) (sub (mul g smp) (mul h cmp))) }

/-- Body of the loop over the degrees (lines 590-640). -/
noncomputable def degreeStep (x : Ctx) (mmax : ℤ) (s : State) (n : ℕ) : Except Error State := do
  let g ← getCoef x.dim x.c s.num
  let s1 : State := { s with
    num := s.num + 1
    br := add s.br (mul (mul (mul (some (rfac x.src n)) (x.T (n, 0))) s.rn) g)
    bt := add s.bt (mul (mul (mul (some (-1)) (x.T (0, n + 1))) s.rn) g) }
  let s2 ← (pyRange 1 ((min (n : ℤ) mmax + 1).toNat)).foldlM (orderStep x n) s1
  return { s2 with rn := rnStep x.src x.radius s2.rn }

/-- The loops for one point (lines 563-642). -/
noncomputable def synthPoint (rsurf : ℝ) (src : Source) (poles : Bool) (dim nmin nmax : ℕ) (mmax : ℤ) (p : Point) : Except Error (F × F × F) := do
  let radius := div p.radius (some rsurf)
  let x : Ctx := { dim, src, poles, T := table nmax p.theta, radius, theta := p.theta, phi := p.phi.map Spec.rad, c := p.coeffs }
  let s ← (pyRange nmin (nmax + 1)).foldlM (degreeStep x mmax) { num := 0, rn := rnInit src radius nmin, br := some 0, bt := some 0, bp := some 0 }
  return (s.br, s.bt, s.bp)

/-- `synth_values(coeffs, radius, theta, phi, nmax=, nmin=, mmax=, source=)`, lines 492-642. -/
noncomputable def synthValues (rsurf : ℝ) (dim : ℕ) (pts : List Point) (nmin nmax mmax : Option ℤ) (source : Option String) : Except Error (List (F × F × F)) := do
  let poles ← checkColat (pts.map Point.theta)
  let (nmin, nmax, mmax) ← resolve dim nmin nmax mmax
  let src ← resolveSource source
  pts.mapM (synthPoint rsurf src poles dim nmin nmax mmax)

end ChaosMagPy.SynthNan
