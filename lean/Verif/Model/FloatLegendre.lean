import Verif.Model.Legendre
import Verif.Model.FloatTime
/-!
# Model of `legendre_poly` and `synth_values` (`chaosmagpy/model_utils.py` 570-642 and 897-965) in double precision

The program of `Model/Legendre.lean` with the rounding of every operation, and the loops of `synth_values` for one point. A float is `some x`
for a number and `none` for NaN or an infinity that comes from a division by zero. Simplification: overflow is not modelled.
-/
namespace ChaosMagPy.FloatLegendre
open ChaosMagPy.Spec ChaosMagPy.Legendre

/-- A float. -/
abbrev F := Option ℝ

section
variable (R : Rounding)

/-- Sum. -/
noncomputable def fadd : F → F → F
  | some x, some y => some (R (x + y))
  | _, _ => none

/-- Difference. -/
noncomputable def fsub : F → F → F
  | some x, some y => some (R (x - y))
  | _, _ => none

/-- Product. -/
noncomputable def fmul : F → F → F
  | some x, some y => some (R (x * y))
  | _, _ => none

open Classical in
/-- Quotient. -/
noncomputable def fdiv : F → F → F
  | some x, some y => if y = 0 then none else some (R (x / y))
  | _, _ => none

/-- Negation, which is exact. -/
noncomputable def fneg : F → F
  | some x => some (-x)
  | none => none

/-- `np.radians` (and `np.deg2rad`): the product with the double `π/180`. -/
noncomputable def radians (x : ℝ) : ℝ := R (x * R (R Real.pi / 180))

/-- `np.sqrt(1-costh**2)` (line 928). Simplification: `Real.sqrt` is zero for negative arguments, where NumPy returns NaN; `C91_sine` shows
that there are none. -/
noncomputable def sine (c : ℝ) : ℝ := R (Real.sqrt (R (1 - R (c * c))))

/-- The array `Pnm` (for one point). -/
abbrev TableF := ℕ × ℕ → F

/-- Value of a right-hand side, as `Expr.eval`. -/
noncomputable def evalF (T : TableF) : Expr → F
  | .const x => some (R x)
  | .read i j => T (i, j)
  | .rootn k => some (R (Real.sqrt k))
  | .mul a b => fmul R (evalF T a) (evalF T b)
  | .sub a b => fsub R (evalF T a) (evalF T b)
  | .div a b => fdiv R (evalF T a) (evalF T b)
  | .neg a => fneg (evalF T a)

/-- One in-place assignment. -/
noncomputable def stepF (T : TableF) (a : Assign) : TableF := fun p => if p = a.tgt then evalF R T a.rhs else T p

/-- Executing one assignment, with NumPy's bounds checks. -/
noncomputable def execF (nmax : ℕ) (T : TableF) (a : Assign) : Except Error TableF :=
  if a.valid nmax then .ok (stepF R T a) else .error .indexError

/-- `legendre_poly(nmax, theta)` for one colatitude in degrees (lines 927-965), given the cosine of the platform. -/
noncomputable def legendrePolyF (cosine : ℝ → ℝ) (nmax : ℕ) (theta : ℝ) : Except Error TableF :=
  let costh := cosine (radians R theta)
  (program nmax costh (sine R costh)).foldlM (execF R nmax) (fun _ => some 0)

open Classical in
/-- `div_Pnm` (lines 624-629); at the poles the product of lines 625-626. -/
noncomputable def divPnm (T : TableF) (theta : ℝ) (n m : ℕ) : F :=
  if theta = 0 ∨ theta = 180 then fmul R (T (m, n + 1)) (T (1, 0)) else fdiv R (T (n, m)) (T (1, 1))

/-- The entries of `A_phi` of `design_gauss` for degree `n` and order `m ≥ 1` (lines 857-858, 876-884), given `r_n` and the azimuth in radians. -/
noncomputable def designPhi (cosine sin : ℝ → ℝ) (T : TableF) (theta phi : ℝ) (rn : F) (n m : ℕ) : F × F :=
  let cmp : F := some (cosine (R ((m : ℝ) * phi)))
  let smp : F := some (sin (R ((m : ℝ) * phi)))
  let div := divPnm R T theta n m
  (fmul R (fmul R (fmul R (some (R (m : ℝ))) div) rn) smp, fmul R (fmul R (fmul R (some (R (-(m : ℝ)))) div) rn) cmp)

/-- The three components. -/
structure Field where
  radius : F
  theta : F
  phi : F

/-- Loop variables of lines 589-640: components, `num` and `r_n`. -/
structure St where
  B : Field
  num : ℕ
  rn : F

/-- What does not change in the loops: internal source or not, radius in units of the reference radius, colatitude, azimuth in radians, the
coefficients, the table, cosine and sine of the platform. -/
structure Env where
  internal : Bool
  radius : F
  theta : ℝ
  phi : ℝ
  coeffs : ℕ → F
  T : TableF
  cosine : ℝ → ℝ
  sine : ℝ → ℝ

/-- Body of the loop over `m` (lines 600-635). -/
noncomputable def orderStep (e : Env) (n : ℕ) (s : St) (m : ℕ) : St :=
  let cmp : F := some (e.cosine (R ((m : ℝ) * e.phi)))
  let smp : F := some (e.sine (R ((m : ℝ) * e.phi)))
  let a := e.coeffs s.num
  let b := e.coeffs (s.num + 1)
  let even := fadd R (fmul R a cmp) (fmul R b smp)
  let odd := fsub R (fmul R a smp) (fmul R b cmp)
  let r := if e.internal then fadd R s.B.radius (fmul R (fmul R (fmul R (some (R ((n : ℝ) + 1))) (e.T (n, m))) s.rn) even)
    else fadd R s.B.radius (fneg (fmul R (fmul R (fmul R (some (R (n : ℝ))) (e.T (n, m))) s.rn) even))
  let t := fadd R s.B.theta (fmul R (fmul R (fneg (e.T (m, n + 1))) s.rn) even)
  let p := fadd R s.B.phi (fmul R (fmul R (fmul R (some (R (m : ℝ))) (divPnm R e.T e.theta n m)) s.rn) odd)
  ⟨⟨r, t, p⟩, s.num + 2, s.rn⟩

/-- The terms with `m = 0` (lines 592-599). -/
noncomputable def zonalStep (e : Env) (n : ℕ) (s : St) : St :=
  let a := e.coeffs s.num
  let r := if e.internal then fadd R s.B.radius (fmul R (fmul R (fmul R (some (R ((n : ℝ) + 1))) (e.T (n, 0))) s.rn) a)
    else fadd R s.B.radius (fmul R (fmul R (fmul R (some (R (-(n : ℝ)))) (e.T (n, 0))) s.rn) a)
  let t := fadd R s.B.theta (fmul R (fmul R (fneg (e.T (0, n + 1))) s.rn) a)
  ⟨⟨r, t, s.B.phi⟩, s.num + 1, s.rn⟩

/-- Body of the loop over `n` (lines 590-640). -/
noncomputable def degreeStep (e : Env) (mmax : ℕ) (s : St) (n : ℕ) : St :=
  let s := (pyRange 1 (min n mmax + 1)).foldl (orderStep R e n) (zonalStep R e n s)
  { s with rn := if e.internal then fdiv R s.rn e.radius else fmul R s.rn e.radius }

/-- Lines 584-642: the field components at one point. -/
noncomputable def field (e : Env) (nmin nmax mmax : ℕ) (rn : F) : Field :=
  ((pyRange nmin (nmax + 1)).foldl (degreeStep R e mmax) ⟨⟨some 0, some 0, some 0⟩, 0, rn⟩).B

open Classical in
/-- Initial radial factor (lines 563-568), given the power function of the platform. -/
noncomputable def rnInit (internal : Bool) (power : ℝ → ℤ → ℝ) (nmin : ℕ) (radius : ℝ) : F :=
  let k : ℤ := if internal then -((nmin : ℤ) + 2) else (nmin : ℤ) - 1
  if radius = 0 ∧ k < 0 then none else some (power radius k)

/-- `synth_values` at one point of an array of colatitudes within the bounds (lines 495-642): radius, colatitude, azimuth in kilometers and degrees,
coefficients, degrees and source given, `rsurf` the reference radius. Simplification: coefficients beyond the end of the array are not an error. -/
noncomputable def synthPoint (cosine sin : ℝ → ℝ) (power : ℝ → ℤ → ℝ) (rsurf : ℝ) (internal : Bool) (nmin nmax mmax : ℕ) (coeffs : ℕ → F)
    (radius theta phi : ℝ) : Except Error Field :=
  match legendrePolyF R cosine nmax theta with
  | .error e => .error e
  | .ok T =>
    let ratio := R (radius / rsurf)
    .ok (field R ⟨internal, some ratio, theta, radians R phi, coeffs, T, cosine, sin⟩ nmin nmax mmax (rnInit internal power nmin ratio))

end

end ChaosMagPy.FloatLegendre
