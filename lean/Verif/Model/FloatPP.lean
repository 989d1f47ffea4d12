import Verif.Model.PPoly
import Verif.Spec.Float
/-!
# Model of `Base.synth_coeffs` in double precision, `chaosmagpy/chaos.py` lines 86-213

The same function as in `Model/PPoly`; every sum, difference and product is rounded to a double (`R`). From SciPy: `evaluate_poly1` adds the terms from
the lowest power on and multiplies up the power of the time difference; `PPoly.derivative` multiplies the coefficients by the integer factors.
Comparisons are exact. Simplifications: the integer factors (products of at most `deriv` numbers below the order) and `365.25**deriv` are taken as exact, which
they are as doubles for `deriv ≤ 5`; no fused multiply-add.
-/
namespace ChaosMagPy.PPoly
open ChaosMagPy.Spec (Rounding)

/-- One pass of the loop in SciPy's `evaluate_poly1` for power `p`: sum of the terms and power of the time difference. -/
noncomputable def termF (R : Rounding) (k : ℕ) (c : ℕ → ℝ) (nu : ℕ) (s : ℝ) (a : ℝ × ℝ) (p : ℕ) : ℝ × ℝ :=
  if p < nu then a
  else (R (a.1 + R (R (c (k - 1 - p) * a.2) * (p.descFactorial nu : ℝ))), if p < k - 1 then R (a.2 * s) else a.2)

/-- SciPy's `evaluate_poly1`: the `nu`-th derivative of the polynomial with rows `c` at `s`. -/
noncomputable def evalPolyF (R : Rounding) (k : ℕ) (c : ℕ → ℝ) (nu : ℕ) (s : ℝ) : ℝ := ((List.range k).foldl (termF R k c nu s) (0, 1)).1

/-- `PP(t, nu=nu)`: column `d` of the value at time `t`. -/
noncomputable def PP.evalF (R : Rounding) (p : PP) (extrapolate : Bool) (nu : ℕ) (t : ℝ) : Option (ℕ → ℝ) :=
  (findInterval p.x extrapolate t).map fun j d => evalPolyF R p.k (fun i => p.c i j d) nu (R (t - p.x.getD j 0))

/-- `PP.derivative(nu)`. -/
noncomputable def PP.derivativeF (R : Rounding) (p : PP) (nu : ℕ) : PP :=
  if nu = 0 then p
  else if p.k ≤ nu then { k := 1, x := p.x, c := fun _ _ _ => 0 }
  else { k := p.k - nu, x := p.x, c := fun i j d => R (p.c i j d * ((p.k - 1 - i).descFactorial nu : ℝ)) }

/-- The piece added on one side (chaos.py:198-201). -/
noncomputable def extensionBinF (R : Rounding) (p : PP) (key : ℕ) (x : ℝ) : ℕ → ℕ → ℝ := fun i d =>
  let k := p.k - 1 - i
  if i < p.k ∧ k < key then
    match p.evalF R true k x with
    | some v => v d
    | none => 0
  else 0

/-- One pass of the loop over the two ends (chaos.py:197-202). -/
noncomputable def extendSideF (R : Rounding) (p : PP) (key : ℕ) (x : ℝ) : Except Error PP := p.extend (extensionBinF R p key x) x

/-- The polynomial used for the evaluation and whether it extrapolates (chaos.py:139-205). -/
noncomputable def prepareF (R : Rounding) (b : Base) (c : ℕ → ℕ → ℕ → ℝ) (times : List ℝ) (extrapolate : Extrap) : Except Error (PP × Bool) := do
  let p : PP := { k := b.order, x := b.breaks, c }
  let start := first b.breaks
  let stop := last b.breaks
  let (lo, hi) ← aminmax times
  if lo < start ∨ hi > stop then
    let key ← extrapKey b.order extrapolate
    if key > 0 then
      let p1 ← extendSideF R p key.toNat start
      let p2 ← extendSideF R p1 key.toNat stop
      return (p2, true)
    else return (p, false)
  else return (p, true)

/-- `Base.synth_coeffs(time, dim=, deriv=, extrapolate=)`, chaos.py:86-213. -/
noncomputable def Base.synthCoeffsF (R : Rounding) (b : Base) (times : List ℝ) (dim : Option ℕ) (deriv : Option ℕ)
    (extrapolate : Option Extrap) : Except Error (ℕ × List (Option (ℕ → ℝ))) :=
  match b.coeffs with
  | none => .error .valueError
  | some c =>
    if b.order = 0 ∨ b.breaks.length ≤ 1 ∨ b.dim = 0 then .error .valueError
    else do
      let dim := match dim with
        | none => b.dim
        | some d => if d > b.dim then b.dim else d
      let deriv := deriv.getD 0
      let (p, ext) ← prepareF R b c times (extrapolate.getD (.str "linear"))
      let q := p.derivativeF R deriv
      return (dim, times.map fun t => (q.evalF R ext 0 t).map fun v d => R (v d * (365.25 : ℝ) ^ deriv))

end ChaosMagPy.PPoly
