import Verif.Model.Synth
import Verif.Model.PPoly
import Mathlib.Algebra.Polynomial.Derivative
import Mathlib.Algebra.Polynomial.Eval.Defs
import Mathlib.Data.Finset.Sort
/-!
# Model of the spline functions, `chaosmagpy/model_utils.py` lines 36-263, and of the loaders of spline models,
`chaosmagpy/chaos.py` lines 2825-2850, 2908-2938, 2987-3038

SciPy's `BSpline` is modelled by the Cox-de Boor recursion of its documentation and the interval search of its
source. Exact reals; NaN is `none`.
-/
namespace ChaosMagPy.BSpline
open Polynomial

/-- Knot `i`. -/
def knot (t : List ℝ) (i : ℕ) : ℝ := t.getD i 0

/-- B-spline number `i` of degree `p` on the knot interval `l`, a polynomial in the evaluation point
(Cox-de Boor recursion, `0/0 = 0`; SciPy's `deBoor_D`). -/
noncomputable def basis (t : ℕ → ℝ) (l : ℕ) : ℕ → ℕ → ℝ[X]
  | 0, i => if i = l then 1 else 0
  | p + 1, i =>
    C (1 / (t (i + p + 1) - t i)) * (X - C (t i)) * basis t l p i +
    C (1 / (t (i + p + 2) - t (i + 1))) * (C (t (i + p + 2)) - X) * basis t l p (i + 1)

/-- Upward search of SciPy's `find_interval`: `while x >= t[l+1] and l != n-1: l += 1`, with a bound on the
number of steps. -/
noncomputable def searchUp (t : ℕ → ℝ) (x : ℝ) (stop : ℕ) : ℕ → ℕ → ℕ
  | 0, l => l
  | f + 1, l => if t (l + 1) ≤ x ∧ l ≠ stop then searchUp t x stop f (l + 1) else l

/-- SciPy's `find_interval(t, degree, x, extrapolate=False)`: `none` (NaN) outside the base interval. (The
search starts at `degree` and not at the interval of the previous point, which gives the same result.) -/
noncomputable def findKnot (t : List ℝ) (degree : ℕ) (x : ℝ) : Option ℕ :=
  let n := t.length - degree - 1
  if x < knot t degree ∨ knot t n < x then none
  else some (searchUp (knot t) x (n - 1) (n - 1 - degree) degree)

/-- `BSpline(t, c, degree, extrapolate=False)(x, nu=nu)`: the `degree + 1` B-splines of the interval times
their coefficients. -/
noncomputable def bsplineEval (t : List ℝ) (c : ℕ → ℝ) (degree nu : ℕ) (x : ℝ) : Option ℝ :=
  (findKnot t degree x).map fun l =>
    ∑ a ∈ Finset.range (degree + 1), c (l - degree + a) *
      ((derivative^[nu]) (basis (knot t) l degree (l - degree + a))).eval x

/-- One row of `colloc_matrix(x, knots, order, deriv)`, model_utils.py:176-192: column `n` is the spline with
unit coefficient `n`. -/
noncomputable def collocRow (knots : List ℝ) (order deriv : ℕ) (x : ℝ) (n : ℕ) : Option ℝ :=
  if deriv ≥ order then some 0
  else bsplineEval knots (fun i => if i = n then 1 else 0) (order - 1) deriv x

/-- `colloc_matrix(x, knots, order, deriv)`, model_utils.py:144-192: number of columns and rows. -/
noncomputable def collocMatrix (xs : List ℝ) (knots : List ℝ) (order : ℕ) (deriv : Option ℕ) :
    ℕ × List (ℕ → Option ℝ) :=
  (knots.length - order, xs.map fun x => collocRow knots order (deriv.getD 0) x)

/-- `augment_breaks(breaks, order)`, model_utils.py:195-219, for a non-empty list. -/
noncomputable def augmentBreaks (breaks : List ℝ) (order : ℕ) : List ℝ :=
  List.replicate (order - 1) (PPoly.first breaks) ++ breaks ++ List.replicate (order - 1) (PPoly.last breaks)

open Classical in
/-- `np.unique(knots)`. -/
noncomputable def unique (l : List ℝ) : List ℝ := l.toFinset.sort (· ≤ ·)

/-- `pp_from_bspline(coeffs, knots, order)`, model_utils.py:222-263: coefficients (row, piece, dimension) and
break points. `PPoly.from_spline` puts the derivatives at the knots divided by factorials in the rows. -/
noncomputable def ppFromBspline (coeffs : ℕ → ℕ → ℝ) (knots : List ℝ) (order : ℕ) : (ℕ → ℕ → ℕ → ℝ) × List ℝ :=
  let degree := order - 1
  let breaks := unique knots
  (fun i j d =>
    let m := degree - i
    ((bsplineEval knots (fun s => coeffs s d) degree m (knot knots (degree + j))).getD 0) / (m.factorial : ℝ), breaks)

/-- `BaseModel.from_bspline`, chaos.py:660-692 (without the name, source and meta data); `dim` is the number of
columns of `coeffs`. -/
noncomputable def fromBspline (knots : List ℝ) (coeffs : ℕ → ℕ → ℝ) (dim order : ℕ) : PPoly.Base :=
  let r := ppFromBspline coeffs knots order
  PPoly.Base.init r.2 (some order) order dim r.1

/-! ### design_matrix -/

/-- `G[:, lo:lo+n] = v` for one row. -/
def setBlock (G : ℕ → Option ℝ) (lo n : ℕ) (v : ℕ → Option ℝ) : ℕ → Option ℝ :=
  fun i => if lo ≤ i ∧ i < lo + n then v (i - lo) else G i

/-- Rows of one of the three matrices, model_utils.py:118-139: `A` is the row of `design_gauss`, `coll` the row of the
collocation matrix. -/
noncomputable def designRow (nseg ntdep nstatic : ℕ) (A : ℕ → ℝ) (coll : ℕ → Option ℝ) : ℕ → Option ℝ :=
  let total := (nseg - 1) * ntdep + nstatic
  let s := (List.range ntdep).foldl
    (fun (s : (ℕ → Option ℝ) × ℕ) coeff =>
      (setBlock s.1 s.2 nseg (fun k => (coll k).map fun v => A coeff * v), s.2 + nseg))
    ((fun _ => none), 0)
  setBlock s.1 s.2 (total - s.2) (fun k => some (A (ntdep + k)))

/-- A data point. -/
structure Datum where
  time : ℝ
  radius : ℝ
  theta : ℝ
  phi : ℝ

/-- `design_matrix(knots, order, n_tdep, time, radius, theta, phi, n_static=, source=)`, model_utils.py:86-141. Number
of columns and, per datum, the three rows. -/
noncomputable def designMatrix (rsurf : ℝ) (knots : List ℝ) (order ntdep : ℕ) (data : List Datum)
    (nstatic : Option ℕ) (source : Option String) :
    Except Synth.Error (ℕ × List ((ℕ → Option ℝ) × (ℕ → Option ℝ) × (ℕ → Option ℝ))) := do
  let (lo, hi) ← Synth.aminmax (data.map Datum.theta)
  if ¬ (lo > 0 ∧ hi < 180) then throw .assertionError
  match nstatic with
  | some n => if n ≠ 0 ∧ n < ntdep then throw .valueError
  | none => pure ()
  let n := nstatic.getD ntdep
  let ctdep := ntdep * (ntdep + 2)
  let cstatic := n * (n + 2)
  let (_, A) ← Synth.designGauss rsurf (data.map fun p => (p.radius, p.theta, p.phi)) n none none (some (source.getD "internal"))
  let (nseg, coll) := collocMatrix (data.map Datum.time) knots order none
  return ((nseg - 1) * ctdep + cstatic, List.zipWith (fun a c => (designRow nseg ctdep cstatic a.1 c, designRow nseg ctdep cstatic a.2.1 c, designRow nseg ctdep cstatic a.2.2 c)) A coll)

/-! ### Loaders of spline models -/

/-- Zero-padded coefficients, chaos.py:2848-2853, 2937-2942, 3031-3036: `coeffs[degree:-degree, :] = data`, where
`data` has `breaks.size - order` rows. (For `degree = 0` the slice `0:-0` is empty.) -/
noncomputable def paddedCoeffs (nbreaks order : ℕ) (data : ℕ → ℕ → ℝ) : ℕ → ℕ → ℝ := fun s d =>
  let degree := order - 1
  let rows := (nbreaks + 2 * degree) - order
  if degree ≠ 0 ∧ degree ≤ s ∧ s < rows - degree then data (s - degree) d else 0

open Classical in
/-- `pp_from_bspline` as called by the loaders, model_utils.py:246-263: for every coefficient a SciPy `BSpline` is made, which refuses (ValueError) break
points that descend and such that are all equal (also a single one). -/
noncomputable def checkedSpline (breaks : List ℝ) (coeffs : ℕ → ℕ → ℝ) (dim order : ℕ) : Except Synth.Error PPoly.Base :=
  if dim ≠ 0 ∧ ¬ (breaks.Pairwise (· ≤ ·) ∧ PPoly.first breaks < PPoly.last breaks) then .error .valueError
  else .ok (fromBspline (augmentBreaks breaks order) coeffs dim order)

/-- The model made from the break points (MJD2000) and the coefficients `data` (a flat array of numbers, one row
per B-spline) in the files of CovObs, gufm1 and CALS7K, chaos.py:2839-2856, 2930-2945, 3024-3039. Without break points `breaks[0]` (in `augment_breaks`) is an
IndexError. With fewer break points than `order`, NumPy takes the negative number of rows in `reshape` for "infer" (as -1), and the slice
`coeffs[degree:-degree]` is empty: an empty array or one row can be assigned to it. For `degree = 0` the slice `coeffs[0:-0]` is empty, too. -/
noncomputable def loadSpline (breaks : List ℝ) (order nmax : ℕ) (data : List ℝ) : Except Synth.Error PPoly.Base :=
  let dim := nmax * (nmax + 2)
  let model := checkedSpline breaks (paddedCoeffs breaks.length order fun i d => data.getD (i * dim + d) 0) dim order
  if breaks = [] then .error .indexError
  else if breaks.length < order then
    if dim = 0 ∨ (data.length ≠ 0 ∧ data.length ≠ dim) then .error .valueError else model
  else if data.length ≠ (breaks.length - order) * dim then .error .valueError  -- `reshape`
  else if order = 0 ∨ (order = 1 ∧ 1 < breaks.length - order) then .error .valueError
  else model

/-- `dyear_to_mjd(time, leap_year=False)`, data_utils.py:576-586. -/
noncomputable def yearToMjd (y : ℝ) : ℝ := (y - 2000) * 365.25

/-- `load_CovObs_txtfile`, chaos.py:2827-2856, for the numbers in the second line and the numbers after it. -/
noncomputable def loadCovObs (line rest : List ℝ) : Except Synth.Error PPoly.Base :=
  let nmax := (Synth.pyInt (line.getD 0 0)).toNat
  let order := (Synth.pyInt (line.getD 2 0)).toNat
  loadSpline ((line.drop 3).map yearToMjd) order nmax rest

/-- `load_gufm1_txtfile`, chaos.py:2917-2945, for the numbers after the first line. -/
noncomputable def loadGufm1 (data : List ℝ) : Except Synth.Error PPoly.Base :=
  let nmax := (Synth.pyInt (data.getD 0 0)).toNat
  let order : ℕ := 4
  let nbreaks := (Synth.pyInt (data.getD 1 0) + order).toNat
  loadSpline (((data.take (nbreaks + 2)).drop 2).map yearToMjd) order nmax (data.drop (nbreaks + 2))

/-- `load_CALS7K_txtfile`, chaos.py:3001-3039, for the numbers in the file. -/
noncomputable def loadCals7k (data : List ℝ) : Except Synth.Error PPoly.Base :=
  let nmax := (Synth.pyInt (data.getD 4 0)).toNat
  let inspl := Synth.pyInt (data.getD 6 0)
  let order : ℕ := 4
  let nbreaks := (inspl + order).toNat
  loadSpline (((data.take (7 + nbreaks)).drop 7).map yearToMjd) order nmax (data.drop (7 + nbreaks))

end ChaosMagPy.BSpline
