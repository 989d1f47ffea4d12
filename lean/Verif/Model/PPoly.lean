import Verif.Model.Index
import Mathlib.Data.Nat.Factorial.Basic
/-!
# Model of `Base` and `BaseModel` (piecewise polynomials), `chaosmagpy/chaos.py` lines 49-432

SciPy's `PPoly` is modelled from its source: `evaluate`, `find_interval`, `derivative`, `extend`.
Coefficients are functions of (row, piece, column); row `i` of `k` rows belongs to the power `k-1-i` of
the time since the left end of the piece. Exact reals instead of floats. NaN is `none`.
-/
namespace ChaosMagPy.PPoly
open ChaosMagPy.Index (nmaxOfDim)

/-- Exceptions. -/
inductive Error where
  | valueError
  deriving DecidableEq, Repr

/-- SciPy's `PPoly` object: number `k` of rows, break points and coefficients. -/
structure PP where
  k : ℕ
  x : List ℝ
  c : ℕ → ℕ → ℕ → ℝ

/-- First break point (the list is never empty here). -/
noncomputable def first (x : List ℝ) : ℝ := x.headD 0

/-- Last break point. -/
noncomputable def last (x : List ℝ) : ℝ := x.getLastD 0

/-- SciPy's `find_interval` for ascending break points: the piece `i` with `x[i] ≤ t < x[i+1]` (found by
bisection there, by counting the break points not above `t` here), the last piece for the last break
point, and the first or last piece (or nothing) for times outside. -/
noncomputable def findInterval (x : List ℝ) (extrapolate : Bool) (t : ℝ) : Option ℕ :=
  if t < first x then (if extrapolate then some 0 else none)
  else if last x < t then (if extrapolate then some (x.length - 2) else none)
  else if t = last x then some (x.length - 2)
  else some (x.countP (fun b => decide (b ≤ t)) - 1)

/-- SciPy's `evaluate_poly1`: the `nu`-th derivative of the polynomial with rows `c` at `s`. -/
noncomputable def evalPoly (k : ℕ) (c : ℕ → ℝ) (nu : ℕ) (s : ℝ) : ℝ :=
  ∑ p ∈ Finset.range k, if nu ≤ p then c (k - 1 - p) * (p.descFactorial nu : ℝ) * s ^ (p - nu) else 0

/-- `PP(t, nu=nu)`: column `d` of the value at time `t`. -/
noncomputable def PP.eval (p : PP) (extrapolate : Bool) (nu : ℕ) (t : ℝ) : Option (ℕ → ℝ) :=
  (findInterval p.x extrapolate t).map fun j d =>
    evalPoly p.k (fun i => p.c i j d) nu (t - p.x.getD j 0)

/-- `PP.derivative(nu)`: rows that vanish are dropped, an empty array is replaced by one row of zeros. -/
noncomputable def PP.derivative (p : PP) (nu : ℕ) : PP :=
  if nu = 0 then p
  else if p.k ≤ nu then { k := 1, x := p.x, c := fun _ _ _ => 0 }
  else { k := p.k - nu, x := p.x, c := fun i j d => p.c i j d * ((p.k - 1 - i).descFactorial nu : ℝ) }

/-- `PP.extend(bin, np.array([x0]))` with a single new break point: appended if it is not below the last
one, else prepended if it is not above the first one, otherwise refused. -/
noncomputable def PP.extend (p : PP) (bin : ℕ → ℕ → ℝ) (x0 : ℝ) : Except Error PP :=
  if x0 ≥ last p.x then
    .ok { k := p.k, x := p.x ++ [x0], c := fun i j d => if j < p.x.length - 1 then p.c i j d else bin i d }
  else if x0 ≤ first p.x then
    .ok { k := p.k, x := x0 :: p.x, c := fun i j d => if j = 0 then bin i d else p.c i (j - 1) d }
  else .error .valueError

/-- The argument `extrapolate` (chaos.py:137-138, 157-175). -/
inductive Extrap where
  | bool (b : Bool)
  | str (s : String)
  | int (z : ℤ)

/-- The model data of `Base` (chaos.py:54-84); `coeffs = none` if there are none. `order`, `pieces` and `dim`
are the sizes of the stored coefficient array. -/
structure Base where
  breaks : List ℝ
  order : ℕ
  dim : ℕ
  coeffs : Option (ℕ → ℕ → ℕ → ℝ)

/-- `Base.__init__` with coefficients (chaos.py:54-84): a single break point is doubled, the order is limited
by the number of rows, and the last rows are kept. `rows`, `dim` are the sizes of the given array. The order is positive
as documented (for order 0 the slice `coeffs[-0:]` would keep everything; not modelled). -/
noncomputable def Base.init (breaks : List ℝ) (order : Option ℕ) (rows dim : ℕ) (coeffs : ℕ → ℕ → ℕ → ℝ) : Base :=
  let breaks := if breaks.length = 1 then breaks ++ breaks else breaks
  let order := match order with
    | none => rows
    | some o => min o rows
  { breaks, order, dim, coeffs := some fun i => coeffs (rows - order + i) }

/-- Conversion of `extrapolate` to an order (chaos.py:145-177). -/
def extrapKey (order : ℕ) : Extrap → Except Error ℤ
  | .bool b => .ok (min (if b then 2 else 0) order)
  | .str s =>
    if s = "linear" then .ok (min 2 order)
    else if s = "quadratic" then .ok (min 3 order)
    else if s = "cubic" then .ok (min 4 order)
    else if s = "constant" then .ok (min 1 order)
    else if s = "spline" then .ok (min order order)
    else if s = "off" then .ok (min 0 order)
    else .error .valueError
  | .int z => .ok (min z order)

/-- The piece added on one side (chaos.py:198-201): `bin[-1-k] = PP(x, nu=k)` for `k < key`, other rows
are zero. -/
noncomputable def extensionBin (p : PP) (key : ℕ) (x : ℝ) : ℕ → ℕ → ℝ := fun i d =>
  let k := p.k - 1 - i
  if i < p.k ∧ k < key then
    match p.eval true k x with
    | some v => v d
    | none => 0
  else 0

/-- One pass of the loop over the two ends (chaos.py:197-202). -/
noncomputable def extendSide (p : PP) (key : ℕ) (x : ℝ) : Except Error PP := p.extend (extensionBin p key x) x

/-- `np.amin(time)`, `np.amax(time)` of the (flattened) times; ValueError for an empty array. -/
noncomputable def aminmax : List ℝ → Except Error (ℝ × ℝ)
  | [] => .error .valueError
  | t :: ts => .ok (ts.foldl min t, ts.foldl max t)

/-- The polynomial used for the evaluation and whether it extrapolates (chaos.py:139-205). -/
noncomputable def prepare (b : Base) (c : ℕ → ℕ → ℕ → ℝ) (times : List ℝ) (extrapolate : Extrap) :
    Except Error (PP × Bool) := do
  let p : PP := { k := b.order, x := b.breaks, c }
  let start := first b.breaks
  let stop := last b.breaks
  let (lo, hi) ← aminmax times
  if lo < start ∨ hi > stop then
    let key ← extrapKey b.order extrapolate
    if key > 0 then
      let p1 ← extendSide p key.toNat start
      let p2 ← extendSide p1 key.toNat stop
      return (p2, true)
    else return (p, false)
  else return (p, true)

/-- `Base.synth_coeffs(time, dim=, deriv=, extrapolate=)`, chaos.py:86-213. The result is the number of
columns and for every time the row of coefficients. (Column `d` of the result only depends on column `d`
of the model coefficients, so the truncation is a truncation of the result.) -/
noncomputable def Base.synthCoeffs (b : Base) (times : List ℝ) (dim : Option ℕ) (deriv : Option ℕ)
    (extrapolate : Option Extrap) : Except Error (ℕ × List (Option (ℕ → ℝ))) :=
  match b.coeffs with
  | none => .error .valueError
  | some c =>
    if b.order = 0 ∨ b.breaks.length ≤ 1 ∨ b.dim = 0 then .error .valueError  -- `coeffs.size == 0`
    else do
      let dim := match dim with
        | none => b.dim
        | some d => if d > b.dim then b.dim else d
      let deriv := deriv.getD 0
      let (p, ext) ← prepare b c times (extrapolate.getD (.str "linear"))
      let q := p.derivative deriv
      return (dim, times.map fun t => (q.eval ext 0 t).map fun v d => v d * (365.25 : ℝ) ^ deriv)

/-- `BaseModel.synth_coeffs(time, nmax=, deriv=, extrapolate=)`, chaos.py:332-377. -/
noncomputable def modelSynthCoeffs (b : Base) (times : List ℝ) (nmax : Option ℕ) (deriv : Option ℕ)
    (extrapolate : Option Extrap) : Except Error (ℕ × List (Option (ℕ → ℝ))) :=
  b.synthCoeffs times (nmax.map fun n => n * (n + 2)) deriv extrapolate

/-! ### MAT-file layout -/

/-- `np.reshape(self.coeffs, (order, -1)).transpose()`, chaos.py:238: entry `(a, i)` of the matrix. -/
def toPPCoefs (dim : ℕ) (c : ℕ → ℕ → ℕ → ℝ) : ℕ → ℕ → ℝ := fun a i => c i (a / dim) (a % dim)

/-- `coefs.transpose().reshape((order, pieces, dim))`, chaos.py:2537. -/
def fromPPCoefs (dim : ℕ) (m : ℕ → ℕ → ℝ) : ℕ → ℕ → ℕ → ℝ := fun i j d => m (j * dim + d) i

end ChaosMagPy.PPoly
