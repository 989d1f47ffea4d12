import Mathlib.Analysis.SpecialFunctions.Pow.Complex
import Mathlib.Analysis.SpecialFunctions.Complex.Arg
import Mathlib.Analysis.Real.Pi.Bounds
/-!
# Model of the Q-response, `chaosmagpy/coordinate_utils.py` lines 1640-1948

Exact arithmetic over `ℂ`; `np.sqrt` and `**` of complex numbers are the principal branches. The arrays are
vectors (the checks of their number of dimensions are not modelled; `radius` is an ndarray), printing is left
out. Division by zero, which gives NaN or infinity in NumPy, is not modelled.
-/
namespace ChaosMagPy.QResponse

/-- Exceptions. -/
inductive Error where
  | valueError
  | indexError
  | typeError
  /-- `UnboundLocalError` -/
  | unboundLocal
  /-- a loop that does not end -/
  | endless
  deriving DecidableEq, Repr

/-- `mu = 4*np.pi*1e-7`, coordinate_utils.py:1846. -/
noncomputable def mu : ℝ := 4 * Real.pi * (1 / 10 ^ 7)

/-- `omega = 2*np.pi*1.0j/periods`, coordinate_utils.py:1848. -/
noncomputable def omega (period : ℝ) : ℂ := 2 * (Real.pi : ℂ) * Complex.I / (period : ℂ)

/-- `qk = -omega*mu*radius[k]`, coordinate_utils.py:1858, 1867, 1878, 1879. -/
noncomputable def qk (period r : ℝ) : ℂ := -omega period * (mu : ℂ) * (r : ℂ)

/-- `bk = np.sqrt((n+0.5)**2 - qk*sigma[k]*radius[k])`, coordinate_utils.py:1859, 1868. -/
noncomputable def bk (n : ℕ) (period sigma r : ℝ) : ℂ :=
  (((n : ℂ) + 0.5) ^ 2 - qk period r * (sigma : ℂ) * (r : ℂ)) ^ (1 / 2 : ℂ)

/-- Admittance of the innermost layer, coordinate_utils.py:1857-1861. -/
noncomputable def core (n : ℕ) (period sigma r : ℝ) : ℂ := -(bk n period sigma r + 0.5) / qk period r

/-- One pass of the loop over the layers above the core, coordinate_utils.py:1865-1883, with the admittance `Y` of the
layer below. (Line 1876 replaces NaNs of an overflowing power, which do not occur in exact arithmetic.) -/
noncomputable def layer (n : ℕ) (period sigma r r1 : ℝ) (Y : ℂ) : ℂ :=
  let b := bk n period sigma r
  let bkp := b + 0.5
  let bkm := b - 0.5
  let etak := r / r1
  let zetak := (etak : ℂ) ^ (2 * b)
  let tauk := (1 - zetak) / (1 + zetak)
  let q := qk period r
  let q1 := qk period r1
  let qY := q1 * Y
  1 / q * (qY * (b - 0.5 * tauk) + bkp * bkm * tauk) / (b + tauk * (0.5 + qY))

/-- `Y[:, 0]` after the loop `for k in range(N-2, -1, -1)`, coordinate_utils.py:1857-1883, for one period; the radii are in
metres. Every pass uses only the admittance of the pass before, so one running value replaces the table. -/
noncomputable def admittance (n : ℕ) (period : ℝ) (sigma radius : List ℝ) : ℂ :=
  (List.range (sigma.length - 1)).reverse.foldl
    (fun Y k => layer n period (sigma.getD k 0) (radius.getD k 0) (radius.getD (k + 1) 0) Y)
    (core n period (sigma.getD (sigma.length - 1) 0) (radius.getD (radius.length - 1) 0))

/-- The four results for one period. -/
structure Response where
  C : ℂ
  rhoA : ℂ
  phi : ℝ
  Q : ℂ

/-- Results for one period, coordinate_utils.py:1842-1892, `radius` in kilometres. -/
noncomputable def respond (n : ℕ) (period : ℝ) (sigma radius : List ℝ) : Response :=
  let radius := radius.map fun r => 1000 * r
  let Y := admittance n period sigma radius
  let C := 1 / (omega period * (mu : ℂ) * Y) / 1000
  let r0 := ((radius.getD 0 0 : ℝ) : ℂ) / 1000
  { C := C
    rhoA := (mu : ℂ) * omega period * ((‖C * 1000‖ ^ 2 : ℝ) : ℂ)
    phi := 90 + 57.3 * Complex.arg C
    Q := (n : ℂ) / ((n : ℂ) + 1) * (1 - ((n : ℂ) + 1) * C / r0) / (1 + (n : ℂ) * C / r0) }

/-! ### `kind='constant'` -/

/-- The running variables of the power series, coordinate_utils.py:1757-1766, for one of the two arguments. -/
structure Series where
  dp : ℂ
  dq : ℂ
  p : ℂ
  q : ℂ
  pd : ℂ
  qd : ℂ

/-- The variables before the loop, coordinate_utils.py:1757-1765. -/
def Series.init (n : ℕ) : Series := { dp := 1, dq := 1, p := 1, q := 1, pd := n, qd := -((n : ℂ) + 1) }

/-- Body of the loop, coordinate_utils.py:1767-1773. -/
noncomputable def Series.step (n : ℕ) (zz : ℂ) (j : ℕ) (s : Series) : Series :=
  let dp := s.dp * zz / j / (2 * j + 1 + 2 * n)
  let dq := s.dq * zz / j / (2 * j - 1 - 2 * n)
  { dp, dq, p := s.p + dp, q := s.q + dq, pd := s.pd + dp * (2 * j + n), qd := s.qd + dq * (2 * j - n - 1) }

/-- The variables after `i` passes; the counter `j` starts with one. -/
noncomputable def Series.after (n : ℕ) (z : ℂ) : ℕ → Series
  | 0 => Series.init n
  | i + 1 => Series.step n (z ^ 2 / 2) (i + 1) (Series.after n z i)

open Classical in
/-- `while (abs(dp) > eps or abs(dq) > eps)`, coordinate_utils.py:1766: the variables after the first pass for which the
condition is false; `none` if there is none (the loop does not end). -/
noncomputable def Series.loop (eps : ℝ) (n : ℕ) (z : ℂ) : Option Series :=
  if h : ∃ i, ¬ (‖(Series.after n z i).dp‖ > eps ∨ ‖(Series.after n z i).dq‖ > eps) then some (Series.after n z (Nat.find h)) else none

/-- Two functions and their derivatives at one argument. -/
structure Pair where
  p : ℂ
  q : ℂ
  pd : ℂ
  qd : ℂ

/-- The values after the loop, coordinate_utils.py:1775-1780, with `fac1 = factorial(n)`, `fac2 = (-1)**n * fac1/(2*n+1)`. -/
noncomputable def smallPair (n : ℕ) (z : ℂ) (s : Series) : Pair :=
  let fac1 : ℂ := n.factorial
  let fac2 : ℂ := (-1) ^ n * fac1 / (2 * n + 1)
  let p := s.p * z ^ n / fac1
  let q := s.q * z ^ (-(n : ℤ) - 1) * fac2
  let q := (-1) ^ (n + 1) * Real.pi / 2 * (p - q)
  let pd := s.pd * z ^ ((n : ℤ) - 1) / fac1
  let qd := s.qd * z ^ (-(n : ℤ) - 2) * fac2
  let qd := (-1) ^ (n + 1) * Real.pi / 2 * (pd - qd)
  { p, q, pd, qd }

/-- The running variables for large arguments, coordinate_utils.py:1795-1800. -/
structure Sums where
  rm : ℂ
  rp : ℂ
  rmd : ℂ
  rpd : ℂ
  d : ℂ
  sg : ℂ

/-- Body of the loop over `j`, coordinate_utils.py:1802-1807. -/
noncomputable def Sums.step (n : ℕ) (zz : ℂ) (s : Sums) (j : ℕ) : Sums :=
  let d := s.d * ((n : ℂ) + 1 - j) * (n + j) / j / zz
  let sg := -s.sg
  { d, sg, rp := s.rp + d, rm := s.rm + sg * d, rmd := s.rmd + sg * d * (j + 1), rpd := s.rpd + d * (j + 1) }

/-- The values for large arguments, coordinate_utils.py:1793-1815. -/
noncomputable def largePair (n : ℕ) (z : ℂ) : Pair :=
  let zz := 2 * z
  let s := (List.range' 1 n).foldl (Sums.step n zz) { rm := 1, rp := 1, rmd := 1, rpd := 1, d := 1, sg := 1 }
  let e := Complex.exp (-2 * z)
  let q := Real.pi / zz * s.rp
  { p := (s.rm - s.sg * s.rp * e) / zz
    q
    pd := (s.rm + s.sg * s.rp * e) / zz - 2 * (s.rmd - s.sg * s.rpd * e) / zz ^ 2
    qd := -q - 2 * Real.pi * s.rpd / zz ^ 2 }

/-- The six quotients `v1`, ..., `v6`. -/
structure Quotients where
  v1 : ℂ
  v2 : ℂ
  v3 : ℂ
  v4 : ℂ
  v5 : ℂ
  v6 : ℂ

/-- Coordinate_utils.py:1782-1787 (with `e = 1`) and 1817-1823, `a` at the top and `b` at the bottom of the layer. -/
noncomputable def quotients (a b : Pair) (e : ℂ) : Quotients :=
  { v1 := b.p / a.p * e, v2 := a.pd / a.p, v3 := b.pd / a.p * e, v4 := a.q / b.q * e, v5 := a.qd / b.q * e, v6 := b.qd / b.q }

/-- `k = np.sqrt(8.0e-7 * 1.0j * np.pi**2 * sigma[il] / period)`, coordinate_utils.py:1746. -/
noncomputable def waveNumber (T sigma : ℝ) : ℂ := ((8 / 10 ^ 7 : ℝ) * Complex.I * (Real.pi : ℂ) ^ 2 * sigma / T) ^ (1 / 2 : ℂ)

/-- The quotients of one layer, coordinate_utils.py:1747-1823; radii in kilometres. -/
noncomputable def layerQuotients (eps : ℝ) (n : ℕ) (k : ℂ) (r r1 : ℝ) : Option Quotients :=
  let z0 := k * r * 1000
  let z1 := k * r1 * 1000
  if ‖z0‖ < 3 then do
    let s0 ← Series.loop eps n z0
    let s1 ← Series.loop eps n z1
    return quotients (smallPair n z0 s0) (smallPair n z1 s1) 1
  else some (quotients (largePair n z0) (largePair n z1) (Complex.exp (-(z0 - z1))))

/-- `b` of the innermost layer, coordinate_utils.py:1826. -/
noncomputable def bottom (k : ℂ) (v : Quotients) : ℂ := k * (v.v2 - v.v5 * v.v1) / (1 - v.v4 * v.v1)

/-- `b` of another layer, coordinate_utils.py:1828-1829. -/
noncomputable def upward (k : ℂ) (v : Quotients) (b : ℂ) : ℂ :=
  k * ((v.v2 - v.v5 * v.v1) * b + k * (v.v5 * v.v3 - v.v2 * v.v6)) / ((1 - v.v4 * v.v1) * b + k * (v.v4 * v.v3 - v.v6))

/-- The loop over the layers, coordinate_utils.py:1744-1829, from the innermost layer `nl` to the outermost one. (The old value of
`b` is not used for the innermost layer.) -/
noncomputable def constantB (eps : ℝ) (n : ℕ) (T : ℝ) (sigma radius : List ℝ) : Option ℂ :=
  let nl := radius.length - 2
  (List.range (nl + 1)).reverse.foldlM (fun b il => do
    let k := waveNumber T (sigma.getD il 0)
    let v ← layerQuotients eps n k (radius.getD il 0) (radius.getD (il + 1) 0)
    return if il = nl then bottom k v else upward k v b) 0

/-- Results for one period, coordinate_utils.py:1744-1841. -/
noncomputable def respondConstant (eps : ℝ) (n : ℕ) (T : ℝ) (sigma radius : List ℝ) : Option Response :=
  (constantB eps n T sigma radius).map fun b =>
    let r0 : ℂ := (radius.getD 0 0 : ℝ)
    let C := r0 / (1 + 1000 * r0 * b)
    { C := C
      rhoA := ((1 / 10 ^ 7 * 8 * Real.pi ^ 2 / T * ‖C * 1000‖ ^ 2 : ℝ) : ℂ)
      phi := 90 + 57.3 * Complex.arg C
      Q := (n : ℂ) / ((n : ℂ) + 1) * (1 - ((n : ℂ) + 1) * C / r0) / (1 + (n : ℂ) * C / r0) }

/-- The argument `periods`. -/
inductive Periods where
  | scalar (T : ℝ)
  | array (Ts : List ℝ)

/-- The branch `kind='constant'`, coordinate_utils.py:1726-1840, with `eps = 1.0e-10`. A scalar period cannot be iterated (TypeError);
without a layer above the core the variable `b` has no value. -/
noncomputable def constantBranch (periods : Periods) (sigma radius : List ℝ) (n : ℕ) : Except Error (List Response) :=
  match periods with
  | .scalar _ => .error .typeError
  | .array Ts => Ts.mapM fun T =>
    if radius.length < 2 then .error .unboundLocal
    else if sigma.length < radius.length - 1 then .error .indexError
    else match respondConstant (1 / 10 ^ 10) n T sigma radius with
      | none => .error .endless
      | some r => .ok r

/-- `q_response_1D(periods, sigma, radius, n, kind=)`, coordinate_utils.py:1640-1897. A scalar period makes `tauk` a NumPy
scalar, to which line 1876 cannot assign (TypeError) if there is more than one layer. -/
noncomputable def qResponse1D (periods : Periods) (sigma radius : List ℝ) (n : ℕ) (kind : Option String) :
    Except Error (List Response) :=
  let kind := kind.getD "quadratic"
  if kind = "constant" then constantBranch periods sigma radius n
  else if kind = "quadratic" then
    if sigma = [] ∨ radius = [] ∨ radius.length < sigma.length then .error .indexError
    else match periods with
      | .scalar T => if 1 < sigma.length then .error .typeError else .ok [respond n T sigma radius]
      | .array Ts => .ok (Ts.map fun T => respond n T sigma radius)
  else .error .valueError

/-- `q_response[n, index] = Q_n`, coordinate_utils.py:1946: the values go to the places where the mask is true, the others
stay zero. -/
def fillMask : List Bool → List ℂ → List ℂ
  | [], _ => []
  | false :: m, qs => 0 :: fillMask m qs
  | true :: m, q :: qs => q :: fillMask m qs
  | true :: m, [] => 0 :: fillMask m []

open Classical in
/-- `q_response(frequency, nmax)`, coordinate_utils.py:1900-1948, for the rows (depth in km, conductivity) of the file. -/
noncomputable def qResponse (model : List (ℝ × ℝ)) (frequency : List ℝ) (nmax : ℕ) : Except Error (List (List ℂ)) :=
  let radius := model.map fun p => 6371.2 - p.1
  let sigma := model.map fun p => p.2
  let index := frequency.map fun f => decide (f > 0)
  let periods := (frequency.filter fun f => decide (f > 0)).map fun f => 1 / f
  (List.range nmax).mapM fun n =>
    match qResponse1D (.array periods) sigma radius (n + 1) (some "quadratic") with
    | .error e => .error e
    | .ok rs => .ok (fillMask index (rs.map Response.Q))

end ChaosMagPy.QResponse
