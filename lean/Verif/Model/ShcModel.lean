import Verif.Spec.SplineModel
/-!
# Model of `BaseModel.to_shc` and `BaseModel.from_shc`, `chaosmagpy/chaos.py` lines 694-829

The text of the file (rounding to eight decimals, time conversion) is the subject of C13 (`Model/Shc`); here the
numbers of the file are exact and times are in days. SciPy's `make_lsq_spline` is modelled by its specification:
it returns a spline with the given knots that minimises the sum of squared differences to the data.
-/
namespace ChaosMagPy.PPoly
open ChaosMagPy.Index (nmaxOfDim)
open ChaosMagPy.Spec

/-- Content of an shc file as returned by `load_shcfile`; `coeffs k r` is row `r` of the table at time `k`. -/
structure ShcData where
  nmin : ℕ
  nmax : ℕ
  order : ℕ
  step : ℕ
  time : List ℝ
  coeffs : ℕ → ℕ → ℝ

/-- `np.arange(start, end, delta)`. -/
noncomputable def arange (start stop delta : ℝ) : List ℝ :=
  (List.range ⌈(stop - start) / delta⌉₊).map fun i : ℕ => start + i * delta

/-- Sampling times, chaos.py:729-742. -/
noncomputable def shcTimes (order : ℕ) (breaks : List ℝ) : List ℝ :=
  let step := max (order - 1) 1
  if order = 1 then breaks.dropLast
  else
    ((breaks.dropLast).zip breaks.tail).foldl
      (fun times se => times ++ arange se.1 se.2 ((se.2 - se.1) / step)) [] ++ [last breaks]

/-- `BaseModel.to_shc`, chaos.py:694-748; the arguments of `save_shcfile`, that writes the rows of the
degrees `nmin` to `nmax` and fails if there are not enough coefficients (here `ValueError`). -/
noncomputable def toShc (b : Base) (nmin nmax : Option ℕ) : Except Error ShcData :=
  let nmin := nmin.getD 1
  match b.coeffs with
  | none => .error .valueError
  | some _ => do
    let N := (nmaxOfDim b.dim).toNat
    let nmax := nmax.getD N
    let times := shcTimes b.order b.breaks
    let (n, rows) ← modelSynthCoeffs b times (some N) none none
    if nmin > nmax ∨ n < nmax * (nmax + 2) then .error .valueError
    else
      return { nmin, nmax, order := b.order, step := b.order - 1, time := times, coeffs := fun k r => match rows[k]? with | some (some v) => v (r + (nmin ^ 2 - 1)) | _ => 0 }

/-- `time[::step]`. -/
def strided (time : List ℝ) (step : ℕ) : List ℝ :=
  (List.range ((time.length + step - 1) / step)).map fun i => time.getD (i * step) 0

/-- Zero padding below degree `nmin`, chaos.py:803-808. -/
noncomputable def padded (f : ShcData) : ℕ → ℕ → ℝ := fun k d =>
  if f.nmin > 1 then (if d < f.nmin ^ 2 - 1 then 0 else f.coeffs k (d - (f.nmin ^ 2 - 1))) else f.coeffs k d

/-- The spline space of `make_lsq_spline(x, y, knots, order - 1)` with simple inner knots at the break points:
piecewise polynomials whose derivatives up to `order - 2` agree at the inner break points. -/
def IsSpline (breaks : List ℝ) (order : ℕ) (c : ℕ → ℕ → ℝ) : Prop :=
  ∀ j, j + 2 < breaks.length → ∀ q, q + 1 < order →
    iteratedDeriv q (poly order (fun i => c i j) (breaks.getD j 0)) (breaks.getD (j + 1) 0) =
    iteratedDeriv q (poly order (fun i => c i (j + 1)) (breaks.getD (j + 1) 0)) (breaks.getD (j + 1) 0)

/-- Value of a piecewise polynomial at a data site. -/
noncomputable def splineVal (breaks : List ℝ) (order : ℕ) (c : ℕ → ℕ → ℝ) (t : ℝ) : ℝ :=
  match findInterval breaks true t with
  | some j => poly order (fun i => c i j) (breaks.getD j 0) t
  | none => 0

/-- Sum of squared differences at the data sites. -/
noncomputable def misfit (breaks : List ℝ) (order : ℕ) (c : ℕ → ℕ → ℝ) (time : List ℝ) (y : ℕ → ℝ) : ℝ :=
  ∑ k ∈ Finset.range time.length, (splineVal breaks order c (time.getD k 0) - y k) ^ 2

/-- Specification of `make_lsq_spline` followed by the conversion to a piecewise polynomial. -/
def IsLsq (breaks : List ℝ) (order : ℕ) (time : List ℝ) (y : ℕ → ℝ) (c : ℕ → ℕ → ℝ) : Prop :=
  IsSpline breaks order c ∧
    ∀ c', IsSpline breaks order c' → misfit breaks order c time y ≤ misfit breaks order c' time y

/-- `BaseModel.from_shc` after reading the file, chaos.py:788-829: `b` is a possible result. -/
def FromShc (f : ShcData) (b : Base) : Prop :=
  let step := max f.step 1
  if f.order = 1 then
    b = Base.init (f.time ++ [last f.time]) (some 1) 1 (f.nmax * (f.nmax + 2)) (fun _ j d => padded f j d)
  else
    let stop := ((f.time.length - 1) / step) * step + 1
    b.breaks = strided f.time step ∧ b.order = f.order ∧ b.dim = f.nmax * (f.nmax + 2) ∧
      ∃ c, b.coeffs = some c ∧ ∀ d, d < b.dim →
        IsLsq b.breaks f.order (f.time.take stop) (fun k => padded f k d) (fun i j => c i j d)

end ChaosMagPy.PPoly
