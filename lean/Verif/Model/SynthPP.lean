import Verif.Model.Chaos
import Verif.Model.Spectrum
import Verif.Model.NumPy
/-!
# Model of `synth_from_pp`, `power_spectrum` of arrays (`chaosmagpy/model_utils.py`) and of `BaseModel.power_spectrum` (`chaosmagpy/chaos.py`)

Exact reals, NaN is `none`. `synth_from_pp` and `BaseModel.power_spectrum` for lists of times or points (shapes and `grid` are the subject
of C61).
-/
namespace ChaosMagPy.SynthPP
open ChaosMagPy.PPoly (PP Extrap)
open ChaosMagPy.Chaos (Pt Val Model fieldOfRows clipNmax ofPPoly)
open ChaosMagPy.Index (nmaxOfDim)
open ChaosMagPy.NumPy (Arr)

/-- `synth_from_pp(breaks, order, coeffs, time, radius, theta, phi, nmax=, source=, deriv=)`, model_utils.py:266-344, for an array `coeffs` of
shape `(k, pieces, dim)`. The argument `order` is not used by the code. SciPy's `PPoly.__call__` refuses a number of pieces that does not fit
to the break points; no pieces at all is not modelled (ValueError here). -/
noncomputable def synthFromPP (rSurf : ℝ) (breaks : List ℝ) (_order k pieces dim : ℕ) (coeffs : ℕ → ℕ → ℕ → ℝ) (pts : List Pt)
    (nmax : Option ℕ) (source : Option String) (deriv : Option ℕ) : Except Chaos.Error (List Val) :=
  if pieces + 1 ≠ breaks.length ∨ pieces = 0 then .error .valueError
  else
    let nmax := clipNmax (nmaxOfDim dim).toNat nmax
    let deriv := deriv.getD 0
    let p : PP := { k, x := breaks, c := coeffs }
    let q := p.derivative deriv
    let rows := pts.map fun p => (q.eval false 0 p.time).map fun v d => v d * (365.25 : ℝ) ^ deriv
    fieldOfRows rSurf (nmax * (nmax + 2)) rows pts (some nmax) (source.getD "internal")

/-- Exceptions of `mu.power_spectrum` for arrays and of the method. -/
inductive Error where
  | valueError
  | zeroDivisionError
  | indexError
  deriving DecidableEq, Repr

/-- Exceptions of `mu.power_spectrum`. -/
def ofSpectrum {α : Type} : Except Spectrum.Error α → Except Error α
  | .ok a => .ok a
  | .error .valueError => .error .valueError
  | .error .zeroDivisionError => .error .zeroDivisionError

/-- Exceptions of `synth_coeffs`. -/
def ofCoeffs {α : Type} : Except PPoly.Error α → Except Error α
  | .ok a => .ok a
  | .error .valueError => .error .valueError

/-- `mu.power_spectrum` of one row of coefficients; a row of NaN gives NaN for every degree. -/
noncomputable def rowSpectrum (rSurf radius : ℝ) (dim : ℕ) (source : String) (row : Option (ℕ → ℝ)) : Except Error (Option (List (Option ℝ))) :=
  match ofSpectrum (Spectrum.powerSpectrum rSurf dim (row.getD fun _ => 0) (some radius) none (some source)) with
  | .error e => .error e
  | .ok W => .ok (row.map fun _ => W)

/-- `BaseModel.power_spectrum(time, radius, nmax=, deriv=, extrapolate=)`, chaos.py:434-475. -/
noncomputable def modelSpectrum (rSurf : ℝ) (m : Model) (times : List ℝ) (radius : Option ℝ) (nmax deriv : Option ℕ) (extrapolate : Option Extrap) :
    Except Error (List (Option (List (Option ℝ)))) := do
  let radius := radius.getD rSurf
  let (dim, rows) ← ofCoeffs (PPoly.modelSynthCoeffs m.base times nmax deriv extrapolate)
  rows.mapM (rowSpectrum rSurf radius dim m.source)

/-- Position of an axis given by a possibly negative number, `none` if there is no such axis. -/
def axisPos (ndim : ℕ) (axis : ℤ) : Option ℕ :=
  if 0 ≤ axis ∧ axis < ndim then some axis.toNat else if axis < 0 ∧ -ndim ≤ axis then some (axis + ndim).toNat else none

/-- `W_n[..., n-1, ...] = factor(n, r)*np.sum(coeffs[..., min:max, ...]**2, axis=axis)`, model_utils.py:1058-1069. -/
def writeDegree (p dim : ℕ) (coeffs : List ℕ → ℝ) (fac : ℝ) (n : ℕ) (W : List ℕ → Option ℝ) : List ℕ → Option ℝ := fun i =>
  if i[p]? = some (n - 1) then
    let lo := n ^ 2 - 1
    let hi := lo + (2 * n + 1)
    some (fac * Spectrum.sumSlice dim (fun k => coeffs (i.set p k) ^ 2) lo hi)
  else W i

/-- `power_spectrum(coeffs, radius, nmax=, source=, axis=)` of an array, model_utils.py:1023-1071. -/
noncomputable def powerSpectrumArr (rSurf : ℝ) (coeffs : Arr ℝ) (radius : Option ℝ) (nmax : Option ℤ) (source : Option String) (axis : Option ℤ) :
    Except Error (Arr (Option ℝ)) := do
  let axis := axis.getD (-1)
  let r ← match radius with
    | none => pure 1
    | some x => if x = 0 then throw .zeroDivisionError else pure (rSurf / x)
  match axisPos coeffs.shape.length axis with
  | none => throw .indexError
  | some p =>
    let dim := coeffs.shape.getD p 0
    let nmax := Spectrum.clipDegree (nmaxOfDim dim) nmax
    let fac ← ofSpectrum (Spectrum.factor source)
    if nmax < 0 then throw .valueError
    return ⟨coeffs.shape.set p nmax.toNat, (Legendre.pyRange 1 (nmax.toNat + 1)).foldl
      (fun W n => writeDegree p dim coeffs.get (fac n r) n W) fun _ => none⟩

end ChaosMagPy.SynthPP
