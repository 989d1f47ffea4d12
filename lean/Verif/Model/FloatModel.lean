import Verif.Model.FloatPP
import Verif.Model.FloatLegendre
import Verif.Model.FloatSpectrum
import Verif.Model.Chaos
/-!
# Model of `BaseModel.synth_values` and `BaseModel.power_spectrum` (`chaosmagpy/chaos.py` 418-432, 469-475) in double precision

For one time and one point: the coefficients of the spline model (`FloatPP`), then the field (`FloatLegendre`), with the rounding of every operation.
-/
namespace ChaosMagPy.FloatModel
open ChaosMagPy.Spec ChaosMagPy.FloatLegendre
open ChaosMagPy.PPoly (Base Extrap)

variable (R : Rounding)

/-- `BaseModel.synth_values(time, radius, theta, phi, nmax=, deriv=, extrapolate=)` (lines 418-432; `mu.synth_values` is called with `nmin=1`, `mmax=nmax` by default) for a model with the source
`'internal'` or `'external'`; missing coefficients (`extrapolate='off'`) give NaN. Simplification: coefficients beyond the end of the array are zero, they are not used. -/
noncomputable def modelPoint (cosine sin : ℝ → ℝ) (power : ℝ → ℤ → ℝ) (rSurf : ℝ) (m : Chaos.Model) (nmax deriv : Option ℕ) (extrapolate : Option Extrap) (time radius theta phi : ℝ) :
    Except (PPoly.Error ⊕ Legendre.Error) Field :=
  let n := Chaos.clipNmax (Index.nmaxOfDim m.base.dim).toNat nmax
  match m.base.synthCoeffsF R [time] (some (n * (n + 2))) deriv extrapolate with
  | .error e => .error (.inl e)
  | .ok (dim, rows) =>
    let coeffs : ℕ → F := match rows[0]? with
      | some (some v) => fun i => some (if i < dim then v i else 0)
      | _ => fun _ => none
    match synthPoint R cosine sin power rSurf (decide (m.source = "internal")) 1 n n coeffs radius theta phi with
    | .error e => .error (.inr e)
    | .ok f => .ok f

/-- `BaseModel.power_spectrum(time, radius=, nmax=, deriv=, extrapolate=)` (lines 469-475, with `BaseModel.synth_coeffs`, lines 374-378) at one time. Simplification: for missing coefficients
(`extrapolate='off'`) nothing is returned, whatever the source. -/
noncomputable def modelSpectrum (S : FloatSpectrum.Summation R) (P : FloatSpectrum.Power) (rSurf : ℝ) (m : Chaos.Model) (time : ℝ) (radius : Option ℝ) (nmax deriv : Option ℕ) (extrapolate : Option Extrap) :
    Except (PPoly.Error ⊕ Spectrum.Error) (Option (List (Option ℝ))) :=
  let radius := radius.getD rSurf
  match m.base.synthCoeffsF R [time] (nmax.map fun n => n * (n + 2)) deriv extrapolate with
  | .error e => .error (.inl e)
  | .ok (dim, rows) =>
    match rows[0]? with
    | some (some v) =>
      match FloatSpectrum.powerSpectrum R S P rSurf dim (fun i => if i < dim then v i else 0) (some radius) none (some m.source) with
      | .error e => .error (.inr e)
      | .ok W => .ok (some W)
    | _ => .ok none

end ChaosMagPy.FloatModel
