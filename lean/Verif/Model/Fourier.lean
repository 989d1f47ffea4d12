import Mathlib.Analysis.SpecialFunctions.Trigonometric.Basic
import Mathlib.Data.Complex.BigOperators
/-!
# Model of `synth_rotate_gauss` and `rotate_gauss_fft`, `chaosmagpy/coordinate_utils.py` lines 205-462

Exact real and complex numbers. `np.fft.fft` is the DFT sum of its documentation. `rotate_gauss_fft` is
modelled for the time series of one matrix element, since the elements are treated separately; the series itself
(the matrices of `rotate_gauss` at the sampling times) is an input.
-/
namespace ChaosMagPy.Fourier

/-- Exceptions. -/
inductive Error where
  | valueError
  deriving DecidableEq, Repr

/-- The argument `scaled`: left out, a Python bool, or the zero-dimensional array that `np.load` returns for the
entry `scaled` of an npz file. -/
inductive Scaled where
  | none
  | py (b : Bool)
  | array (b : Bool)

/-- `scaled is False` after the default was set, coordinate_utils.py:237-238, 253: an array is never the object
`False`. -/
def Scaled.isFalse : Scaled → Bool
  | .none => true
  | .py b => !b
  | .array _ => false

/-- One harmonic `cos(2 pi f t) + i sin(2 pi f t)`, times 2 if not scaled and the frequency is positive,
coordinate_utils.py:240-256. -/
noncomputable def harmonic (scaled : Scaled) (f t : ℝ) : ℂ :=
  let ft := 2 * Real.pi * f * t
  let h : ℂ := ⟨Real.cos ft, Real.sin ft⟩
  if scaled.isFalse ∧ 2 * Real.pi * f > 0 then 2 * h else h

/-- `synth_rotate_gauss(time, frequency, spectrum, scaled)` for frequencies of shape `(k, m, n)`: the element
`(i, j)` at one time, coordinate_utils.py:237-260. -/
noncomputable def synthRotate (k : ℕ) (frequency : ℕ → ℕ → ℕ → ℝ) (spectrum : ℕ → ℕ → ℕ → ℂ) (scaled : Scaled) (t : ℝ)
    (i j : ℕ) : ℝ :=
  (∑ q ∈ Finset.range k, spectrum q i j * harmonic scaled (frequency q i j) t).re

/-- `synth_rotate_gauss` for a frequency vector of shape `(k,)`, coordinate_utils.py:242-243: the result of
`frequency.reshape(-1, 1, 1)` is discarded, so the frequencies are broadcast along the last axis of the spectrum
of shape `(k, m, n)`. The result for one time: number of columns and elements. -/
noncomputable def synthRotateVec (k n : ℕ) (frequency : ℕ → ℝ) (spectrum : ℕ → ℕ → ℕ → ℂ) (scaled : Scaled) (t : ℝ) :
    Except Error (ℕ × (ℕ → ℕ → ℝ)) :=
  if k = n then .ok (n, fun i j => (∑ q ∈ Finset.range k, spectrum q i j * harmonic scaled (frequency j) t).re)
  else if k = 1 then .ok (n, fun i j => (∑ q ∈ Finset.range k, spectrum q i j * harmonic scaled (frequency 0) t).re)
  else if n = 1 then .ok (k, fun i j => (∑ q ∈ Finset.range k, spectrum q i 0 * harmonic scaled (frequency j) t).re)
  else .error .valueError

/-- `np.fft.fft(x)[k] / N`, coordinate_utils.py:399. -/
noncomputable def dft (N : ℕ) (x : ℕ → ℝ) (k : ℕ) : ℂ :=
  (∑ n ∈ Finset.range N, (x n : ℂ) * Complex.exp (-(2 * Real.pi * Complex.I * k * n) / N)) / N

/-- `int(N/2+1)`. -/
def halfLen (N : ℕ) : ℕ := N / 2 + 1

/-- Sampling times, coordinate_utils.py:379. -/
noncomputable def sampleTime (step start : ℝ) (n : ℕ) : ℝ := n * step / 24 + start

/-- `frequency_full[k]` in oscillations per second, coordinate_utils.py:403. -/
noncomputable def frequencyFull (N : ℕ) (step : ℝ) (k : ℕ) : ℝ := ((k : ℝ) / N) / step / 3600

/-- `sort` is a possible value of `np.argsort(np.abs(element))[::-1]`: the indices in descending order of the
amplitude (the order of equal amplitudes depends on the sorting algorithm). -/
def IsArgsortDesc (len : ℕ) (element : ℕ → ℂ) (sort : List ℕ) : Prop :=
  sort.Perm (List.range len) ∧ sort.Pairwise fun a b => ‖element b‖ ≤ ‖element a‖

/-- The degree index used for the Q-response of Gauss coefficient `k`, coordinate_utils.py:412:
`np.floor(np.sqrt(k+1)-1).astype(int)`. -/
noncomputable def responseIndex (k : ℕ) : ℤ := ⌊Real.sqrt ((k : ℝ) + 1) - 1⌋

/-- Output of `rotate_gauss_fft` for one matrix element: frequencies per day and Fourier components,
coordinate_utils.py:355-447. `response` is the Q-response of the element (1 for the inducing part), `sort`
the order of the amplitudes. Asking for more components than there are fails (for two or more samples). -/
noncomputable def elementFft (N : ℕ) (step : ℝ) (filter : Option ℕ) (scaled : Bool) (response : ℕ → ℂ) (x : ℕ → ℝ)
    (sort : List ℕ) : Except Error (List (ℝ × ℂ)) :=
  let filter := filter.getD (halfLen N)
  if filter > halfLen N then .error .valueError
  else .ok ((sort.take filter).map fun k =>
    let f := frequencyFull N step k * (24 * 3600)
    let c := response k * dft N x k
    (f, if scaled then (if f = 0 then c else 2 * c) else c))

/-- `synth_rotate_gauss` for the one element whose components are given as a list. -/
noncomputable def synthElement (comps : List (ℝ × ℂ)) (scaled : Scaled) (t : ℝ) : ℝ :=
  synthRotate comps.length (fun q _ _ => (comps.getD q (0, 0)).1) (fun q _ _ => (comps.getD q (0, 0)).2) scaled t 0 0

end ChaosMagPy.Fourier
