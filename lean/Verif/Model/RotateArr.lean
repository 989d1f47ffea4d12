import Verif.Model.NumPy
import Verif.Model.Fourier
import Verif.Model.Analysis
/-!
# Model of `synth_rotate_gauss` and `rotate_gauss` for arrays, `chaosmagpy/coordinate_utils.py` lines 205-258 and 465-618

`time`, `frequency`, `spectrum` and the base vectors are arrays of any shape (`time` may be a NumPy scalar: shape `()`; a Python float has no index `[..., None]`
and is not modelled). Exact real and complex numbers. `rotate_gauss` uses the matrix of one point in time of `Model/Analysis`.
-/
namespace ChaosMagPy.RotateArr
open ChaosMagPy.NumPy
open ChaosMagPy.Synth (Error)
open ChaosMagPy.Fourier (Scaled)

/-- `time[..., None, None, None]`, coordinate_utils.py:240. -/
def newAxes3 {α : Type} (a : Arr α) : Arr α := ⟨a.shape ++ [1, 1, 1], fun i => a.get (i.take a.shape.length)⟩

/-- `np.where(condition, x, y)`. -/
def npWhere {α : Type} (c : Arr Bool) (x y : Arr α) : Except Error (Arr α) := do
  let p ← map2 Prod.mk x y
  map2 (fun b q => if b then q.1 else q.2) c p

/-- `np.sum(a, axis=-3)`; AxisError (a ValueError) for fewer than three axes. -/
noncomputable def sumAxis3 (a : Arr ℂ) : Except Error (Arr ℂ) :=
  match a.shape.reverse with
  | n :: m :: k :: s => .ok ⟨s.reverse ++ [m, n], fun i => ∑ q ∈ Finset.range k, a.get (i.take s.length ++ q :: i.drop s.length)⟩
  | _ => .error .valueError

open Classical in
/-- The array `harmonics`, coordinate_utils.py:250-255; `frequency` already contains the factor `2*pi`. -/
noncomputable def harmonics (frequency freqT : Arr ℝ) (scaled : Scaled) : Except Error (Arr ℂ) :=
  let harmonics := freqT.map fun x => (⟨Real.cos x, Real.sin x⟩ : ℂ)
  if scaled.isFalse then npWhere (frequency.map fun f => decide (f > 0)) (harmonics.map fun h => 2 * h) harmonics else .ok harmonics

/-- `synth_rotate_gauss(time, frequency, spectrum, scaled)`, coordinate_utils.py:237-258. (The `reshape` of line 243 has no effect: its result is not
used.) -/
noncomputable def synthRotateGauss (time frequency : Arr ℝ) (spectrum : Arr ℂ) (scaled : Scaled) : Except Error (Arr ℝ) := do
  let time := newAxes3 time
  let frequency := frequency.map fun f => 2 * Real.pi * f
  let freqT ← map2 (fun f t => f * t) frequency time
  let harmonics ← harmonics frequency freqT scaled
  let product ← map2 (fun s h => s * h) spectrum harmonics
  let matrix ← sumAxis3 product
  return matrix.map Complex.re

/-- `base_i[index]`: the first three components, which are all that `geo_to_base` reads (coordinate_utils.py:1347-1349); IndexError if there are fewer. -/
def vecAt (b : Arr ℝ) (i : List ℕ) : Except Analysis.Error Coord.Vec :=
  match b.shape.getLast? with
  | none => .error .indexError
  | some d => if d < 3 then .error .indexError else .ok fun k => b.get (i ++ [k.val])

/-- One pass of the loop over the points in time, coordinate_utils.py:536-616. -/
noncomputable def matrixAt (leggauss : ℕ → List (ℝ × ℝ)) (nmax kmax : ℕ) (b1 b2 b3 : Arr ℝ) (i : List ℕ) : Except Analysis.Error (List (List ℝ)) := do
  let e1 ← vecAt b1 i
  let e2 ← vecAt b2 i
  let e3 ← vecAt b3 i
  Analysis.rotateGauss leggauss nmax kmax ⟨e1, e2, e3⟩

/-- `rotate_gauss(nmax, kmax, base_1, base_2, base_3)`, coordinate_utils.py:505-618: the loop over `np.ndindex(time_shape)`; the matrices are written into the
output (here: looked up by the position of the index). -/
noncomputable def rotateGauss (leggauss : ℕ → List (ℝ × ℝ)) (nmax kmax : ℕ) (b1 b2 b3 : Arr ℝ) : Except Analysis.Error (Arr ℝ) :=
  if b1.shape = b2.shape ∧ b1.shape = b3.shape then do
    let timeShape := b1.shape.dropLast
    let _ ← (leggauss ((nmax + kmax + 1) / 2 + 1)).mapM fun q => Analysis.lift (Legendre.legendrePoly nmax (Analysis.colat q.1))
    let ms ← (indices timeShape).mapM (matrixAt leggauss nmax kmax b1 b2 b3)
    return ⟨timeShape ++ [nmax ^ 2 + 2 * nmax, kmax ^ 2 + 2 * kmax], fun i =>
      let t := i.take timeShape.length
      let M := ms.getD ((indices timeShape).idxOf t) []
      (M.getD (i.getLastD 0) []).getD (i.dropLast.getLastD 0) 0⟩
  else .error .assertionError

end ChaosMagPy.RotateArr
