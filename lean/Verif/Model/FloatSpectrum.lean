import Verif.Model.FloatTime
import Verif.Model.Spectrum
/-!
# Model of `power_spectrum`, `degree_correlation`, `sensitivity` in double precision, `chaosmagpy/model_utils.py` lines 1023-1169

The functions of `Model/Spectrum.lean` with the rounding of every operation: `R x` is the double that is returned for the exact result `x`.
Two library functions are not determined by the standard and are left open as far as possible: the order in which `np.sum` adds, and the power
function of the C library. Infinities and NaN only as results of a division by zero (`Spectrum.Num`).
-/
namespace ChaosMagPy.FloatSpectrum
open ChaosMagPy.Spec
open ChaosMagPy.Float (degreeOf)
open ChaosMagPy.Spectrum (Error Num clipDegree)
open ChaosMagPy.Legendre (pyRange)

/-- The results that adding up the numbers of a list can have, whatever the order and the grouping of the additions. -/
inductive Added (R : Rounding) : List ℝ → ℝ → Prop
  | zero : Added R [] 0
  | one (x : ℝ) : Added R [x] x
  | add {l l' : List ℝ} {a b : ℝ} : Added R l a → Added R l' b → Added R (l ++ l') (R (a + b))
  | perm {l l' : List ℝ} {a : ℝ} : l.Perm l' → Added R l a → Added R l' a

/-- `np.sum` of a contiguous vector of doubles (NumPy adds in blocks of eight and in pairs of blocks): some order of the additions. -/
structure Summation (R : Rounding) where
  fn : List ℝ → ℝ
  order : ∀ l, Added R l (fn l)

/-- `r**k` for a positive double and an integer, the function `pow` of the C library: the result is off by at most one unit in the last place, and powers of one
are exact (C standard, F.10.4.4). -/
structure Power where
  fn : ℝ → ℤ → ℝ
  one : ∀ k, fn 1 k = 1
  accurate : ∀ x k, 0 < x → (2 : ℝ) ^ (-900 : ℤ) ≤ x ^ k → x ^ k ≤ 2 ^ 900 → IsDouble (fn x k) ∧ |fn x k - x ^ k| ≤ 2 ^ (-52 : ℤ) * x ^ k

variable (R : Rounding) (S : Summation R) (P : Power)

/-- `np.sum(f[lo:hi])` of the elements `f i` of an array of length `dim`, `lo ≤ hi` (slices are cut at the end of the array). -/
noncomputable def sumSlice (dim : ℕ) (f : ℕ → ℝ) (lo hi : ℕ) : ℝ := S.fn ((List.range' lo (min hi dim - lo)).map f)

/-- The functions `factor(n, r)`, model_utils.py:1041-1052; integers up to `2^53` are exact. -/
noncomputable def factor (source : Option String) : Except Error (ℕ → ℝ → ℝ) :=
  match source.getD "internal" with
  | "internal" => .ok fun n r => R (((n : ℝ) + 1) * P.fn r (2 * (n : ℤ) + 4))
  | "external" => .ok fun n r => R ((n : ℝ) * P.fn r (-(2 * (n : ℤ) - 2)))
  | "toroidal" => .ok fun n _ => R ((n : ℝ) * ((n : ℝ) + 1) / (2 * n + 1))
  | _ => .error .valueError

/-- `power_spectrum(coeffs, radius, nmax, source)` of a vector, model_utils.py:1023-1071. `coeffs**2` is the product of each element with itself. -/
noncomputable def powerSpectrum (rSurf : ℝ) (dim : ℕ) (coeffs : ℕ → ℝ) (radius : Option ℝ) (nmax : Option ℤ)
    (source : Option String) : Except Error (List (Option ℝ)) := do
  let r ← match radius with
    | none => pure 1
    | some x => if x = 0 then throw .zeroDivisionError else pure (R (rSurf / x))
  let N := degreeOf R dim
  let nmax := clipDegree N nmax
  let fac ← factor R P source
  if nmax < 0 then throw .valueError
  return (pyRange 1 (nmax.toNat + 1)).foldl (fun (W : List (Option ℝ)) (n : ℕ) =>
      let lo := n ^ 2 - 1
      let hi := lo + (2 * n + 1)
      W.set (n - 1) (some (R (fac n r * sumSlice R S dim (fun i => R (coeffs i * coeffs i)) lo hi))))
    (List.replicate nmax.toNat none)

open Classical in
/-- Division of doubles, with NaN and infinities for a denominator zero (the zero counted as positive). -/
noncomputable def div (x y : ℝ) : Num :=
  if y = 0 then (if x = 0 then .nan else if 0 < x then .posInf else .negInf) else .val (R (x / y))

/-- `degree_correlation(coeffs_1, coeffs_2)` of two vectors, model_utils.py:1092-1117. -/
noncomputable def degreeCorrelation (dim1 : ℕ) (c1 : ℕ → ℝ) (dim2 : ℕ) (c2 : ℕ → ℝ) : Except Error (List Num) := do
  if dim1 ≠ dim2 then throw .valueError
  let nmax := (degreeOf R dim1).toNat
  return (pyRange 1 (nmax + 1)).foldl (fun (C : List Num) (n : ℕ) =>
      let lo := n ^ 2 - 1
      let hi := lo + (2 * n + 1)
      let Rn := sumSlice R S dim1 (fun i => R (c1 i * c1 i)) lo hi
      let Sn := sumSlice R S dim2 (fun i => R (c2 i * c2 i)) lo hi
      C.set (n - 1) (div R (sumSlice R S dim1 (fun i => R (c1 i * c2 i)) lo hi) (R (Real.sqrt (R (Rn * Sn))))))
    (List.replicate nmax (.val 0))

open Classical in
/-- Product of a double and a double, an infinity or NaN. -/
noncomputable def mul (x : ℝ) : Num → Num
  | .val y => .val (R (x * y))
  | .nan => .nan
  | .posInf => if x = 0 then .nan else if 0 < x then .posInf else .negInf
  | .negInf => if x = 0 then .nan else if 0 < x then .negInf else .posInf

/-- In-place multiplication of one entry, model_utils.py:1167 (every entry is multiplied at most once, so that it is finite before). -/
noncomputable def scaleEntry (w : Num) : Num → Num
  | .val x => mul R x w
  | s => s

/-- `sensitivity(coeffs, coeffs_true)` of two vectors, model_utils.py:1146-1169. -/
noncomputable def sensitivity (dim1 : ℕ) (c : ℕ → ℝ) (dim2 : ℕ) (ct : ℕ → ℝ) : Except Error (List Num) := do
  if dim1 ≠ dim2 then throw .valueError
  let nmax := (degreeOf R dim1).toNat
  return (pyRange 1 (nmax + 1)).foldl (fun (L : List Num) (n : ℕ) =>
      let lo := n ^ 2 - 1
      let hi := lo + (2 * n + 1)
      let w := div R 1 (R (Real.sqrt (R (sumSlice R S dim2 (fun i => R (ct i * ct i)) lo hi / (2 * n + 1)))))
      L.mapIdx fun i s => if lo ≤ i ∧ i < hi then scaleEntry R w s else s)
    ((List.range dim1).map fun i => Num.val (R (c i - ct i)))

end ChaosMagPy.FloatSpectrum
