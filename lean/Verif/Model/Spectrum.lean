import Verif.Model.Index
/-!
# Model of `power_spectrum`, `degree_correlation`, `sensitivity`, `chaosmagpy/model_utils.py` lines 968-1169

Exact reals; division by zero as in IEEE 754 (`Num`). A coefficient vector is its length and its entries
(one vector along the chosen axis; the other axes are treated separately by the code). Arrays with a floating point
type: for integer arrays `sensitivity` would raise an exception at the in-place multiplication.
-/
namespace ChaosMagPy.Spectrum
open ChaosMagPy.Legendre (pyRange)
open ChaosMagPy.Index (nmaxOfDim)

/-- Exceptions. -/
inductive Error where
  | valueError
  | zeroDivisionError
  deriving DecidableEq, Repr

/-- Floating point results: exact values, NaN and infinities. -/
inductive Num where
  | val (x : ℝ)
  | nan
  | posInf
  | negInf

open Classical in
/-- IEEE division of two finite numbers (the zero counted as positive). -/
noncomputable def Num.div (x y : ℝ) : Num :=
  if y = 0 then (if x = 0 then .nan else if 0 < x then .posInf else .negInf) else .val (x / y)

open Classical in
/-- IEEE product of a finite number and any number. -/
noncomputable def Num.mul (x : ℝ) : Num → Num
  | .val y => .val (x * y)
  | .nan => .nan
  | .posInf => if x = 0 then .nan else if 0 < x then .posInf else .negInf
  | .negInf => if x = 0 then .nan else if 0 < x then .negInf else .posInf

/-- `np.sum(f[lo:hi])` of an array of length `dim` (slices are cut at the end of the array). -/
def sumSlice (dim : ℕ) (f : ℕ → ℝ) (lo hi : ℕ) : ℝ := ∑ i ∈ Finset.Ico lo (min hi dim), f i

/-- The functions `factor(n, r)`, model_utils.py:1041-1052. -/
noncomputable def factor (source : Option String) : Except Error (ℕ → ℝ → ℝ) :=
  match source.getD "internal" with
  | "internal" => .ok fun n r => ((n : ℝ) + 1) * r ^ (2 * (n : ℤ) + 4)
  | "external" => .ok fun n r => (n : ℝ) * r ^ (-(2 * (n : ℤ) - 2))
  | "toroidal" => .ok fun n _ => (n : ℝ) * ((n : ℝ) + 1) / (2 * n + 1)
  | _ => .error .valueError

/-- Default and clipping of `nmax`, model_utils.py:1032-1037. -/
def clipDegree (N : ℤ) : Option ℤ → ℤ
  | none => N
  | some n => if n > N then N else n

/-- `power_spectrum(coeffs, radius, nmax, source)`, model_utils.py:1023-1071. `rSurf` is
`basicConfig['params.r_surf']`; entries of `np.empty` are `none` until written. -/
noncomputable def powerSpectrum (rSurf : ℝ) (dim : ℕ) (coeffs : ℕ → ℝ) (radius : Option ℝ) (nmax : Option ℤ)
    (source : Option String) : Except Error (List (Option ℝ)) := do
  let r ← match radius with
    | none => pure 1
    | some x => if x = 0 then throw .zeroDivisionError else pure (rSurf / x)
  let N := nmaxOfDim dim
  let nmax := clipDegree N nmax
  let fac ← factor source
  if nmax < 0 then throw .valueError
  return (pyRange 1 (nmax.toNat + 1)).foldl (fun (W : List (Option ℝ)) (n : ℕ) =>
      let lo := n ^ 2 - 1
      let hi := lo + (2 * n + 1)
      W.set (n - 1) (some (fac n r * sumSlice dim (fun i => coeffs i ^ 2) lo hi)))
    (List.replicate nmax.toNat none)

/-- `degree_correlation(coeffs_1, coeffs_2)` of two vectors, model_utils.py:1092-1117. -/
noncomputable def degreeCorrelation (dim1 : ℕ) (c1 : ℕ → ℝ) (dim2 : ℕ) (c2 : ℕ → ℝ) : Except Error (List Num) := do
  if dim1 ≠ dim2 then throw .valueError
  let nmax := (nmaxOfDim dim1).toNat
  return (pyRange 1 (nmax + 1)).foldl (fun (C : List Num) (n : ℕ) =>
      let lo := n ^ 2 - 1
      let hi := lo + (2 * n + 1)
      let R := sumSlice dim1 (fun i => c1 i ^ 2) lo hi
      let S := sumSlice dim2 (fun i => c2 i ^ 2) lo hi
      C.set (n - 1) (Num.div (sumSlice dim1 (fun i => c1 i * c2 i) lo hi) (Real.sqrt (R * S))))
    (List.replicate nmax (.val 0))

/-- In-place multiplication of one entry, model_utils.py:1167 (every entry is multiplied at most once, so that it is
finite before). -/
noncomputable def scaleEntry (w : Num) : Num → Num
  | .val x => Num.mul x w
  | s => s

/-- `sensitivity(coeffs, coeffs_true)` of two vectors, model_utils.py:1146-1169. -/
noncomputable def sensitivity (dim1 : ℕ) (c : ℕ → ℝ) (dim2 : ℕ) (ct : ℕ → ℝ) : Except Error (List Num) := do
  if dim1 ≠ dim2 then throw .valueError
  let nmax := (nmaxOfDim dim1).toNat
  return (pyRange 1 (nmax + 1)).foldl (fun (S : List Num) (n : ℕ) =>
      let lo := n ^ 2 - 1
      let hi := lo + (2 * n + 1)
      let w := Num.div 1 (Real.sqrt (sumSlice dim2 (fun i => ct i ^ 2) lo hi / (2 * n + 1)))
      S.mapIdx fun i s => if lo ≤ i ∧ i < hi then scaleEntry w s else s)
    ((List.range dim1).map fun i => Num.val (c i - ct i))

end ChaosMagPy.Spectrum
