import Verif.Model.SynthArr
import Verif.Model.BSpline
/-!
# Model of the vectorised `design_gauss` (`chaosmagpy/model_utils.py` 769-894) and of `design_matrix` (89-141), with shapes

The same functions as `designGauss` in `Model/Synth.lean` and `designMatrix` in `Model/BSpline.lean` (which are the versions for lists of points), array
operation by array operation. Simplifications as in `Model/SynthArr.lean` (`legendre_poly` entry by entry, exact reals).
-/
namespace ChaosMagPy.DesignArr
open ChaosMagPy.NumPy
open ChaosMagPy.Legendre (pyRange)
open ChaosMagPy.Synth (Error Source)
open ChaosMagPy.SynthArr (Ctx legendreArr divArr rnNext)

/-- `A[..., k] = expr`: first the expression is computed, then the index is checked, then the shape. -/
noncomputable def setSel (A : Arr ℝ) (k : ℕ) (x : AE) : Except Error (Arr ℝ) :=
  match x.run with
  | .error e => .error e
  | .ok a =>
    match A.shape.getLast? with
    | none => .error .indexError
    | some n =>
      if k < n then
        if bcast A.shape.dropLast a.shape = some A.shape.dropLast then
          .ok ⟨A.shape, fun i => if i.getLastD 0 = k then a.at i.dropLast else A.get i⟩
        else .error .valueError
      else .error .indexError

/-- Running variables of the loops (lines 839-844). -/
structure State where
  num : ℕ
  rn : Arr ℝ
  ar : Arr ℝ
  ath : Arr ℝ
  ap : Arr ℝ

/-- The factor `(n+1)` or `-n` of the radial component. -/
noncomputable def rnum (src : Source) (n : ℕ) : AE :=
  match src with
  | .internal => num (n + 1)
  | .external => num (-n)

/-- Body of the loop over the orders (lines 855-886). -/
noncomputable def orderStep (x : Ctx) (n : ℕ) (s : State) (m : ℕ) : Except Error State := do
  let cmp := (x.phi.map fun y => Real.cos (m * y)).e
  let smp := (x.phi.map fun y => Real.sin (m * y)).e
  let ar ← setSel s.ar s.num (rnum x.src n * (x.P (n, m)).e * s.rn.e * cmp)
  let ar ← setSel ar (s.num + 1) (rnum x.src n * (x.P (n, m)).e * s.rn.e * smp)
  let ath ← setSel s.ath s.num (-(x.P (m, n + 1)).e * s.rn.e * cmp)
  let ath ← setSel ath (s.num + 1) (-(x.P (m, n + 1)).e * s.rn.e * smp)
  let ap ← setSel s.ap s.num (num m * (divArr x.poles x.theta x.P n m).e * s.rn.e * smp)
  let ap ← setSel ap (s.num + 1) (num (-m) * (divArr x.poles x.theta x.P n m).e * s.rn.e * cmp)
  return { num := s.num + 2, rn := s.rn, ar, ath, ap }

/-- Body of the loop over the degrees (lines 845-892). -/
noncomputable def degreeStep (x : Ctx) (mmax : ℤ) (s : State) (n : ℕ) : Except Error State := do
  let ar ← setSel s.ar s.num (rnum x.src n * (x.P (n, 0)).e * s.rn.e)
  let ath ← setSel s.ath s.num (-(x.P (0, n + 1)).e * s.rn.e)
  let s2 ← (pyRange 1 ((min (n : ℤ) mmax + 1).toNat)).foldlM (orderStep x n) { s with num := s.num + 1, ar, ath }
  let rn ← rnNext x.src x.radius s2.rn
  return { s2 with rn }

/-- The loops (lines 815-894); `radius` is divided by the reference radius, `theta` and `phi` are in degrees. -/
noncomputable def loops (radius theta phi : Arr ℝ) (src : Source) (poles : Bool) (nmin nmax : ℕ) (mmax : ℤ) (shape : List ℕ) (dim : ℕ) :
    Except Error (Arr ℝ × Arr ℝ × Arr ℝ) := do
  let x : Ctx := { src, poles, P := legendreArr nmax theta, radius, theta, phi := phi.map Spec.rad, coeffs := zeros [0] }
  let s ← (pyRange nmin (nmax + 1)).foldlM (degreeStep x mmax)
    { num := 0, rn := radius.map fun r => Synth.rnInit src r nmin, ar := zeros (shape ++ [dim]), ath := zeros (shape ++ [dim]), ap := zeros (shape ++ [dim]) }
  return (s.ar, s.ath, s.ap)

/-- `design_gauss(radius, theta, phi, nmax, nmin=, mmax=, source=)`, lines 769-894. -/
noncomputable def designGauss (rsurf : ℝ) (radius theta phi : Arr ℝ) (nmax : ℤ) (nmin mmax : Option ℤ) (source : Option String) :
    Except Error (Arr ℝ × Arr ℝ × Arr ℝ) := do
  let radius := radius.map fun r => r / rsurf
  match broadcast [radius.shape, theta.shape, phi.shape] with
  | none => throw .valueError
  | some shape => do
    let poles ← Synth.checkColat theta.data
    if ¬ (nmax > 0) then throw .assertionError
    let nmin : ℤ := nmin.getD 1
    if ¬ (nmin ≤ nmax) then throw .assertionError
    if ¬ (nmin > 0) then throw .assertionError
    let mmax : ℤ := mmax.getD nmax
    if ¬ (mmax ≤ nmax) then throw .assertionError
    if ¬ (mmax ≥ 0) then throw .assertionError
    let src ← Synth.resolveSource source
    loops radius theta phi src poles nmin.toNat nmax.toNat mmax shape (Synth.designDim nmin nmax mmax)

/-- `A @ c` for a vector `c`: the sum over the last axis; ValueError if the lengths differ or `A` has no axes. -/
noncomputable def matVec (A c : Arr ℝ) : Except Error (Arr ℝ) :=
  match A.shape.getLast? with
  | none => .error .valueError
  | some n =>
    if c.shape = [n] then .ok ⟨A.shape.dropLast, fun i => ∑ k ∈ Finset.range n, A.get (i ++ [k]) * c.get [k]⟩
    else .error .valueError

/-! ### `design_matrix` -/

/-- `G[:, lo:lo+w] = block` for a matrix `G` (values that have not been written are `none`) and a block with as many rows and `w` columns. -/
def setCols (G : ℕ → ℕ → Option ℝ) (lo w : ℕ) (block : ℕ → ℕ → Option ℝ) : ℕ → ℕ → Option ℝ :=
  fun i j => if lo ≤ j ∧ j < lo + w then block i (j - lo) else G i j

/-- One of the matrices of `design_matrix` (lines 120-139): `np.empty`, the loop over the time-dependent coefficients with the running column `n_col`, then the
static part. `coll` is the collocation matrix (`none` is NaN) with `nseg` columns. -/
noncomputable def fillMatrix (A : Arr ℝ) (nseg ctdep : ℕ) (coll : ℕ → ℕ → Option ℝ) : ℕ × (ℕ → ℕ → Option ℝ) :=
  (List.range ctdep).foldl (fun s coeff =>
    (s.1 + nseg, setCols s.2 s.1 nseg fun i j => (coll i j).map fun c => A.get [i, coeff] * c)) (0, fun _ _ => none)

/-- The static part (lines 137-139): the remaining columns (as many as the static coefficients from `ctdep` on). -/
noncomputable def addStatic (A : Arr ℝ) (ctdep cols : ℕ) (s : ℕ × (ℕ → ℕ → Option ℝ)) : ℕ → ℕ → Option ℝ :=
  setCols s.2 s.1 (cols - s.1) fun i j => some (A.get [i, ctdep + j])

/-- The three matrices of `design_matrix`: number of rows and columns and the entries. -/
structure Mat where
  rows : ℕ
  cols : ℕ
  get : ℕ → ℕ → Option ℝ

/-- `design_matrix(knots, order, n_tdep, time, radius, theta, phi, n_static=, source=)`, lines 89-141; the assertions on the shapes come first. -/
noncomputable def designMatrix (rsurf : ℝ) (knots : List ℝ) (order ntdep : ℕ) (time radius theta phi : Arr ℝ) (nstatic : Option ℕ) (source : Option String) :
    Except Error (Mat × Mat × Mat) := do
  if ¬ (time.shape = radius.shape ∧ radius.shape = theta.shape ∧ theta.shape = phi.shape) then throw .assertionError
  if ¬ (time.shape.length = 1) then throw .assertionError
  let (lo, hi) ← Synth.aminmax theta.data
  if ¬ (lo > 0 ∧ hi < 180) then throw .assertionError
  match nstatic with
  | some n => if n ≠ 0 ∧ n < ntdep then throw .valueError
  | none => pure ()
  let n := nstatic.getD ntdep
  let ctdep := ntdep * (ntdep + 2)
  let cstatic := n * (n + 2)
  let A ← designGauss rsurf radius theta phi n none none (some (source.getD "internal"))
  let (nseg, coll) := BSpline.collocMatrix time.data knots order none
  let cols := (nseg - 1) * ctdep + cstatic
  let c : ℕ → ℕ → Option ℝ := fun i j => (coll[i]?).bind fun row => row j
  let G (A : Arr ℝ) : Mat := ⟨time.shape.headD 0, cols, addStatic A ctdep cols (fillMatrix A nseg ctdep c)⟩
  return (G A.1, G A.2.1, G A.2.2)

end ChaosMagPy.DesignArr
