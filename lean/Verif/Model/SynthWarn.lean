import Verif.Model.PPoly
/-!
# Model of `Base.synth_coeffs` with NaN among the times and with its warnings, `chaosmagpy/chaos.py` lines 86-213, 332-377

NaN is `none`. A call returns the warnings in the order in which they are issued, and the result or exception.
-/
namespace ChaosMagPy.PPoly

/-- Warnings: `dim` too large (chaos.py:134-138), times outside of the model (chaos.py:190-194) with the word in "Doing {message} extrapolation". -/
inductive Warn where
  | dim (given used : ℕ)
  | outside (start stop : ℝ) (message : String)

/-- `np.minimum`: NaN if one of the arguments is NaN. -/
noncomputable def nanMin : Option ℝ → Option ℝ → Option ℝ
  | some x, some y => some (min x y)
  | _, _ => none

/-- `np.maximum`: NaN if one of the arguments is NaN. -/
noncomputable def nanMax : Option ℝ → Option ℝ → Option ℝ
  | some x, some y => some (max x y)
  | _, _ => none

/-- `np.amin(time)`, `np.amax(time)` (chaos.py:153); ValueError for an empty array. -/
noncomputable def aminmaxN : List (Option ℝ) → Except Error (Option ℝ × Option ℝ)
  | [] => .error .valueError
  | t :: ts => .ok (ts.foldl nanMin t, ts.foldl nanMax t)

/-- `a < b`: false if `a` is NaN. -/
def nanLt (a : Option ℝ) (b : ℝ) : Prop := ∃ x, a = some x ∧ x < b

/-- `a > b`: false if `a` is NaN. -/
def nanGt (a : Option ℝ) (b : ℝ) : Prop := ∃ x, a = some x ∧ x > b

/-- The dictionary `dkey`, chaos.py:155-162. -/
def dkey (order : ℕ) : List (String × ℤ) :=
  [("linear", 2), ("quadratic", 3), ("cubic", 4), ("constant", 1), ("spline", order), ("off", 0)]

/-- `rev_dkey[key]`, chaos.py:184-186: of several entries with the same value the last one counts. -/
def revDkey (order : ℕ) (key : ℤ) : Option String := ((dkey order).reverse.find? fun kv => kv.2 = key).map Prod.fst

/-- The word in the warning, chaos.py:180-188 (the string in line 188 is not an f-string). -/
def message (order : ℕ) (key : ℤ) : String :=
  if key = 0 then "no" else (revDkey order key).getD "order-{key} spline"

open Classical in
/-- The polynomial used for the evaluation and whether it extrapolates, and the warning, chaos.py:145-205. -/
noncomputable def prepareN (b : Base) (c : ℕ → ℕ → ℕ → ℝ) (times : List (Option ℝ)) (extrapolate : Extrap) : List Warn × Except Error (PP × Bool) :=
  let p : PP := { k := b.order, x := b.breaks, c }
  let start := first b.breaks
  let stop := last b.breaks
  match aminmaxN times with
  | .error e => ([], .error e)
  | .ok (lo, hi) =>
    if nanLt lo start ∨ nanGt hi stop then
      match extrapKey b.order extrapolate with
      | .error e => ([], .error e)
      | .ok key =>
        ([.outside start stop (message b.order key)],
          if key > 0 then do
            let p1 ← extendSide p key.toNat start
            let p2 ← extendSide p1 key.toNat stop
            return (p2, true)
          else .ok (p, false))
    else ([], .ok (p, true))

/-- Value of a piecewise polynomial; SciPy finds no interval for NaN, the value is NaN. -/
noncomputable def PP.evalN (p : PP) (extrapolate : Bool) (nu : ℕ) : Option ℝ → Option (ℕ → ℝ)
  | some t => p.eval extrapolate nu t
  | none => none

/-- `Base.synth_coeffs(time, dim=, deriv=, extrapolate=)`, chaos.py:86-213. -/
noncomputable def Base.synthCoeffsN (b : Base) (times : List (Option ℝ)) (dim : Option ℕ) (deriv : Option ℕ) (extrapolate : Option Extrap) :
    List Warn × Except Error (ℕ × List (Option (ℕ → ℝ))) :=
  match b.coeffs with
  | none => ([], .error .valueError)
  | some c =>
    if b.order = 0 ∨ b.breaks.length ≤ 1 ∨ b.dim = 0 then ([], .error .valueError)
    else
      let w : List Warn := match dim with
        | none => []
        | some d => if d > b.dim then [.dim d b.dim] else []
      let dim := match dim with
        | none => b.dim
        | some d => if d > b.dim then b.dim else d
      let deriv := deriv.getD 0
      let r := prepareN b c times (extrapolate.getD (.str "linear"))
      (w ++ r.1, r.2.map fun pe => (dim, times.map fun t => ((pe.1.derivative deriv).evalN pe.2 0 t).map fun v d => v d * (365.25 : ℝ) ^ deriv))

end ChaosMagPy.PPoly
