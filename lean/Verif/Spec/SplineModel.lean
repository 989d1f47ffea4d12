import Verif.Model.PPoly
import Verif.Spec.Spline
/-!
# Vocabulary for statements about piecewise polynomial models
-/
namespace ChaosMagPy.PPoly
open ChaosMagPy.Spec

/-- `t` belongs to piece `j`: its half-open interval, the last piece also contains the last break point. -/
def IsPiece (x : List ℝ) (j : ℕ) (t : ℝ) : Prop :=
  j + 1 < x.length ∧ ((x.getD j 0 ≤ t ∧ t < x.getD (j + 1) 0) ∨ (t = last x ∧ j + 2 = x.length))

/-- Ascending break points. -/
def Sorted (x : List ℝ) : Prop := ∀ i j, i ≤ j → j < x.length → x.getD i 0 ≤ x.getD j 0

/-- Strictly ascending break points, at least one interval. -/
def Ascending (x : List ℝ) : Prop := 2 ≤ x.length ∧ ∀ j, j + 1 < x.length → x.getD j 0 < x.getD (j + 1) 0

/-- A model with coefficients `c` on ascending break points that cover a time span. -/
structure Proper (b : Base) (c : ℕ → ℕ → ℕ → ℝ) : Prop where
  coeffs : b.coeffs = some c
  order : 0 < b.order
  dim : 0 < b.dim
  sorted : Sorted b.breaks
  span : first b.breaks < last b.breaks

/-- Time series of coefficient `d` on piece `j`. -/
noncomputable def piece (b : Base) (c : ℕ → ℕ → ℕ → ℝ) (j d : ℕ) : ℝ → ℝ :=
  poly b.order (fun i => c i j d) (b.breaks.getD j 0)

/-- The options that are accepted. -/
def Known : Extrap → Prop
  | .str s => s ∈ ["linear", "quadratic", "cubic", "spline", "constant", "off"]
  | _ => True

/-- The documented order of the polynomial used outside (the table in the documentation): at most the order
of the model; `0` or less means no extrapolation. -/
def documentedOrder (order : ℕ) : Extrap → ℤ
  | .bool true => min 2 order
  | .bool false => 0
  | .str "constant" => min 1 order
  | .str "linear" => min 2 order
  | .str "quadratic" => min 3 order
  | .str "cubic" => min 4 order
  | .str "spline" => order
  | .str _ => 0
  | .int z => min z order

/-- Some time is outside the model interval. -/
def Outside (b : Base) (times : List ℝ) : Prop := ∃ t ∈ times, t < first b.breaks ∨ last b.breaks < t

end ChaosMagPy.PPoly
