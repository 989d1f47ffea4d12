import Verif.Model.ModelHeap
/-!
# Specification: models and the arrays of the caller

What the values of variables and arguments are, when two arrays share memory (`np.shares_memory`), and which programs leave the memory of a model alone.
-/
namespace ChaosMagPy.ModelHeap
open ChaosMagPy.Matfile (Arr)
open ChaosMagPy.PPoly (Base Extrap)

/-- The present value of a variable. -/
def World.value (w : World) (i : ℕ) : Option Arr := (w.env[i]?).map (View.read w.heap)

/-- The present value of an argument. -/
def World.arg (w : World) : Arg → Option Arr
  | .list a => if a.data.length = a.shape.prod then some a else none
  | .var i => w.value i

/-- The piecewise polynomial the `n`-th model stands for at present. -/
def World.seen (w : World) (n : ℕ) : Option Base := (w.models[n]?).map (Model.denote w.heap)

/-- `np.shares_memory(x, y)`: there is an element of one block that belongs to both arrays. -/
def Shares (u v : View) : Prop := u.addr = v.addr ∧ ∃ p, (u.off ≤ p ∧ p < u.off + u.size) ∧ (v.off ≤ p ∧ p < v.off + v.size)

/-- The variable `i` shares memory with the break points or the coefficients of the model `n`. -/
def World.Touches (w : World) (i n : ℕ) : Prop :=
  ∃ v m, w.env[i]? = some v ∧ w.models[n]? = some m ∧ (Shares v m.breaks ∨ Shares v m.coeffs)

/-- During the program nothing is written into an array that shares memory with the model `n`. -/
def Quiet (n : ℕ) : World → List Op → Prop
  | _, [] => True
  | w, op :: ops => (∀ i j x, op = .write i j x → ¬ w.Touches i n) ∧ Quiet n (attempt w op) ops

/-- The program does not take the attributes `breaks` and `coeffs` of the model `n`. -/
def NoAttr (n : ℕ) (ops : List Op) : Prop := ∀ op ∈ ops, op ≠ .getBreaks n ∧ op ≠ .getCoeffs n

/-- The argument is a list or an array of another type than float. -/
def World.Copied (w : World) : Arg → Prop
  | .list _ => True
  | .var i => ∃ v, w.env[i]? = some v ∧ (block w.heap v.addr).isFloat = false

/-- The variable is an array of floats. -/
def World.IsFloat (w : World) (i : ℕ) : Prop := ∃ v, w.env[i]? = some v ∧ (block w.heap v.addr).isFloat = true

/-- The model of the documentation for given break points (any shape), order and coefficients (three axes). -/
noncomputable def documented (breaks : Arr) (order : Option ℕ) (coeffs : Arr) : Base :=
  Base.init breaks.data order (coeffs.shape.getD 0 0) (coeffs.shape.getD 2 0) (cube coeffs)

/-- An array after a write at position `j`. -/
def Arr.put (a : Arr) (j : ℕ) (x : ℝ) : Arr := { a with data := a.data.set j x }

end ChaosMagPy.ModelHeap
