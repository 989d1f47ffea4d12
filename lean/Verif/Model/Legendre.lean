import Verif.Spec.Harmonics
import Mathlib.Analysis.SpecialFunctions.Pow.NNReal
/-!
# Model of `chaosmagpy/model_utils.py`, `legendre_poly` (lines 897-965)

The function fills one array in place, values below the diagonal and derivatives above.  The model
keeps this: the function is the list of array assignments it executes, in loop order, and each
assignment is an explicit expression with its reads.  Numbers are exact reals (simplification:
floating-point rounding is not modelled); the trailing dimensions of `theta` are elementwise, so the
model is for one point.
-/
namespace ChaosMagPy.Legendre

/-- Python's `range(a, b)`. -/
def pyRange (a b : ℕ) : List ℕ := List.range' a (b - a)

/-- Right-hand sides of the assignments: constants (costh, sinth, np.sqrt of an integer expression,
integer factors), table reads, reads of the precomputed `rootn`, arithmetic. -/
inductive Expr where
  | const (x : ℝ)
  | read (i j : ℕ)
  | rootn (k : ℤ)
  | mul (a b : Expr)
  | sub (a b : Expr)
  | div (a b : Expr)
  | neg (a : Expr)

/-- `Pnm[tgt] = rhs`. -/
structure Assign where
  tgt : ℕ × ℕ
  rhs : Expr

/-- Table entries read by an expression. -/
def Expr.reads : Expr → List (ℕ × ℕ)
  | .const _ => []
  | .read i j => [(i, j)]
  | .rootn _ => []
  | .mul a b => a.reads ++ b.reads
  | .sub a b => a.reads ++ b.reads
  | .div a b => a.reads ++ b.reads
  | .neg a => a.reads

/-- Indices into `rootn` used by an expression. -/
def Expr.roots : Expr → List ℤ
  | .const _ => []
  | .read _ _ => []
  | .rootn k => [k]
  | .mul a b => a.roots ++ b.roots
  | .sub a b => a.roots ++ b.roots
  | .div a b => a.roots ++ b.roots
  | .neg a => a.roots

/-- The array `Pnm` (for one point). -/
abbrev Table := ℕ × ℕ → ℝ

/-- Value of a right-hand side; `rootn = np.sqrt(np.arange(2*nmax**2 + 1))` (line 934). -/
noncomputable def Expr.eval (T : Table) : Expr → ℝ
  | .const x => x
  | .read i j => T (i, j)
  | .rootn k => Real.sqrt k
  | .mul a b => a.eval T * b.eval T
  | .sub a b => a.eval T - b.eval T
  | .div a b => a.eval T / b.eval T
  | .neg a => -a.eval T

/-- IndexError of NumPy. -/
inductive Error where
  | indexError
  deriving DecidableEq

/-- Index `(i, j)` lies in the array of shape `(nmax+1, nmax+2)` (line 930). -/
def inBounds (nmax : ℕ) (p : ℕ × ℕ) : Prop := p.1 < nmax + 1 ∧ p.2 < nmax + 2

instance (nmax : ℕ) (p : ℕ × ℕ) : Decidable (inBounds nmax p) := by unfold inBounds; infer_instance

/-- Index lies in `rootn` (line 934). Simplification: a negative index, which NumPy would take from
the end, counts as an error here; `C15_in_bounds` shows that none occurs. -/
def rootInBounds (nmax : ℕ) (k : ℤ) : Prop := 0 ≤ k ∧ k < 2 * (nmax : ℤ) ^ 2 + 1

instance (nmax : ℕ) (k : ℤ) : Decidable (rootInBounds nmax k) := by unfold rootInBounds; infer_instance

/-- All indices of an assignment are valid. -/
def Assign.valid (nmax : ℕ) (a : Assign) : Prop :=
  inBounds nmax a.tgt ∧ (∀ p ∈ a.rhs.reads, inBounds nmax p) ∧ ∀ k ∈ a.rhs.roots, rootInBounds nmax k

instance (nmax : ℕ) (a : Assign) : Decidable (a.valid nmax) := by unfold Assign.valid; infer_instance

/-- One in-place assignment. -/
noncomputable def Assign.step (a : Assign) (T : Table) : Table :=
  fun p => if p = a.tgt then a.rhs.eval T else T p

/-- Executing one assignment, with NumPy's bounds checks. -/
noncomputable def exec (nmax : ℕ) (T : Table) (a : Assign) : Except Error Table :=
  if a.valid nmax then .ok (a.step T) else .error .indexError

section
open Expr

/-- Body of the loop over `n` for the values (lines 945-949). -/
noncomputable def valueStep (costh : ℝ) (m n : ℕ) : Assign :=
  let d : ℤ := (n : ℤ) * n - (m : ℤ) * m
  let e : ℤ := (n : ℤ) + n - 1
  ⟨(n, m), .div (.sub (.mul (.mul (.const e) (.const costh)) (.read (n - 1) m))
      (.mul (.rootn (d - e)) (.read (n - 2) m))) (.rootn d)⟩

/-- Body of the loop over `m` for the values (lines 938-949); the local `Pnm_tmp` is inlined (the
entry `Pnm[m, m]` it is computed from is not assigned in between). -/
noncomputable def valueBlock (nmax : ℕ) (costh sinth : ℝ) (m : ℕ) : List Assign :=
  let tmp : Expr := .mul (.rootn ((m : ℤ) + m + 1)) (.read m m)
  [⟨(m + 1, m), .mul (.const costh) tmp⟩]
  ++ (if m > 0 then [⟨(m + 1, m + 1), .div (.mul (.const sinth) tmp) (.rootn ((m : ℤ) + m + 2))⟩] else [])
  ++ (pyRange (m + 2) (nmax + 1)).map (valueStep costh m)

/-- Body of the innermost loop for the derivatives (lines 959-961). -/
noncomputable def derivStep (n m : ℕ) : Assign :=
  ⟨(m, n + 1), .mul (.const 0.5) (.sub
    (.mul (.const (Real.sqrt (((n : ℝ) + m) * ((n : ℝ) - m + 1)))) (.read n (m - 1)))
    (.mul (.const (Real.sqrt (((n : ℝ) + m + 1) * ((n : ℝ) - m)))) (.read n (m + 1))))⟩

/-- Body of the loop over `n` for the derivatives (lines 954-963). -/
noncomputable def derivBlock (n : ℕ) : List Assign :=
  [⟨(0, n + 1), .mul (.neg (.const (Real.sqrt (((n : ℝ) * n + n) / 2)))) (.read n 1)⟩,
   ⟨(1, n + 1), .div (.sub (.mul (.const (Real.sqrt (2 * ((n : ℝ) * n + n)))) (.read n 0))
      (.mul (.const (Real.sqrt ((n : ℝ) * n + n - 2))) (.read n 2))) (.const 2)⟩]
  ++ (pyRange 2 n).map (derivStep n)
  ++ [⟨(n, n + 1), .div (.mul (.const (Real.sqrt (2 * n))) (.read n (n - 1))) (.const 2)⟩]

/-- The assignments executed by `legendre_poly`, in order (lines 931-963). -/
noncomputable def program (nmax : ℕ) (costh sinth : ℝ) : List Assign :=
  [⟨(0, 0), .const 1⟩, ⟨(1, 1), .const sinth⟩]
  ++ (pyRange 0 nmax).flatMap (valueBlock nmax costh sinth)
  ++ [⟨(0, 2), .neg (.read 1 1)⟩, ⟨(1, 2), .read 1 0⟩]
  ++ (pyRange 2 (nmax + 1)).flatMap derivBlock

end

/-- `legendre_poly(nmax, theta)` for one colatitude in degrees (lines 927-965). -/
noncomputable def legendrePoly (nmax : ℕ) (theta : ℝ) : Except Error Table :=
  let costh := Real.cos (Spec.rad theta)
  let sinth := Real.sqrt (1 - costh ^ 2)
  (program nmax costh sinth).foldlM (exec nmax) (fun _ => 0)

end ChaosMagPy.Legendre
