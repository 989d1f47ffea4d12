import Mathlib.Analysis.SpecialFunctions.Trigonometric.Basic
import Mathlib.LinearAlgebra.Matrix.Notation
/-!
# Specification vocabulary for coordinate systems (C36-C43)
-/
namespace ChaosMagPy.Spec

/-- Scalar product of cartesian vectors. -/
def dot (a b : Fin 3 → ℝ) : ℝ := a 0 * b 0 + a 1 * b 1 + a 2 * b 2

/-- Vector product. -/
def vecProd (a b : Fin 3 → ℝ) : Fin 3 → ℝ :=
  ![a 1 * b 2 - a 2 * b 1, a 2 * b 0 - a 0 * b 2, a 0 * b 1 - a 1 * b 0]

/-- Orthonormal and right-handed. -/
def RightHanded (e1 e2 e3 : Fin 3 → ℝ) : Prop :=
  dot e1 e1 = 1 ∧ dot e2 e2 = 1 ∧ dot e3 e3 = 1 ∧ dot e1 e2 = 0 ∧ dot e1 e3 = 0 ∧ dot e2 e3 = 0 ∧ vecProd e1 e2 = e3

/-- Direction with colatitude and longitude in degrees. -/
noncomputable def direction (theta phi : ℝ) : Fin 3 → ℝ :=
  ![Real.sin (theta * Real.pi / 180) * Real.cos (phi * Real.pi / 180),
    Real.sin (theta * Real.pi / 180) * Real.sin (phi * Real.pi / 180), Real.cos (theta * Real.pi / 180)]

/-- Unit vector to the south at the point. -/
noncomputable def south (theta phi : ℝ) : Fin 3 → ℝ :=
  ![Real.cos (theta * Real.pi / 180) * Real.cos (phi * Real.pi / 180),
    Real.cos (theta * Real.pi / 180) * Real.sin (phi * Real.pi / 180), -Real.sin (theta * Real.pi / 180)]

/-- Unit vector to the east at the point. -/
noncomputable def east (phi : ℝ) : Fin 3 → ℝ := ![-Real.sin (phi * Real.pi / 180), Real.cos (phi * Real.pi / 180), 0]

/-- The vector with components `c` along the base vectors. -/
def combine (e1 e2 e3 : Fin 3 → ℝ) (c : Fin 3 → ℝ) : Fin 3 → ℝ := fun i => c 0 * e1 i + c 1 * e2 i + c 2 * e3 i

end ChaosMagPy.Spec
