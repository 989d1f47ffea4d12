import Verif.Spec.Coord
/-!
# Horizontal vectors
-/
namespace ChaosMagPy.Spec

/-- The cartesian components of the vector with the components `x` to the south and `y` to the east at the point with colatitude and longitude in degrees. -/
noncomputable def horizontal (theta phi x y : ℝ) : Fin 3 → ℝ := fun i => x * south theta phi i + y * east phi i

end ChaosMagPy.Spec
