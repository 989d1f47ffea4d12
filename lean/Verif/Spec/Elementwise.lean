import Verif.Model.CoordArr
/-!
# Specification: functions that treat arrays element by element
-/
namespace ChaosMagPy.Spec
open ChaosMagPy.Synth (Error)
open ChaosMagPy.NumPy

/-- The array has the shape that results from broadcasting `shapes`, and at the indices `i` of this shape with `V i` it holds the number `f i`. -/
def Holds (shapes : List (List ℕ)) (a : Arr (Option ℝ)) (V : List ℕ → Prop) (f : List ℕ → ℝ) : Prop :=
  broadcast shapes = some a.shape ∧ ∀ i, Valid a.shape i → V i → a.get i = some (f i)

/-- A call succeeds with `P` if the shapes fit together; else it raises ValueError. -/
def Fits {α : Type} (shapes : List (List ℕ)) (r : Except Error α) (P : α → Prop) : Prop :=
  (broadcast shapes ≠ none → ∃ v, r = .ok v ∧ P v) ∧ (broadcast shapes = none → r = .error .valueError)

end ChaosMagPy.Spec
