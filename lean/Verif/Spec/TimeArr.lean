import Verif.Model.NumPy
import Verif.Model.Time
import Verif.Spec.Time
/-!
# Specification: time functions of arrays
-/
namespace ChaosMagPy.Spec
open ChaosMagPy.NumPy ChaosMagPy.Time

/-- The call treats an array of shape `shape` element by element like the function `f` of one element: an array of the same shape with the
results of `f` if none of the elements raises an exception; else an exception that one of the elements raises. -/
def ElementByElement {β : Type} (shape : List ℕ) (f : List ℕ → Except Err β) (r : Except Err (Arr β)) : Prop :=
  ((∃ b, r = .ok b) ↔ ∀ i, Valid shape i → ∃ x, f i = .ok x) ∧
  (∀ b, r = .ok b → b.shape = shape ∧ ∀ i, Valid shape i → f i = .ok (b.get i)) ∧
  ∀ e, r = .error e → ∃ i, Valid shape i ∧ f i = .error e

/-- An existing date with a year of four digits. -/
def GoodDate (year month day : ℤ) : Prop :=
  1000 ≤ year.natAbs ∧ year.natAbs ≤ 9999 ∧ 1 ≤ month ∧ 1 ≤ day ∧ Time.Spec.Date.Valid ⟨year, month.toNat, day.toNat⟩

end ChaosMagPy.Spec
