import Verif.Model.Matfile
/-!
# Specification for C76: parts of a model, and files that are laid over another
-/
namespace ChaosMagPy.Matfile

/-- `m` is `M` with some of the optional parts missing: what is there is as in `M`, and the time-dependent part is there. -/
structure PartsOf (m M : Attr) : Prop where
  name : m.name = M.name
  tdep : m.tdep = M.tdep
  static : m.static = none ∨ m.static = M.static
  external : (m.sm = none ∧ m.gsm = none ∧ m.delta = none) ∨ (m.sm = M.sm ∧ m.gsm = M.gsm ∧ m.delta = M.delta)
  euler : m.euler = none ∨ m.euler = M.euler
  cal : m.cal = none ∨ m.cal = M.cal
  prerotation : ∀ md MD, m.metaData = some md → M.metaData = some MD → md.prerotation = none ∨ md.prerotation = MD.prerotation

/-- The fields of a structure in a file (none if it is not there or not a structure). -/
def fieldsOf (d : Dict) (g : String) : Dict :=
  match List.lookup g d with
  | some (.struct f) => f
  | _ => []

end ChaosMagPy.Matfile
