import Verif.Model.Chaos
import Verif.Model.ShcModel
/-!
# Model of `CHAOS.save_shcfile` and `load_CHAOS_shcfile`

chaos.py:2164-2239 and 2659-2763. As in `Model/ShcModel` the numbers of the file are exact (the text is the subject of C13)
and the least-squares spline is given by its specification. Header texts, model names and the leap year option are left out.
-/
namespace ChaosMagPy.Chaos
open ChaosMagPy.PPoly (Base Extrap ShcData toShc FromShc)
open ChaosMagPy.Index (nmaxOfDim)

/-- `CHAOS.synth_coeffs_tdep(time, nmax=, deriv=, extrapolate=)`, chaos.py:1255-1259. -/
noncomputable def synthCoeffsTdep (m : Chaos) (times : List ℝ) (nmax deriv : Option ℕ) (extrapolate : Option Extrap) :
    Except Error (ℕ × List (Option (ℕ → ℝ))) :=
  match m.tdep with
  | none => .error .valueError
  | some x => ofPPoly (PPoly.modelSynthCoeffs x.base times nmax deriv extrapolate)

/-- `CHAOS.synth_coeffs_static(nmax=, deriv=, extrapolate=)`, chaos.py:1433-1437: at the first break point. -/
noncomputable def synthCoeffsStatic (m : Chaos) (nmax deriv : Option ℕ) (extrapolate : Option Extrap) :
    Except Error (ℕ × List (Option (ℕ → ℝ))) :=
  match m.static with
  | none => .error .valueError
  | some x => ofPPoly (PPoly.modelSynthCoeffs x.base [PPoly.first x.base.breaks] nmax deriv extrapolate)

/-- `CHAOS.save_shcfile(filepath, model=)`, chaos.py:2181-2239: the content of the file, `none` if no file is written. -/
noncomputable def saveShc (m : Chaos) (model : Option String) : Except Error (Option ShcData) :=
  let model := model.getD "tdep"
  if model = "tdep" then
    match m.tdep with
    | none => .error .valueError
    | some x => (ofPPoly (toShc x.base (some 1) none)).map some
  else if model = "static" then
    match m.static with
    | none => .error .valueError
    | some x =>
      match m.tdep with
      | none => .error .attributeError  -- `self.model_tdep.nmax`
      | some y => (ofPPoly (toShc x.base (some ((nmaxOfDim y.base.dim).toNat + 1)) none)).map some
  else .ok none

/-- `load_CHAOS_shcfile` after reading the file, chaos.py:2740-2763: `m` is a possible result. -/
def LoadShc (f : ShcData) (m : Chaos) : Prop :=
  ∃ b c, FromShc f b ∧ b.coeffs = some c ∧
    if b.breaks.length - 1 = 1 ∧ b.order = 1 then m = Chaos.init b.breaks none none (some ⟨b.order, b.dim, c⟩) none none none
    else m = Chaos.init b.breaks (some b.order) (some ⟨b.order, b.dim, c⟩) none none none none

end ChaosMagPy.Chaos
