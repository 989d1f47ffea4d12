import Verif.Model.SynthArr
import Verif.Model.Chaos
/-!
# Model of the vectorised methods of `BaseModel` and `CHAOS` (`chaosmagpy/chaos.py`): arrays of any shape, broadcasting, `grid`

The coefficients at an array of times are those of `Model/PPoly.lean` and `Model/Chaos.lean` for the list of the times in C order, reshaped. An array of
values contains `none` where the components are NaN.
-/
namespace ChaosMagPy.ChaosArr
open ChaosMagPy.NumPy
open ChaosMagPy.Chaos
open ChaosMagPy.PPoly (Base Extrap)
open ChaosMagPy.Index (nmaxOfDim)

/-- `np.reshape(l, shape)`. -/
def reshape {α : Type} [Inhabited α] (shape : List ℕ) (l : List α) : Arr α := ⟨shape, fun i => l.getD ((indices shape).idxOf i) default⟩

/-- Coefficients per time as an array with a last axis; rows of NaN are replaced by zeros (their values are discarded by `fieldArr`). -/
noncomputable def coeffArray (dim : ℕ) (rows : Arr (Option (ℕ → ℝ))) : Arr ℝ :=
  ⟨rows.shape ++ [dim], fun i => ((rows.get i.dropLast).getD fun _ => 0) (i.getLastD 0)⟩

/-- `mu.synth_values(coeffs, radius, theta, phi, nmax=, source=, grid=)` for coefficients that may be NaN. -/
noncomputable def fieldArr (rSurf : ℝ) (dim : ℕ) (rows : Arr (Option (ℕ → ℝ))) (radius theta phi : Arr ℝ) (nmax : Option ℕ) (source : String)
    (grid : Option Bool) : Except Error (Arr Val) :=
  match ofSynth (SynthArr.synthValues rSurf (coeffArray dim rows) radius theta phi none (nmax.map fun n => (n : ℤ)) none (some source) grid) with
  | .error e => .error e
  | .ok B => .ok ⟨B.1.shape, fun i => (rows.at i).map fun _ => (B.1.get i, B.2.1.get i, B.2.2.get i)⟩

/-- `BaseModel.synth_values(time, radius, theta, phi, nmax=, deriv=, grid=, extrapolate=)`, chaos.py:381-432. -/
noncomputable def modelValues (rSurf : ℝ) (m : Model) (time radius theta phi : Arr ℝ) (nmax deriv : Option ℕ) (extrapolate : Option Extrap)
    (grid : Option Bool) : Except Error (Arr Val) := do
  let nmax := clipNmax (nmaxOfDim m.base.dim).toNat nmax
  let (dim, rows) ← ofPPoly (PPoly.modelSynthCoeffs m.base time.data (some nmax) deriv extrapolate)
  fieldArr rSurf dim (reshape time.shape rows) radius theta phi (some nmax) m.source grid

/-- `CHAOS.synth_values_tdep`, chaos.py:1317-1323. -/
noncomputable def valuesTdep (env : Env) (m : Chaos) (time radius theta phi : Arr ℝ) (nmax deriv : Option ℕ) (extrapolate : Option Extrap)
    (grid : Option Bool) : Except Error (Arr Val) :=
  match m.tdep with
  | none => .error .valueError
  | some x => modelValues env.rSurf x time radius theta phi nmax deriv extrapolate grid

/-- `CHAOS.synth_values_static`, chaos.py:1469-1474: the time is the number `breaks[0]`. -/
noncomputable def valuesStatic (env : Env) (m : Chaos) (radius theta phi : Arr ℝ) (nmax deriv : Option ℕ) (extrapolate : Option Extrap)
    (grid : Option Bool) : Except Error (Arr Val) :=
  match m.static with
  | none => .error .valueError
  | some x => modelValues env.rSurf x (scalar (PPoly.first x.base.breaks)) radius theta phi nmax deriv extrapolate grid

/-- `synth_values` of coefficients without NaN and without `nmax`. -/
noncomputable def fieldOfArr (rSurf : ℝ) (time radius theta phi : Arr ℝ) (source : String) (grid : Option Bool) (c : ℕ × List (ℕ → ℝ)) :
    Except Error (Arr Val) :=
  fieldArr rSurf c.1 (reshape time.shape (c.2.map some)) radius theta phi none source grid

/-- `a + b` for arrays of components. -/
def addArr (a b : Arr Val) : Except Error (Arr Val) := ofSynth (map2 Val.add a b)

/-- `CHAOS.synth_values_gsm(time, radius, theta, phi, nmax=, source=, grid=)`, chaos.py:1663-1689. -/
noncomputable def valuesGsm (env : Env) (m : Chaos) (time radius theta phi : Arr ℝ) (nmax : Option ℕ) (source : Option String) (grid : Option Bool) :
    Except Error (Arr Val) := do
  let source := source.getD "all"
  if source = "all" then
    let ce ← synthCoeffsGsm env m time.data nmax (some "external")
    let ci ← synthCoeffsGsm env m time.data nmax (some "internal")
    let be ← fieldOfArr env.rSurf time radius theta phi "external" grid ce
    let bi ← fieldOfArr env.rSurf time radius theta phi "internal" grid ci
    addArr be bi
  else if source = "external" ∨ source = "internal" then
    let c ← synthCoeffsGsm env m time.data nmax (some source)
    fieldOfArr env.rSurf time radius theta phi source grid c
  else throw .valueError

/-- The RC values for the times (chaos.py:1869-1870, 1895-1925): an array that can be broadcast to the shape of the times. Simplifications: the check
comes first (in the code it is done by the assignment to `coeffs_sm[..., 0]`), and additional leading axes of length one, which NumPy accepts in an
assignment, count as errors. -/
def rcArg (time : Arr ℝ) : Option (Arr ℝ) → Except Error (Option (List ℝ))
  | none => .ok none
  | some rc => if bcast rc.shape time.shape = some time.shape then .ok (some ((indices time.shape).map rc.at)) else .error .valueError

/-- `CHAOS.synth_values_sm(time, radius, theta, phi, rc_e=, rc_i=, nmax=, source=, grid=)`, chaos.py:1989-2024. -/
noncomputable def valuesSm (env : Env) (m : Chaos) (time radius theta phi : Arr ℝ) (rcE rcI : Option (Arr ℝ)) (nmax : Option ℕ)
    (source : Option String) (grid : Option Bool) : Except Error (Arr Val) := do
  let source := source.getD "all"
  if source = "all" then
    let rcE ← rcArg time rcE
    let ce ← synthCoeffsSm env m time.data nmax (some "external") rcE
    let rcI ← rcArg time rcI
    let ci ← synthCoeffsSm env m time.data nmax (some "internal") rcI
    let be ← fieldOfArr env.rSurf time radius theta phi "external" grid ce
    let bi ← fieldOfArr env.rSurf time radius theta phi "internal" grid ci
    addArr be bi
  else if source = "external" ∨ source = "internal" then
    let rc ← rcArg time (if source = "external" then rcE else rcI)
    let c ← synthCoeffsSm env m time.data nmax (some source) rc
    fieldOfArr env.rSurf time radius theta phi source grid c
  else throw .valueError

/-- `if name in source_list: B += ...`: the result keeps the shape of `B`. -/
noncomputable def addIfArr (c : Bool) (B : Arr Val) (new : Except Error (Arr Val)) : Except Error (Arr Val) :=
  if c then
    match new with
    | .error e => .error e
    | .ok a => if bcast B.shape a.shape = some B.shape then .ok ⟨B.shape, fun i => Val.add (B.get i) (a.at i)⟩ else .error .valueError
  else .ok B

/-- `CHAOS.__call__(time, radius, theta, phi, rc_e=, rc_i=, source_list=, nmax_static=)`, chaos.py:1105-1207. -/
noncomputable def call (env : Env) (m : Chaos) (time radius theta phi : Arr ℝ) (rcE rcI : Option (Arr ℝ)) (sources : Sources) (nmaxStatic : Option ℕ) :
    Except Error (Arr Val) :=
  match broadcast [time.shape, radius.shape, theta.shape, phi.shape] with
  | none => .error .valueError
  | some gridShape => do
    let l := sources.names
    let B : Arr Val := ⟨gridShape, fun _ => some (0, 0, 0)⟩
    let B ← addIfArr (l.contains "tdep") B (valuesTdep env m time radius theta phi none none none none)
    let B ← addIfArr (l.contains "static") B (valuesStatic env m radius theta phi (some (nmaxStatic.getD 85)) none none none)
    let B ← addIfArr (l.contains "gsm") B (valuesGsm env m time radius theta phi none (some "all") none)
    addIfArr (l.contains "sm") B (valuesSm env m time radius theta phi rcE rcI none (some "all") none)

end ChaosMagPy.ChaosArr
