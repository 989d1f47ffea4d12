import Verif.Model.PPoly
import Verif.Model.Fourier
/-!
# Model of the class `CHAOS`, `chaosmagpy/chaos.py` lines 928-2000, and of `BaseModel.synth_values`

Exact reals. Arguments are given after broadcasting (one list of points, each with its time; broadcasting and
`grid=True` are modelled in `Model/ChaosArr.lean`). A field value is `none` if it is NaN. Warnings, printing and timing are not modelled. The files
named in the configuration are given by their content. Degrees `nmax` are natural numbers.
-/
namespace ChaosMagPy.Chaos
open ChaosMagPy.PPoly (Base PP Extrap)
open ChaosMagPy.Index (nmaxOfDim)

/-- Exceptions. -/
inductive Error where
  | valueError
  | assertionError
  | indexError
  | keyError
  | typeError
  | attributeError
  deriving DecidableEq, Repr

/-- Exceptions of `synth_coeffs`. -/
def ofPPoly {α : Type} : Except PPoly.Error α → Except Error α
  | .ok a => .ok a
  | .error .valueError => .error .valueError

/-- Exceptions of `model_utils.synth_values`. -/
def ofSynth {α : Type} : Except Synth.Error α → Except Error α
  | .ok a => .ok a
  | .error .valueError => .error .valueError
  | .error .assertionError => .error .assertionError
  | .error .indexError => .error .indexError

/-- A point with its time. -/
structure Pt where
  time : ℝ
  radius : ℝ
  theta : ℝ
  phi : ℝ

/-- The three components at one point, `none` for NaN. -/
abbrev Val := Option (ℝ × ℝ × ℝ)

/-- `BaseModel`: piecewise polynomial and source (chaos.py:315-330). -/
structure Model where
  base : Base
  source : String

/-- `mu.synth_values(coeffs, radius, theta, phi, nmax=, source=)` for the rows of coefficients of the points; a row of
NaN gives NaN components. -/
noncomputable def fieldOfRows (rSurf : ℝ) (dim : ℕ) (rows : List (Option (ℕ → ℝ))) (pts : List Pt) (nmax : Option ℕ)
    (source : String) : Except Error (List Val) :=
  let points := List.zipWith (fun (p : Pt) (r : Option (ℕ → ℝ)) => (⟨p.radius, p.theta, p.phi, r.getD fun _ => 0⟩ : Synth.Point)) pts rows
  match ofSynth (Synth.synthValues rSurf dim points none (nmax.map fun n => (n : ℤ)) none (some source)) with
  | .error e => .error e
  | .ok l => .ok (List.zipWith (fun (r : Option (ℕ → ℝ)) b => r.map fun _ => b) rows l)

/-- Default and clipping of `nmax`, chaos.py:418-425, 1562-1569, 1777-1784. -/
def clipNmax (n : ℕ) : Option ℕ → ℕ
  | none => n
  | some m => if m > n then n else m

/-- `BaseModel.synth_values(time, radius, theta, phi, nmax=, deriv=, extrapolate=)`, chaos.py:381-432. -/
noncomputable def Model.synthValues (rSurf : ℝ) (m : Model) (pts : List Pt) (nmax deriv : Option ℕ) (extrapolate : Option Extrap) :
    Except Error (List Val) := do
  let nmax := clipNmax (nmaxOfDim m.base.dim).toNat nmax
  let (dim, rows) ← ofPPoly (PPoly.modelSynthCoeffs m.base (pts.map Pt.time) (some nmax) deriv extrapolate)
  fieldOfRows rSurf dim rows pts (some nmax) m.source

/-- The baseline corrections `breaks_delta`, `coeffs_delta`. -/
structure Delta where
  q10 : PP
  q11 : PP
  s11 : PP

/-- A vector of Gauss coefficients. -/
structure Gauss where
  dim : ℕ
  c : ℕ → ℝ

/-- The attributes of `CHAOS` (chaos.py:956-1005; Euler angles and calibration parameters are not used here). -/
structure Chaos where
  tdep : Option Model
  static : Option Model
  sm : Option Gauss
  gsm : Option Gauss
  delta : Option Delta

/-- An array of spline coefficients with its sizes. -/
structure Coefs where
  rows : ℕ
  dim : ℕ
  c : ℕ → ℕ → ℕ → ℝ

/-- `CHAOS.__init__`, chaos.py:928-1005: the static part is one piece on `breaks[[0, -1]]`. -/
noncomputable def Chaos.init (breaks : List ℝ) (order : Option ℕ) (tdep static : Option Coefs) (sm gsm : Option Gauss) (delta : Option Delta) :
    Chaos :=
  { tdep := tdep.map fun x => ⟨Base.init breaks order x.rows x.dim x.c, "internal"⟩
    static := static.map fun x => ⟨Base.init [PPoly.first breaks, PPoly.last breaks] (some 1) x.rows x.dim x.c, "internal"⟩
    sm, gsm, delta }

/-- An npz file with the Fourier series of the rotation matrices (`rotate_gauss_fft`): all arrays have the shape
`(k, rows, cols)`; `scaled` is an array, coordinate_utils.py:449-462. -/
structure SpectrumFile where
  dipole : ℝ × ℝ × ℝ
  rows : ℕ
  cols : ℕ
  k : ℕ
  frequency : ℕ → ℕ → ℕ → ℝ
  spectrum : ℕ → ℕ → ℕ → ℂ
  kInd : ℕ
  frequencyInd : ℕ → ℕ → ℕ → ℝ
  spectrumInd : ℕ → ℕ → ℕ → ℂ
  scaled : Bool

/-- The RC-index file: times (in ascending order) and the two columns. -/
structure RcFile where
  time : List ℝ
  rcE : List ℝ
  rcI : List ℝ

/-- The configuration and the content of the files it names. -/
structure Env where
  rSurf : ℝ
  dipole : ℝ × ℝ × ℝ
  gsmFile : SpectrumFile
  smFile : SpectrumFile
  rcFile : RcFile

/-- Element `(i, j)` of the rotation matrix of the inducing field at one time. -/
noncomputable def SpectrumFile.rot (f : SpectrumFile) (t : ℝ) (i j : ℕ) : ℝ := Fourier.synthRotate f.k f.frequency f.spectrum (.array f.scaled) t i j

/-- Element `(i, j)` of the matrix of the induced field at one time. -/
noncomputable def SpectrumFile.rotInd (f : SpectrumFile) (t : ℝ) (i j : ℕ) : ℝ :=
  Fourier.synthRotate f.kInd f.frequencyInd f.spectrumInd (.array f.scaled) t i j

/-- Product of a matrix with `n` columns and a vector. -/
def matVec (n : ℕ) (R : ℕ → ℕ → ℝ) (v : ℕ → ℝ) (i : ℕ) : ℝ := ∑ j ∈ Finset.range n, R i j * v j

open Classical in
/-- `assert np.all(frequency_spectrum['dipole'] == basicConfig['params.dipole'])`. -/
noncomputable def dipoleAssert (a b : ℝ × ℝ × ℝ) : Except Error Unit := if a = b then .ok () else .error .assertionError

/-- `coeffs[..., :nmax*(nmax+2)]`: the number of columns of the result. -/
def cutDim (rows nmax : ℕ) : ℕ := min rows (nmax * (nmax + 2))

/-- `np.amin(time)` of an empty array raises ValueError. -/
def nonempty (times : List ℝ) : Except Error Unit := if times = [] then .error .valueError else .ok ()

/-- `CHAOS.synth_coeffs_gsm(time, nmax=, source=)`, chaos.py:1558-1632: number of columns and rows. -/
noncomputable def synthCoeffsGsm (env : Env) (m : Chaos) (times : List ℝ) (nmax : Option ℕ) (source : Option String) :
    Except Error (ℕ × List (ℕ → ℝ)) :=
  match m.gsm with
  | none => .error .valueError
  | some g =>
    let nmax := clipNmax (nmaxOfDim g.dim).toNat nmax
    let source := source.getD "external"
    match m.static with
    | none => .error .attributeError  -- `self.model_static.breaks`
    | some _ => do
      nonempty times
      let file := env.gsmFile
      dipoleAssert file.dipole env.dipole
      if source = "external" then
        if file.cols ≠ g.dim then throw .valueError  -- `np.matmul`
        return (cutDim file.rows nmax, times.map fun t => matVec g.dim (file.rot t) g.c)
      else if source = "internal" then
        if file.cols ≠ g.dim then throw .valueError
        return (cutDim file.rows nmax, times.map fun t => matVec g.dim (file.rotInd t) g.c)
      else throw .valueError

/-- `'RC_' + source[0]` and its lookup in the RC-index file, chaos.py:1838, 1845. -/
def rcColumn (f : RcFile) (source : String) : Except Error (List ℝ) :=
  match source.toList with
  | [] => .error .indexError
  | 'e' :: _ => .ok f.rcE
  | 'i' :: _ => .ok f.rcI
  | _ => .error .keyError

/-- Linear interpolation of SciPy's `interp1d` (or `np.interp`): `searchsorted` from the left, clipped to `1 .. n-1`. -/
noncomputable def interp (x y : List ℝ) (t : ℝ) : ℝ :=
  let hi := max 1 (min (x.countP fun b => decide (b < t)) (x.length - 1))
  let lo := hi - 1
  (y.getD hi 0 - y.getD lo 0) / (x.getD hi 0 - x.getD lo 0) * (t - x.getD lo 0) + y.getD lo 0

/-- RC values of the file, chaos.py:1832-1867; times outside of the table raise ValueError. -/
noncomputable def rcFromFile (f : RcFile) (source : String) (times : List ℝ) : Except Error (List ℝ) := do
  let y ← rcColumn f source
  if times.any (fun t => decide (t < PPoly.first f.time) || decide (PPoly.last f.time < t)) then throw .valueError
  return times.map (interp f.time y)

/-- The argument `rc`: values for all times (after broadcasting), or the file. -/
noncomputable def rcValues (f : RcFile) (source : String) (times : List ℝ) : Option (List ℝ) → Except Error (List ℝ)
  | none => rcFromFile f source times
  | some rc => if rc.length = times.length then .ok rc else .error .valueError

/-- Baseline corrections at one time: `delta_q10`, `delta_q11`, `delta_s11` (chaos.py:1873-1883). -/
noncomputable def Delta.eval (d : Delta) (t : ℝ) (i : ℕ) : ℝ :=
  let p := match i with
    | 0 => d.q10
    | 1 => d.q11
    | _ => d.s11
  match p.eval true 0 t with
  | some v => v 0
  | none => 0

/-- External coefficients in the SM frame, chaos.py:1895-1900. -/
noncomputable def smExternal (g : Gauss) (d : Delta) (rc t : ℝ) (i : ℕ) : ℝ :=
  if i < 3 then rc * g.c i + d.eval t i else g.c i

/-- Coefficients in the SM frame for the induced part without the RC-index, chaos.py:1925-1930. -/
noncomputable def smInduced (g : Gauss) (d : Delta) (t : ℝ) (i : ℕ) : ℝ := if i < 3 then d.eval t i else g.c i

/-- Coefficients of one time for source 'internal', chaos.py:1932-1934: all rows from the induced part, the first three also
from the RC-index. -/
noncomputable def smInternalRow (file : SpectrumFile) (g : Gauss) (d : Delta) (rc t : ℝ) (i : ℕ) : ℝ :=
  matVec g.dim (file.rotInd t) (smInduced g d t) i + (if i < 3 then matVec 3 (file.rot t) (fun j => rc * g.c j) i else 0)

/-- `CHAOS.synth_coeffs_sm(time, nmax=, source=, rc=)`, chaos.py:1773-1940. The number of coefficients has to be
`n_sm (n_sm + 2)` and the number of columns of the file (otherwise NumPy refuses to assign or to multiply; the few cases
where NumPy broadcasts a single number are counted as errors too). -/
noncomputable def synthCoeffsSm (env : Env) (m : Chaos) (times : List ℝ) (nmax : Option ℕ) (source : Option String)
    (rc : Option (List ℝ)) : Except Error (ℕ × List (ℕ → ℝ)) :=
  match m.sm with
  | none => .error .valueError
  | some g =>
    let N := (nmaxOfDim g.dim).toNat
    let nmax := clipNmax N nmax
    let source := source.getD "external"
    match m.delta with
    | none => .error .typeError  -- `None['q10']`
    | some d => do
      nonempty times
      let file := env.smFile
      dipoleAssert file.dipole env.dipole
      let rc ← rcValues env.rcFile source times rc
      if source = "external" then
        if N = 0 then throw .indexError
        if g.dim ≠ N * (N + 2) ∨ file.cols ≠ g.dim then throw .valueError
        return (cutDim file.rows nmax, List.zipWith (fun t r => matVec g.dim (file.rot t) (smExternal g d r t)) times rc)
      else if source = "internal" then
        if N = 0 then throw .indexError
        if g.dim ≠ N * (N + 2) ∨ file.cols ≠ g.dim then throw .valueError
        return (cutDim file.rows nmax, List.zipWith (fun t r => smInternalRow file g d r t) times rc)
      else throw .valueError

/-- Sum of two values; NaN is absorbing. -/
def Val.add : Val → Val → Val
  | some a, some b => some (a.1 + b.1, a.2.1 + b.2.1, a.2.2 + b.2.2)
  | _, _ => none

/-- Sum of two arrays of values. -/
def addFields (a b : List Val) : List Val := List.zipWith Val.add a b

/-- `synth_values` of coefficients without NaN and without `nmax`. -/
noncomputable def fieldOf (rSurf : ℝ) (pts : List Pt) (source : String) (c : ℕ × List (ℕ → ℝ)) : Except Error (List Val) :=
  fieldOfRows rSurf c.1 (c.2.map some) pts none source

/-- `CHAOS.synth_values_gsm(time, radius, theta, phi, nmax=, source=)`, chaos.py:1679-1708. -/
noncomputable def synthValuesGsm (env : Env) (m : Chaos) (pts : List Pt) (nmax : Option ℕ) (source : Option String) :
    Except Error (List Val) := do
  let source := source.getD "all"
  let times := pts.map Pt.time
  if source = "all" then
    let ce ← synthCoeffsGsm env m times nmax (some "external")
    let ci ← synthCoeffsGsm env m times nmax (some "internal")
    let be ← fieldOf env.rSurf pts "external" ce
    let bi ← fieldOf env.rSurf pts "internal" ci
    return addFields be bi
  else if source = "external" ∨ source = "internal" then
    let c ← synthCoeffsGsm env m times nmax (some source)
    fieldOf env.rSurf pts source c
  else throw .valueError

/-- `CHAOS.synth_values_sm(time, radius, theta, phi, rc_e=, rc_i=, nmax=, source=)`, chaos.py:2011-2047. -/
noncomputable def synthValuesSm (env : Env) (m : Chaos) (pts : List Pt) (rcE rcI : Option (List ℝ)) (nmax : Option ℕ)
    (source : Option String) : Except Error (List Val) := do
  let source := source.getD "all"
  let times := pts.map Pt.time
  if source = "all" then
    let ce ← synthCoeffsSm env m times nmax (some "external") rcE
    let ci ← synthCoeffsSm env m times nmax (some "internal") rcI
    let be ← fieldOf env.rSurf pts "external" ce
    let bi ← fieldOf env.rSurf pts "internal" ci
    return addFields be bi
  else if source = "external" ∨ source = "internal" then
    let rc := if source = "external" then rcE else rcI
    let c ← synthCoeffsSm env m times nmax (some source) rc
    fieldOf env.rSurf pts source c
  else throw .valueError

/-- `CHAOS.synth_values_tdep`, chaos.py:1317-1323. -/
noncomputable def synthValuesTdep (env : Env) (m : Chaos) (pts : List Pt) (nmax deriv : Option ℕ) (extrapolate : Option Extrap) :
    Except Error (List Val) :=
  match m.tdep with
  | none => .error .valueError
  | some x => x.synthValues env.rSurf pts nmax deriv extrapolate

/-- `CHAOS.synth_values_static`, chaos.py:1469-1474: at the first break point. -/
noncomputable def synthValuesStatic (env : Env) (m : Chaos) (pts : List Pt) (nmax deriv : Option ℕ) (extrapolate : Option Extrap) :
    Except Error (List Val) :=
  match m.static with
  | none => .error .valueError
  | some x => x.synthValues env.rSurf (pts.map fun p => { p with time := PPoly.first x.base.breaks }) nmax deriv extrapolate

/-- The argument `source_list`. -/
inductive Sources where
  | none
  | str (s : String)
  | list (l : List String)

/-- `source_list` after chaos.py:1105-1114; a single name is a list of one name. -/
def Sources.names : Sources → List String
  | .none => ["tdep", "static", "gsm", "sm"]
  | .str s => if s = "internal" then ["tdep", "static"] else if s = "external" then ["gsm", "sm"] else [s]
  | .list l => l

/-- `if name in source_list: B += ...`. -/
noncomputable def addIf (c : Bool) (B : List Val) (new : Except Error (List Val)) : Except Error (List Val) :=
  if c then
    match new with
    | .ok l => .ok (addFields B l)
    | .error e => .error e
  else .ok B

/-- `CHAOS.__call__(time, radius, theta, phi, rc_e=, rc_i=, source_list=, nmax_static=)`, chaos.py:1100-1202. -/
noncomputable def call (env : Env) (m : Chaos) (pts : List Pt) (rcE rcI : Option (List ℝ)) (sources : Sources) (nmaxStatic : Option ℕ) :
    Except Error (List Val) := do
  let l := sources.names
  let B := pts.map fun _ => some (0, 0, 0)
  let B ← addIf (l.contains "tdep") B (synthValuesTdep env m pts none none none)
  let B ← addIf (l.contains "static") B (synthValuesStatic env m pts (some (nmaxStatic.getD 85)) none none)
  let B ← addIf (l.contains "gsm") B (synthValuesGsm env m pts none (some "all"))
  addIf (l.contains "sm") B (synthValuesSm env m pts rcE rcI none (some "all"))

end ChaosMagPy.Chaos
