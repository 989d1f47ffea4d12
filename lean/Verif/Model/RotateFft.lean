import Verif.Model.Analysis
import Verif.Model.QResponse
import Verif.Model.Chaos
/-!
# Model of the whole function `rotate_gauss_fft`, `chaosmagpy/coordinate_utils.py` lines 261-462

Base vectors, rotation matrices, Fourier transform, Q-response, sorting and scaling. Exact numbers; `leggauss` and the order produced by
`np.argsort` for equal amplitudes are parameters. The returned arrays and the content of the written file are the same, both are given as
the file (`Chaos.SpectrumFile`). Simplifications: base vectors that are NaN (dipole axis parallel to the direction of the sun) stop the
model with `nan`, where the code goes on with NaN; `filter` above the number of frequencies is an error for `N = 1` too.
-/
namespace ChaosMagPy.RotateFft
open ChaosMagPy.Fourier (halfLen sampleTime frequencyFull responseIndex elementFft)
open ChaosMagPy.Chaos (SpectrumFile)
open ChaosMagPy.Analysis (rotateGauss)

/-- Exceptions, and the result NaN. -/
inductive Error where
  | valueError
  | indexError
  | typeError
  | assertionError
  | nan
  deriving DecidableEq, Repr

/-- Errors of the base vectors. -/
def ofCoord {α : Type} : Except Coord.Error α → Except Error α
  | .ok x => .ok x
  | .error .assertionError => .error .assertionError
  | .error .valueError => .error .valueError

/-- Errors of `rotate_gauss`. -/
def ofAnalysis {α : Type} : Except Analysis.Error α → Except Error α
  | .ok x => .ok x
  | .error .indexError => .error .indexError
  | .error .assertionError => .error .assertionError

/-- Errors of `q_response` (which computes layers of quadratic conductivity only: the last two kinds do not occur). -/
def ofQ {α : Type} : Except QResponse.Error α → Except Error α
  | .ok x => .ok x
  | .error .indexError => .error .indexError
  | .error .typeError => .error .typeError
  | .error .valueError => .error .valueError
  | .error .unboundLocal => .error .nan
  | .error .endless => .error .nan

/-- Arguments of `rotate_gauss_fft`, coordinate_utils.py:261-263; `reference` after `str(reference).lower()`. -/
structure Args where
  nmax : ℕ
  kmax : ℕ
  qfunc : Option (List ℝ → ℕ → ℕ → ℂ)
  step : Option ℝ
  N : Option ℕ
  filter : Option ℕ
  reference : Option String
  scaled : Option Bool
  start : Option ℝ

/-- `step`, coordinate_utils.py:357-358. -/
noncomputable def Args.stepSize (a : Args) : ℝ := a.step.getD 1

/-- `N`, coordinate_utils.py:360-363: `int(8*365.25*24)` by default. -/
def Args.samples (a : Args) : ℕ := a.N.getD 70128

/-- Sampling times, coordinate_utils.py:379. -/
noncomputable def Args.times (a : Args) : List ℝ := (List.range a.samples).map (sampleTime a.stepSize (a.start.getD 0))

/-- Base vectors of the reference system, coordinate_utils.py:381-387. -/
noncomputable def bases (config : ℝ × ℝ × ℝ) (a : Args) : Except Error (List (Option Coord.Base)) :=
  let reference := a.reference.getD "gsm"
  if reference = "gsm" ∨ reference = "sm" then ofCoord (Coord.referenceBase config reference .none a.times) else .error .valueError

/-- Matrix at one time. -/
noncomputable def matrixAt (leggauss : ℕ → List (ℝ × ℝ)) (a : Args) : Option Coord.Base → Except Error (List (List ℝ))
  | none => .error .nan
  | some b => ofAnalysis (rotateGauss leggauss a.nmax a.kmax b)

/-- The response `qfunc(frequency_full, k)`, coordinate_utils.py:405-413, 427: given by the user, or the Q-response of the conductivity
model for the degree of coefficient `k`. -/
noncomputable def responses (conductivity : List (ℝ × ℝ)) (a : Args) : Except Error (ℕ → ℕ → ℂ) :=
  let freq := (List.range (halfLen a.samples)).map (frequencyFull a.samples a.stepSize)
  match a.qfunc with
  | some q => .ok (q freq)
  | none =>
    match ofQ (QResponse.qResponse conductivity freq a.nmax) with
    | .error e => .error e
    | .ok q => .ok fun k j => (q.getD (responseIndex k).toNat []).getD j 0

/-- The components of one matrix element, coordinate_utils.py:429-453. -/
noncomputable def components (argsort : ℕ → (ℕ → ℂ) → List ℕ) (a : Args) (response : ℕ → ℂ) (x : ℕ → ℝ) : List (ℝ × ℂ) :=
  match elementFft a.samples a.stepSize a.filter (a.scaled.getD false) response x
      (argsort (halfLen a.samples) fun k => response k * Fourier.dft a.samples x k) with
  | .ok l => l
  | .error _ => []

/-- `rotate_gauss_fft(nmax, kmax, qfunc=, step=, N=, filter=, reference=, scaled=, start_date=)`, coordinate_utils.py:352-462. -/
noncomputable def rotateGaussFft (leggauss : ℕ → List (ℝ × ℝ)) (argsort : ℕ → (ℕ → ℂ) → List ℕ) (config : ℝ × ℝ × ℝ) (conductivity : List (ℝ × ℝ))
    (a : Args) : Except Error SpectrumFile := do
  let bs ← bases config a
  let mats ← bs.mapM (matrixAt leggauss a)
  let q ← responses conductivity a
  let x := fun (k l n : ℕ) => ((mats.getD n []).getD l []).getD k 0  -- `matrix_time[n, k, l]`
  let filter := a.filter.getD (halfLen a.samples)
  if filter > halfLen a.samples then throw .valueError
  let ext := fun k l => components argsort a (fun _ => 1) (x k l)
  let ind := fun k l => components argsort a (q k) (x k l)
  return {
    dipole := config
    rows := a.nmax * (a.nmax + 2)
    cols := a.kmax * (a.kmax + 2)
    k := filter
    frequency := fun i k l => ((ext k l).getD i (0, 0)).1
    spectrum := fun i k l => ((ext k l).getD i (0, 0)).2
    kInd := filter
    frequencyInd := fun i k l => ((ind k l).getD i (0, 0)).1
    spectrumInd := fun i k l => ((ind k l).getD i (0, 0)).2
    scaled := a.scaled.getD false }

end ChaosMagPy.RotateFft
