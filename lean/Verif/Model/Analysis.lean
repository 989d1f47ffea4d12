import Verif.Model.Legendre
import Verif.Model.Coord
import Mathlib.Analysis.SpecialFunctions.Trigonometric.Inverse
/-!
# Model of `rotate_gauss` and `sh_analysis`, `chaosmagpy/coordinate_utils.py` lines 465-726

Exact arithmetic. The Gauss-Legendre rule (`np.polynomial.legendre.leggauss`) is a parameter: a list of pairs
(node, weight) for every number of points. `np.fft.fft` is the discrete Fourier sum. Functions of grids are modelled
pointwise. Matrices are lists of columns.
-/
namespace ChaosMagPy.Analysis
open ChaosMagPy.Legendre (pyRange legendrePoly Table)
open ChaosMagPy.Coord (radians degrees geoToBase Base)

/-- Exceptions. -/
inductive Error where
  | indexError
  | assertionError
  deriving DecidableEq, Repr

/-- Errors of `legendre_poly`. -/
def lift {α : Type} : Except Legendre.Error α → Except Error α
  | .ok a => .ok a
  | .error .indexError => .error .indexError

/-- `array[row] = x; row += 1` (also one half of `array[row] = ...; array[row+1] = ...; row += 2`). -/
def put {α : Type} (st : ℕ × List α) (x : α) : Except Error (ℕ × List α) :=
  if st.1 < st.2.length then .ok (st.1 + 1, st.2.set st.1 x) else .error .indexError

/-- `theta = np.degrees(np.arccos(x))`, coordinate_utils.py:518, 684. -/
noncomputable def colat (x : ℝ) : ℝ := degrees (Real.arccos x)

/-- `phi = np.arange(n_phi) * np.degrees(2*np.pi)/n_phi`, coordinate_utils.py:519, 685. -/
noncomputable def azimuth (nphi j : ℕ) : ℝ := (j : ℝ) * degrees (2 * Real.pi) / nphi

/-- Element `m` of `np.fft.fft(f) / n` for a vector of length `n`, coordinate_utils.py:562, 589, 590, 700. -/
noncomputable def dft (n : ℕ) (f : ℕ → ℝ) (m : ℕ) : ℂ :=
  (∑ j ∈ Finset.range n, (f j : ℂ) * Complex.exp (-2 * (Real.pi : ℂ) * Complex.I * m * j / n)) / n

/-- A colatitude of the grid: its weight, its Fourier transform in azimuth, and its Legendre table. -/
structure Ring where
  weight : ℝ
  fft : ℕ → ℂ
  P : Table

/-- `np.sum(fft[m]*Pnm[n, m]*weights)`. -/
noncomputable def gaussSum (rings : List Ring) (n m : ℕ) : ℂ := (rings.map fun s => s.fft m * (s.P (n, m) : ℂ) * (s.weight : ℂ)).sum

/-- Body of the loop over degrees of `sh_analysis`, coordinate_utils.py:703-724. -/
noncomputable def analysisDegree (rings : List Ring) (st : ℕ × List ℝ) (n : ℕ) : Except Error (ℕ × List ℝ) := do
  let norm : ℂ := 2 / (2 * (n : ℂ) + 1)
  let st ← put st (gaussSum rings n 0 / norm).re
  (pyRange 1 (n + 1)).foldlM (fun st m => do
    let c := gaussSum rings n m / norm
    let st ← put st c.re
    put st (-c.im)) st

/-- `sh_analysis(func, nmax, kmax)`, coordinate_utils.py:672-726, for a function of colatitude and longitude. -/
noncomputable def shAnalysis (leggauss : ℕ → List (ℝ × ℝ)) (func : ℝ → ℝ → ℝ) (nmax : ℕ) (kmax : Option ℕ) : Except Error (List ℝ) := do
  let kmax := kmax.getD nmax
  let ntheta := max nmax kmax + 1
  let nphi := 2 * ntheta
  let rings ← (leggauss ntheta).mapM fun q => do
    let T ← lift (legendrePoly nmax (colat q.1))
    pure (⟨q.2, dft nphi fun j => func (colat q.1) (azimuth nphi j), T⟩ : Ring)
  let st ← (pyRange 1 (nmax + 1)).foldlM (analysisDegree rings) (0, List.replicate (nmax * (nmax + 2)) 0)
  return st.2

/-- The array `norm`, coordinate_utils.py:524-530. -/
noncomputable def normArray (nmax : ℕ) : ℕ → ℝ :=
  (pyRange 1 (nmax + 1)).foldl (fun (norm : ℕ → ℝ) (n i : ℕ) =>
    let lower := (n ^ 2 + n) / 2 - 1
    let upper := (n ^ 2 + 3 * n) / 2
    if i = lower then 2 / (2 * (n : ℝ) + 1) else if lower + 1 ≤ i ∧ i < upper then 4 / (2 * (n : ℝ) + 1) else norm i) fun _ => 0

/-- One degree of a column of the matrix, coordinate_utils.py:566-580 and 594-616. -/
noncomputable def columnDegree (rings : List Ring) (norm : ℕ → ℝ) (st : ℕ × List ℝ) (n : ℕ) : Except Error (ℕ × List ℝ) := do
  let lower := (n ^ 2 + n) / 2 - 1
  let st ← put st (gaussSum rings n 0 / norm lower).re
  (pyRange 1 (n + 1)).foldlM (fun st m => do
    let c := 2 * gaussSum rings n m / norm (lower + m)
    let st ← put st c.re
    put st (-c.im)) st

/-- One column of the matrix: analysis of a function on the grid, coordinate_utils.py:564-580 and 592-616. `values i j` is the
function at colatitude `i` and azimuth `j`. -/
noncomputable def column (nmax nphi : ℕ) (rule : List (ℝ × ℝ)) (Ps : List Table) (values : ℕ → ℕ → ℝ) : Except Error (List ℝ) := do
  let rings := (rule.zip Ps).zipIdx.map fun q => (⟨q.1.1.2, dft nphi (values q.2), q.1.2⟩ : Ring)
  let st ← (pyRange 1 (nmax + 1)).foldlM (columnDegree rings (normArray nmax)) (0, List.replicate (nmax * (nmax + 2)) 0)
  return st.2

/-- The real parts `Pnm_ref[k, l]*exp_ref[l]` on the grid, coordinate_utils.py:549-550, 561, 588. -/
noncomputable def harmonicRe (Pref : ℕ → ℕ → Table) (phiRef : ℕ → ℕ → ℝ) (k l : ℕ) (i j : ℕ) : ℝ :=
  Pref i j (k, l) * Real.cos (radians ((l : ℝ) * phiRef i j))

/-- The imaginary parts. -/
noncomputable def harmonicIm (Pref : ℕ → ℕ → Table) (phiRef : ℕ → ℕ → ℝ) (k l : ℕ) (i j : ℕ) : ℝ :=
  Pref i j (k, l) * Real.sin (radians ((l : ℝ) * phiRef i j))

/-- Loop over the columns for one degree `k`, coordinate_utils.py:556-616. -/
noncomputable def columnsDegree (col : (ℕ → ℕ → ℝ) → Except Error (List ℝ)) (re im : ℕ → ℕ → ℕ → ℕ → ℝ)
    (st : ℕ × List (List ℝ)) (k : ℕ) : Except Error (ℕ × List (List ℝ)) := do
  let st ← put st (← col (re k 0))
  (pyRange 1 (k + 1)).foldlM (fun st l => do
    let st ← put st (← col (re k l))
    put st (← col (im k l))) st

/-- Legendre tables on the rotated grid, coordinate_utils.py:546. -/
noncomputable def refTables (kmax nphi : ℕ) (rule : List (ℝ × ℝ)) (b : Base) : Except Error (List (List Table)) :=
  rule.mapM fun q => (List.range nphi).mapM fun j => lift (legendrePoly kmax (geoToBase (colat q.1) (azimuth nphi j) b false).1)

/-- `rotate_gauss(nmax, kmax, base_1, base_2, base_3)` for one point in time, coordinate_utils.py:505-618; the matrix as its list of
columns. (With several points in time the loop repeats this for each of them.) -/
noncomputable def rotateGauss (leggauss : ℕ → List (ℝ × ℝ)) (nmax kmax : ℕ) (b : Base) : Except Error (List (List ℝ)) := do
  let ntheta := (nmax + kmax + 1) / 2 + 1
  let nphi := 2 * ntheta
  let rule := leggauss ntheta
  let Ps ← rule.mapM fun q => lift (legendrePoly nmax (colat q.1))
  let Pref ← refTables kmax nphi rule b
  let T := fun i j => (Pref.getD i []).getD j fun _ => 0
  let phiRef := fun i j => (geoToBase (colat (rule.getD i (0, 0)).1) (azimuth nphi j) b false).2
  let st ← (pyRange 1 (kmax + 1)).foldlM (columnsDegree (column nmax nphi rule Ps) (harmonicRe T phiRef) (harmonicIm T phiRef))
    (0, List.replicate (kmax * (kmax + 2)) [])
  return st.2

end ChaosMagPy.Analysis
