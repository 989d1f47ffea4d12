import Verif.Model.Synth
/-!
# Model of the index computations around Gauss coefficients
-/
namespace ChaosMagPy.Index
open ChaosMagPy.Legendre (pyRange)
open ChaosMagPy.Synth (pyInt)

/-- The inner loop `for m in range(1, n+1): ord = np.append(ord, [m, -m])`, data_utils.py:352-353. -/
def appendOrders (ord : List ℤ) (n : ℕ) : List ℤ :=
  (pyRange 1 (n + 1)).foldl (fun (ord : List ℤ) (m : ℕ) => ord ++ [(m : ℤ), -(m : ℤ)]) ord

/-- Degrees and orders of the rows of an shc-file, data_utils.py:346-353. -/
def degOrd (nmin nmax : ℕ) : List ℕ × List ℤ :=
  (pyRange nmin (nmax + 1)).foldl
    (fun (s : List ℕ × List ℤ) (n : ℕ) => (s.1 ++ List.replicate (2 * n + 1) n, appendOrders (s.2 ++ [0]) n))
    ([], [])

/-- The row labels `zip(deg, ord)` of an shc-file, data_utils.py:370. -/
def labels (nmin nmax : ℕ) : List (ℕ × ℤ) := (degOrd nmin nmax).1.zip (degOrd nmin nmax).2

/-- Maximum degree inferred from the number of coefficients, `int(np.sqrt(dim + 1) - 1)`:
chaos.py:328, 987; data_utils.py:328; model_utils.py:317, 1030, 1102, 1158. -/
noncomputable def nmaxOfDim (dim : ℕ) : ℤ := pyInt (Real.sqrt ((dim : ℝ) + 1) - 1)

/-- Index of the degree belonging to coefficient `k` in a list that starts with degree 1,
`np.floor(np.sqrt(k+1)-1).astype(int)`: coordinate_utils.py:408. -/
noncomputable def degreeIndex (k : ℕ) : ℤ := ⌊Real.sqrt ((k : ℝ) + 1) - 1⌋

end ChaosMagPy.Index
