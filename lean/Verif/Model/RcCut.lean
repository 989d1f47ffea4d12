import Mathlib.Data.List.Sort
import Verif.Model.RcFile
/-!
# Model of RC-index files with missing cells, `chaosmagpy/data_utils.py` lines 153-158 and 199-213, and `chaosmagpy/chaos.py` lines 1812-1842

`Model/RcFile` is for tables without missing cells. Here `pandas.read_csv(sep=r'\s+', comment='#', dtype=..., names=...)` is modelled for rows of at most five
words: cells that are missing in a row are NaN (`none`). Longer rows are not modelled (an error here). A file without rows is an empty table.
-/
namespace ChaosMagPy.Rc
open ChaosMagPy.Shc (lines tokensGo parseNum)

/-- A row of the data frame; `none` is NaN. -/
structure Cells where
  time : Option ℝ
  rc : Option ℝ
  rcE : Option ℝ
  rcI : Option ℝ
  flag : Option (List Char)

/-- A cell of type `float64`, data_utils.py:154-158: NaN if it is missing, ValueError if the word is not a number. -/
noncomputable def floatCell (w : Option (List Char)) : Except Error (Option ℝ) :=
  match w with
  | none => .ok none
  | some w =>
    match parseNum (K := ℝ) w with
    | none => .error .valueError
    | some x => .ok (some x)

/-- A row of at most five words, data_utils.py:153-158. -/
noncomputable def parseCells (ws : List (List Char)) : Except Error Cells :=
  if 5 < ws.length then .error .valueError
  else do
    let time ← floatCell ws[0]?
    let rc ← floatCell ws[1]?
    let rcE ← floatCell ws[2]?
    let rcI ← floatCell ws[3]?
    return { time, rc, rcE, rcI, flag := ws[4]? }

/-- `pd.read_csv(...)`, data_utils.py:157-158, for tables with missing cells. -/
noncomputable def readCells (content : List Char) : Except Error (List Cells) :=
  (((lines content).map rowWords).filter (· ≠ [])).mapM parseCells

/-! ### Interpolation -/

/-- The line through two points; NaN (`none`) if one of the values is NaN. -/
noncomputable def segment (x0 x1 : ℝ) (y0 y1 : Option ℝ) (t : ℝ) : Option ℝ :=
  match y0, y1 with
  | some a, some b => some ((b - a) / (x1 - x0) * (t - x0) + a)
  | _, _ => none

open Classical in
/-- `np.interp` on sorted points, used by SciPy's `interp1d`: the last point not after `t` is taken; NaN (`none`) at one of the two ends of an interval is
NaN inside of it. -/
noncomputable def npInterp : List (ℝ × Option ℝ) → ℝ → Option ℝ
  | [], _ => none
  | [(_, y)], _ => y
  | (x0, y0) :: (x1, y1) :: l, t =>
    if x1 ≤ t then npInterp ((x1, y1) :: l) t
    else if x0 = t then y0
    else segment x0 x1 y0 y1 t

open Classical in
/-- `sip.interp1d(time, column, kind='linear', bounds_error=False)`, `RC._check_bounds(time)` and `RC(time)`, chaos.py:1814-1842, for one time: the points are
sorted by time first (a stable sort). -/
noncomputable def rcAt (points : List (ℝ × Option ℝ)) (t : ℝ) : Except Error (Option ℝ) :=
  let s := points.insertionSort fun a b => a.1 ≤ b.1
  match s.head?, s.getLast? with
  | some a, some b => if t < a.1 ∨ b.1 < t then .error .valueError else .ok (npInterp s t)
  | _, _ => .error .valueError

/-! ### Crash of `save_RC_h5file` -/

/-- The files after `h5py.File(filepath, 'w')` and the first `k` columns, data_utils.py:202-211. Simplification: the datasets created so far are in the file. -/
def crashedH5 (fs : FS) (path : String) (t : Table) (k : ℕ) : FS :=
  (((columns t).take k).foldl (writeColumn path) (createH5 fs path, false)).1

/-- `f_RC['time'], f_RC['RC_' + source[0]]`, chaos.py:1814-1818, from the HDF5 file. -/
def h5Columns (fs : FS) (path : String) (source : String) : Except Error (List ℝ × List ℝ) :=
  match fs path with
  | some (.h5 ds) => do
    let t ← lookup ds "time"
    let y ← lookup ds (String.ofList ("RC_".toList ++ source.toList.take 1))
    return (t, y)
  | _ => .error .osError

end ChaosMagPy.Rc
