import Verif.Model.Shc
import Verif.Model.Chaos
/-!
# Model of the RC-index files, `chaosmagpy/data_utils.py` lines 113-216 and `chaosmagpy/chaos.py` lines 1812-1825

Text files are lists of characters, HDF5 files are lists of named datasets. `pandas.read_csv(sep=r'\s+', comment='#', names=...)` is modelled for
rows of five words (pandas fills shorter rows with NaN and takes the first words of longer rows as index); numbers are decimal (no NaN markers),
quotes have no meaning, a comment does not follow white space alone, and there is at
least one row. Downloads (`filepath=None`) and `parse_dates=True` are not modelled.
-/
namespace ChaosMagPy.Rc
open ChaosMagPy.Shc (lines tokensGo parseNum)

/-- Exceptions. -/
inductive Error where
  | osError
  | valueError
  | keyError
  deriving DecidableEq, Repr

/-- A data frame of the RC-index. -/
structure Table where
  time : List ℝ
  rc : List ℝ
  rcE : List ℝ
  rcI : List ℝ
  flag : List (List Char)

/-- Datasets of an HDF5 file. -/
inductive Dataset where
  | floats (x : List ℝ)
  | bytes (x : List (List Char))

/-- A file. -/
inductive File where
  | text (content : List Char)
  | h5 (datasets : List (String × Dataset))

/-- Files by path. -/
abbrev FS := String → Option File

/-! ### Reading the text -/

/-- One row of the table. -/
structure Row where
  time : ℝ
  rc : ℝ
  rcE : ℝ
  rcI : ℝ
  flag : List Char

/-- The words of a line before a comment. -/
def rowWords (line : List Char) : List (List Char) := tokensGo (line.takeWhile fun c => c ≠ '#') []

/-- A row of the table, data_utils.py:153-158 (`column_names`, `column_types`). -/
noncomputable def parseRow (ws : List (List Char)) : Except Error Row :=
  match ws with
  | [a, b, c, d, flag] =>
    match parseNum (K := ℝ) a, parseNum (K := ℝ) b, parseNum (K := ℝ) c, parseNum (K := ℝ) d with
    | some time, some rc, some rcE, some rcI => .ok { time, rc, rcE, rcI, flag }
    | _, _, _, _ => .error .valueError
  | _ => .error .valueError

/-- `pd.read_csv(...)`, data_utils.py:157-158: blank lines and comments are skipped. -/
noncomputable def readCsv (content : List Char) : Except Error Table := do
  let rows ← (((lines content).map rowWords).filter (· ≠ [])).mapM parseRow
  return { time := rows.map Row.time, rc := rows.map Row.rc, rcE := rows.map Row.rcE, rcI := rows.map Row.rcI, flag := rows.map Row.flag }

/-- `load_RC_datfile(filepath)`, data_utils.py:113-168. An HDF5 file is not text (UnicodeDecodeError, a ValueError). -/
noncomputable def loadDat (fs : FS) (path : String) : Except Error Table :=
  match fs path with
  | none => .error .osError
  | some (.text content) => readCsv content
  | some (.h5 _) => .error .valueError

/-! ### Writing HDF5 -/

/-- `f.create_dataset(...)`, data_utils.py:207 and 212: the dataset becomes a part of the file. -/
def addDataset (fs : FS) (path : String) (name : String) (d : Dataset) : FS := fun p =>
  if p = path then
    match fs p with
    | some (.h5 ds) => some (.h5 (ds ++ [(name, d)]))
    | f => f
  else fs p

/-- `dset[:] = ...`, data_utils.py:208: the values of a dataset of the file. -/
def setDataset (fs : FS) (path : String) (name : String) (d : Dataset) : FS := fun p =>
  if p = path then
    match fs p with
    | some (.h5 ds) => some (.h5 (ds.map fun x => if x.1 = name then (name, d) else x))
    | f => f
  else fs p

/-- `h5py.File(filepath, 'w')`, data_utils.py:202. -/
def createH5 (fs : FS) (path : String) : FS := fun p => if p = path then some (.h5 []) else fs p

/-- Is an ASCII text. -/
def isAscii (s : List Char) : Bool := s.all fun c => c.toNat < 128

/-- Columns in their order, `df_rc.columns` and `df_rc[column].values`. -/
def columns (t : Table) : List (String × Dataset) :=
  [("time", .floats t.time), ("RC", .floats t.rc), ("RC_e", .floats t.rcE), ("RC_i", .floats t.rcI), ("flag", .bytes t.flag)]

/-- Body of the loop over the columns, data_utils.py:204-211: a dataset of type `S1` keeps one character of each flag; the second component tells
whether an exception was raised. -/
def writeColumn (path : String) (s : FS × Bool) (col : String × Dataset) : FS × Bool :=
  if s.2 then s
  else if col.1 = "flag" then
    match col.2 with
    | .bytes x =>
      let fs := addDataset s.1 path col.1 (.bytes (x.map fun _ => []))          -- created with empty strings
      if x.all isAscii then (setDataset fs path col.1 (.bytes (x.map fun w => w.take 1)), false) else (fs, true)
    | .floats _ => s
  else (addDataset s.1 path col.1 col.2, false)

/-- `save_RC_h5file(filepath, read_from)`, data_utils.py:171-216: the files afterwards and whether it only warned. `writable` tells whether
`h5py.File(filepath, 'w')` succeeds; exceptions are turned into warnings. -/
noncomputable def saveH5 (writable : String → Bool) (fs : FS) (filepath readFrom : String) : FS × Bool :=
  match loadDat fs readFrom with
  | .error _ => (fs, true)
  | .ok t => if writable filepath then (columns t).foldl (writeColumn filepath) (createH5 fs filepath, false) else (fs, true)

/-! ### The RC-index used by `synth_coeffs_sm` -/

/-- `f_RC[name]` for an array of numbers. -/
def lookup (ds : List (String × Dataset)) (name : String) : Except Error (List ℝ) :=
  match ds.lookup name with
  | none => .error .keyError
  | some (.floats x) => .ok x
  | some (.bytes _) => .error .valueError

/-- The RC-index file as it is used in chaos.py:1812-1825: first as HDF5 file, then (after an OSError) as text file. The two columns are read
together (the code reads the one it needs). -/
noncomputable def rcFile (fs : FS) (path : String) : Except Error Chaos.RcFile :=
  match fs path with
  | some (.h5 ds) => do
    let t ← lookup ds "time"
    let e ← lookup ds "RC_e"
    let i ← lookup ds "RC_i"
    return { time := t, rcE := e, rcI := i }
  | _ => do
    let t ← loadDat fs path
    return { time := t.time, rcE := t.rcE, rcI := t.rcI }

end ChaosMagPy.Rc
