import Mathlib.Data.Rat.Floor
/-!
# Model of `chaosmagpy/config_utils.py`

Values are Python objects as far as the validators can distinguish them.  What is *not* modelled
of CPython/NumPy here is collected in the structure `Py` (string conversion and number parsing are
external functions about which nothing is assumed except the two facts recorded as fields).
-/
namespace ChaosMagPy.Config

/-- A Python `float`: a finite number (binary rounding not modelled), or one of the specials. -/
inductive Flt where
  | fin (q : ℚ)
  | nan
  | inf (neg : Bool)
  deriving DecidableEq

/-- Python scalars that occur as configuration values / JSON scalars. -/
inductive Sc where
  | none
  | bool (b : Bool)
  | int (i : Int)
  | flt (f : Flt)
  | str (s : String)
  deriving DecidableEq

/-- Python values handed to `__setitem__`.  `list xs` is a Python list or tuple (an element is
`Option.none` if it is itself a container), `arr` a one-dimensional NumPy array, `other` any other
object (dict, multi-dimensional array, ...; not bytes or path objects, and not an array that is converted to a number). -/
inductive Val where
  | sc (s : Sc)
  | list (xs : List (Option Sc))
  | arr (xs : List Sc)
  | other (tag : Nat)
  deriving DecidableEq

/-- Exception classes that can leave the configuration code. -/
inductive Err where
  | keyError
  | valueError
  | typeError
  | overflowError
  | fileNotFound
  | user            -- raised by the caller's own code inside a `with` block
  deriving DecidableEq, Repr

/-- External Python behaviour (CPython's `str`, `float`, `int` on strings and the Unicode class
`\d`), left abstract. -/
structure Py where
  /-- `str(x)` for everything that is not already a string -/
  strOf : Val → String
  /-- `float("...")`; `none` is `ValueError` -/
  parseFloat : String → Option Flt
  /-- `int("...")`; `none` is `ValueError` -/
  parseInt : String → Option Int
  /-- `float(i)`; `none` is `OverflowError` -/
  floatOfInt : Int → Option Flt
  /-- does the regular expression class `\d` match this character -/
  isDigit : Char → Bool
  dot_not_digit : isDigit '.' = false
  ascii_digit : ∀ c : Char, c.isDigit = true → isDigit c = true

/-- `float(x)` for scalars (used by `check_float`, config_utils.py:99-104). -/
def pyFloatSc (py : Py) : Sc → Except Err Flt
  | .none => .error .typeError
  | .bool b => .ok (.fin (if b then 1 else 0))
  | .int i => match py.floatOfInt i with
    | some f => .ok f
    | none => .error .overflowError
  | .flt f => .ok f
  | .str s => match py.parseFloat s with
    | some f => .ok f
    | none => .error .valueError

/-- `int(x)` for scalars (used by `check_int`, config_utils.py:107-112); floats are truncated
toward zero. -/
def pyIntSc (py : Py) : Sc → Except Err Int
  | .none => .error .typeError
  | .bool b => .ok (if b then 1 else 0)
  | .int i => .ok i
  | .flt (.fin q) => .ok (if 0 ≤ q then ⌊q⌋ else ⌈q⌉)
  | .flt .nan => .error .valueError
  | .flt (.inf _) => .error .overflowError
  | .str s => match py.parseInt s with
    | some i => .ok i
    | none => .error .valueError

/-- `check_float`, config_utils.py:99-104.  (Its `except ValueError` re-raises a `ValueError`, every
other exception class propagates.)  A NumPy array of size one converts like its element. -/
def checkFloat (py : Py) : Val → Except Err Val
  | .sc s => (pyFloatSc py s).map fun f => .sc (.flt f)
  | .arr [s] => (pyFloatSc py s).map fun f => .sc (.flt f)
  | _ => .error .typeError

/-- `check_int`, config_utils.py:107-112. -/
def checkInt (py : Py) : Val → Except Err Val
  | .sc s => (pyIntSc py s).map fun i => .sc (.int i)
  | .arr [s] => (pyIntSc py s).map fun i => .sc (.int i)
  | _ => .error .typeError

/-- `str(x)`, used by `check_string`, config_utils.py:115-120. -/
def pyStr (py : Py) : Val → String
  | .sc (.str s) => s
  | v => py.strOf v

/-- `check_string`, config_utils.py:115-120 (`str` never raises `ValueError` here). -/
def checkString (py : Py) (v : Val) : Except Err Val := .ok (.sc (.str (pyStr py v)))

def Sc.isStr : Sc → Bool | .str _ => true | _ => false
def Sc.isNone : Sc → Bool | .none => true | _ => false
def Sc.isFlt : Sc → Bool | .flt _ => true | _ => false
def Sc.isInt : Sc → Bool | .int _ => true | _ => false

/-- One element converted to dtype float; `none` if it cannot be represented. -/
def toFltElt (py : Py) : Sc → Option Sc
  | .bool b => some (.flt (.fin (if b then 1 else 0)))
  | .int i => (py.floatOfInt i).map .flt
  | .flt f => some (.flt f)
  | _ => none

/-- One element converted to dtype int. -/
def toIntElt : Sc → Sc
  | .bool b => .int (if b then 1 else 0)
  | s => s

/-- `np.array(list_of_scalars)`: NumPy's common dtype.  Any `None` gives dtype object (elements
unchanged), otherwise any string gives a string array, otherwise any float a float array (object if
an integer is not representable), otherwise any int an integer array, otherwise booleans.
Simplification: integers beyond 64 bit in an all-integer list are kept as they are. -/
def npUnify (py : Py) (xs : List Sc) : List Sc :=
  if xs.any Sc.isNone then xs
  else if xs.any Sc.isStr then xs.map fun s => .str (pyStr py (.sc s))
  else if xs.any Sc.isFlt then (xs.mapM (toFltElt py)).getD xs
  else if xs.any Sc.isInt then xs.map toIntElt
  else xs

/-- `np.array(s)` followed by `assert s.ndim == 1`, config_utils.py:126-127; `none` when the
assertion (or the conversion) fails. -/
def npArray1 (py : Py) : Val → Option (List Sc)
  | .sc _ => none
  | .list xs => (xs.mapM id).map (npUnify py)
  | .arr xs => some xs
  | .other _ => none

/-- `check_vector(s, len)`, config_utils.py:123-133 (every exception is turned into `ValueError`). -/
def checkVector (py : Py) (len : Nat) (v : Val) : Except Err Val :=
  match npArray1 py v with
  | none => .error .valueError
  | some xs => if xs.length ≠ len then .error .valueError else .ok (.arr xs)

/-- Match `\d+\.\d+` at the head of the text: `\d+` is greedy; giving back a digit never helps
because the next symbol must be a dot. -/
def matchHere (isDigit : Char → Bool) (cs : List Char) : Bool :=
  match cs with
  | [] => false
  | c :: rest =>
    isDigit c &&
      match rest.dropWhile isDigit with
      | '.' :: d :: _ => isDigit d
      | _ => false

/-- `re.search(r'\d+\.\d+', s)`, config_utils.py:141: try every start position. -/
def reSearch (isDigit : Char → Bool) : List Char → Bool
  | [] => false
  | c :: rest => matchHere isDigit (c :: rest) || reSearch isDigit rest

/-- `check_version_string`, config_utils.py:136-146. -/
def checkVersion (py : Py) (v : Val) : Except Err Val :=
  if reSearch py.isDigit (pyStr py v).toList then .ok (.sc (.str (pyStr py v)))
  else .error .valueError

/-- The part of the operating system the validators look at. -/
structure FS where
  /-- `os.path.exists(path)` -/
  pathExists : String → Bool
  /-- `os.path.exists(fd)` for an integer file descriptor -/
  fdExists : Int → Bool

/-- `check_path_exists`, config_utils.py:88-96.  `os.path.exists` of an int (or bool) asks for an open
file descriptor; of a float or container it raises `TypeError`. For an array `s == 'None'` compares the elements (line 90), and the truth value of
more than one element is a `ValueError`; an array of the one string `'None'` counts as `'None'`. (NumPy ≥ 1.25; bytes and path objects are not modelled.) -/
def checkPath (fs : FS) : Val → Except Err Val
  | .sc .none => .ok (.sc .none)
  | .sc (.str s) =>
    if s = "None" then .ok (.sc .none)
    else if fs.pathExists s then .ok (.sc (.str s)) else .error .fileNotFound
  | .sc (.int i) => if fs.fdExists i then .ok (.sc (.int i)) else .error .fileNotFound
  | .sc (.bool b) =>
    if fs.fdExists (if b then 1 else 0) then .ok (.sc (.bool b)) else .error .fileNotFound
  | .arr xs => if xs.length ≤ 1 then if xs = [.str "None"] then .ok (.sc .none) else .error .typeError else .error .valueError
  | _ => .error .typeError

/-- The validators that occur in `DEFAULTS`. -/
inductive Validator where
  | float | int | vector (len : Nat) | version | path
  deriving DecidableEq

/-- Call a validator (the second component of a `DEFAULTS` entry). -/
def Validator.run (py : Py) (fs : FS) : Validator → Val → Except Err Val
  | .float => checkFloat py
  | .int => checkInt py
  | .vector len => checkVector py len
  | .version => checkVersion py
  | .path => checkPath fs

/-- `DEFAULTS`, config_utils.py:149-174.  Decimal literals stand for the rationals they denote;
`LIB` is the package's library directory. -/
def defaults (lib : String) : List (String × Val × Validator) :=
  [ ("params.r_surf", .sc (.flt (.fin 6371.2)), .float),
    ("params.r_cmb", .sc (.flt (.fin 3485)), .float),
    ("params.dipole",
      .arr [.flt (.fin (-29442)), .flt (.fin (-1501)), .flt (.fin 4797.1)], .vector 3),
    ("params.ellipsoid", .arr [.flt (.fin 6378.137), .flt (.fin 6356.752)], .vector 2),
    ("params.CHAOS_version", .sc (.str "7.18"), .version),
    ("params.cdf_to_mjd", .sc (.int 730485), .int),
    ("file.RC_index", .sc (.str (lib ++ "/RC_index.h5")), .path),
    ("file.GSM_spectrum", .sc (.str (lib ++ "/frequency_spectrum_gsm.npz")), .path),
    ("file.SM_spectrum", .sc (.str (lib ++ "/frequency_spectrum_sm.npz")), .path),
    ("file.Earth_conductivity", .sc (.str (lib ++ "/Earth_conductivity.dat")), .path),
    ("file.shp_coastline", .sc (.str (lib ++ "/ne_110m_coastline.zip")), .path),
    ("plots.figure_width", .sc (.flt (.fin 6.3)), .float) ]

/-- A Python dictionary with string keys, in insertion order. -/
abbrev Dict := List (String × Val)

/-- `dict.__getitem__` (`none` is `KeyError`). -/
def Dict.get (d : Dict) (k : String) : Option Val := List.lookup k d

/-- `dict.__setitem__`: replace in place, or append a new key. -/
def Dict.set : Dict → String → Val → Dict
  | [], k, v => [(k, v)]
  | (k', v') :: d, k, v => if k' = k then (k, v) :: d else (k', v') :: Dict.set d k v

/-- `dict.update(other)`: assign all entries of `other` in order, without any validation. -/
def Dict.update (d : Dict) (e : Dict) : Dict := e.foldl (fun acc kv => acc.set kv.1 kv.2) d

/-- Fixed surroundings of the configuration object. -/
structure Ctx where
  py : Py
  lib : String

/-- The state the configuration code works on: file system and the dictionary itself. -/
structure State where
  fs : FS
  cfg : Dict

/-- `self.defaults[key]` (`none` is `KeyError`). -/
def defEntry (c : Ctx) (k : String) : Option (Val × Validator) := (defaults c.lib).lookup k

/-- `BasicConfig.__setitem__`, config_utils.py:184-194. -/
def setItem (c : Ctx) (s : State) (k : String) (v : Val) : Except Err State :=
  match defEntry c k with
  | none => .error .keyError
  | some (_, chk) =>
    match chk.run c.py s.fs v with
    | .error e => .error e
    | .ok cval => .ok { s with cfg := s.cfg.set k cval }

/-- `BasicConfig.reset`, config_utils.py:199-209. -/
def reset (c : Ctx) (s : State) (k : String) : Except Err State :=
  match defEntry c k with
  | none => .error .keyError
  | some (v, _) => setItem c s k v

/-- `{key: val for key, (val, _) in defaults.items()}`, config_utils.py:216 and 299. -/
def defaultDict (c : Ctx) : Dict := (defaults c.lib).map fun e => (e.1, e.2.1)

/-- `BasicConfig.fullreset`, config_utils.py:211-216 (plain `dict.update`, no validation). -/
def fullreset (c : Ctx) (s : State) : State := { s with cfg := s.cfg.update (defaultDict c) }

/-- `BasicConfig.load`, config_utils.py:218-238, after `json.load` produced `entries`: assignments
happen one by one; an exception leaves the earlier ones in place.  Returns the state reached and the
exception, if any. -/
def load (c : Ctx) : State → List (String × Val) → State × Option Err
  | s, [] => (s, none)
  | s, (k, v) :: rest =>
    match setItem c s k v with
    | .error e => (s, some e)
    | .ok s' => load c s' rest

/-- JSON encoding of a stored value followed by decoding, `save`/`load`, config_utils.py:240-259 and
227-228: arrays become lists (`default`), scalars survive.  Objects `json` cannot represent are turned
into `null` by the `default` hook, which returns `None` for them (config_utils.py:252-254); lists stay
lists. -/
def jsonTrip : Val → Val
  | .sc s => .sc s
  | .list xs => .list xs
  | .arr xs => .list (xs.map some)
  | .other _ => .sc .none

/-- Insertion into a list of entries sorted by key (for `sort_keys=True`). -/
def insertSorted (e : String × Val) : List (String × Val) → List (String × Val)
  | [] => [e]
  | f :: l => if e.1 ≤ f.1 then e :: f :: l else f :: insertSorted e l

/-- `BasicConfig.save`, config_utils.py:240-259: the entries `json.load` will see in the file
(`sort_keys=True`). -/
def save (d : Dict) : List (String × Val) :=
  (d.foldr insertSorted []).map fun kv => (kv.1, jsonTrip kv.2)

/-- Programs a user can run against the configuration object: single operations, sequencing,
`with config.context(k, v): body` blocks, `try: ... except: pass`, raising an exception of the user's
own, and changes of the file system. -/
inductive Prog where
  | skip
  | set (k : String) (v : Val)
  | reset (k : String)
  | fullreset
  | load (entries : List (String × Val))
  | ctx (k : String) (v : Val) (body : Prog)
  | seq (p q : Prog)
  | tryExcept (p : Prog)
  | raise
  | createFile (path : String)
  | deleteFile (path : String)

/-- Big-step execution: reached state and pending exception.  The `ctx` case is
`BasicConfig.context`, config_utils.py:261-295: read the old value, assign, run the body, and only if
the body did not raise, assign the old value again (there is no `try/finally`). -/
def exec (c : Ctx) : Prog → State → State × Option Err
  | .skip, s => (s, none)
  | .set k v, s => match setItem c s k v with
    | .ok s' => (s', none)
    | .error e => (s, some e)
  | .reset k, s => match Config.reset c s k with
    | .ok s' => (s', none)
    | .error e => (s, some e)
  | .fullreset, s => (Config.fullreset c s, none)
  | .load es, s => Config.load c s es
  | .ctx k v body, s =>
    match s.cfg.get k with
    | none => (s, some .keyError)
    | some old =>
      match setItem c s k v with
      | .error e => (s, some e)
      | .ok s1 =>
        match exec c body s1 with
        | (s2, some e) => (s2, some e)
        | (s2, none) =>
          match setItem c s2 k old with
          | .error e => (s2, some e)
          | .ok s3 => (s3, none)
  | .seq p q, s =>
    match exec c p s with
    | (s1, some e) => (s1, some e)
    | (s1, none) => exec c q s1
  | .tryExcept p, s => ((exec c p s).1, none)
  | .raise, s => (s, some .user)
  | .createFile path, s =>
    ({ s with fs := { s.fs with pathExists := fun q => if q = path then true else s.fs.pathExists q } },
      none)
  | .deleteFile path, s =>
    ({ s with fs := { s.fs with pathExists := fun q => if q = path then false else s.fs.pathExists q } },
      none)

/-- The module-level `basicConfig`, config_utils.py:298-299. -/
def init (c : Ctx) (fs : FS) : State := { fs := fs, cfg := defaultDict c }

end ChaosMagPy.Config
