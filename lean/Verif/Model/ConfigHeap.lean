import Verif.Model.Config
/-!
# Model of the configuration with array objects, `chaosmagpy/config_utils.py`

The same code as in `Model/Config.lean`, now with the identity of NumPy arrays: the dictionary and `DEFAULTS` hold references to array
objects, a user can keep references and write into arrays in place. Arrays are objects in a heap that are never freed. Addresses 0 and 1
are the two arrays of `DEFAULTS` (dipole and ellipsoid). Simplification: an element written into an array has the type of the array.
-/
namespace ChaosMagPy.ConfigHeap
open ChaosMagPy.Config (Sc Val Err FS Ctx State Validator defEntry defaults)

/-- What a dictionary entry holds: an immutable value or a reference to an array. -/
inductive Cell where
  | imm (v : Val)
  | ref (a : ℕ)
  deriving DecidableEq

/-- File system, array objects, dictionary and the variables of the user that refer to arrays. -/
structure H where
  fs : FS
  heap : List (List Sc)
  cfg : List (String × Cell)
  env : List ℕ

/-- The present value of an entry. -/
def deref (heap : List (List Sc)) : Cell → Val
  | .imm v => v
  | .ref a => .arr (heap.getD a [])

/-- `dict.__setitem__`. -/
def setKey : List (String × Cell) → String → Cell → List (String × Cell)
  | [], k, v => [(k, v)]
  | (k', v') :: d, k, v => if k' = k then (k, v) :: d else (k', v') :: setKey d k v

/-- Default value of a key as an object, config_utils.py:149-174 (`DEFAULTS`, created once at import). -/
def defCell (c : Ctx) (k : String) : Option (Cell × Validator) :=
  match defEntry c k with
  | none => none
  | some (v, chk) => some (if k = "params.dipole" then .ref 0 else if k = "params.ellipsoid" then .ref 1 else .imm v, chk)

/-- Store the result of a validator: `np.array(s)` in `check_vector` makes a new array (config_utils.py:126), all other validators return
immutable objects. -/
def store (h : H) (k : String) : Val → H
  | .arr xs => { h with heap := h.heap ++ [xs], cfg := setKey h.cfg k (.ref h.heap.length) }
  | v => { h with cfg := setKey h.cfg k (.imm v) }

/-- `BasicConfig.__setitem__`, config_utils.py:184-194, for the present value of the argument. -/
def setVal (c : Ctx) (h : H) (k : String) (v : Val) : H × Option Err :=
  match defCell c k with
  | none => (h, some .keyError)
  | some (_, chk) =>
    match chk.run c.py h.fs v with
    | .error e => (h, some e)
    | .ok cval => (store h k cval, none)

/-- `BasicConfig.reset`, config_utils.py:199-209. -/
def reset (c : Ctx) (h : H) (k : String) : H × Option Err :=
  match defCell c k with
  | none => (h, some .keyError)
  | some (cell, _) => setVal c h k (deref h.heap cell)

/-- The entries of `DEFAULTS` as objects. -/
def defaultCells (c : Ctx) : List (String × Cell) :=
  (defaults c.lib).map fun e => (e.1, if e.1 = "params.dipole" then .ref 0 else if e.1 = "params.ellipsoid" then .ref 1 else .imm e.2.1)

/-- `BasicConfig.fullreset`, config_utils.py:211-216: the objects of `DEFAULTS` themselves are stored. -/
def fullreset (c : Ctx) (h : H) : H := { h with cfg := (defaultCells c).foldl (fun d kv => setKey d kv.1 kv.2) h.cfg }

/-- `BasicConfig.load`, config_utils.py:218-238. -/
def load (c : Ctx) : H → List (String × Val) → H × Option Err
  | h, [] => (h, none)
  | h, (k, v) :: rest =>
    match setVal c h k v with
    | (h', some e) => (h', some e)
    | (h', none) => load c h' rest

/-- Value to assign: written in the program, or the array a variable refers to. -/
inductive Arg where
  | lit (v : Val)
  | var (i : ℕ)

/-- Present value of an argument; `none` for an unknown variable. -/
def Arg.val (h : H) : Arg → Option Val
  | .lit v => some v
  | .var i => (h.env[i]?).map fun a => .arr (h.heap.getD a [])

/-- Programs. Besides the operations of `Config.Prog`: `x = np.array(...)`, `x = basicConfig[key]` and `x[j] = value`. -/
inductive Prog where
  | skip
  | newArray (xs : List Sc)
  | getItem (k : String)
  | write (i j : ℕ) (x : Sc)
  | set (k : String) (v : Arg)
  | reset (k : String)
  | fullreset
  | load (entries : List (String × Val))
  | ctx (k : String) (v : Arg) (body : Prog)
  | seq (p q : Prog)
  | tryExcept (p : Prog)
  | raise
  | createFile (path : String)
  | deleteFile (path : String)

/-- `basicConfig[key] = value`. -/
def assign (c : Ctx) (h : H) (k : String) (v : Arg) : H × Option Err :=
  match v.val h with
  | none => (h, some .user)
  | some v => setVal c h k v

/-- `x[j] = value` in place; an unknown variable or index is an exception of the user's program. -/
def writeAt (h : H) (i j : ℕ) (x : Sc) : H × Option Err :=
  match h.env[i]? with
  | none => (h, some .user)
  | some a => if j < (h.heap.getD a []).length then ({ h with heap := h.heap.set a ((h.heap.getD a []).set j x) }, none) else (h, some .user)

/-- Keep a reference. -/
def keep (h : H) : Cell → H
  | .ref a => { h with env := h.env ++ [a] }
  | .imm _ => h

/-- Execution: state reached and pending exception; `ctx` is `BasicConfig.context`, config_utils.py:261-295 (`old_value` is the object that was
stored, not a copy). -/
def exec (c : Ctx) : Prog → H → H × Option Err
  | .skip, h => (h, none)
  | .newArray xs, h => ({ h with heap := h.heap ++ [xs], env := h.env ++ [h.heap.length] }, none)
  | .getItem k, h => match h.cfg.lookup k with
    | none => (h, some .keyError)
    | some cell => (keep h cell, none)
  | .write i j x, h => writeAt h i j x
  | .set k v, h => assign c h k v
  | .reset k, h => ConfigHeap.reset c h k
  | .fullreset, h => (ConfigHeap.fullreset c h, none)
  | .load es, h => ConfigHeap.load c h es
  | .ctx k v body, h =>
    match h.cfg.lookup k with
    | none => (h, some .keyError)
    | some old =>
      match assign c h k v with
      | (h1, some e) => (h1, some e)
      | (h1, none) =>
        match exec c body h1 with
        | (h2, some e) => (h2, some e)
        | (h2, none) => setVal c h2 k (deref h2.heap old)
  | .seq p q, h =>
    match exec c p h with
    | (h1, some e) => (h1, some e)
    | (h1, none) => exec c q h1
  | .tryExcept p, h => ((exec c p h).1, none)
  | .raise, h => (h, some .user)
  | .createFile path, h =>
    ({ h with fs := { h.fs with pathExists := fun q => if q = path then true else h.fs.pathExists q } }, none)
  | .deleteFile path, h =>
    ({ h with fs := { h.fs with pathExists := fun q => if q = path then false else h.fs.pathExists q } }, none)

/-- The arrays of `DEFAULTS`. -/
def defaultArrays : List (List Sc) :=
  [[.flt (.fin (-29442)), .flt (.fin (-1501)), .flt (.fin 4797.1)], [.flt (.fin 6378.137), .flt (.fin 6356.752)]]

/-- The module-level `basicConfig` after import, config_utils.py:298-299. -/
def init (c : Ctx) (fs : FS) : H := { fs, heap := defaultArrays, cfg := defaultCells c, env := [] }

end ChaosMagPy.ConfigHeap
