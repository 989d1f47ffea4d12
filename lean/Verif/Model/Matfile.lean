import Verif.Model.Chaos
/-!
# Model of the MAT-file input and output of `CHAOS`

`data_utils.load_matfile` (data_utils.py:42-110), `load_CHAOS_matfile` (chaos.py:2437-2656), `CHAOS.__init__`
(chaos.py:928-1043), `CHAOS.save_matfile` (chaos.py:2241-2349), `Base.to_ppdict` (chaos.py:215-241) and
`CHAOS.synth_euler_angles` (chaos.py:2106-2162), with NumPy arrays given by their shape and their entries in C order.

The package hdf5storage is modelled by what it promises: a numeric array is read back with the same entries, an object array as a cell
array, a dictionary as a structure. The shape that is read back is either the one that was written (`keep = true`: the Python metadata in
the file are used) or has at least two axes (`keep = false`: a scalar is 1x1, a vector of n entries 1xn). What comes back for `None` is a
parameter. Entries are exact reals. Keys with two leading and trailing underscores and strings (`form='pp'`, never read) are left out.
Warnings and printing are not modelled.
-/
namespace ChaosMagPy.Matfile

/-- Exceptions. -/
inductive Error where
  | keyError
  | valueError
  | indexError
  | typeError
  | attributeError
  deriving DecidableEq, Repr

/-! ### Arrays -/

/-- A NumPy array of numbers: shape, entries in C order. -/
structure Arr where
  shape : List ℕ
  data : List ℝ

/-- The number of entries fits the shape. -/
def Arr.Ok (a : Arr) : Prop := a.data.length = a.shape.prod

/-- Axes of length one are removed from the shape. -/
def squeezeShape (s : List ℕ) : List ℕ := s.filter (fun n => n != 1)

/-- `a.squeeze()`. -/
def Arr.squeeze (a : Arr) : Arr := { a with shape := squeezeShape a.shape }

/-- `a.reshape(shape)`. -/
def Arr.reshape (a : Arr) (shape : List ℕ) : Except Error Arr :=
  if a.data.length = shape.prod then .ok { a with shape } else .error .valueError

/-- `a.reshape((-1, 1))`. -/
def Arr.column (a : Arr) : Arr := { a with shape := [a.data.length, 1] }

/-- `a.reshape((1, -1))`. -/
def Arr.row (a : Arr) : Arr := { a with shape := [1, a.data.length] }

/-- `a.transpose()` of an array with at most two axes (more are never used here: ValueError). -/
def Arr.transpose (a : Arr) : Except Error Arr :=
  match a.shape with
  | [] => .ok a
  | [_] => .ok a
  | [r, c] => .ok ⟨[c, r], (List.range c).flatMap fun j => (List.range r).map fun i => a.data.getD (i * c + j) 0⟩
  | _ => .error .valueError

/-- `a[i]`: the part of the array along the first axis. -/
def Arr.index (a : Arr) (i : ℕ) : Except Error Arr :=
  match a.shape with
  | [] => .error .indexError
  | n :: s => if i < n then .ok ⟨s, (a.data.drop (i * s.prod)).take s.prod⟩ else .error .indexError

/-- `a[:, j]` of a matrix. -/
def Arr.col (a : Arr) (j : ℕ) : Except Error Arr :=
  match a.shape with
  | [r, c] => if j < c then .ok ⟨[r], (List.range r).map fun i => a.data.getD (i * c + j) 0⟩ else .error .indexError
  | _ => .error .indexError

/-- `a[0, :, j]` of an array with three axes. -/
def Arr.line (a : Arr) (j : ℕ) : Except Error Arr :=
  match a.shape with
  | [n, k, d] => if 0 < n ∧ j < d then .ok ⟨[k], (List.range k).map fun i => a.data.getD (i * d + j) 0⟩ else .error .indexError
  | _ => .error .indexError

/-- `np.concatenate([a, b, c], axis=-1)` of arrays with one or two axes. -/
def concat3 (a b c : Arr) : Except Error Arr :=
  match a.shape, b.shape, c.shape with
  | [_], [_], [_] => .ok ⟨[a.data.length + b.data.length + c.data.length], a.data ++ b.data ++ c.data⟩
  | [r, ca], [r', cb], [r'', cc] =>
    if r = r' ∧ r = r'' then
      .ok ⟨[r, ca + cb + cc], (List.range r).flatMap fun i =>
        (a.data.drop (i * ca)).take ca ++ (b.data.drop (i * cb)).take cb ++ (c.data.drop (i * cc)).take cc⟩
    else .error .valueError
  | _, _, _ => .error .valueError

/-- `np.stack((a, b), axis=-1)` of two vectors. -/
def stack2 (a b : Arr) : Except Error Arr :=
  if a.data.length = b.data.length then .ok ⟨[a.data.length, 2], (a.data.zip b.data).flatMap fun p => [p.1, p.2]⟩ else .error .valueError

/-- `a[:3] = b` for a vector `a` (a single number is broadcast). -/
def setFirst3 (a b : Arr) : Except Error Arr :=
  match a.shape with
  | [n] =>
    if b.data.length = 1 ∧ b.shape.length ≤ 1 then .ok ⟨[n], (a.data.take 3).map (fun _ => b.data.getD 0 0) ++ a.data.drop 3⟩
    else if b.shape = [min n 3] then .ok ⟨[n], b.data ++ a.data.drop 3⟩ else .error .valueError
  | _ => .error .indexError

/-! ### Values in MAT-files -/

/-- A value read from a MAT-file: `None`, numeric array, cell array (shape and elements in C order) or structure. -/
inductive MVal where
  | null
  | num (a : Arr)
  | cell (shape : List ℕ) (items : List MVal)
  | struct (fields : List (String × MVal))

/-- `traverse_struct`, data_utils.py:70-98: structures are dictionaries, a cell array with one element is replaced by the
element, other arrays are squeezed; the elements of larger cell arrays are left as they are. -/
def traverse : MVal → MVal
  | .null => .null
  | .num a => .num a.squeeze
  | .cell shape items =>
    if shape = [1, 1] then
      match items with
      | [v] => traverse v
      | _ => .cell shape items
    else .cell (squeezeShape shape) items
  | .struct fields => .struct (fields.map fun kv => (kv.1, traverse kv.2))
decreasing_by
  · simp; omega
  · have h := List.sizeOf_lt_of_mem ‹kv ∈ fields›
    obtain ⟨k, v⟩ := kv
    simp at h ⊢
    omega

/-- A dictionary or the variables of a MAT-file. -/
abbrev Dict := List (String × MVal)

/-- `load_matfile`, data_utils.py:42-110. -/
def loadMatfile (file : Dict) : Dict := file.map fun kv => (kv.1, traverse kv.2)

/-- `d[key]`. -/
def Dict.get (d : Dict) (key : String) : Except Error MVal :=
  match List.lookup key d with
  | some v => .ok v
  | none => .error .keyError

/-- A value used as a dictionary (an array cannot be indexed by a string). -/
def MVal.dict : MVal → Except Error Dict
  | .struct f => .ok f
  | _ => .error .indexError

/-- A value used as a numeric array (an object array would fail later with a type error). -/
def MVal.arr : MVal → Except Error Arr
  | .num a => .ok a
  | _ => .error .typeError

/-- `d[key]` used as a numeric array. -/
def Dict.arr (d : Dict) (key : String) : Except Error Arr := do (← d.get key).arr

/-- `int(a)` of an array with one number (negative sizes are refused, NumPy would infer a size from -1). -/
noncomputable def Arr.toNat (a : Arr) : Except Error ℕ :=
  match a.data with
  | [x] => if x < 0 then .error .valueError else .ok ⌊x⌋₊
  | _ => .error .typeError

/-- `len(v)`. -/
def MVal.len : MVal → Except Error ℕ
  | .null => .error .typeError
  | .num a =>
    match a.shape with
    | [] => .error .typeError
    | n :: _ => .ok n
  | .cell shape _ =>
    match shape with
    | [] => .error .typeError
    | n :: _ => .ok n
  | .struct f => .ok f.length

/-- A number in an array of objects, in the conversion by `astype(float)`. -/
def MVal.scalar : MVal → Except Error ℝ
  | .num a =>
    match a.data with
    | [x] => .ok x
    | _ => .error .valueError
  | _ => .error .typeError

/-- `v[num]`: a part of a numeric array, an element of a cell array with one axis, or a part of a cell array with more axes (taken as numbers:
such arrays arise below from arrays of equal shape and are converted by `astype(float)` before they are used). -/
def MVal.item (v : MVal) (i : ℕ) : Except Error Arr :=
  match v with
  | .null => .error .typeError
  | .num a => a.index i
  | .cell shape items =>
    match shape with
    | [] => .error .indexError
    | [_] =>
      match items[i]? with
      | some x => x.arr
      | none => .error .indexError
    | n :: s =>
      if i < n then do
        let l ← ((items.drop (i * s.prod)).take s.prod).mapM MVal.scalar
        return ⟨s, l⟩
      else .error .indexError
  | .struct _ => .error .keyError

/-! ### The class `CHAOS` -/

/-- The attributes of `Base` and `BaseModel` (chaos.py:54-84, 315-330): name, break points, order, coefficients with three axes, source and the
prerotation of the Euler angles in `meta`. -/
structure BaseA where
  name : String
  breaks : List ℝ
  order : ℕ
  coeffs : Arr
  source : Option String
  prerotation : Option Arr

/-- `coeffs.shape[-1]`. -/
def BaseA.dim (b : BaseA) : ℕ := b.coeffs.shape.getLastD 0

/-- `breaks.size - 1`. -/
def BaseA.pieces (b : BaseA) : ℕ := b.breaks.length - 1

/-- `Base.__init__` with break points and coefficients, chaos.py:54-84. -/
def BaseA.init (name : String) (breaks : Arr) (order : ℕ) (coeffs : Arr) (source : Option String) (prerotation : Option Arr) :
    Except Error BaseA :=
  match coeffs.shape with
  | [] => .error .indexError
  | rows :: s =>
    let order := min order rows
    let breaks := if breaks.data.length = 1 then breaks.data ++ breaks.data else breaks.data
    let keep := if order = 0 then rows else order  -- `coeffs[-0:]`
    .ok { name, breaks, order, source, prerotation, coeffs := ⟨keep :: s, coeffs.data.drop ((rows - keep) * s.prod)⟩ }

/-- `breaks_delta`, `coeffs_delta`. -/
structure DeltaA where
  breaksQ10 : Arr
  breaksQ11 : Arr
  breaksS11 : Arr
  q10 : Arr
  q11 : Arr
  s11 : Arr

/-- `meta`: `meta['params']['Euler_prerotation']` and `meta['satellites']`. -/
structure Meta where
  prerotation : Option Arr
  satellites : List String

/-- The attributes of `CHAOS` (`n_sm` and `n_gsm` follow from the sizes; `timestamp` is left out). -/
structure Attr where
  name : String
  tdep : Option BaseA
  static : Option BaseA
  sm : Option Arr
  gsm : Option Arr
  delta : Option DeltaA
  euler : Option (List (String × BaseA))
  cal : Option (List (String × BaseA))
  metaData : Option Meta

/-- Assignment to a key of a dictionary. -/
def dictSet {α : Type} (d : List (String × α)) (k : String) (v : α) : List (String × α) :=
  if d.any (fun p => p.1 == k) then d.map fun p => if p.1 = k then (k, v) else p else d ++ [(k, v)]

/-- Rows of the prerotation in `meta` (chaos.py:1014-1017): `None[k]` is a type error. -/
def prerotationRow (md : Option Meta) (k : ℕ) : Except Error Arr :=
  match md with
  | none => .error .typeError
  | some m =>
    match m.prerotation with
    | none => .error .typeError
    | some a => a.index k

/-- `breaks[[0, -1]]`. -/
noncomputable def ends (breaks : Arr) : Except Error Arr :=
  match breaks.shape with
  | [] => .error .indexError
  | _ => if breaks.data = [] then .error .indexError else .ok ⟨[2], [PPoly.first breaks.data, PPoly.last breaks.data]⟩

/-- The dictionary of Euler angle models, chaos.py:1006-1029; break points and coefficients by satellite. -/
def initEuler (md : Option Meta) (angles : List (String × (Arr × Arr))) : Except Error (List (String × BaseA)) :=
  angles.zipIdx.mapM fun x => do
    let pre ← prerotationRow md x.2
    let b ← BaseA.init x.1.1 x.1.2.1 1 x.1.2.2 none (some pre)
    return (x.1.1, b)

/-- The dictionary of calibration models, chaos.py:1031-1041. -/
def initCal (cal : List (String × (Arr × Arr))) : Except Error (List (String × BaseA)) :=
  cal.mapM fun x => do
    let b ← BaseA.init x.1 x.2.1 1 x.2.2 none none
    return (x.1, b)

/-- A value for a possibly missing part. -/
def onSome {α β : Type} (x : Option α) (f : α → Except Error β) : Except Error (Option β) :=
  match x with
  | none => .ok none
  | some a => (f a).map some

/-- `CHAOS.__init__`, chaos.py:928-1043. -/
noncomputable def Attr.init (name : String) (breaks : Arr) (order : ℕ) (tdep static sm gsm : Option Arr) (delta : Option DeltaA)
    (euler cal : Option (List (String × (Arr × Arr)))) (md : Option Meta) : Except Error Attr := do
  let tdep ← onSome tdep fun c => BaseA.init (name ++ "_tdep") breaks order c (some "internal") none
  let static ← onSome static fun c => do BaseA.init (name ++ "_static") (← ends breaks) 1 c (some "internal") none
  let euler ← onSome euler (initEuler md)
  let cal ← onSome cal initCal
  return { name, tdep, static, sm, gsm, delta, euler, cal, metaData := md }

/-! ### Loading -/

/-- `coefs.transpose().reshape((order, pieces, dim))` with the sizes of the structure, chaos.py:2527-2537: break points, order, coefficients. -/
noncomputable def loadTdep (mat : Dict) : Except Error (Arr × ℕ × Arr) := do
  let pp ← (← mat.get "pp").dict
  let order ← (← pp.arr "order").toNat
  let pieces ← (← pp.arr "pieces").toNat
  let dim ← (← pp.arr "dim").toNat
  let breaks ← pp.arr "breaks"
  let coefs ← pp.arr "coefs"
  let c ← (← coefs.transpose).reshape [order, pieces, dim]
  return (breaks, order, c)

/-- `mat_contents['g'].reshape((1, 1, -1))` or nothing, chaos.py:2540-2545. -/
def loadStatic (mat : Dict) : Except Error (Option Arr) :=
  match mat.get "g" with
  | .error _ => .ok none
  | .ok v => do
    let g ← v.arr
    return some ⟨[1, 1, g.data.length], g.data⟩

/-- GSM coefficients: eight zeros, entries 0 and 3 from the file, chaos.py:2563-2566. -/
def gsmOf (a : Arr) : Except Error Arr :=
  if a.data.length = 1 ∧ a.shape.length ≤ 1 then .ok ⟨[8], [a.data.getD 0 0, 0, 0, a.data.getD 0 0, 0, 0, 0, 0]⟩
  else if a.shape = [2] then .ok ⟨[8], [a.data.getD 0 0, 0, 0, a.data.getD 1 0, 0, 0, 0, 0]⟩
  else .error .valueError

/-- The external field, chaos.py:2548-2580: SM and GSM coefficients and the offsets. -/
def loadExternal (mat : Dict) : Except Error (Option (Arr × Arr × DeltaA)) :=
  match mat.get "model_ext" with
  | .error _ => .ok none
  | .ok v => do
    let ext ← v.dict
    let sm ← setFirst3 (← ext.arr "m_sm") (← ext.arr "m_Dst")
    let gsm ← gsmOf (← ext.arr "m_gsm")
    let bq10 ← ext.arr "t_break_q10"
    let bq11 ← ext.arr "t_break_qs11"
    let q10 := (← ext.arr "q10").row
    let qs11 ← ext.arr "qs11"
    let q11 := (← qs11.col 0).row
    let s11 := (← qs11.col 1).row
    return some (sm, gsm, ⟨bq10, bq11, bq11, q10, q11, s11⟩)

/-- Satellite names for `n` satellites, chaos.py:2593-2601. -/
def adjustNames (satellites : List String) (n : ℕ) : List String :=
  if n < satellites.length then satellites.take n
  else satellites ++ (List.range' (satellites.length + 1) (n - satellites.length)).map fun k => s!"satellite_{k}"

/-- An array of objects. -/
def MVal.isCell : MVal → Bool
  | .cell _ _ => true
  | _ => false

/-- Euler angles of satellite number `num`, chaos.py:2604-2617: break points and coefficients. -/
def eulerOf (euler : Dict) (breaks : MVal) (num : ℕ) : Except Error (Arr × Arr) := do
  let b ← breaks.item num
  if breaks.isCell ∧ b.shape = [] then throw .attributeError  -- `float.squeeze`
  let a1 ← (← euler.get "alpha").item num
  let a2 ← (← euler.get "beta").item num
  let a3 ← (← euler.get "gamma").item num
  let c ← concat3 a1 a2 a3
  return (b.squeeze, { c with shape := 1 :: c.shape })

/-- The Euler angles, chaos.py:2583-2617: satellite names and the dictionaries (the two loops over the satellites are one here). -/
def loadEuler (mat : Dict) (satellites : List String) : Except Error (List String × Option (List (String × (Arr × Arr)))) :=
  match mat.get "model_Euler" with
  | .error _ => .ok (satellites, none)
  | .ok v => do
    let euler ← v.dict
    let breaks ← euler.get "t_break_Euler"
    let n ← breaks.len
    let names := adjustNames satellites n
    let angles ← names.zipIdx.foldlM (fun d x => do return dictSet d x.1 (← eulerOf euler breaks x.2)) []
    return (names, some angles)

/-- The calibration parameters, chaos.py:2620-2631. -/
def loadCal (mat : Dict) : Except Error (Option (List (String × (Arr × Arr)))) :=
  match mat.get "pp_CAL" with
  | .error _ => .ok none
  | .ok v => do
    let cal ← v.dict
    let breaks ← cal.arr "breaks"
    let coefs ← cal.arr "coefs"
    let c ← coefs.reshape [1, coefs.data.length / 9, 9]
    return some [("cryosat-2_1", (breaks, c))]

/-- `params['Euler_prerotation']` or `None`, chaos.py:2634-2640. -/
def loadParams (mat : Dict) : Except Error (Option Arr) :=
  match mat.get "params" with
  | .error _ => .ok none
  | .ok v => do
    let params ← v.dict
    match params.get "Euler_prerotation" with
    | .error _ => return none
    | .ok .null => return none
    | .ok p => return some (← p.arr)

/-- The default names, chaos.py:2518-2520. -/
def defaultSatellites : List String :=
  ["oersted", "champ", "sac_c", "swarm_a", "swarm_b", "swarm_c", "cryosat-2_1", "cryosat-2_2", "cryosat-2_3"]

/-- `load_CHAOS_matfile(filepath, name=, satellites=)`, chaos.py:2510-2656; `name` is the given name or that of the file. -/
noncomputable def load (name : String) (satellites : Option (List String)) (file : Dict) : Except Error Attr := do
  let mat := loadMatfile file
  let (breaks, order, tdep) ← loadTdep mat
  let static ← loadStatic mat
  let ext ← loadExternal mat
  let (names, euler) ← loadEuler mat (satellites.getD defaultSatellites)
  let cal ← loadCal mat
  let pre ← loadParams mat
  Attr.init name breaks order (some tdep) static (ext.map (·.1)) (ext.map (·.2.1)) (ext.map (·.2.2)) euler cal (some ⟨pre, names⟩)

/-! ### Saving -/

/-- What is read back for a written array: at least two axes. -/
def atLeast2d (a : Arr) : Arr :=
  match a.shape with
  | [] => { a with shape := [1, 1] }
  | [n] => { a with shape := [1, n] }
  | _ => a

/-- A written numeric array, as it is read back. -/
def wnum (keep : Bool) (a : Arr) : MVal := .num (if keep then a else atLeast2d a)

/-- Shape of a written object array with one axis. -/
def cellShape (keep : Bool) (n : ℕ) : List ℕ := if keep then [n] else [1, n]

/-- `np.array(l, dtype='object')` for a non-empty list of arrays, written and read back: one object per array, unless all arrays have the same
shape; then one object (a number) per entry, with the number of arrays as an additional first axis. -/
def wcell (keep : Bool) (l : List Arr) : MVal :=
  match l with
  | [] => .cell (cellShape keep 0) []
  | a :: r =>
    if ∀ b ∈ r, b.shape = a.shape then .cell (l.length :: a.shape) (l.flatMap fun b => b.data.map fun x => wnum keep ⟨[], [x]⟩)
    else .cell (cellShape keep l.length) (l.map (wnum keep))

/-- `Base.to_ppdict`, chaos.py:215-241. -/
def toPP (keep : Bool) (b : BaseA) : Except Error MVal := do
  if b.order = 0 ∨ b.coeffs.data.length % b.order ≠ 0 then throw .valueError
  let coefs ← (Arr.mk [b.order, b.coeffs.data.length / b.order] b.coeffs.data).transpose
  return .struct [("order", wnum keep ⟨[], [(b.order : ℝ)]⟩), ("pieces", wnum keep ⟨[], [(b.pieces : ℝ)]⟩), ("dim", wnum keep ⟨[], [(b.dim : ℝ)]⟩),
    ("breaks", wnum keep ⟨[1, b.breaks.length], b.breaks⟩), ("coefs", wnum keep coefs)]

/-- `np.mean`. -/
noncomputable def mean (l : List ℝ) : ℝ := l.sum / l.length

/-- The structure `model_ext`, chaos.py:2263-2293. -/
noncomputable def saveExternal (keep : Bool) (d : DeltaA) (sm gsm : Option Arr) : Except Error MVal := do
  let qs11 ← stack2 d.q11 d.s11
  match sm with
  | none => throw .typeError
  | some sm =>
    if sm.data.length < 3 then throw .valueError
    let mSm : Arr := ⟨[sm.data.length, 1], [mean d.q10.data, mean d.q11.data, mean d.s11.data] ++ sm.data.drop 3⟩
    let mDst : Arr := ⟨[3, 1], sm.data.take 3⟩
    match gsm with
    | none => throw .typeError
    | some gsm =>
      if gsm.data.length < 4 then throw .indexError
      let mGsm : Arr := ⟨[2, 1], [gsm.data.getD 0 0, gsm.data.getD 3 0]⟩
      return .struct [("t_break_q10", wnum keep d.breaksQ10.column), ("q10", wnum keep d.q10.column), ("t_break_qs11", wnum keep d.breaksQ11.column),
        ("qs11", wnum keep qs11), ("m_sm", wnum keep mSm), ("m_gsm", wnum keep mGsm), ("m_Dst", wnum keep mDst)]

open Classical in
/-- Break points of the Euler angles, reduced if start and end are equal (chaos.py:2305-2309), and the three columns. -/
noncomputable def eulerCells (b : BaseA) : Except Error (Arr × Arr × Arr × Arr) := do
  if b.breaks = [] then throw .indexError
  let breaks := if PPoly.first b.breaks = PPoly.last b.breaks then [PPoly.first b.breaks] else b.breaks
  let a1 ← b.coeffs.line 0
  let a2 ← b.coeffs.line 1
  let a3 ← b.coeffs.line 2
  return (⟨[breaks.length, 1], breaks⟩, a1.column, a2.column, a3.column)

/-- The structure `model_Euler`, chaos.py:2295-2330. -/
noncomputable def saveEuler (keep : Bool) (euler : List (String × BaseA)) (md : Option Meta) : Except Error MVal := do
  match md with
  | none => throw .typeError
  | some md =>
    let cells ← md.satellites.mapM fun s =>
      match List.lookup s euler with
      | none => .error .keyError
      | some b => eulerCells b
    return .struct [("t_break_Euler", wcell keep (cells.map (·.1))), ("alpha", wcell keep (cells.map (·.2.1))),
      ("beta", wcell keep (cells.map (·.2.2.1))), ("gamma", wcell keep (cells.map (·.2.2.2)))]

/-- The cell array `pp_CAL`, chaos.py:2332-2340. -/
def saveCal (keep : Bool) (cal : List (String × BaseA)) : Except Error MVal := do
  let l ← cal.mapM fun x => toPP keep x.2
  return .cell (cellShape keep l.length) l

/-- A variable that is written if the part exists (and is not an empty dictionary). -/
def writeIf (key : String) (v : Except Error (Option MVal)) : Except Error Dict := do
  match ← v with
  | none => return []
  | some v => return [(key, v)]

/-- A non-empty dictionary (`if self.model_euler:`). -/
def truthy {α : Type} (d : Option (List α)) : Option (List α) :=
  match d with
  | some [] => none
  | x => x

/-- `meta['params']['Euler_prerotation']` as it is read back; `noneArr` is what is read back for `None`. -/
def prerotationValue (keep : Bool) (noneArr : Option Arr) (d : Meta) : MVal :=
  match d.prerotation with
  | some a => wnum keep a
  | none =>
    match noneArr with
    | some a => .num a
    | none => .null

/-- `CHAOS.save_matfile`, chaos.py:2241-2349: the variables of the file as they are read back. -/
noncomputable def save (keep : Bool) (noneArr : Option Arr) (m : Attr) : Except Error Dict := do
  let f1 ← writeIf "pp" (onSome m.tdep (toPP keep))
  let f2 ← writeIf "model_ext" (onSome m.delta fun d => saveExternal keep d m.sm m.gsm)
  let f3 ← writeIf "model_Euler" (onSome (truthy m.euler) fun e => saveEuler keep e m.metaData)
  let f4 ← writeIf "pp_CAL" (onSome (truthy m.cal) (saveCal keep))
  let f5 ← writeIf "g" (onSome m.static fun s => .ok (wnum keep s.coeffs.column))
  let f6 ← writeIf "params" (onSome m.metaData fun d => .ok (.struct [("Euler_prerotation", prerotationValue keep noneArr d)]))
  return f1 ++ f2 ++ f3 ++ f4 ++ f5 ++ f6

/-! ### Use of the attributes -/

/-- The piecewise polynomial of the attributes, for `Base.synth_coeffs`. -/
def BaseA.base (b : BaseA) : PPoly.Base where
  breaks := b.breaks
  order := b.order
  dim := b.dim
  coeffs := some fun i j d => b.coeffs.data.getD ((i * (b.coeffs.shape.getD 1 0) + j) * b.dim + d) 0

/-- `CHAOS.synth_euler_angles(time, satellite, dim=, deriv=, extrapolate=)`, chaos.py:2106-2162 (the prerotation only gives a warning). -/
noncomputable def synthEuler (m : Attr) (times : List ℝ) (satellite : String) (dim deriv : Option ℕ) (extrapolate : Option PPoly.Extrap) :
    Except Error (ℕ × List (Option (ℕ → ℝ))) :=
  match m.euler with
  | none => .error .typeError  -- `satellite not in None`
  | some e =>
    match List.lookup satellite e with
    | none => .error .valueError
    | some b =>
      match b.base.synthCoeffs times dim deriv extrapolate with
      | .ok r => .ok r
      | .error .valueError => .error .valueError

end ChaosMagPy.Matfile
