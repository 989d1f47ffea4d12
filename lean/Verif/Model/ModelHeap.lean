import Verif.Model.PPoly
import Verif.Model.Matfile
/-!
# Model of the arrays behind `Base`, `BaseModel` and `CHAOS`, `chaosmagpy/chaos.py`

`Base.__init__` (chaos.py:54-84), `Base.to_ppdict` (chaos.py:215-241), `Base.synth_coeffs` (chaos.py:86-213) and the internal part of
`CHAOS.__init__` (chaos.py:947-978) with the identity of NumPy arrays: `np.asarray(x, dtype=float)` returns an array of floats itself and makes
a new array from anything else, `coeffs[-order:]` is a view, `breaks[[0, -1]]`, `np.append` and `.copy()` make new arrays. Arrays are objects in a
heap that are never freed; a variable or an attribute refers to a contiguous part of one (a view). Simplifications: arrays are contiguous (C order),
an element written into an array has the type of the array, elements are exact reals, NaN in results is written as 0 (the results themselves are in
`Model/PPoly.lean`), only the break points and coefficients of a model are kept. An operation that raises leaves everything as it was; the program goes on
(every operation is in a `try` block; a program that ends there is a shorter program).
-/
namespace ChaosMagPy.ModelHeap
open ChaosMagPy.Matfile (Arr)
open ChaosMagPy.PPoly (Base Extrap)

/-- A block of memory: elements and whether they are floats (`dtype == float`). -/
structure Block where
  isFloat : Bool
  data : List ℝ

/-- An array as the program sees it: contiguous elements of a block from `off` on, with a shape. -/
structure View where
  addr : ℕ
  off : ℕ
  shape : List ℕ

/-- `x.size`. -/
def View.size (v : View) : ℕ := v.shape.prod

/-- The block of an address. -/
def block (heap : List Block) (a : ℕ) : Block := heap.getD a ⟨true, []⟩

/-- Present elements of an array. -/
def View.read (heap : List Block) (v : View) : Arr := ⟨v.shape, ((block heap v.addr).data.drop v.off).take v.size⟩

/-- Attributes `breaks`, `order`, `coeffs` of a model. -/
structure Model where
  breaks : View
  order : ℕ
  coeffs : View

/-- Memory, variables and models of the program. -/
structure World where
  heap : List Block
  env : List View
  models : List Model

/-- An argument: nested lists of numbers or a variable. -/
inductive Arg where
  | list (a : Arr)
  | var (i : ℕ)

/-- A new array. -/
def alloc (heap : List Block) (isFloat : Bool) (a : Arr) : List Block × View := (heap ++ [⟨isFloat, a.data⟩], ⟨heap.length, 0, a.shape⟩)

/-- `np.asarray(x, dtype=float)` of an array: the array itself if it has floats, otherwise a new one. -/
def asFloat (heap : List Block) (v : View) : List Block × View :=
  if (block heap v.addr).isFloat then (heap, v) else alloc heap true (v.read heap)

/-- `np.asarray(x, dtype=float)`, chaos.py:60, 74; `none` for an unknown variable. -/
def asarray (w : World) (heap : List Block) : Arg → Option (List Block × View)
  | .list a => if a.data.length = a.shape.prod then some (alloc heap true a) else none
  | .var i => (w.env[i]?).map (asFloat heap)

/-- Break points, chaos.py:59-64: a single one is doubled by `np.append` (a new array). -/
def initBreaks (heap : List Block) (v : View) : List Block × View :=
  if v.size = 1 then alloc heap true ⟨[2], (v.read heap).data ++ (v.read heap).data⟩ else (heap, v)

/-- Order and coefficients, chaos.py:74-82; IndexError for an array without axes. -/
def initCoeffs (order : Option ℕ) (v : View) : Option (ℕ × View) :=
  match v.shape with
  | [] => none
  | rows :: s =>
    let order := match order with
      | none => rows
      | some o => min o rows
    let keep := if order = 0 then rows else order
    some (order, { v with off := v.off + (rows - keep) * s.prod, shape := keep :: s })

/-- The rest of `Base.__init__` after the conversion of the break points, chaos.py:61-84. -/
def build (w : World) (heap : List Block) (b : View) (order : Option ℕ) (coeffs : Arg) : Option World :=
  match asarray w (initBreaks heap b).1 coeffs with
  | none => none
  | some (heap', c) =>
    match initCoeffs order c with
    | none => none
    | some (order, c) => some { w with heap := heap', models := w.models ++ [⟨(initBreaks heap b).2, order, c⟩] }

/-- `Base.__init__` with break points and coefficients, chaos.py:54-84. -/
def construct (w : World) (breaks : Arg) (order : Option ℕ) (coeffs : Arg) : Option World :=
  match asarray w w.heap breaks with
  | none => none
  | some (heap, b) => build w heap b order coeffs

/-- `breaks[[0, -1]]`, chaos.py:973: a new array with the type of the old one (for a vector that is not empty). -/
def endsOf (w : World) (v : View) : Option (List Block × View) :=
  match v.shape with
  | [0] => none
  | [n + 1] =>
    let x := (v.read w.heap).data
    some (alloc w.heap (block w.heap v.addr).isFloat ⟨[2], [x.getD 0 0, x.getD n 0]⟩)
  | _ => none

/-- The two models of `CHAOS.__init__` with `coeffs_tdep` and `coeffs_static`, chaos.py:956-978. -/
def chaos (w : World) (breaks : ℕ) (order : Option ℕ) (tdep static : Arg) : Option World :=
  match construct w (.var breaks) order tdep, w.env[breaks]? with
  | some w1, some v =>
    match endsOf w1 v with
    | none => none
    | some (heap, e) => build w1 (asFloat heap e).1 (asFloat heap e).2 (some 1) static
  | _, _ => none

/-- The entry `(i, j, l)` of an array with three axes. -/
def cube (a : Arr) : ℕ → ℕ → ℕ → ℝ := fun i j l => a.data.getD ((i * a.shape.getD 1 0 + j) * a.shape.getLastD 0 + l) 0

/-- The piecewise polynomial a model stands for at present. -/
def Model.denote (heap : List Block) (m : Model) : Base :=
  { breaks := (m.breaks.read heap).data, order := m.order, dim := m.coeffs.shape.getLastD 0, coeffs := some (cube (m.coeffs.read heap)) }

/-- Operations of a program. -/
inductive Op where
  /-- `x = np.array(..., dtype=...)` -/
  | array (isFloat : Bool) (a : Arr)
  /-- `y = x[k:]` -/
  | slice (i k : ℕ)
  /-- `x[...] = value` for the element at position `j` in C order -/
  | write (i j : ℕ) (value : ℝ)
  /-- `BaseModel(name, breaks, order, coeffs)` -/
  | model (breaks : Arg) (order : Option ℕ) (coeffs : Arg)
  /-- `CHAOS(breaks, order, coeffs_tdep=..., coeffs_static=...)` -/
  | chaos (breaks : ℕ) (order : Option ℕ) (tdep static : Arg)
  /-- `x = model.breaks` -/
  | getBreaks (m : ℕ)
  /-- `x = model.coeffs` -/
  | getCoeffs (m : ℕ)
  /-- `pp = model.to_ppdict()`; two new variables for `pp['breaks']` and `pp['coefs']` -/
  | toPP (m : ℕ)
  /-- `x = model.synth_coeffs(...)` -/
  | synth (m : ℕ) (times : List ℝ) (dim deriv : Option ℕ) (extrapolate : Option Extrap)

/-- Keep a new array in a variable. -/
def keep (w : World) (a : Arr) : World :=
  let r := alloc w.heap true a
  { w with heap := r.1, env := w.env ++ [r.2] }

/-- `breaks` and `coefs` of `to_ppdict`, chaos.py:237-238; ValueError if the coefficients cannot be reshaped. -/
def ppArrays (heap : List Block) (m : Model) : Option (Arr × Arr) :=
  let b := (m.breaks.read heap).data
  let c := (m.coeffs.read heap).data
  if m.order = 0 ∨ c.length % m.order ≠ 0 then none
  else
    let n := c.length / m.order
    some (⟨[1, b.length], b⟩, ⟨[n, m.order], (List.range n).flatMap fun j => (List.range m.order).map fun i => c.getD (i * n + j) 0⟩)

/-- The array returned by `synth_coeffs`; nothing for an exception. -/
noncomputable def synthArray (heap : List Block) (m : Model) (times : List ℝ) (dim deriv : Option ℕ) (extrapolate : Option Extrap) : Option Arr :=
  match (m.denote heap).synthCoeffs times dim deriv extrapolate with
  | .error _ => none
  | .ok (d, rows) => some ⟨[times.length, d], rows.flatMap fun r => (List.range d).map fun l => (r.map fun f => f l).getD 0⟩

/-- One operation; `none` for an exception. -/
noncomputable def step (w : World) : Op → Option World
  | .array isFloat a =>
    if a.data.length = a.shape.prod then
      let r := alloc w.heap isFloat a
      some { w with heap := r.1, env := w.env ++ [r.2] }
    else none
  | .slice i k =>
    match w.env[i]? with
    | none => none
    | some v =>
      match v.shape with
      | [] => none
      | n :: s => some { w with env := w.env ++ [{ v with off := v.off + min k n * s.prod, shape := (n - k) :: s }] }
  | .write i j x =>
    match w.env[i]? with
    | none => none
    | some v =>
      if j < v.size then some { w with heap := w.heap.set v.addr { block w.heap v.addr with data := (block w.heap v.addr).data.set (v.off + j) x } }
      else none
  | .model b o c => construct w b o c
  | .chaos b o t s => chaos w b o t s
  | .getBreaks m =>
    match w.models[m]? with
    | none => none
    | some m => some { w with env := w.env ++ [m.breaks] }
  | .getCoeffs m =>
    match w.models[m]? with
    | none => none
    | some m => some { w with env := w.env ++ [m.coeffs] }
  | .toPP m =>
    match w.models[m]? with
    | none => none
    | some m =>
      match ppArrays w.heap m with
      | none => none
      | some (b, c) => some (keep (keep w b) c)
  | .synth m times dim deriv extrapolate =>
    match w.models[m]? with
    | none => none
    | some m =>
      match synthArray w.heap m times dim deriv extrapolate with
      | none => none
      | some a => some (keep w a)

/-- One operation in a `try` block. -/
noncomputable def attempt (w : World) (op : Op) : World := (step w op).getD w

/-- A program. -/
noncomputable def run (w : World) (ops : List Op) : World := ops.foldl attempt w

/-- The beginning: no arrays, no models. -/
def start : World := ⟨[], [], []⟩

end ChaosMagPy.ModelHeap
