import Verif.Model.Synth
/-!
# NumPy arrays with shapes (specification of the library functions used by the vectorised code)

An array is its shape and a function of multi-indices. Broadcasting is NumPy's general rule: shapes are aligned at the last axis, missing
axes count as 1, axes of length 1 are repeated, all other lengths must agree.
-/
namespace ChaosMagPy.NumPy
open ChaosMagPy.Synth (Error)

/-- An array: shape and values at multi-indices (meaningful for valid indices only). -/
structure Arr (α : Type) where
  shape : List ℕ
  get : List ℕ → α

/-- `i` is a valid multi-index of an array of shape `s`. -/
def Valid (s i : List ℕ) : Prop := List.Forall₂ (fun k n => k < n) i s

/-- All multi-indices of a shape in C order. -/
def indices : List ℕ → List (List ℕ)
  | [] => [[]]
  | n :: s => (List.range n).flatMap fun k => (indices s).map (k :: ·)

/-- `a.ravel()`: the values in C order. -/
def Arr.data {α : Type} (a : Arr α) : List α := (indices a.shape).map a.get

/-- Broadcasting of two shapes, written with the last axis first. -/
def bcastRev : List ℕ → List ℕ → Option (List ℕ)
  | [], t => some t
  | m :: s, [] => some (m :: s)
  | m :: s, n :: t =>
    (bcastRev s t).bind fun r =>
      if m = n then some (m :: r) else if m = 1 then some (n :: r) else if n = 1 then some (m :: r) else none

/-- Broadcasting of two shapes. -/
def bcast (s t : List ℕ) : Option (List ℕ) := (bcastRev s.reverse t.reverse).map List.reverse

/-- The shape of `np.broadcast(...)`; `none` if the shapes do not fit (ValueError). -/
def broadcast (l : List (List ℕ)) : Option (List ℕ) := l.foldlM bcast []

/-- Index of a broadcast array that belongs to an index of the result (last axis first). -/
def projRev : List ℕ → List ℕ → List ℕ
  | [], _ => []
  | _ :: _, [] => []
  | m :: s, k :: i => (if m = 1 then 0 else k) :: projRev s i

/-- Index into an array of shape `s` that belongs to the index `i` of the broadcast result. -/
def proj (s i : List ℕ) : List ℕ := (projRev s.reverse i.reverse).reverse

/-- Value of a broadcast array. -/
def Arr.at {α : Type} (a : Arr α) (i : List ℕ) : α := a.get (proj a.shape i)

/-- Elementwise function of one array. -/
def Arr.map {α β : Type} (f : α → β) (a : Arr α) : Arr β := ⟨a.shape, fun i => f (a.get i)⟩

/-- A number. -/
def scalar {α : Type} (x : α) : Arr α := ⟨[], fun _ => x⟩

/-- Elementwise function of two arrays with broadcasting. -/
def map2 {α β γ : Type} (f : α → β → γ) (a : Arr α) (b : Arr β) : Except Error (Arr γ) :=
  match bcast a.shape b.shape with
  | none => .error .valueError
  | some s => .ok ⟨s, fun i => f (a.at i) (b.at i)⟩

/-- Elementwise operation on results of computations that may have raised an exception. -/
def lift2 {α β γ : Type} (f : α → β → γ) (x : Except Error (Arr α)) (y : Except Error (Arr β)) : Except Error (Arr γ) :=
  match x, y with
  | .ok a, .ok b => map2 f a b
  | .error e, _ => .error e
  | .ok _, .error e => .error e

/-- An array expression: the array or the exception. -/
structure AE where
  run : Except Error (Arr ℝ)

noncomputable instance : Mul AE := ⟨fun x y => ⟨lift2 (· * ·) x.run y.run⟩⟩
noncomputable instance : Add AE := ⟨fun x y => ⟨lift2 (· + ·) x.run y.run⟩⟩
noncomputable instance : Sub AE := ⟨fun x y => ⟨lift2 (· - ·) x.run y.run⟩⟩
noncomputable instance : Div AE := ⟨fun x y => ⟨lift2 (· / ·) x.run y.run⟩⟩
noncomputable instance : Neg AE := ⟨fun x => ⟨match x.run with | .ok a => .ok (a.map fun v => -v) | .error e => .error e⟩⟩

/-- Array as expression. -/
def Arr.e (a : Arr ℝ) : AE := ⟨.ok a⟩

/-- Number as expression. -/
def num (x : ℝ) : AE := (scalar x).e

/-- `B += expr`: the broadcast shape must be the shape of `B`. -/
noncomputable def iadd (B : Arr ℝ) (x : AE) : Except Error (Arr ℝ) :=
  match x.run with
  | .error e => .error e
  | .ok a => if bcast B.shape a.shape = some B.shape then .ok ⟨B.shape, fun i => B.get i + a.at i⟩ else .error .valueError

/-- `np.zeros(shape)`. -/
def zeros (s : List ℕ) : Arr ℝ := ⟨s, fun _ => 0⟩

/-- `np.expand_dims(a, axis=-1)`. -/
def expandLast {α : Type} (a : Arr α) : Arr α := ⟨a.shape ++ [1], fun i => a.get i.dropLast⟩

/-- `np.expand_dims(a, axis=-2)`; AxisError (a ValueError) for an array without dimensions. -/
def expandBeforeLast {α : Type} (a : Arr α) : Except Error (Arr α) :=
  match a.shape.getLast? with
  | none => .error .valueError
  | some n => .ok ⟨a.shape.dropLast ++ [1, n], fun i => a.get (i.dropLast.dropLast ++ [i.getLastD 0])⟩

/-- `a[..., k]`. -/
def Arr.sel (a : Arr ℝ) (k : ℕ) : AE :=
  ⟨match a.shape.getLast? with
    | none => .error .indexError
    | some n => if k < n then .ok ⟨a.shape.dropLast, fun i => a.get (i ++ [k])⟩ else .error .indexError⟩

end ChaosMagPy.NumPy
