import Verif.Model.Matfile
/-!
# Specification for C58: what survives saving to and loading from a MAT-file

These definitions speak about the attributes of a model (its break points, coefficients and names), not about the code that writes
or reads files.
-/
namespace ChaosMagPy.Matfile

/-- A vector (or, for a single entry, a number) with the entries of `a`. -/
def flat (a : Arr) : Arr := ⟨squeezeShape [a.data.length, 1], a.data⟩

/-- Only the zonal GSM coefficients of the first two degrees, in a vector for degrees one and two. -/
def zonal (a : Arr) : Arr := ⟨[8], [a.data.getD 0 0, 0, 0, a.data.getD 3 0, 0, 0, 0, 0]⟩

/-- The offsets as the format stores them: q11 and s11 share the break points of q11, coefficients are rows. -/
def DeltaA.stored (d : DeltaA) : DeltaA := ⟨flat d.breaksQ10, flat d.breaksQ11, flat d.breaksQ11, d.q10.row, d.q11.row, d.s11.row⟩

/-- The sizes of the attributes of one spline agree: at least one row, two break points, an array of `order` by `pieces` by `dim` numbers. -/
structure Sized (b : BaseA) : Prop where
  order : 1 ≤ b.order
  breaks : 2 ≤ b.breaks.length
  shape : b.coeffs.shape = [b.order, b.pieces, b.dim]
  ok : b.coeffs.Ok

/-- Euler angles: one value per interval and angle; the first and last break points only agree if there is a single interval. -/
structure EulerSized (b : BaseA) : Prop where
  sized : Sized b
  order : b.order = 1
  dim : b.dim = 3
  ends : PPoly.first b.breaks = PPoly.last b.breaks → b.breaks.length = 2

/-- The time-dependent part belongs to the model: consistent sizes, its name, internal sources. -/
structure TdepFits (name : String) (b : BaseA) : Prop where
  sized : Sized b
  name : b.name = name ++ "_tdep"
  source : b.source = some "internal"
  prerotation : b.prerotation = none

/-- The static part belongs to the model: one piece between the ends of the time-dependent part, its name, internal sources. -/
structure StaticFits (name : String) (tdep b : BaseA) : Prop where
  breaks : b.breaks = [PPoly.first tdep.breaks, PPoly.last tdep.breaks]
  order : b.order = 1
  shape : b.coeffs.shape = [1, 1, b.coeffs.data.length]
  name : b.name = name ++ "_static"
  source : b.source = some "internal"
  prerotation : b.prerotation = none

/-- The external part is either missing or complete; the offsets q11 and s11 have equally many intervals and more than one. -/
def ExternalFits (m : Attr) : Prop :=
  (m.delta = none ∧ m.sm = none ∧ m.gsm = none) ∨
  ∃ d sm gsm, m.delta = some d ∧ m.sm = some sm ∧ m.gsm = some gsm ∧ d.q11.data.length = d.s11.data.length ∧ d.q11.data.length ≠ 1 ∧
    sm.shape = [sm.data.length] ∧ 3 ≤ sm.data.length ∧ 4 ≤ gsm.data.length

/-- The number of stored break points: one if start and end are equal. -/
noncomputable def storedBreaks (b : BaseA) : ℕ := open Classical in if PPoly.first b.breaks = PPoly.last b.breaks then 1 else b.breaks.length

/-- Not all elements have the same value. -/
def Varied {α : Type} (f : α → ℕ) (l : List α) : Prop := ∃ x ∈ l, ∃ y ∈ l, f x ≠ f y

/-- The Euler angles are missing, or there is one entry for each satellite of the model, with row `i` of the prerotation for satellite `i`; the
satellites do not all have the same number of break points nor all the same number of intervals. -/
def EulerFits (m : Attr) (md : Meta) : Prop :=
  m.euler = none ∨
  ∃ l pre, m.euler = some l ∧ l.map Prod.fst = md.satellites ∧ md.satellites.Nodup ∧ md.prerotation = some pre ∧ pre.squeeze = pre ∧
    Varied (fun x : String × BaseA => storedBreaks x.2) l ∧ Varied (fun x : String × BaseA => x.2.pieces) l ∧
    ∀ i x, l[i]? = some x → EulerSized x.2 ∧ x.2.name = x.1 ∧ x.2.source = none ∧ ∃ row, pre.index i = .ok row ∧ x.2.prerotation = some row

/-- Calibration parameters are missing, or those of the one satellite that can be loaded (and the file is read without the Python shapes). -/
def CalFits (keep : Bool) (m : Attr) : Prop :=
  m.cal = none ∨
  ∃ b, keep = false ∧ m.cal = some [("cryosat-2_1", b)] ∧ Sized b ∧ b.order = 1 ∧ b.dim = 9 ∧ b.name = "cryosat-2_1" ∧ b.source = none ∧ b.prerotation = none

/-- A model that can be saved and loaded again: the parts are complete and their sizes agree. -/
structure Storable (keep : Bool) (noneArr : Option Arr) (m : Attr) (md : Meta) : Prop where
  metaData : m.metaData = some md
  pre : (∃ a, md.prerotation = some a ∧ a.squeeze = a) ∨ (md.prerotation = none ∧ noneArr = none)
  tdep : ∃ b, m.tdep = some b ∧ TdepFits m.name b
  static : ∀ s, m.static = some s → ∃ b, m.tdep = some b ∧ StaticFits m.name b s
  external : ExternalFits m
  euler : EulerFits m md
  cal : CalFits keep m

/-- The model after saving and loading: only the zonal GSM coefficients of degrees one and two and only one set of break points for q11 and s11
are stored. -/
def asStored (m : Attr) : Attr := { m with gsm := m.gsm.map zonal, delta := m.delta.map DeltaA.stored }

/-- The external part has the form that the format can store: GSM coefficients for degrees one and two that are zero except for the zonal ones, the
break points of s11 are those of q11, break points are vectors and coefficients rows. -/
structure Plain (m : Attr) : Prop where
  gsm : ∀ g, m.gsm = some g → g.shape = [8] ∧ ∃ a b : ℝ, g.data = [a, 0, 0, b, 0, 0, 0, 0]
  delta : ∀ d, m.delta = some d → d.breaksS11 = d.breaksQ11 ∧ flat d.breaksQ10 = d.breaksQ10 ∧ flat d.breaksQ11 = d.breaksQ11 ∧
    d.q10.row = d.q10 ∧ d.q11.row = d.q11 ∧ d.s11.row = d.s11

/-- Sizes that a loaded model may be expected to have: they depend on the file only. -/
structure Consistent (keep : Bool) (noneArr : Option Arr) (m : Attr) : Prop where
  tdep : ∀ b, m.tdep = some b → Sized b
  sm : ∀ a, m.sm = some a → a.shape = [a.data.length] ∧ 3 ≤ a.data.length
  delta : ∀ d, m.delta = some d → flat d.breaksQ10 = d.breaksQ10 ∧ flat d.breaksQ11 = d.breaksQ11 ∧ d.q11.data.length ≠ 1
  euler : ∀ l md, m.euler = some l → m.metaData = some md → md.satellites.Nodup ∧ (∀ x ∈ l, EulerSized x.2) ∧
    Varied (fun x : String × BaseA => storedBreaks x.2) l ∧ Varied (fun x : String × BaseA => x.2.pieces) l
  cal : ∀ l, m.cal = some l → keep = false ∧ ∀ x ∈ l, Sized x.2
  pre : ∀ md, m.metaData = some md → md.prerotation ≠ none ∨ noneArr = none

end ChaosMagPy.Matfile
