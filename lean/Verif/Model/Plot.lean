import Verif.Model.ChaosArr
import Verif.Model.SynthPP
import Verif.Model.Time
import Verif.Model.Coord
/-!
# Model of what is drawn by `chaosmagpy/plot_utils.py` and by the plotting methods of `chaosmagpy/chaos.py`

A figure is the list of the subplots that received data: their place, the data handed to Matplotlib, titles, labels and colour limits.
Coastlines, ticks, sizes, colour maps, projections and the keywords passed through to Matplotlib are left out, and so are half-drawn figures
of calls that raise an exception. Numbers are exact reals, NaN is `none`. Titles are a list (a plain string, which the code would take apart
into its characters, is left out).
-/
namespace ChaosMagPy.Plot
open ChaosMagPy.NumPy (Arr scalar)
open ChaosMagPy.Chaos (Error Env Chaos Model Val)
open ChaosMagPy.PPoly (Extrap first last)
open ChaosMagPy.Index (nmaxOfDim)
open ChaosMagPy.Coord (radians)

/-- A keyword of a call: missing, the object None, or a value. -/
abbrev Kw (α : Type) := Option (Option α)

/-- `kwargs.setdefault(key, value)`: a key that is present stays as it is, also with the value None. -/
def Kw.setdefault {α : Type} (k : Kw α) (v : α) : Kw α := some (k.getD (some v))

/-- The value after `defaultkeys` (plot_utils.py:287-308): the default if the key is missing or None. -/
def Kw.default {α : Type} (k : Kw α) (v : α) : α := (k.getD none).getD v

/-- A colour limit handed to Matplotlib: None (chosen by Matplotlib), NaN or a number. -/
inductive Limit where
  | auto
  | nan
  | num (x : ℝ)

/-- `-limit`. -/
noncomputable def Limit.neg : Limit → Limit
  | .auto => .auto
  | .nan => .nan
  | .num x => .num (-x)

/-- The values of a map or a time series. -/
abbrev Comp := Arr (Option ℝ)

/-- `np.amax(np.abs(x))`: ValueError for an empty array, NaN if there is a NaN. -/
noncomputable def maxAbs (x : Comp) : Except Error Limit :=
  if x.data.any Option.isNone then .ok .nan
  else match x.data.map fun v => |v.getD 0| with
    | [] => .error .valueError
    | a :: l => .ok (.num (l.foldl max a))

/-- A subplot with a map. -/
structure MapPanel where
  row : ℕ
  col : ℕ
  lon : List ℝ
  lat : List ℝ
  values : Comp
  vmin : Limit
  vmax : Limit
  title : String
  label : String

/-- Keywords of `plot_maps`. A missing `layout` or `limiter` and None are the same. -/
structure MapKw where
  titles : Kw (List String) := none
  label : Kw String := none
  layout : Option (ℤ × ℤ) := none
  limiter : Option (Comp → Except Error Limit) := none
  vmax : Kw Limit := none
  vmin : Kw Limit := none

/-- The check of `pcolormesh` with `shading='auto'`: values at the nodes, or one less in both directions. -/
def meshFits (theta phi : List ℝ) (c : Comp) : Prop :=
  c.shape = [theta.length, phi.length] ∨ (0 < theta.length ∧ 0 < phi.length ∧ c.shape = [theta.length - 1, phi.length - 1])

instance (theta phi : List ℝ) (c : Comp) : Decidable (meshFits theta phi c) := by unfold meshFits; infer_instance

/-- Value of a keyword passed on to `pcolormesh`. -/
def limitOf (k : Kw Limit) : Limit := (k.getD none).getD .auto

/-- The loop over the subplots, plot_utils.py:186-211: `i` is the number of the subplot; `vmax` and `vmin` are the entries of `kwargs`, which is changed
by the loop. -/
noncomputable def drawMaps (limiter : Comp → Except Error Limit) (theta phi : List ℝ) (cols : ℕ) (label : String) :
    ℕ → Kw Limit → Kw Limit → List (Comp × String) → Except Error (List MapPanel)
  | _, _, _, [] => .ok []
  | i, vmax, vmin, (c, title) :: rest =>
    match limiter c with
    | .error e => .error e
    | .ok b =>
      let vmax := vmax.setdefault b
      let vmin := vmin.setdefault b.neg
      if ¬ meshFits theta phi c then .error .typeError
      else match drawMaps limiter theta phi cols label (i + 1) vmax vmin rest with
        | .error e => .error e
        | .ok ps => .ok ({ row := i / cols, col := i % cols, lon := phi.map radians, lat := theta.map fun t => radians (90 - t), values := c, vmin := limitOf vmin, vmax := limitOf vmax, title, label } :: ps)

/-- `plot_maps(theta_grid, phi_grid, *args, **kwargs)`, plot_utils.py:108-213. Matplotlib refuses a layout without rows or columns. -/
noncomputable def plotMaps (theta phi : List ℝ) (args : List Comp) (kw : MapKw) : Except Error (List MapPanel) :=
  let n := args.length
  let titles := kw.titles.default (List.replicate n "")
  let label := kw.label.default ""
  let layout := kw.layout.getD (n, 1)
  let limiter := kw.limiter.getD maxAbs
  if layout.1 * layout.2 ≠ n then .error .valueError
  else if layout.1 ≤ 0 ∨ layout.2 ≤ 0 then .error .valueError
  else drawMaps limiter theta phi layout.2.toNat label 0 kw.vmax kw.vmin (args.zip titles)

/-- A subplot with a time series. -/
structure TimePanel where
  row : ℕ
  col : ℕ
  dates : List ℤ
  values : Comp
  title : String
  label : String

/-- Keywords of `plot_timeseries`. -/
structure TimeKw where
  titles : Kw (List String) := none
  ylabel : Kw String := none
  layout : Option (ℤ × ℤ) := none

/-- The loop over the subplots, plot_utils.py:98-104. `ax.plot` needs as many values (rows) as dates. -/
noncomputable def drawSeries (dates : List ℤ) (cols : ℕ) (label : String) : ℕ → List (Comp × String) → Except Error (List TimePanel)
  | _, [] => .ok []
  | i, (c, title) :: rest =>
    if c.shape.headD 1 ≠ dates.length ∨ 2 < c.shape.length then .error .valueError
    else match drawSeries dates cols label (i + 1) rest with
      | .error e => .error e
      | .ok ps => .ok ({ row := i / cols, col := i % cols, dates, values := c, title, label } :: ps)

/-- `plot_timeseries(time, *args, **kwargs)`, plot_utils.py:37-106. -/
noncomputable def plotTimeseries (time : List ℝ) (args : List Comp) (kw : TimeKw) : Except Error (List TimePanel) :=
  let n := args.length
  let titles := kw.titles.default (List.replicate n "")
  let label := kw.ylabel.default ""
  let layout := kw.layout.getD (n, 1)
  if layout.1 * layout.2 ≠ n then .error .valueError
  else
    let dates := time.map fun t : ℝ => Time.timestamp t
    if layout.1 ≤ 0 ∨ layout.2 ≤ 0 then .error .valueError
    else drawSeries dates layout.2.toNat label 0 (args.zip titles)

/-- `plot_power_spectrum(spectrum)`, plot_utils.py:216-272: the points of the curve and the content of the caller's array afterwards
(`spectrum[spectrum == 0] = np.nan` works in place). -/
noncomputable def plotSpectrum (spectrum : List (Option ℝ)) : List (ℝ × Option ℝ) × List (Option ℝ) :=
  let after := spectrum.map fun v => match v with
    | some x => if x = 0 then none else some x
    | none => none
  (((List.range spectrum.length).map fun i : ℕ => (1 + (i : ℝ))).zip after, after)

/-! ### `gauss_units` -/

/-- `str.format(x)` for templates with doubled braces and the field `{:}` (other fields: nothing is inserted). -/
def pyFormat (arg : List Char) : List Char → List Char
  | '{' :: '{' :: t => '{' :: pyFormat arg t
  | '}' :: '}' :: t => '}' :: pyFormat arg t
  | '{' :: ':' :: '}' :: t => arg ++ pyFormat arg t
  | c :: t => c :: pyFormat arg t
  | [] => []

/-- `gauss_units(deriv)`, data_utils.py:661-699. -/
def gaussUnits (deriv : Option ℕ) : String :=
  let deriv := deriv.getD 0
  if deriv = 0 then "nT"
  else if deriv = 1 then "$\\mathrm{{nT}}/\\mathrm{{yr}}$"
  else String.ofList (pyFormat (toString deriv).toList "$\\mathrm{{nT}}/\\mathrm{{yr}}^{{{:}}}$".toList)

/-! ### Methods -/

/-- `np.linspace(a, b, num=n)` for `n` greater than one. -/
noncomputable def linspace (a b : ℝ) (n : ℕ) : List ℝ := (List.range n).map fun i : ℕ => a + (b - a) * i / ((n : ℝ) - 1)

/-- A list as an array. -/
noncomputable def ofList (l : List ℝ) : Arr ℝ := ⟨[l.length], fun i => l.getD (i.headD 0) 0⟩

/-- The three components of an array of vectors. -/
def comps (B : Arr Val) : List Comp :=
  [⟨B.shape, fun i => (B.get i).map fun b => b.1⟩, ⟨B.shape, fun i => (B.get i).map fun b => b.2.1⟩, ⟨B.shape, fun i => (B.get i).map fun b => b.2.2⟩]

/-- Titles of `BaseModel.plot_maps`, chaos.py:568-570. -/
def mapTitles (nmax deriv : ℕ) : List String :=
  [s!"$B_r$ ($n\\leq{nmax}$, deriv={deriv})", s!"$B_\\theta$ ($n\\leq{nmax}$, deriv={deriv})", s!"$B_\\phi$ ($n\\leq{nmax}$, deriv={deriv})"]

/-- `BaseModel.plot_maps(time, radius, nmax=, deriv=, **kwargs)`, chaos.py:528-594. -/
noncomputable def modelPlotMaps (rSurf : ℝ) (m : Model) (time radius : Arr ℝ) (nmax deriv : Option ℕ) (kw : MapKw) : Except Error (List MapPanel) :=
  let deg := (nmaxOfDim m.base.dim).toNat
  let nmax := nmax.getD deg
  let deriv := deriv.getD 0
  let kw := { kw with label := kw.label.setdefault (gaussUnits (some deriv)), titles := kw.titles.setdefault (mapTitles nmax deriv) }
  let nmax := if nmax > deg then deg else nmax
  let theta := linspace 1 179 320
  let phi := linspace (-180) 180 640
  match ChaosArr.modelValues rSurf m time radius (ofList theta) (ofList phi) (some nmax) (some deriv) none (some true) with
  | .error e => .error e
  | .ok B => plotMaps theta phi (comps B) kw

/-- `BaseModel.plot_timeseries(radius, theta, phi, nmax=, deriv=, extrapolate=, **kwargs)`, chaos.py:596-662. -/
noncomputable def modelPlotTimeseries (rSurf : ℝ) (m : Model) (radius theta phi : Arr ℝ) (nmax deriv : Option ℕ) (extrapolate : Option Extrap) (kw : TimeKw) :
    Except Error (List TimePanel) :=
  let nmax := nmax.getD (nmaxOfDim m.base.dim).toNat
  let deriv := deriv.getD 0
  let kw := { kw with titles := some (some (kw.titles.default ["$B_r$", "$B_\\theta$", "$B_\\phi$"])), ylabel := kw.ylabel.setdefault (gaussUnits (some deriv)) }
  let time := linspace (first m.base.breaks) (last m.base.breaks) 500
  match ChaosArr.modelValues rSurf m (ofList time) radius theta phi (some nmax) (some deriv) extrapolate none with
  | .error e => .error e
  | .ok B => plotTimeseries time (comps B) kw

/-- `BaseModel.plot_power_spectrum(time, radius=, nmax=, deriv=)` for one time, chaos.py:477-526: the points of the curve. -/
noncomputable def modelPlotSpectrum (rSurf : ℝ) (m : Model) (time : ℝ) (radius : Option ℝ) (nmax deriv : Option ℕ) :
    Except SynthPP.Error (List (ℝ × Option ℝ)) :=
  let nmax := nmax.getD (nmaxOfDim m.base.dim).toNat
  let deriv := deriv.getD 0
  match SynthPP.modelSpectrum rSurf m [time] radius (some nmax) (some deriv) none with
  | .error e => .error e
  | .ok rows => .ok (plotSpectrum ((rows.headD none).getD (List.replicate nmax none))).1

/-- `CHAOS.plot_timeseries_tdep(radius, theta, phi, **kwargs)`, chaos.py:1333-1368. -/
noncomputable def plotTimeseriesTdep (env : Env) (m : Chaos) (radius theta phi : Arr ℝ) (nmax deriv : Option ℕ) (extrapolate : Option Extrap) (kw : TimeKw) :
    Except Error (List TimePanel) :=
  match m.tdep with
  | none => .error .valueError
  | some x => modelPlotTimeseries env.rSurf x radius theta phi nmax deriv extrapolate kw

/-- `CHAOS.plot_maps_tdep(time, radius, nmax=, deriv=, **kwargs)`, chaos.py:1370-1403. -/
noncomputable def plotMapsTdep (env : Env) (m : Chaos) (time radius : Arr ℝ) (nmax deriv : Option ℕ) (kw : MapKw) : Except Error (List MapPanel) :=
  match m.tdep with
  | none => .error .valueError
  | some x => modelPlotMaps env.rSurf x time radius nmax deriv kw

/-- `CHAOS.plot_maps_static(radius, nmax=, **kwargs)`, chaos.py:1481-1518. -/
noncomputable def plotMapsStatic (env : Env) (m : Chaos) (radius : Arr ℝ) (nmax deriv : Option ℕ) (kw : MapKw) : Except Error (List MapPanel) :=
  match m.static with
  | none => .error .valueError
  | some x =>
    let kw := { kw with vmax := some (some (kw.vmax.default (.num 200))), vmin := some (some (kw.vmin.default (.num (-200)))) }
    modelPlotMaps env.rSurf x (scalar (first x.base.breaks)) radius nmax (some (deriv.getD 0)) kw

/-- Titles of `plot_maps_external`, chaos.py:2093-2101. -/
def externalTitles (reference source : String) : List String :=
  if reference = "all" then [s!"$B_r$ ({source} sources)", s!"$B_\\theta$ ({source} sources)", s!"$B_\\phi$ ({source} sources)"]
  else [s!"$B_r$ ({reference.toUpper} {source} sources)", s!"$B_\\theta$ ({reference.toUpper} {source} sources)", s!"$B_\\phi$ ({reference.toUpper} {source} sources)"]

/-- The field of `plot_maps_external`, chaos.py:2055-2089, on a grid. -/
noncomputable def externalValues (env : Env) (m : Chaos) (time radius theta phi : Arr ℝ) (nmax : Option ℕ) (reference source : String) : Except Error (Arr Val) :=
  if reference = "all" then do
    let g ← ChaosArr.valuesGsm env m time radius theta phi nmax (some source) (some true)
    let s ← ChaosArr.valuesSm env m time radius theta phi none none nmax (some source) (some true)
    ChaosArr.addArr g s
  else if reference = "gsm" then ChaosArr.valuesGsm env m time radius theta phi nmax (some source) (some true)
  else if reference = "sm" then ChaosArr.valuesSm env m time radius theta phi none none nmax (some source) (some true)
  else .error .valueError

/-- `CHAOS.plot_maps_external(time, radius, nmax=, reference=, source=)`, chaos.py:2026-2104. Lower case is that of ASCII letters. -/
noncomputable def plotMapsExternal (env : Env) (m : Chaos) (time radius : Arr ℝ) (nmax : Option ℕ) (reference source : Option String) :
    Except Error (List MapPanel) :=
  let reference := (reference.map String.toLower).getD "all"
  let source := (source.map String.toLower).getD "all"
  let theta := linspace 1 179 320
  let phi := linspace (-180) 180 721
  match externalValues env m time radius (ofList theta) (ofList phi) nmax reference source with
  | .error e => .error e
  | .ok B => plotMaps theta phi (comps B) { titles := some (some (externalTitles reference source)), label := some (some (gaussUnits (some 0))) }

end ChaosMagPy.Plot
