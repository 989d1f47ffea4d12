import Verif.Model.Plot
import Verif.Lemmas.SynthCall
import Verif.Lemmas.NumPy
import Mathlib.Data.Set.Basic
import Mathlib.Order.Bounds.Basic
/-!
# Property C67: what the plotting functions draw
-/
namespace ChaosMagPy.Plot
open ChaosMagPy.NumPy (Arr Valid indices)
open ChaosMagPy.Chaos (Error)

/-- The limit that Matplotlib gets: that of the keyword (None if the keyword is None), otherwise `b`. -/
def shownLimit (k : Kw Limit) (b : Limit) : Limit :=
  match k with
  | none => b
  | some none => .auto
  | some (some x) => x

theorem limitOf_setdefault (k : Kw Limit) (b : Limit) : limitOf (k.setdefault b) = shownLimit k b := by
  unfold limitOf Kw.setdefault shownLimit
  rcases k with _ | _ | x <;> rfl

theorem setdefault_setdefault (k : Kw Limit) (b b' : Limit) : (k.setdefault b).setdefault b' = k.setdefault b := rfl

theorem drawMaps_ok (limiter : Comp → Except Error Limit) (theta phi : List ℝ) (cols : ℕ) (label : String) (l : List (Comp × String))
    (hlim : ∀ x ∈ l, ∃ b, limiter x.1 = .ok b) (hfit : ∀ x ∈ l, meshFits theta phi x.1) :
    ∀ (i : ℕ) (vmax vmin : Kw Limit), vmax.isSome → vmin.isSome →
      drawMaps limiter theta phi cols label i vmax vmin l = .ok (l.mapIdx fun j x =>
        { row := (i + j) / cols, col := (i + j) % cols, lon := phi.map Coord.radians, lat := theta.map fun t => Coord.radians (90 - t), values := x.1, vmin := limitOf vmin, vmax := limitOf vmax, title := x.2, label }) := by
  induction l with
  | nil => intro i vmax vmin _ _; rfl
  | cons x l ih =>
    intro i vmax vmin h1 h2
    obtain ⟨c, title⟩ := x
    obtain ⟨b, hb⟩ := hlim (c, title) (by simp)
    simp only at hb
    have e1 : vmax.setdefault b = vmax := by
      obtain ⟨x, rfl⟩ := Option.isSome_iff_exists.1 h1
      rfl
    have e2 : vmin.setdefault b.neg = vmin := by
      obtain ⟨x, rfl⟩ := Option.isSome_iff_exists.1 h2
      rfl
    unfold drawMaps
    rw [hb]
    simp only [e1, e2]
    rw [if_neg (not_not.2 (hfit (c, title) (by simp))), ih (fun x hx => hlim x (by simp [hx])) (fun x hx => hfit x (by simp [hx])) _ _ _ h1 h2]
    simp only [List.mapIdx_cons, Nat.add_zero]
    congr 2
    apply List.ext_getElem?
    intro k
    simp only [List.getElem?_mapIdx]
    congr 1
    funext x
    rw [show i + 1 + k = i + (k + 1) by omega]

/-- Entry of a list of subplots: the `i`-th one shows the component `c`, has the given title and lies in row `i / cols`, column `i % cols`. -/
structure Shows (theta phi : List ℝ) (cols i : ℕ) (c : Comp) (title : String) (p : MapPanel) : Prop where
  place : p.row * cols + p.col = i ∧ p.col < cols
  values : p.values = c
  title : p.title = title
  lon : p.lon = phi.map fun x => x * Real.pi / 180
  lat : p.lat = theta.map fun x => (90 - x) * Real.pi / 180

/-- **C67 (maps).** `plot_maps` with a layout of `rows x cols` (default: one below the other) and `rows * cols` maps on the given grid: the maps are
drawn row by row in the order of the arguments, at longitude and latitude `90 - theta` in radians, each with the title of the same number; if there
are fewer titles than maps, the maps without title are not drawn. Colour limits that are not given are those of the first map, for all maps. -/
theorem C67_maps (theta phi : List ℝ) (c0 : Comp) (cs : List Comp) (kw : MapKw) (rows cols : ℕ)
    (hl : kw.layout = some ((rows : ℤ), (cols : ℤ)) ∨ (kw.layout = none ∧ rows = (c0 :: cs).length ∧ cols = 1)) (hn : rows * cols = (c0 :: cs).length)
    (T : List String) (hT : kw.titles = some (some T) ∨ ((kw.titles = none ∨ kw.titles = some none) ∧ T = List.replicate (c0 :: cs).length ""))
    (hfit : ∀ c ∈ c0 :: cs, c.shape = [theta.length, phi.length]) (hlim : ∀ c ∈ c0 :: cs, ∃ b, kw.limiter.getD maxAbs c = .ok b) :
    ∃ P b, plotMaps theta phi (c0 :: cs) kw = .ok P ∧ kw.limiter.getD maxAbs c0 = .ok b ∧ P.length = min (c0 :: cs).length T.length ∧
      ∀ (i : ℕ) (p : MapPanel), P[i]? = some p → (∃ c title, (c0 :: cs)[i]? = some c ∧ T[i]? = some title ∧ Shows theta phi cols i c title p) ∧
        p.vmax = shownLimit kw.vmax b ∧ p.vmin = shownLimit kw.vmin b.neg ∧ p.label = kw.label.default "" := by
  have hcols : 0 < cols := Nat.pos_of_ne_zero fun h => by rw [h] at hn; simp at hn
  have hrows : 0 < rows := Nat.pos_of_ne_zero fun h => by rw [h] at hn; simp at hn
  have hlay : kw.layout.getD (((c0 :: cs).length : ℤ), 1) = ((rows : ℤ), (cols : ℤ)) := by
    rcases hl with h | ⟨h, h1, h2⟩
    · rw [h]; rfl
    · rw [h, h1, h2]; rfl
  have htit : kw.titles.default (List.replicate (c0 :: cs).length "") = T := by
    unfold Kw.default
    rcases hT with h | ⟨h | h, h2⟩
    · rw [h]; rfl
    · rw [h, h2]; rfl
    · rw [h, h2]; rfl
  unfold plotMaps
  simp only [hlay, htit]
  rw [if_neg (by rw [not_not]; exact_mod_cast hn), if_neg (by push Not; exact ⟨by exact_mod_cast hrows, by exact_mod_cast hcols⟩)]
  obtain ⟨b, hb⟩ := hlim c0 (by simp)
  have key : drawMaps (kw.limiter.getD maxAbs) theta phi (cols : ℤ).toNat (kw.label.default "") 0 kw.vmax kw.vmin ((c0 :: cs).zip T) =
      .ok (((c0 :: cs).zip T).mapIdx fun j x =>
        { row := j / cols, col := j % cols, lon := phi.map Coord.radians, lat := theta.map fun t => Coord.radians (90 - t), values := x.1, vmin := shownLimit kw.vmin b.neg, vmax := shownLimit kw.vmax b, title := x.2, label := kw.label.default "" }) := by
    have hz : ∀ x ∈ (c0 :: cs).zip T, x.1 ∈ c0 :: cs := fun x hx => (List.of_mem_zip (a := x.1) (b := x.2) hx).1
    cases T with
    | nil => rfl
    | cons t T =>
      rw [List.zip_cons_cons] at hz ⊢
      unfold drawMaps
      rw [hb]
      simp only
      rw [if_neg (not_not.2 (show meshFits theta phi c0 from Or.inl (hfit c0 (by simp)))), drawMaps_ok _ _ _ _ _ _ (fun x hx => hlim _ (hz x (by simp [hx])))
        (fun x hx => Or.inl (hfit _ (hz x (by simp [hx])))) _ _ _ rfl rfl]
      simp only [List.mapIdx_cons, limitOf_setdefault, Int.toNat_natCast]
      congr 2
      apply List.ext_getElem?
      intro k
      simp only [List.getElem?_mapIdx, Nat.add_comm]
  refine ⟨_, b, key, hb, by simp, ?_⟩
  intro i p hp
  rw [List.getElem?_mapIdx] at hp
  obtain ⟨x, hx, rfl⟩ := Option.map_eq_some_iff.1 hp
  rw [List.getElem?_zip_eq_some] at hx
  refine ⟨⟨x.1, x.2, hx.1, hx.2, ⟨?_, rfl, rfl, ?_, ?_⟩⟩, rfl, rfl, rfl⟩
  · exact ⟨by rw [Nat.mul_comm]; exact Nat.div_add_mod i cols, Nat.mod_lt _ hcols⟩
  · apply List.map_congr_left
    intro y _
    unfold Coord.radians
    ring
  · apply List.map_congr_left
    intro y _
    unfold Coord.radians
    ring

/-- **C67 (default limits).** The default limits of all maps are plus and minus the greatest absolute value of the first map. -/
theorem C67_limits (c : Comp) (hne : ∃ i, Valid c.shape i) (hv : ∀ i, Valid c.shape i → ∃ x : ℝ, c.get i = some x) :
    ∃ M : ℝ, maxAbs c = .ok (.num M) ∧ IsGreatest {y | ∃ i x, Valid c.shape i ∧ c.get i = some x ∧ y = |x|} M := by
  have hany : c.data.any Option.isNone = false := by
    rw [List.any_eq_false]
    intro v hv'
    obtain ⟨i, hi, rfl⟩ := List.mem_map.1 hv'
    obtain ⟨x, hx⟩ := hv i (NumPy.mem_indices.1 hi)
    rw [hx]
    simp
  have hmem : ∀ y, y ∈ (c.data.map fun v => |v.getD 0|) ↔ ∃ i x, Valid c.shape i ∧ c.get i = some x ∧ y = |x| := by
    intro y
    unfold Arr.data
    simp only [List.mem_map]
    constructor
    · rintro ⟨v, ⟨i, hi, rfl⟩, rfl⟩
      obtain ⟨x, hx⟩ := hv i (NumPy.mem_indices.1 hi)
      exact ⟨i, x, NumPy.mem_indices.1 hi, hx, by rw [hx]; rfl⟩
    · rintro ⟨i, x, hi, hx, rfl⟩
      exact ⟨c.get i, ⟨i, NumPy.mem_indices.2 hi, rfl⟩, by rw [hx]; rfl⟩
  unfold maxAbs
  rw [hany]
  cases hl : c.data.map fun v => |v.getD 0| with
  | nil =>
    obtain ⟨i, hi⟩ := hne
    obtain ⟨x, hx⟩ := hv i hi
    have := (hmem |x|).2 ⟨i, x, hi, hx, rfl⟩
    rw [hl] at this
    cases this
  | cons a l =>
    rw [hl] at hmem
    refine ⟨l.foldl max a, rfl, ?_, ?_⟩
    · rw [Set.mem_setOf_eq, ← hmem]
      rcases Synth.foldl_max_mem l a with h | h
      · rw [h]; simp
      · exact List.mem_cons_of_mem _ h
    · intro y hy
      rw [Set.mem_setOf_eq, ← hmem] at hy
      rcases List.mem_cons.1 hy with rfl | hy
      · exact (Synth.le_foldl_max l _).1
      · exact (Synth.le_foldl_max l a).2 y hy

/-- **C67 (layout).** A layout whose number of places is not the number of maps or time series (or that has no rows or columns) raises ValueError; this
includes the call without data. -/
theorem C67_layout (theta phi time : List ℝ) (args : List Comp) (kw : MapKw) (kt : TimeKw) (r c : ℤ)
    (h : r * c ≠ args.length ∨ r ≤ 0 ∨ c ≤ 0) :
    (kw.layout = some (r, c) → plotMaps theta phi args kw = .error .valueError) ∧
    (kt.layout = some (r, c) → plotTimeseries time args kt = .error .valueError) ∧
    (kw.layout = none → plotMaps theta phi [] kw = .error .valueError) ∧
    (kt.layout = none → plotTimeseries time [] kt = .error .valueError) := by
  refine ⟨fun hl => ?_, fun hl => ?_, fun hl => ?_, fun hl => ?_⟩
  · unfold plotMaps
    simp only [hl, Option.getD_some]
    by_cases h1 : r * c ≠ args.length
    · rw [if_pos h1]
    · rw [if_neg h1, if_pos (h.resolve_left h1)]
  · unfold plotTimeseries
    simp only [hl, Option.getD_some]
    by_cases h1 : r * c ≠ args.length
    · rw [if_pos h1]
    · rw [if_neg h1, if_pos (h.resolve_left h1)]
  · unfold plotMaps
    simp [hl]
  · unfold plotTimeseries
    simp [hl]

/-- **C67 (grid).** A map whose shape does not fit to the grid raises TypeError. -/
theorem C67_mesh (theta phi : List ℝ) (args : List Comp) (kw : MapKw) (hlay : kw.layout = none) (ht : kw.titles = none)
    (hlim : ∀ c ∈ args, ∃ b, kw.limiter.getD maxAbs c = .ok b) (c : Comp) (hc : c ∈ args)
    (h1 : c.shape ≠ [theta.length, phi.length]) (h2 : c.shape ≠ [theta.length - 1, phi.length - 1]) :
    plotMaps theta phi args kw = .error .typeError := by
  have gen : ∀ (limiter : Comp → Except Error Limit) (l : List (Comp × String)) (i : ℕ) (u v : Kw Limit), (∀ x ∈ l, ∃ b, limiter x.1 = .ok b) →
      (∃ x ∈ l, x.1 = c) → drawMaps limiter theta phi 1 (kw.label.default "") i u v l = .error .typeError := by
    intro limiter l
    induction l with
    | nil => rintro _ _ _ _ ⟨x, hx, _⟩; cases hx
    | cons y l ih =>
      rintro i u v hl ⟨x, hx, hxc⟩
      obtain ⟨d, title⟩ := y
      obtain ⟨b, hb⟩ := hl (d, title) (by simp)
      simp only at hb
      unfold drawMaps
      rw [hb]
      simp only
      by_cases hd : meshFits theta phi d
      · rw [if_neg (not_not.2 hd)]
        rcases List.mem_cons.1 hx with rfl | hx
        · subst hxc
          rcases hd with hd | ⟨_, _, hd⟩
          · exact absurd hd h1
          · exact absurd hd h2
        · rw [ih (i + 1) _ _ (fun z hz => hl z (by simp [hz])) ⟨x, hx, hxc⟩]
      · rw [if_pos hd]
  have hn : 0 < args.length := List.length_pos_of_mem hc
  unfold plotMaps
  simp only [hlay, ht, Option.getD_none, Kw.default]
  rw [if_neg (by simp), if_neg (by push Not; exact ⟨by exact_mod_cast hn, by norm_num⟩)]
  apply gen
  · intro x hx
    exact hlim _ (List.of_mem_zip (a := x.1) (b := x.2) hx).1
  · obtain ⟨i, hi, rfl⟩ := List.getElem_of_mem hc
    refine ⟨(args[i], ""), ?_, rfl⟩
    apply List.mem_of_getElem? (i := i)
    rw [List.getElem?_zip_eq_some]
    simp [hi]

/-- **C67 (time series).** `plot_timeseries` draws the columns of values against the dates of the times, in the order of the arguments, with the title
of the same number; values without title are not drawn. -/
theorem C67_timeseries (time : List ℝ) (args : List Comp) (kw : TimeKw) (rows cols : ℕ)
    (hl : kw.layout = some ((rows : ℤ), (cols : ℤ)) ∨ (kw.layout = none ∧ rows = args.length ∧ cols = 1)) (hn : rows * cols = args.length) (hne : args ≠ [])
    (T : List String) (hT : kw.titles = some (some T) ∨ ((kw.titles = none ∨ kw.titles = some none) ∧ T = List.replicate args.length ""))
    (hfit : ∀ c ∈ args, c.shape = [time.length] ∨ ∃ k, c.shape = [time.length, k]) :
    ∃ P, plotTimeseries time args kw = .ok P ∧ P.length = min args.length T.length ∧
      ∀ (i : ℕ) (p : TimePanel), P[i]? = some p → args[i]? = some p.values ∧ T[i]? = some p.title ∧ p.row * cols + p.col = i ∧ p.col < cols ∧
        p.dates = time.map (fun t : ℝ => Time.timestamp t) ∧ p.label = kw.ylabel.default "" := by
  have hpos : 0 < args.length := List.length_pos_of_ne_nil hne
  have hcols : 0 < cols := Nat.pos_of_ne_zero fun h => by rw [h] at hn; omega
  have hrows : 0 < rows := Nat.pos_of_ne_zero fun h => by rw [h] at hn; omega
  have hlay : kw.layout.getD ((args.length : ℤ), 1) = ((rows : ℤ), (cols : ℤ)) := by
    rcases hl with h | ⟨h, h1, h2⟩
    · rw [h]; rfl
    · rw [h, h1, h2]; rfl
  have htit : kw.titles.default (List.replicate args.length "") = T := by
    unfold Kw.default
    rcases hT with h | ⟨h | h, h2⟩
    · rw [h]; rfl
    · rw [h, h2]; rfl
    · rw [h, h2]; rfl
  have gen : ∀ (l : List (Comp × String)), (∀ x ∈ l, x.1 ∈ args) → ∀ i : ℕ,
      drawSeries (time.map fun t : ℝ => Time.timestamp t) cols (kw.ylabel.default "") i l = .ok (l.mapIdx fun j x =>
        { row := (i + j) / cols, col := (i + j) % cols, dates := time.map fun t : ℝ => Time.timestamp t, values := x.1, title := x.2, label := kw.ylabel.default "" }) := by
    intro l
    induction l with
    | nil => intro _ i; rfl
    | cons x l ih =>
      intro hx i
      obtain ⟨c, title⟩ := x
      unfold drawSeries
      have hc := hfit c (hx (c, title) (by simp))
      rw [if_neg (by
        rcases hc with hc | ⟨k, hc⟩
        · simp [hc]
        · simp [hc]), ih (fun x h => hx x (by simp [h])) (i + 1)]
      simp only [List.mapIdx_cons, Nat.add_zero]
      congr 2
      apply List.ext_getElem?
      intro k
      simp only [List.getElem?_mapIdx]
      congr 1
      funext x
      rw [show i + 1 + k = i + (k + 1) by omega]
  unfold plotTimeseries
  simp only [hlay, htit]
  rw [if_neg (by rw [not_not]; exact_mod_cast hn), if_neg (by push Not; exact ⟨by exact_mod_cast hrows, by exact_mod_cast hcols⟩),
    Int.toNat_natCast, gen _ (fun x hx => (List.of_mem_zip (a := x.1) (b := x.2) hx).1)]
  refine ⟨_, rfl, by simp, ?_⟩
  intro i p hp
  rw [List.getElem?_mapIdx] at hp
  obtain ⟨x, hx, rfl⟩ := Option.map_eq_some_iff.1 hp
  rw [List.getElem?_zip_eq_some] at hx
  refine ⟨hx.1, hx.2, ?_, Nat.mod_lt _ hcols, rfl, rfl⟩
  simp only [Nat.zero_add]
  rw [Nat.mul_comm]
  exact Nat.div_add_mod i cols

/-- **C67 (time series, misfit).** A component whose number of values (rows) is not the number of dates, or with more than two dimensions, is rejected. -/
theorem C67_timeseries_error (time : List ℝ) (args : List Comp) (kw : TimeKw) (hlay : kw.layout = none) (ht : kw.titles = none) (c : Comp) (hc : c ∈ args)
    (h : c.shape.headD 1 ≠ time.length ∨ 2 < c.shape.length) : plotTimeseries time args kw = .error .valueError := by
  have gen : ∀ (l : List (Comp × String)) (i : ℕ), (∃ x ∈ l, x.1 = c) →
      drawSeries (time.map fun t : ℝ => Time.timestamp t) 1 (kw.ylabel.default "") i l = .error .valueError := by
    intro l
    induction l with
    | nil => rintro _ ⟨x, hx, _⟩; cases hx
    | cons y l ih =>
      rintro i ⟨x, hx, hxc⟩
      obtain ⟨d, title⟩ := y
      unfold drawSeries
      rcases List.mem_cons.1 hx with rfl | hx
      · simp only at hxc
        rw [hxc, if_pos (by rw [List.length_map]; exact h)]
      · split
        · rfl
        · rw [ih (i + 1) ⟨x, hx, hxc⟩]
  have hne : 0 < args.length := List.length_pos_of_mem hc
  unfold plotTimeseries
  simp only [hlay, Option.getD_none, ht]
  rw [if_neg (by simp), if_neg (by simp; exact List.ne_nil_of_mem hc)]
  refine gen _ 0 ?_
  obtain ⟨j, hj, rfl⟩ := List.getElem_of_mem hc
  refine ⟨(args[j], ""), ?_, rfl⟩
  rw [List.mem_iff_getElem]
  refine ⟨j, by simp [Kw.default, hj], ?_⟩
  simp [Kw.default]

/-- **C67 (power spectrum).** The curve has the value of degree `n` at `n`, with a gap at degrees of vanishing power. The gaps are written into the array
of the caller, which is unchanged exactly if no value is zero. -/
theorem C67_spectrum (w : List (Option ℝ)) :
    (plotSpectrum w).1.length = w.length ∧ (plotSpectrum w).2.length = w.length ∧
    (∀ (i : ℕ) (v : Option ℝ), w[i]? = some v → (plotSpectrum w).1[i]? = some ((i : ℝ) + 1, if v = some 0 then none else v) ∧
      (plotSpectrum w).2[i]? = some (if v = some 0 then none else v)) ∧
    ((plotSpectrum w).2 = w ↔ some 0 ∉ w) := by
  have hval : ∀ v : Option ℝ, (match v with | some x => if x = 0 then none else some x | none => none) = if v = some 0 then none else v := by
    intro v
    cases v with
    | none => simp
    | some x => simp only [Option.some.injEq]
  have h2 : (plotSpectrum w).2 = w.map fun v => if v = some 0 then none else v := by
    unfold plotSpectrum
    apply List.map_congr_left
    intro v _
    exact hval v
  have h1 : (plotSpectrum w).1 = ((List.range w.length).map fun i : ℕ => (1 + (i : ℝ))).zip (plotSpectrum w).2 := rfl
  have hidx : ∀ (i : ℕ) (v : Option ℝ), w[i]? = some v → (plotSpectrum w).2[i]? = some (if v = some 0 then none else v) := by
    intro i v h
    rw [h2, List.getElem?_map, h]
    rfl
  refine ⟨by rw [h1, h2]; simp, by rw [h2]; simp, ?_, ?_⟩
  · intro i v h
    refine ⟨?_, hidx i v h⟩
    rw [h1, List.getElem?_zip_eq_some]
    refine ⟨?_, hidx i v h⟩
    rw [List.getElem?_map, List.getElem?_range (List.getElem?_eq_some_iff.1 h).1]
    simp only [Option.map_some]
    rw [add_comm]
  · rw [h2]
    constructor
    · intro h hm
      have : (none : Option ℝ) = some 0 := by
        obtain ⟨i, hi, he⟩ := List.getElem_of_mem hm
        have h3 := congrArg (fun l => l[i]?) h
        simp only [List.getElem?_map, List.getElem?_eq_getElem hi, he, Option.map_some, if_pos, Option.some.injEq] at h3
        exact h3
      cases this
    · intro h
      conv_rhs => rw [← List.map_id w]
      apply List.map_congr_left
      intro v hv
      rw [if_neg (fun h3 => h (by rw [← h3]; exact hv))]
      rfl

/-- The documented unit strings. -/
def documentedUnits (deriv : ℕ) : String :=
  match deriv with
  | 0 => "nT"
  | 1 => "$\\mathrm{nT}/\\mathrm{yr}$"
  | d => "$\\mathrm{nT}/\\mathrm{yr}^{" ++ toString d ++ "}$"

/-- **C67 (units).** The unit strings are those of the documentation except for the first derivative, where the braces are doubled. -/
theorem C67_units (d : ℕ) : (gaussUnits (some d) = documentedUnits d ↔ d ≠ 1) ∧ gaussUnits none = documentedUnits 0 ∧
    gaussUnits (some 1) = "$\\mathrm{{nT}}/\\mathrm{{yr}}$" := by
  refine ⟨?_, rfl, rfl⟩
  match d with
  | 0 => exact ⟨fun _ => by omega, fun _ => rfl⟩
  | 1 => exact ⟨fun h => absurd h (by decide), fun h => absurd rfl h⟩
  | n + 2 =>
    refine ⟨fun _ => by omega, fun _ => ?_⟩
    unfold gaussUnits
    simp only [Option.getD_some]
    rw [if_neg (by omega), if_neg (by omega)]
    rw [← String.toList_inj, String.toList_ofList]
    simp only [documentedUnits, String.toList_append]
    generalize (toString (n + 2)).toList = arg
    rfl

/-! ### Concrete cases -/

/-- A map of one point. -/
def onePoint (x : ℝ) : Comp := ⟨[1, 1], fun _ => some x⟩

/-- Two maps: the colours of both end at 1, the greatest value of the first map, although the second map has the value 5. -/
example : ∃ p q, plotMaps [90] [0] [onePoint 1, onePoint 5] {} = .ok [p, q] ∧ p.vmax = .num 1 ∧ q.vmax = .num 1 ∧ q.vmin = .num (-1) ∧
    q.values.get [0, 0] = some 5 ∧ q.row = 1 := by
  have h1 : maxAbs (onePoint 1) = .ok (.num 1) := by
    simp [maxAbs, onePoint, Arr.data, indices]
  have h5 : maxAbs (onePoint 5) = .ok (.num 5) := by
    simp [maxAbs, onePoint, Arr.data, indices]
  obtain ⟨P, b, hP, hb, hl, hv⟩ := C67_maps [90] [0] (onePoint 1) [onePoint 5] {} 2 1 (Or.inr ⟨rfl, rfl, rfl⟩) rfl ["", ""] (Or.inr ⟨Or.inl rfl, rfl⟩)
    (by intro c hc; simp only [List.mem_cons, List.not_mem_nil, or_false] at hc; rcases hc with rfl | rfl <;> rfl)
    (by
      intro c hc
      simp only [List.mem_cons, List.not_mem_nil, or_false] at hc
      rcases hc with rfl | rfl
      · exact ⟨_, h1⟩
      · exact ⟨_, h5⟩)
  have hb' : b = .num 1 := by
    have := hb.symm.trans h1
    exact Except.ok.inj this
  subst hb'
  obtain ⟨p, q, rfl⟩ : ∃ p q, P = [p, q] := List.length_eq_two.1 hl
  obtain ⟨_, e2, _⟩ := hv 0 p rfl
  obtain ⟨⟨c, t, f1, f2, f3⟩, f4, f5, _⟩ := hv 1 q rfl
  have hc : c = onePoint 5 := (Option.some.inj f1).symm
  refine ⟨p, q, hP, e2, f4, f5, ?_, ?_⟩
  · rw [f3.values, hc]; rfl
  · have := f3.place
    omega

/-- A spectrum with a vanishing degree is changed by plotting. -/
example : (plotSpectrum [some 3, some 0]).2 = [some 3, none] := by simp [plotSpectrum]

example : ∃ P, plotTimeseries [0, 1] [⟨[2], fun _ => some 1⟩] {} = .ok P ∧ P.length = 1 := by
  obtain ⟨P, h1, h2, _⟩ := C67_timeseries [0, 1] [⟨[2], fun _ => some 1⟩] {} 1 1 (Or.inr ⟨rfl, rfl, rfl⟩) rfl (by simp) [""] (Or.inr ⟨Or.inl rfl, rfl⟩)
    (by intro c hc; rw [List.mem_singleton] at hc; rw [hc]; exact Or.inl rfl)
  exact ⟨P, h1, h2⟩

end ChaosMagPy.Plot
