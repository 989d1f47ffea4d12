import Verif.Model.SynthPP
import Verif.Props.ChaosField
import Verif.Props.PPoly
import Verif.Props.MeanSquare
/-!
# Properties C65 (`synth_from_pp`) and C66 (power spectra of arrays and models)
-/
namespace ChaosMagPy.SynthPP
open ChaosMagPy.PPoly (PP Base Extrap first last Proper IsPiece Ascending)
open ChaosMagPy.Chaos (Pt Val Model fieldOfRows clipNmax ofPPoly MinusGradient)
open ChaosMagPy.Index (nmaxOfDim)
open ChaosMagPy.NumPy (Arr Valid)
open ChaosMagPy.Spec
open ChaosMagPy.Synth (Source)

/-! ## C65 -/

/-- With all times inside, the extrapolation flag makes no difference. -/
theorem findInterval_flag (x : List ℝ) (t : ℝ) (h : ¬ t < first x ∧ ¬ last x < t) (e : Bool) :
    PPoly.findInterval x e t = PPoly.findInterval x false t := by
  unfold PPoly.findInterval
  rw [if_neg h.1, if_neg h.2, if_neg h.1, if_neg h.2]

theorem eval_flag (p : PP) (t : ℝ) (h : ¬ t < first p.x ∧ ¬ last p.x < t) (e : Bool) (nu : ℕ) : p.eval e nu t = p.eval false nu t := by
  unfold PP.eval
  rw [findInterval_flag p.x t h e]

theorem prepare_off (b : Base) (c : ℕ → ℕ → ℕ → ℝ) (times : List ℝ) (hne : times ≠ []) (e : Extrap)
    (he : e = .bool false ∨ e = .str "off" ∨ e = .int 0) :
    ∃ ext, PPoly.prepare b c times e = .ok ({ k := b.order, x := b.breaks, c := c }, ext) ∧
      (ext = false ∨ ∀ t ∈ times, ¬ t < first b.breaks ∧ ¬ last b.breaks < t) := by
  obtain ⟨t0, ts, rfl⟩ := List.exists_cons_of_ne_nil hne
  have hkey : PPoly.extrapKey b.order e = .ok 0 := by
    rcases he with rfl | rfl | rfl
    · simp [PPoly.extrapKey]
    · simp [PPoly.extrapKey]
    · simp [PPoly.extrapKey]
  unfold PPoly.prepare PPoly.aminmax
  simp only [bind, Except.bind, pure, Except.pure]
  by_cases h : ts.foldl min t0 < first b.breaks ∨ ts.foldl max t0 > last b.breaks
  · rw [if_pos h, hkey]
    simp only [gt_iff_lt, lt_irrefl, if_false]
    exact ⟨false, rfl, Or.inl rfl⟩
  · rw [if_neg h]
    refine ⟨true, rfl, Or.inr fun t ht => ?_⟩
    push Not at h
    have h1 := (Synth.foldl_min_le ts t0)
    have h2 := (Synth.le_foldl_max ts t0)
    constructor
    · rw [not_lt]
      refine h.1.trans ?_
      rcases List.mem_cons.1 ht with rfl | ht
      · exact h1.1
      · exact h1.2 t ht
    · rw [not_lt]
      refine le_trans ?_ h.2
      rcases List.mem_cons.1 ht with rfl | ht
      · exact h2.1
      · exact h2.2 t ht

/-- **C65 (same as a model without extrapolation).** `synth_from_pp` gives, for every number of pieces, rows and coefficients, the same
result - fields, NaN and exceptions - as the `synth_values` method of a model with these break points and coefficients and extrapolation
turned off. The argument `order` plays no role. -/
theorem C65_same (rSurf : ℝ) (b : Base) (c : ℕ → ℕ → ℕ → ℝ) (hc : b.coeffs = some c) (ho : 0 < b.order) (hd : 0 < b.dim) (hx : 2 ≤ b.breaks.length)
    (source : String) (order : ℕ) (pts : List Pt) (hne : pts ≠ []) (nmax deriv : Option ℕ) (e : Extrap)
    (he : e = .bool false ∨ e = .str "off" ∨ e = .int 0) :
    synthFromPP rSurf b.breaks order b.order (b.breaks.length - 1) b.dim c pts nmax (some source) deriv =
      Model.synthValues rSurf ⟨b, source⟩ pts nmax deriv (some e) := by
  obtain ⟨ext, hp, hin⟩ := prepare_off b c (pts.map Pt.time) (by simpa using hne) e he
  unfold synthFromPP Model.synthValues PPoly.modelSynthCoeffs Base.synthCoeffs
  rw [if_neg (by omega), hc]
  simp only [Option.getD_some]
  rw [if_neg (by omega), hp]
  simp only [bind, Except.bind, pure, Except.pure, ofPPoly, Option.map_some]
  have hdim : ∀ n : Option ℕ, clipNmax (nmaxOfDim b.dim).toNat n * (clipNmax (nmaxOfDim b.dim).toNat n + 2) ≤ b.dim := by
    intro n
    obtain ⟨N, h1, h2⟩ := Chaos.degree_exists b.dim
    have hN : (nmaxOfDim b.dim).toNat = N := by rw [Spectrum.nmax_of b.dim N h1 h2]; rfl
    rw [hN]
    have hle : clipNmax N n ≤ N := by
      unfold clipNmax
      cases n with
      | none => exact le_rfl
      | some k => simp only; split_ifs <;> omega
    exact (Nat.mul_le_mul hle (by omega)).trans h1
  have hcols := hdim nmax
  have hnot : ¬ clipNmax (nmaxOfDim b.dim).toNat nmax * (clipNmax (nmaxOfDim b.dim).toNat nmax + 2) > b.dim := by omega
  rw [if_neg hnot, List.map_map]
  congr 1
  apply List.map_congr_left
  intro p hpm
  simp only [Function.comp]
  congr 1
  rcases hin with rfl | hin
  · rfl
  · rw [eval_flag _ _ _ ext]
    rw [PPoly.derivative_x]
    exact hin p.time (List.mem_map.2 ⟨p, hpm, rfl⟩)

/-- **C65 (the field).** For strictly ascending break points, complete degrees `1..N` and valid points, every point gets minus the gradient
of the potential whose coefficients are the `deriv`-th time derivative (per year) of the polynomial of the piece that contains its time; NaN
exactly for times outside the break points. -/
theorem C65_field (a : ℝ) (ha : 0 < a) (breaks : List ℝ) (hx : Ascending breaks) (order k : ℕ) (hk : 0 < k) (N : ℕ) (hN : 1 ≤ N)
    (c : ℕ → ℕ → ℕ → ℝ) (pts : List Pt) (hne : pts ≠ []) (hv : ∀ p ∈ pts, p.Valid) (nmax : Option ℕ) (h0 : nmax ≠ some 0) (src : Source)
    (deriv : Option ℕ) :
    ∃ B, synthFromPP a breaks order k (breaks.length - 1) (N * (N + 2)) c pts nmax (some src.name) deriv = .ok B ∧ B.length = pts.length ∧
      ∀ (i : ℕ) (p : Pt), pts[i]? = some p →
        ((p.time < first breaks ∨ last breaks < p.time) → B[i]? = some none) ∧
        ∀ j, IsPiece breaks j p.time → ∃ v : ℕ → ℝ, ∃ f, B[i]? = some (some f) ∧ MinusGradient src a v (usedDegree N nmax) p f ∧
          ∀ d, v d = iteratedDeriv (deriv.getD 0) (fun t => ∑ q ∈ Finset.range k, c (k - 1 - q) j d * (t - breaks.getD j 0) ^ q) p.time *
            (365.25 : ℝ) ^ deriv.getD 0 := by
  set b : Base := { breaks := breaks, order := k, dim := N * (N + 2), coeffs := some c } with hbdef
  have hb : Proper b c := ⟨rfl, hk, Nat.mul_pos (by omega) (by omega), hx.sorted, hx.span⟩
  have hu : clipNmax N nmax = usedDegree N nmax := by
    unfold clipNmax usedDegree
    cases nmax with
    | none => rfl
    | some n => simp only; split_ifs <;> omega
  have hu1 : 1 ≤ usedDegree N nmax := by
    unfold usedDegree
    cases nmax with
    | none => exact hN
    | some n =>
      have : n ≠ 0 := fun h => h0 (by rw [h])
      simp only
      omega
  have hNN : (nmaxOfDim (N * (N + 2))).toNat = N := by
    rw [Spectrum.nmax_of (N * (N + 2)) N le_rfl (Nat.mul_lt_mul'' (by omega) (by omega))]; rfl
  have hlen2 := hx.1
  unfold synthFromPP
  rw [if_neg (by omega)]
  simp only [hNN, hu, Option.getD_some]
  rw [Chaos.fieldOfRows_given a ha _ _ pts _ src hu1 le_rfl (by simp) hne hv]
  refine ⟨_, rfl, by simp, ?_⟩
  intro i p hp
  have hz : (List.zipWith (fun p (r : Option (ℕ → ℝ)) => r.map (Chaos.fieldAt src a (usedDegree N nmax) p)) pts
      (pts.map fun p => (PP.eval (PP.derivative { k := k, x := breaks, c := c } (deriv.getD 0)) false 0 p.time).map
        fun v d => v d * (365.25 : ℝ) ^ deriv.getD 0))[i]? =
      some (((PP.eval (PP.derivative { k := k, x := breaks, c := c } (deriv.getD 0)) false 0 p.time).map
        fun v d => v d * (365.25 : ℝ) ^ deriv.getD 0).map (Chaos.fieldAt src a (usedDegree N nmax) p)) := by
    rw [List.getElem?_zipWith, List.getElem?_map, hp]
    rfl
  rw [hz, PPoly.derivative_eval]
  constructor
  · intro hout
    have : PPoly.findInterval breaks false p.time = none := by
      unfold PPoly.findInterval
      by_cases h : p.time < first breaks
      · rw [if_pos h]; rfl
      · rw [if_neg h, if_pos (hout.resolve_left h)]; rfl
    unfold PP.eval
    simp only [this, Option.map_none]
  · intro j hj
    have he := PPoly.pp_eval_piece hb false (deriv.getD 0) j p.time hj
    have he' : PP.eval { k := k, x := breaks, c := c } false (deriv.getD 0) p.time =
        some fun d => iteratedDeriv (deriv.getD 0) (PPoly.piece b c j d) p.time := he
    rw [he']
    refine ⟨_, _, rfl, Chaos.fieldAt_gradient src a ha _ p (hv p (List.mem_of_getElem? hp)) _, ?_⟩
    intro d
    rfl

/-- **C65 (refused).** A number of pieces that does not fit to the break points is refused. -/
theorem C65_pieces (a : ℝ) (breaks : List ℝ) (order k pieces dim : ℕ) (c : ℕ → ℕ → ℕ → ℝ) (pts : List Pt) (nmax deriv : Option ℕ) (source : Option String)
    (h : pieces + 1 ≠ breaks.length) : synthFromPP a breaks order k pieces dim c pts nmax source deriv = .error .valueError := if_pos (Or.inl h)

/-- **C65 (default source)**: internal. -/
theorem C65_default (a : ℝ) (breaks : List ℝ) (order k pieces dim : ℕ) (c : ℕ → ℕ → ℕ → ℝ) (pts : List Pt) (nmax deriv : Option ℕ) :
    synthFromPP a breaks order k pieces dim c pts nmax none deriv = synthFromPP a breaks order k pieces dim c pts nmax (some "internal") deriv := rfl

/-- Radial field of a degree-one model at the north pole of the unit sphere. -/
theorem radial_pole (v : ℕ → ℝ) (t : ℝ) (f : ℝ × ℝ × ℝ) (h : MinusGradient .internal 1 v 1 ⟨t, 1, 0, 0⟩ f) : f.1 = 2 * v 0 := by
  have h1 := h.1
  simp only at h1
  have hV : (fun r : ℝ => Synth.pot Source.internal 1 v 1 1 1 r (rad 0) (rad 0)) = fun r => v 0 * (r ^ 2)⁻¹ := by
    funext r
    simp [Synth.pot, potInt, surfaceTerm, coefG, coefH, coefStart, Synth.schmidt_1_0, Synth.schmidt_1_1, rad, Finset.sum_range_succ]
    ring
  rw [hV] at h1
  have h2 : HasDerivAt (fun r : ℝ => v 0 * (r ^ 2)⁻¹) (v 0 * (-(2 * 1) / (1 ^ 2) ^ 2)) 1 := by
    have hp : HasDerivAt (fun r : ℝ => r ^ 2) (2 * 1) 1 := by simpa using hasDerivAt_pow 2 (1 : ℝ)
    exact (hp.inv (by norm_num)).const_mul (v 0)
  have := h1.unique h2
  linarith

/-- **C65** (finding). `order` is ignored, so that coefficients with more rows than `order` are used completely, where a model of this order
keeps the `order` lowest powers. Break points 0 and 1, the linear function `t` for the axial dipole, order 1: the radial field at the pole at
time 1/2 is 1 in `synth_from_pp` and 0 in the model. -/
theorem C65_order_ignored :
    let c : ℕ → ℕ → ℕ → ℝ := fun i _ d => if i = 0 ∧ d = 0 then 1 else 0
    let p : Pt := ⟨1 / 2, 1, 0, 0⟩
    (∃ f, synthFromPP 1 [0, 1] 1 2 1 3 c [p] none none none = .ok [some f] ∧ f.1 = 1) ∧
    (∃ f, Model.synthValues 1 ⟨Base.init [0, 1] (some 1) 2 3 c, "internal"⟩ [p] none none (some (.bool false)) = .ok [some f] ∧ f.1 = 0) := by
  intro c p
  have hx : Ascending [0, 1] := by
    refine ⟨by simp, fun j hj => ?_⟩
    simp only [List.length_cons, List.length_nil] at hj
    obtain rfl : j = 0 := by omega
    simp
  have hv : ∀ q ∈ [p], q.Valid := by
    intro q hq
    rw [List.mem_singleton] at hq
    rw [hq]
    exact ⟨le_rfl, by norm_num, by norm_num⟩
  have hpiece : IsPiece [0, 1] 0 (1 / 2) := ⟨by simp, Or.inl ⟨by norm_num, by norm_num⟩⟩
  constructor
  · obtain ⟨B, h1, h2, h3⟩ := C65_field 1 one_pos [0, 1] hx 1 2 (by norm_num) 1 le_rfl c [p] (by simp) hv none (by simp) .internal none
    obtain ⟨v, f, h4, h5, h6⟩ := (h3 0 p rfl).2 0 hpiece
    refine ⟨f, ?_, ?_⟩
    · have : B = [some f] := by
        obtain ⟨x, rfl⟩ := List.length_eq_one_iff.1 h2
        simpa using h4
      rw [← this]
      exact h1
    · rw [radial_pole v _ f h5, h6 0]
      simp [c, p, Finset.sum_range_succ]
  · set b := Base.init [0, 1] (some 1) 2 3 c with hb
    have hsame := C65_same 1 b (fun i => c (2 - 1 + i)) rfl (by decide) (by decide) (by decide) "internal" 1 [p] (by simp) none none (.bool false) (Or.inl rfl)
    rw [← hsame]
    obtain ⟨B, h1, h2, h3⟩ := C65_field 1 one_pos [0, 1] hx 1 1 (by norm_num) 1 le_rfl (fun i => c (2 - 1 + i)) [p] (by simp) hv none (by simp) .internal none
    obtain ⟨v, f, h4, h5, h6⟩ := (h3 0 p rfl).2 0 hpiece
    refine ⟨f, ?_, ?_⟩
    · have : B = [some f] := by
        obtain ⟨x, rfl⟩ := List.length_eq_one_iff.1 h2
        simpa using h4
      rw [← this]
      exact h1
    · rw [radial_pole v _ f h5, h6 0]
      simp [c, p, Finset.sum_range_succ]

/-! ## C66 -/

theorem foldl_write (p dim : ℕ) (coeffs : List ℕ → ℝ) (fac : ℕ → ℝ) (K : ℕ) (i : List ℕ) (k : ℕ) (hi : i[p]? = some k) :
    ((Legendre.pyRange 1 (K + 1)).foldl (fun W n => writeDegree p dim coeffs (fac n) n W) fun _ => none) i =
      if k < K then some (fac (k + 1) * Spectrum.sumSlice dim (fun j => coeffs (i.set p j) ^ 2) ((k + 1) ^ 2 - 1) ((k + 1) ^ 2 - 1 + (2 * (k + 1) + 1))) else none := by
  induction K with
  | zero => simp [Legendre.pyRange]
  | succ K ih =>
    rw [Index.pyRange_snoc 1 (K + 1) (by omega), List.foldl_append, List.foldl_cons, List.foldl_nil]
    unfold writeDegree
    rw [hi]
    by_cases hk : k = K
    · subst hk
      simp
    · rw [if_neg (by simp only [Option.some.injEq]; omega)]
      refine ih.trans ?_
      by_cases h : k < K
      · rw [if_pos h, if_pos (by omega)]
      · rw [if_neg h, if_neg (by omega)]

/-- **C66 (any axis).** For an array of coefficients and an axis of it (counted from the front or, negative, from the end), the result has the
same shape except that the axis has the length of the spectrum, and each of its rows along the axis is the spectrum of the row of coefficients
at the same place of the other axes. The call fails exactly if the spectrum of a single row fails, with the same exception. -/
theorem C66_axis (rSurf : ℝ) (x : Arr ℝ) (radius : Option ℝ) (nmax : Option ℤ) (source : Option String) (axis : Option ℤ) (p : ℕ)
    (hp : p < x.shape.length) (hax : axis.getD (-1) = p ∨ axis.getD (-1) = (p : ℤ) - x.shape.length) (row : List ℕ → ℕ → ℝ)
    (hrow : ∀ i k, row i k = x.get (i.set p k)) :
    (∀ e, powerSpectrumArr rSurf x radius nmax source axis = .error e ↔
      ofSpectrum (Spectrum.powerSpectrum rSurf (x.shape.getD p 0) (row []) radius nmax source) = .error e) ∧
    ∀ W, powerSpectrumArr rSurf x radius nmax source axis = .ok W →
      ∀ i k, i.length = x.shape.length → i[p]? = some k → ∃ V, Spectrum.powerSpectrum rSurf (x.shape.getD p 0) (row i) radius nmax source = .ok V ∧
        W.shape = x.shape.set p V.length ∧ (k < V.length → V[k]? = some (W.get i)) := by
  have hpos : axisPos x.shape.length (axis.getD (-1)) = some p := by
    unfold axisPos
    rcases hax with h | h
    · rw [h, if_pos ⟨by omega, by omega⟩]
      simp
    · rw [h, if_neg (by omega), if_pos ⟨by omega, by omega⟩]
      congr 1
      omega
  have done : ∀ (fac : ℕ → ℝ → ℝ) (ratio : ℝ) (K : ℕ) (i : List ℕ) (k : ℕ), i[p]? = some k →
      ∃ V, (Except.ok ((Legendre.pyRange 1 (K + 1)).foldl
          (fun (W : List (Option ℝ)) (n : ℕ) => W.set (n - 1) (some (fac n ratio * Spectrum.sumSlice (x.shape.getD p 0) (fun j => row i j ^ 2) (n ^ 2 - 1) (n ^ 2 - 1 + (2 * n + 1)))))
          (List.replicate K none)) : Except Spectrum.Error (List (Option ℝ))) = .ok V ∧ x.shape.set p K = x.shape.set p V.length ∧
        (k < V.length → V[k]? = some ((Legendre.pyRange 1 (K + 1)).foldl (fun W n => writeDegree p (x.shape.getD p 0) x.get (fac n ratio) n W) (fun _ => none) i)) := by
    intro fac ratio K i k hik
    refine ⟨_, rfl, ?_, ?_⟩
    · rw [Spectrum.foldl_set (fun n : ℕ => some (fac n ratio * Spectrum.sumSlice (x.shape.getD p 0) (fun j => row i j ^ 2) (n ^ 2 - 1) (n ^ 2 - 1 + (2 * n + 1)))) none K]
      simp
    · rw [Spectrum.foldl_set (fun n : ℕ => some (fac n ratio * Spectrum.sumSlice (x.shape.getD p 0) (fun j => row i j ^ 2) (n ^ 2 - 1) (n ^ 2 - 1 + (2 * n + 1)))) none K]
      intro hk
      simp only [List.length_map, List.length_range] at hk
      rw [List.getElem?_map, List.getElem?_range hk]
      simp only [Option.map_some]
      rw [foldl_write p _ x.get (fun n => fac n ratio) K i k hik, if_pos hk]
      simp only [hrow]
  unfold powerSpectrumArr Spectrum.powerSpectrum
  simp only [hpos, bind, Except.bind, pure, Except.pure, throw, throwThe, MonadExceptOf.throw]
  rcases radius with _ | y
  · cases hf : Spectrum.factor source with
    | error e => cases e <;> simp [ofSpectrum]
    | ok fac =>
      simp only [ofSpectrum]
      by_cases hK : Spectrum.clipDegree (nmaxOfDim (x.shape.getD p 0)) nmax < 0
      · simp only [if_pos hK]; simp
      · simp only [if_neg hK]
        refine ⟨fun e => by simp, fun W hW i k _ hik => ?_⟩
        simp only [Except.ok.injEq] at hW
        subst hW
        exact done fac 1 _ i k hik
  · by_cases hy : y = 0
    · simp [hy, ofSpectrum]
    · simp only [if_neg hy]
      cases hf : Spectrum.factor source with
      | error e => cases e <;> simp [ofSpectrum]
      | ok fac =>
        simp only [ofSpectrum]
        by_cases hK : Spectrum.clipDegree (nmaxOfDim (x.shape.getD p 0)) nmax < 0
        · simp only [if_pos hK]; simp
        · simp only [if_neg hK]
          refine ⟨fun e => by simp, fun W hW i k _ hik => ?_⟩
          simp only [Except.ok.injEq] at hW
          subst hW
          exact done fac (rSurf / y) _ i k hik

/-- **C66 (no such axis)**: refused (with a radius different from zero). -/
theorem C66_axis_error (rSurf : ℝ) (x : Arr ℝ) (radius : Option ℝ) (hr : radius ≠ some 0) (nmax : Option ℤ) (source : Option String) (axis : Option ℤ)
    (h : axis.getD (-1) < -x.shape.length ∨ (x.shape.length : ℤ) ≤ axis.getD (-1)) :
    powerSpectrumArr rSurf x radius nmax source axis = .error .indexError := by
  have hpos : axisPos x.shape.length (axis.getD (-1)) = none := by
    unfold axisPos
    rw [if_neg (by omega), if_neg (by omega)]
  unfold powerSpectrumArr
  cases radius with
  | none => simp only [hpos]; rfl
  | some y =>
    have hy : y ≠ 0 := fun h => hr (by rw [h])
    simp only [hpos, if_neg hy]
    rfl

theorem mapM_rows {α β : Type} (f : α → Except Error β) (g : α → β) : ∀ l : List α, (∀ a ∈ l, f a = .ok (g a)) → l.mapM f = .ok (l.map g)
  | [], _ => rfl
  | a :: l, h => by
    rw [List.mapM_cons, h a List.mem_cons_self, mapM_rows f g l (fun b hb => h b (List.mem_cons_of_mem _ hb))]
    rfl

/-- **C66 (models).** `BaseModel.power_spectrum` gives for every time, in the order of the times, the spectrum of the coefficients that
`synth_coeffs` gives for it with the same options, up to the smaller one of `nmax` and the degree of the model, with the documented factor of the
model's source; NaN where the coefficients are NaN. Default radius is the surface. -/
theorem C66_model (a : ℝ) (ha : 0 < a) (m : Model) (hsrc : m.source = "internal" ∨ m.source = "external" ∨ m.source = "toroidal") (N : ℕ)
    (hdim : m.base.dim = N * (N + 2)) (times : List ℝ) (radius : Option ℝ) (hr : radius ≠ some 0) (nmax deriv : Option ℕ) (e : Option Extrap) (k : ℕ)
    (rows : List (Option (ℕ → ℝ))) (h : PPoly.modelSynthCoeffs m.base times none deriv e = .ok (k, rows)) :
    ∃ W, modelSpectrum a m times radius nmax deriv e = .ok W ∧ W.length = rows.length ∧ ∀ i : ℕ,
      (rows[i]? = some none → W[i]? = some none) ∧
      ∀ v, rows[i]? = some (some v) → ∃ w : List ℝ, W[i]? = some (some (w.map some)) ∧ w.length = usedDegree N nmax ∧
        ∀ n, 1 ≤ n → n ≤ usedDegree N nmax → w[n - 1]? = some (Spectrum.docFactor m.source a (radius.getD a) n * degreePower v n) := by
  have hR : radius.getD a ≠ 0 := by
    cases radius with
    | none => exact ha.ne'
    | some y => exact fun h => hr (by rw [← h]; rfl)
  have hc : PPoly.modelSynthCoeffs m.base times nmax deriv e = .ok (usedDegree N nmax * (usedDegree N nmax + 2), rows) := by
    rw [(PPoly.C29_truncation m.base times nmax deriv e k rows h).2]
    congr 2
    unfold usedDegree
    cases nmax with
    | none => exact hdim
    | some n =>
      simp only [hdim]
      rcases le_total n N with h | h
      · rw [min_eq_left h, min_eq_left (Nat.mul_le_mul h (by omega))]
      · rw [min_eq_right h, min_eq_right (Nat.mul_le_mul h (by omega))]
  set K := usedDegree N nmax with hKdef
  have hspec : ∀ v : ℕ → ℝ, ∃ w : List ℝ, Spectrum.powerSpectrum a (K * (K + 2)) v (some (radius.getD a)) none (some m.source) = .ok (w.map some) ∧
      w.length = K ∧ ∀ n, 1 ≤ n → n ≤ K → w[n - 1]? = some (Spectrum.docFactor m.source a (radius.getD a) n * degreePower v n) := by
    intro v
    obtain ⟨V, e1, e2, e3⟩ := Spectrum.C47_degree a (K * (K + 2)) K le_rfl (Nat.mul_lt_mul'' (by omega) (by omega)) v (radius.getD a) hR none m.source hsrc
    simp only [Option.getD_none, min_self] at e2 e3
    refine ⟨(List.range K).map fun i => Spectrum.docFactor m.source a (radius.getD a) (i + 1) * degreePower v (i + 1), ?_, by simp, ?_⟩
    · rw [Option.map_none] at e1
      rw [e1]
      congr 1
      apply List.ext_getElem?
      intro i
      by_cases hi : i < K
      · have := e3 (i + 1) (by omega) (by omega)
        rw [Nat.add_sub_cancel] at this
        rw [this, List.map_map, List.getElem?_map, List.getElem?_range hi]
        rfl
      · rw [List.getElem?_eq_none (by omega), List.getElem?_eq_none (by simp; omega)]
    · intro n h1 h2
      rw [List.getElem?_map, List.getElem?_range (by omega)]
      simp only [Option.map_some]
      rw [Nat.sub_add_cancel h1]
  choose sp hs1 hs2 hs3 using hspec
  refine ⟨rows.map fun r => r.map fun v => (sp v).map some, ?_, by simp, ?_⟩
  · unfold modelSpectrum
    rw [hc]
    simp only [ofCoeffs, bind, Except.bind]
    apply mapM_rows
    intro r _
    unfold rowSpectrum
    cases r with
    | none =>
      simp only [Option.getD_none, hs1]
      rfl
    | some v =>
      simp only [Option.getD_some, hs1]
      rfl
  · intro i
    refine ⟨fun h => ?_, fun v h => ⟨sp v, ?_, hs2 v, hs3 v⟩⟩
    · rw [List.getElem?_map, h]; rfl
    · rw [List.getElem?_map, h]; rfl

/-- Degrees of an angle in radians. -/
noncomputable def degrees (x : ℝ) : ℝ := x * (180 / Real.pi)

theorem rad_degrees (x : ℝ) : rad (degrees x) = x := by
  unfold rad degrees
  field_simp

theorem sphereMean_congr_on (f g : ℝ → ℝ → ℝ) (h : ∀ x y, 0 ≤ x → x ≤ Real.pi → Real.sin x ≠ 0 → f x y = g x y) : sphereMean f = sphereMean g := by
  unfold sphereMean
  congr 1
  apply intervalIntegral.integral_congr
  intro x hx
  rw [Set.uIcc_of_le Real.pi_pos.le] at hx
  by_cases hs : Real.sin x = 0
  · simp only [hs, mul_zero]
  · have : (fun y => f x y) = fun y => g x y := funext fun y => h x y hx.1 hx.2 hs
    simp only [this]

/-- **C66 (Parseval).** For a potential field model and one time, the sum over the degrees of `power_spectrum(time, radius)` is the mean over the
sphere of this radius of the square of the field that `synth_values` gives at this time with the same options (angles in degrees). -/
theorem C66_parseval (a : ℝ) (ha : 0 < a) (m : Model) (src : Source) (hsrc : m.source = src.name) (N : ℕ) (hdim : m.base.dim = N * (N + 2)) (hN : 1 ≤ N)
    (t r : ℝ) (hr : 0 < r) (nmax deriv : Option ℕ) (h0 : nmax ≠ some 0) (e : Option Extrap) (k : ℕ) (v : ℕ → ℝ)
    (h : PPoly.modelSynthCoeffs m.base [t] none deriv e = .ok (k, [some v])) (F : ℝ → ℝ → ℝ)
    (hF : ∀ θ φ b, 0 ≤ θ → θ ≤ 180 → m.synthValues a [⟨t, r, θ, φ⟩] nmax deriv e = .ok [some b] → F θ φ = b.1 ^ 2 + b.2.1 ^ 2 + b.2.2 ^ 2) :
    (∀ θ φ, 0 ≤ θ → θ ≤ 180 → ∃ b, m.synthValues a [⟨t, r, θ, φ⟩] nmax deriv e = .ok [some b]) ∧
    ∃ w : List ℝ, modelSpectrum a m [t] (some r) nmax deriv e = .ok [some (w.map some)] ∧ w.length = usedDegree N nmax ∧
      w.sum = sphereMean fun x y => F (degrees x) (degrees y) := by
  set K := usedDegree N nmax with hKdef
  have hfield : ∀ θ φ, 0 ≤ θ → θ ≤ 180 → ∃ b, m.synthValues a [⟨t, r, θ, φ⟩] nmax deriv e = .ok [some b] ∧ MinusGradient src a v K ⟨t, r, θ, φ⟩ b := by
    intro θ φ h1 h2
    obtain ⟨B, e1, e2, e3⟩ := Chaos.C56_model a ha m src hsrc N hdim hN [⟨t, r, θ, φ⟩] (by simp)
      (by intro p hp; rw [List.mem_singleton] at hp; rw [hp]; exact ⟨h1, h2, hr⟩) nmax h0 deriv e k [some v] h
    obtain ⟨x, rfl⟩ := List.length_eq_one_iff.1 e2
    rcases e3 0 ⟨t, r, θ, φ⟩ rfl with ⟨hh, _⟩ | ⟨v', b, g1, g2, g3⟩
    · simp at hh
    · simp only [List.getElem?_cons_zero, Option.some.injEq] at g1 g2
      subst g1 g2
      exact ⟨b, e1, g3⟩
  refine ⟨fun θ φ h1 h2 => (hfield θ φ h1 h2).imp fun b hb => hb.1, ?_⟩
  have hs3 : m.source = "internal" ∨ m.source = "external" ∨ m.source = "toroidal" := by
    rw [hsrc]
    cases src
    · exact Or.inl rfl
    · exact Or.inr (Or.inl rfl)
  obtain ⟨W, e1, e2, e3⟩ := C66_model a ha m hs3 N hdim [t] (some r) (by simpa using hr.ne') nmax deriv e k [some v] h
  obtain ⟨w, g1, g2, g3⟩ := (e3 0).2 v rfl
  have hW : W = [some (w.map some)] := by
    obtain ⟨x, rfl⟩ := List.length_eq_one_iff.1 e2
    simpa using g1
  refine ⟨w, by rw [e1, hW], g2, ?_⟩
  have hsum : w.sum = ∑ n ∈ Finset.Icc 1 K, Spectrum.docFactor m.source a r n * degreePower v n := by
    have hw : w = (List.range K).map fun i => Spectrum.docFactor m.source a r (i + 1) * degreePower v (i + 1) := by
      apply List.ext_getElem?
      intro i
      by_cases hi : i < K
      · have := g3 (i + 1) (by omega) (by omega)
        rw [Nat.add_sub_cancel] at this
        rw [this, List.getElem?_map, List.getElem?_range hi]
        rfl
      · rw [List.getElem?_eq_none (by omega), List.getElem?_eq_none (by simp; omega)]
    have gen : ∀ (f : ℕ → ℝ) (k : ℕ), ((List.range k).map fun i => f (i + 1)).sum = ∑ n ∈ Finset.Icc 1 k, f n := by
      intro f k
      induction k with
      | zero => simp
      | succ k ih => rw [List.range_succ, List.map_append, List.sum_append, ih, Finset.sum_Icc_succ_top (by omega)]; simp
    rw [hw]
    exact gen (fun n => Spectrum.docFactor m.source a r n * degreePower v n) K
  have hmean : sphereMean (gradSq (Synth.pot src a v 1 K K) r) = ∑ n ∈ Finset.Icc 1 K, Spectrum.docFactor m.source a r n * degreePower v n := by
    rw [hsrc]
    cases src
    · exact (Spectrum.mean_internal a ha v K r hr)
    · exact (Spectrum.mean_external a ha v K r hr)
  rw [hsum, ← hmean]
  apply sphereMean_congr_on
  intro x y hx0 hx1 hs
  have hd0 : 0 ≤ degrees x := by
    unfold degrees
    have := Real.pi_pos
    positivity
  have hd1 : degrees x ≤ 180 := by
    unfold degrees
    have := Real.pi_pos
    rw [← mul_div_assoc, div_le_iff₀ this]
    nlinarith
  obtain ⟨b, hb1, hb2⟩ := hfield (degrees x) (degrees y) hd0 hd1
  rw [hF _ _ b hd0 hd1 hb1]
  obtain ⟨d1, d2, d3⟩ := hb2
  simp only [rad_degrees] at d1 d2 d3
  unfold gradSq
  rw [d1.deriv, d2.deriv, d3.deriv]
  have hr' := hr.ne'
  field_simp

/-! ### The hypotheses are met -/

/-- A 2 x 3 array of coefficients of degree one, spectrum along the last axis. -/
example : ∃ W, powerSpectrumArr 1 ⟨[2, 3], fun i => if i = [0, 0] then 1 else if i = [1, 2] then 3 else 0⟩ none none none none = .ok W ∧
    W.shape = [2, 1] ∧ W.get [0, 0] = some 2 ∧ W.get [1, 0] = some 18 := by
  set x : Arr ℝ := ⟨[2, 3], fun i => if i = [0, 0] then 1 else if i = [1, 2] then 3 else 0⟩ with hx
  have key := C66_axis 1 x none none none none 1 (by simp [hx]) (Or.inr (by simp [hx])) (fun i k => x.get (i.set 1 k)) (fun _ _ => rfl)
  have hsp : ∀ i : List ℕ, ∃ V : List (Option ℝ), Spectrum.powerSpectrum 1 3 (fun k => x.get (i.set 1 k)) none none none = .ok V ∧ V.length = 1 ∧
      V[0]? = some (some (2 * (x.get (i.set 1 0) ^ 2 + x.get (i.set 1 1) ^ 2 + x.get (i.set 1 2) ^ 2))) := by
    intro i
    obtain ⟨V, e1, e2, e3⟩ := Spectrum.C47_degree 1 3 1 (by norm_num) (by norm_num) (fun k => x.get (i.set 1 k)) 1 one_ne_zero none "internal" (Or.inl rfl)
    refine ⟨V, ?_, e2, ?_⟩
    · rw [(Spectrum.C47_defaults 1 one_ne_zero 3 _ none none none).1, (Spectrum.C47_defaults 1 one_ne_zero 3 _ none none (some 1)).2]
      exact e1
    · have := e3 1 le_rfl (by simp)
      rw [Nat.sub_self] at this
      rw [this]
      simp [Spectrum.docFactor, factorInternal, degreePower, gaussG, gaussH, gaussPos, Finset.sum_range_succ]
      ring
  cases hW : powerSpectrumArr 1 x none none none none with
  | error e =>
    obtain ⟨V, e1, _⟩ := hsp []
    have h3 : x.shape.getD 1 0 = 3 := rfl
    have := (key.1 e).1 hW
    simp only [h3, e1, ofSpectrum] at this
    cases this
  | ok W =>
    refine ⟨W, rfl, ?_, ?_, ?_⟩
    · obtain ⟨V, e1, e2, _⟩ := hsp [0, 0]
      obtain ⟨V', f1, f2, _⟩ := key.2 W hW [0, 0] 0 rfl rfl
      have h3 : x.shape.getD 1 0 = 3 := rfl
      simp only [h3, e1, Except.ok.injEq] at f1
      rw [f2, ← f1, e2]
      rfl
    · obtain ⟨V, e1, e2, e3⟩ := hsp [0, 0]
      obtain ⟨V', f1, f2, f3⟩ := key.2 W hW [0, 0] 0 rfl rfl
      have h3 : x.shape.getD 1 0 = 3 := rfl
      simp only [h3, e1, Except.ok.injEq] at f1
      have := f3 (by rw [← f1, e2]; norm_num)
      rw [← f1, e3] at this
      rw [← Option.some.inj this]
      simp [hx]
    · obtain ⟨V, e1, e2, e3⟩ := hsp [1, 0]
      obtain ⟨V', f1, f2, f3⟩ := key.2 W hW [1, 0] 0 rfl rfl
      have h3 : x.shape.getD 1 0 = 3 := rfl
      simp only [h3, e1, Except.ok.injEq] at f1
      have := f3 (by rw [← f1, e2]; norm_num)
      rw [← f1, e3] at this
      rw [← Option.some.inj this]
      simp [hx]
      norm_num

/-- Hypotheses of `C66_model` and `C66_parseval` met: a constant axial dipole between the times 0 and 1. -/
theorem ex_coeffs : ∃ rows, PPoly.modelSynthCoeffs (Base.init [0, 1] none 1 3 fun _ _ d => if d = 0 then 5 else 0) [1 / 2] none none none = .ok (3, [some rows]) ∧
    rows 0 = 5 := by
  have hx : Ascending [0, 1] := by
    refine ⟨by simp, fun j hj => ?_⟩
    simp only [List.length_cons, List.length_nil] at hj
    obtain rfl : j = 0 := by omega
    simp
  obtain ⟨vals, h1, h2, h3⟩ := PPoly.C26_constructed [0, 1] hx none (by simp) 1 3 one_pos (by norm_num) (fun _ _ d => if d = 0 then 5 else 0) [1 / 2] none none
    (by simp) (Or.inr (by intro t ht; rw [List.mem_singleton] at ht; rw [ht]; norm_num [first, last]))
  obtain ⟨v, h4, h5⟩ := h3 0 (1 / 2) 0 rfl ⟨by simp, Or.inl ⟨by norm_num, by norm_num⟩⟩ (by norm_num [last])
  obtain ⟨y, rfl⟩ := List.length_eq_one_iff.1 h2
  simp only [List.getElem?_cons_zero, Option.some.injEq] at h4
  subst h4
  refine ⟨v, h1, ?_⟩
  rw [h5 0]
  simp [PPoly.dOrder]

end ChaosMagPy.SynthPP
