import Verif.Lemmas.PPolySynth
import Mathlib.Tactic.IntervalCases
/-!
# C26-C30: piecewise polynomial models

Claims about `BaseModel.synth_coeffs` / `Base.synth_coeffs` and the MAT-file layout. A successful call returns
the number of columns and one row per time; a row is `none` (NaN) or gives the value of every coefficient `d`.
Derivatives are per year: one year is 365.25 days.
-/
namespace ChaosMagPy.PPoly
open ChaosMagPy.Spec

/-- The order of differentiation, default 0. -/
abbrev dOrder (deriv : Option ℕ) : ℕ := deriv.getD 0

/-- The extrapolation option, default `'linear'`. -/
abbrev option (e : Option Extrap) : Extrap := e.getD (.str "linear")

section
variable {b : Base} {c : ℕ → ℕ → ℕ → ℝ}

theorem rows_of_prepare (hb : Proper b c) {times : List ℝ} {dim deriv : Option ℕ} {e : Option Extrap} {r : PP × Bool}
    (hr : prepare b c times (option e) = .ok r) :
    b.synthCoeffs times dim deriv e = .ok (columns b dim, times.map fun t =>
        (r.1.eval r.2 (dOrder deriv) t).map fun v d => v d * (365.25 : ℝ) ^ dOrder deriv) := by
  rw [synth_unfold hb, hr]
  rfl

theorem row_get {times : List ℝ} {f : ℝ → Option (ℕ → ℝ)} {i : ℕ} {t : ℝ} (hi : times[i]? = some t) :
    (times.map f)[i]? = some (f t) := by
  rw [List.getElem?_map, hi]
  rfl

/-- **C26.** Inside the model interval (the end point is treated in `C26_end`) every returned row is the
`deriv`-th derivative of the polynomial of the piece that contains the time, whatever the other times of
the call and the extrapolation option are. -/
theorem C26_inside (hb : Proper b c) (times : List ℝ) (dim deriv : Option ℕ) (e : Option Extrap) (hne : times ≠ [])
    (hk : Known (option e) ∨ ¬ Outside b times) :
    ∃ rows, b.synthCoeffs times dim deriv e = .ok (columns b dim, rows) ∧ rows.length = times.length ∧
      ∀ (i : ℕ) (t : ℝ) (j : ℕ), times[i]? = some t → IsPiece b.breaks j t → t < last b.breaks →
        ∃ v : ℕ → ℝ, rows[i]? = some (some v) ∧
          ∀ d, v d = iteratedDeriv (dOrder deriv) (piece b c j d) t * (365.25 : ℝ) ^ dOrder deriv := by
  obtain ⟨r, hr, _⟩ := prepare_cases hb times (option e) hne hk
  refine ⟨_, rows_of_prepare hb hr, by simp, ?_⟩
  intro i t j hi hj ht
  refine ⟨fun d => iteratedDeriv (dOrder deriv) (piece b c j d) t * (365.25 : ℝ) ^ dOrder deriv, (row_get hi).trans ?_, ?_⟩
  · rw [row_inside hb hne hk hr (dOrder deriv) j t hj ht]
    rfl
  · exact fun d => rfl

/-- **C26** for the end point, if all times are inside or no derivative is taken: the value comes from the
last piece. -/
theorem C26_end (hb : Proper b c) (times : List ℝ) (dim deriv : Option ℕ) (e : Option Extrap)
    (hk : Known (option e) ∨ ¬ Outside b times) (h : dOrder deriv = 0 ∨ ¬ Outside b times) (i : ℕ)
    (hi : times[i]? = some (last b.breaks)) :
    ∃ rows v, b.synthCoeffs times dim deriv e = .ok (columns b dim, rows) ∧ rows[i]? = some (some v) ∧
      ∀ d, v d = iteratedDeriv (dOrder deriv) (piece b c (b.breaks.length - 2) d) (last b.breaks) *
        (365.25 : ℝ) ^ dOrder deriv := by
  have hne : times ≠ [] := by rintro rfl; simp at hi
  obtain ⟨r, hr, hc⟩ := prepare_cases hb times (option e) hne hk
  refine ⟨_, _, rows_of_prepare hb hr, (row_get hi).trans ?_, fun d => rfl⟩
  have hl := isPiece_last hb
  rcases hc with ⟨_, rfl⟩ | ⟨_, _, rfl⟩ | ⟨ho, hpos, rfl⟩
  · rw [pp_eval_piece hb _ _ _ _ hl]; rfl
  · rw [pp_eval_piece hb _ _ _ _ hl]; rfl
  · have h0 : dOrder deriv = 0 := h.resolve_right (fun hc => hc ho)
    simp only [h0]
    rw [ppExt_right hb _ _ _ (documentedOrder_le _ _) le_rfl]
    simp only [Option.map_some]
    congr 2
    funext d
    rw [iteratedDeriv_zero, iteratedDeriv_zero, Finset.sum_eq_single 0]
    · simp
    · intro q _ hq
      rw [sub_self, zero_pow hq, mul_zero]
    · intro hc
      exact absurd (Finset.mem_range.2 (by omega)) hc

/-- **C26** (success): a call at one or more times fails exactly if a time is outside and the option is not
one of the documented ones. -/
theorem C26_succeeds (hb : Proper b c) (times : List ℝ) (dim deriv : Option ℕ) (e : Option Extrap) (hne : times ≠ []) :
    (∃ r, b.synthCoeffs times dim deriv e = .ok r) ↔ (Known (option e) ∨ ¬ Outside b times) := by
  constructor
  · rintro ⟨r, hr⟩
    by_contra hc
    push Not at hc
    rw [synth_unfold hb, prepare_unknown hb times (option e) hc.2 hc.1] at hr
    exact absurd hr (by simp [bind, Except.bind])
  · intro h
    obtain ⟨rows, hrows, _⟩ := C26_inside hb times dim deriv e hne h
    exact ⟨_, hrows⟩

/-- **C26** (construction): a model constructed from an array with `rows` rows (highest power first) and an order `o` keeps the `min o rows`
lowest powers: inside the model interval it evaluates, on every piece, derivatives of the polynomial with those terms. -/
theorem C26_constructed (breaks : List ℝ) (hx : Ascending breaks) (o : Option ℕ) (ho : o ≠ some 0) (rows dim : ℕ) (hrows : 0 < rows) (hdim : 0 < dim)
    (a : ℕ → ℕ → ℕ → ℝ) (times : List ℝ) (deriv : Option ℕ) (e : Option Extrap) (hne : times ≠ [])
    (hk : Known (option e) ∨ ∀ t ∈ times, first breaks ≤ t ∧ t ≤ last breaks) :
    ∃ vals, (Base.init breaks o rows dim a).synthCoeffs times none deriv e = .ok (dim, vals) ∧ vals.length = times.length ∧
      ∀ (i : ℕ) (t : ℝ) (j : ℕ), times[i]? = some t → IsPiece breaks j t → t < last breaks →
        ∃ v : ℕ → ℝ, vals[i]? = some (some v) ∧
          ∀ d, v d = iteratedDeriv (dOrder deriv)
            (fun t => ∑ q ∈ Finset.range (min (o.getD rows) rows), a (rows - 1 - q) j d * (t - breaks.getD j 0) ^ q) t * (365.25 : ℝ) ^ dOrder deriv := by
  have ho' : min (o.getD rows) rows = (Base.init breaks o rows dim a).order := by
    cases o with
    | none => simp [Base.init]
    | some o => rfl
  have hpos : 0 < min (o.getD rows) rows := by
    cases o with
    | none => simpa using hrows
    | some o =>
      have : o ≠ 0 := fun h => ho (by rw [h])
      simp only [Option.getD_some]
      omega
  have hbr : (Base.init breaks o rows dim a).breaks = breaks := by
    unfold Base.init
    simp only
    rw [if_neg]
    have := hx.1
    omega
  have hc : (Base.init breaks o rows dim a).coeffs = some fun i => a (rows - min (o.getD rows) rows + i) := by
    cases o with
    | none => simp [Base.init]
    | some o => rfl
  have hp : Proper (Base.init breaks o rows dim a) fun i => a (rows - min (o.getD rows) rows + i) :=
    ⟨hc, by rw [← ho']; exact hpos, hdim, by rw [hbr]; exact hx.sorted, by rw [hbr]; exact hx.span⟩
  have hk' : Known (option e) ∨ ¬ Outside (Base.init breaks o rows dim a) times := by
    refine hk.imp_right fun h => ?_
    rintro ⟨t, ht, h1⟩
    rw [hbr] at h1
    have := h t ht
    rcases h1 with h1 | h1 <;> linarith
  obtain ⟨vals, h1, h2, h3⟩ := C26_inside hp times none deriv e hne hk'
  refine ⟨vals, h1, h2, fun i t j hi hj ht => ?_⟩
  rw [hbr] at h3
  obtain ⟨v, hv, hvd⟩ := h3 i t j hi hj ht
  refine ⟨v, hv, fun d => ?_⟩
  rw [hvd]
  congr 2
  funext t
  unfold piece poly
  rw [← ho', hbr]
  refine Finset.sum_congr rfl fun q hq => ?_
  rw [Finset.mem_range] at hq
  have e : rows - min (o.getD rows) rows + (min (o.getD rows) rows - 1 - q) = rows - 1 - q := by omega
  beta_reduce
  rw [e]

/-! ### Extrapolation -/

/-- The end of the model interval next to a time outside, and the piece that ends there. -/
def NearEnd (b : Base) (t e : ℝ) (j : ℕ) : Prop :=
  (t < first b.breaks ∧ e = first b.breaks ∧ IsPiece b.breaks j e) ∨
  (last b.breaks < t ∧ e = last b.breaks ∧ j = b.breaks.length - 2)

/-- What the code computes outside: a polynomial with the derivatives at the end as coefficients. -/
theorem outside_row (hb : Proper b c) (times : List ℝ) (dim deriv : Option ℕ) (e : Option Extrap)
    (hk : Known (option e)) (hpos : 0 < documentedOrder b.order (option e)) (i : ℕ) (t x : ℝ) (j : ℕ)
    (hi : times[i]? = some t) (hx : NearEnd b t x j) :
    ∃ rows v, b.synthCoeffs times dim deriv e = .ok (columns b dim, rows) ∧ rows[i]? = some (some v) ∧
      ∀ d, v d = iteratedDeriv (dOrder deriv) (fun s => ∑ q ∈ Finset.range (documentedOrder b.order (option e)).toNat,
        iteratedDeriv q (piece b c j d) x * (s - x) ^ q) t * (365.25 : ℝ) ^ dOrder deriv := by
  have hne : times ≠ [] := by rintro rfl; simp at hi
  have hout : Outside b times := by
    refine ⟨t, List.mem_of_getElem? hi, ?_⟩
    rcases hx with h | h
    · exact Or.inl h.1
    · exact Or.inr h.1
  refine ⟨_, _, rows_of_prepare hb (prepare_on hb times _ hne hout hk hpos), (row_get hi).trans ?_, fun d => rfl⟩
  rcases hx with ⟨h, rfl, hj⟩ | ⟨h, rfl, rfl⟩
  · simp only
    rw [ppExt_left hb _ _ j _ (documentedOrder_le _ _) h hj]
    rfl
  · simp only
    rw [ppExt_right hb _ _ _ (documentedOrder_le _ _) h.le]
    rfl

/-- **C27** (`'off'`, `False`, `0`): NaN outside the model interval (and only there: `C26_inside`, `C26_end`). -/
theorem C27_off (hb : Proper b c) (times : List ℝ) (dim deriv : Option ℕ) (e : Option Extrap)
    (hoff : e = some (.str "off") ∨ e = some (.bool false) ∨ ∃ z ≤ 0, e = some (.int z)) (i : ℕ) (t : ℝ)
    (hi : times[i]? = some t) (ht : t < first b.breaks ∨ last b.breaks < t) :
    ∃ rows, b.synthCoeffs times dim deriv e = .ok (columns b dim, rows) ∧ rows[i]? = some none := by
  have hne : times ≠ [] := by rintro rfl; simp at hi
  have hout : Outside b times := ⟨t, List.mem_of_getElem? hi, ht⟩
  have hk : Known (option e) ∧ documentedOrder b.order (option e) ≤ 0 := by
    rcases hoff with rfl | rfl | ⟨z, hz, rfl⟩
    · exact ⟨by simp [Known, option], by simp [documentedOrder, option]⟩
    · exact ⟨trivial, by simp [documentedOrder, option]⟩
    · refine ⟨trivial, ?_⟩
      show min z (b.order : ℤ) ≤ 0
      omega
  refine ⟨_, rows_of_prepare hb (prepare_off hb times _ hne hout hk.1 hk.2), (row_get hi).trans ?_⟩
  have : (pp b c).eval false (dOrder deriv) t = none := by
    unfold PP.eval findInterval
    rw [show (pp b c).x = b.breaks from rfl]
    rcases ht with h | h
    · rw [if_pos h]; rfl
    · rw [if_neg (not_lt.2 (hb.span.le.trans h.le)), if_pos h]; rfl
  simp only
  rw [this]
  rfl

/-- **C27** up to linear extrapolation (`'constant'`, `'linear'`, `True`, the default, orders 1 and 2): outside,
the row is the `deriv`-th derivative of the Taylor polynomial of the documented order at the nearer end.
For orders above 2 the claim is false, see `C27_above_linear`. -/
theorem C27_taylor_upto_linear (hb : Proper b c) (times : List ℝ) (dim deriv : Option ℕ) (e : Option Extrap)
    (hk : Known (option e)) (hpos : 0 < documentedOrder b.order (option e))
    (hlin : documentedOrder b.order (option e) ≤ 2) (i : ℕ) (t x : ℝ) (j : ℕ)
    (hi : times[i]? = some t) (hx : NearEnd b t x j) :
    ∃ rows v, b.synthCoeffs times dim deriv e = .ok (columns b dim, rows) ∧ rows[i]? = some (some v) ∧
      ∀ d, v d = iteratedDeriv (dOrder deriv)
        (taylor (documentedOrder b.order (option e)).toNat (piece b c j d) x) t * (365.25 : ℝ) ^ dOrder deriv := by
  obtain ⟨rows, v, h1, h2, h3⟩ := outside_row hb times dim deriv e hk hpos i t x j hi hx
  refine ⟨rows, v, h1, h2, fun d => ?_⟩
  rw [h3 d]
  congr 2
  funext s
  unfold taylor
  apply Finset.sum_congr rfl
  intro q hq
  rw [Finset.mem_range] at hq
  have : q = 0 ∨ q = 1 := by omega
  rcases this with rfl | rfl <;> simp

/-- **C27** (`'constant'`): every time outside gets the value of the nearer end. -/
theorem C27_constant (hb : Proper b c) (times : List ℝ) (dim : Option ℕ) (i : ℕ) (t x : ℝ) (j : ℕ)
    (hi : times[i]? = some t) (hx : NearEnd b t x j) :
    ∃ rows v, b.synthCoeffs times dim none (some (.str "constant")) = .ok (columns b dim, rows) ∧
      rows[i]? = some (some v) ∧ ∀ d, v d = piece b c j d x := by
  have hd : documentedOrder b.order (.str "constant") = 1 := by
    have := hb.order
    show min 1 (b.order : ℤ) = 1
    omega
  obtain ⟨rows, v, h1, h2, h3⟩ := outside_row hb times dim none (some (.str "constant")) (by simp [Known, option])
    (by rw [option, Option.getD_some, hd]; norm_num) i t x j hi hx
  refine ⟨rows, v, h1, h2, fun d => ?_⟩
  rw [h3 d, option, Option.getD_some, hd]
  simp

/-- **C27** (default, `'linear'`): for a model of order at least 2, every time outside gets the value of the
tangent at the nearer end. -/
theorem C27_linear (hb : Proper b c) (horder : 2 ≤ b.order) (times : List ℝ) (dim : Option ℕ) (i : ℕ) (t x : ℝ) (j : ℕ)
    (hi : times[i]? = some t) (hx : NearEnd b t x j) (e : Option Extrap)
    (he : e = none ∨ e = some (.str "linear") ∨ e = some (.bool true)) :
    ∃ rows v, b.synthCoeffs times dim none e = .ok (columns b dim, rows) ∧
      rows[i]? = some (some v) ∧ ∀ d, v d = piece b c j d x + deriv (piece b c j d) x * (t - x) := by
  have hd : Known (option e) ∧ documentedOrder b.order (option e) = 2 := by
    have h2 : min 2 (b.order : ℤ) = 2 := by omega
    rcases he with rfl | rfl | rfl
    · exact ⟨by simp [Known, option], h2⟩
    · exact ⟨by simp [Known, option], h2⟩
    · exact ⟨trivial, h2⟩
  obtain ⟨rows, v, h1, h2, h3⟩ := outside_row hb times dim none e hd.1 (by rw [hd.2]; norm_num) i t x j hi hx
  refine ⟨rows, v, h1, h2, fun d => ?_⟩
  rw [h3 d, hd.2]
  simp [Finset.sum_range_succ]

/-- **C27** (what the code does for every order, including `'quadratic'`, `'cubic'` and `'spline'`): the factors
`1/q!` of the Taylor polynomial are missing. -/
theorem C27_actual_formula (hb : Proper b c) (times : List ℝ) (dim : Option ℕ) (e : Option Extrap)
    (hk : Known (option e)) (hpos : 0 < documentedOrder b.order (option e)) (i : ℕ) (t x : ℝ) (j : ℕ)
    (hi : times[i]? = some t) (hx : NearEnd b t x j) :
    ∃ rows v, b.synthCoeffs times dim none e = .ok (columns b dim, rows) ∧ rows[i]? = some (some v) ∧
      ∀ d, v d = ∑ q ∈ Finset.range (documentedOrder b.order (option e)).toNat,
        iteratedDeriv q (piece b c j d) x * (t - x) ^ q := by
  obtain ⟨rows, v, h1, h2, h3⟩ := outside_row hb times dim none e hk hpos i t x j hi hx
  refine ⟨rows, v, h1, h2, fun d => ?_⟩
  rw [h3 d]
  simp

/-- **C27** is false above linear: with `'quadratic'` extrapolation of a model of order at least 3, the value
is that of the Taylor polynomial of degree 2 only where the second derivative at the end vanishes. -/
theorem C27_above_linear (hb : Proper b c) (horder : 3 ≤ b.order) (times : List ℝ) (dim : Option ℕ) (i : ℕ) (t x : ℝ) (j : ℕ)
    (hi : times[i]? = some t) (hx : NearEnd b t x j) :
    ∃ rows v, b.synthCoeffs times dim none (some (.str "quadratic")) = .ok (columns b dim, rows) ∧
      rows[i]? = some (some v) ∧ ∀ d, (v d = taylor 3 (piece b c j d) x t ↔ iteratedDeriv 2 (piece b c j d) x = 0) := by
  have hd : documentedOrder b.order (.str "quadratic") = 3 := by
    show min 3 (b.order : ℤ) = 3
    omega
  obtain ⟨rows, v, h1, h2, h3⟩ := C27_actual_formula hb times dim (some (.str "quadratic")) (by simp [Known, option])
    (by rw [option, Option.getD_some, hd]; norm_num) i t x j hi hx
  refine ⟨rows, v, h1, h2, fun d => ?_⟩
  have htx : t - x ≠ 0 := by
    rcases hx with ⟨h, rfl, _⟩ | ⟨h, rfl, _⟩
    · exact sub_ne_zero.2 h.ne
    · exact sub_ne_zero.2 h.ne'
  rw [h3 d, option, Option.getD_some, hd]
  unfold taylor
  simp only [Int.reduceToNat, Finset.sum_range_succ, Finset.sum_range_zero, Nat.factorial]
  generalize iteratedDeriv 2 (piece b c j d) x = D
  have hsq : (t - x) ^ 2 ≠ 0 := pow_ne_zero 2 htx
  constructor
  · intro h
    have : D * (t - x) ^ 2 = 0 := by
      norm_num at h
      rcases h with h | h
      · have : D = 0 := by linarith
        rw [this, zero_mul]
      · exact absurd h htx
    rcases mul_eq_zero.1 this with h | h
    · exact h
    · exact absurd h hsq
  · rintro rfl
    norm_num

/-! ### Independence of the other times -/

/-- **C28.** Two calls with the same option return the same row for a time they share, unless a derivative at
the end point of the model is asked. -/
theorem C28_values_independent (hb : Proper b c) (times times' : List ℝ) (dim deriv : Option ℕ) (e : Option Extrap)
    (hk : Known (option e)) (i i' : ℕ) (t : ℝ) (hi : times[i]? = some t) (hi' : times'[i']? = some t)
    (h : dOrder deriv = 0 ∨ t ≠ last b.breaks) :
    ∃ rows rows' row, b.synthCoeffs times dim deriv e = .ok (columns b dim, rows) ∧
      b.synthCoeffs times' dim deriv e = .ok (columns b dim, rows') ∧
      rows[i]? = some row ∧ rows'[i']? = some row := by
  have hne : times ≠ [] := by rintro rfl; simp at hi
  have hne' : times' ≠ [] := by rintro rfl; simp at hi'
  rcases lt_or_ge t (first b.breaks) with hlt | hge
  · obtain ⟨j, hj⟩ := piece_exists b.breaks hb.len (first b.breaks) le_rfl hb.span.le
    rcases lt_or_ge 0 (documentedOrder b.order (option e)) with h0 | h0
    · obtain ⟨rows, v, a1, a2, a3⟩ := outside_row hb times dim deriv e hk h0 i t _ j hi (Or.inl ⟨hlt, rfl, hj⟩)
      obtain ⟨rows', v', b1, b2, b3⟩ := outside_row hb times' dim deriv e hk h0 i' t _ j hi' (Or.inl ⟨hlt, rfl, hj⟩)
      have : v = v' := funext fun d => (a3 d).trans (b3 d).symm
      exact ⟨rows, rows', some v, a1, b1, a2, this ▸ b2⟩
    · have r1 := rows_of_prepare (dim := dim) (deriv := deriv) hb (prepare_off hb times _ hne ⟨t, List.mem_of_getElem? hi, Or.inl hlt⟩ hk h0)
      have r2 := rows_of_prepare (dim := dim) (deriv := deriv) hb (prepare_off hb times' _ hne' ⟨t, List.mem_of_getElem? hi', Or.inl hlt⟩ hk h0)
      exact ⟨_, _, _, r1, r2, row_get hi, row_get hi'⟩
  · rcases lt_trichotomy t (last b.breaks) with hl | hl | hl
    · obtain ⟨j, hj⟩ := piece_exists b.breaks hb.len t hge hl.le
      obtain ⟨rows, a1, _, a3⟩ := C26_inside hb times dim deriv e hne (Or.inl hk)
      obtain ⟨rows', b1, _, b3⟩ := C26_inside hb times' dim deriv e hne' (Or.inl hk)
      obtain ⟨v, va, vb⟩ := a3 i t j hi hj hl
      obtain ⟨v', va', vb'⟩ := b3 i' t j hi' hj hl
      have : v = v' := funext fun d => (vb d).trans (vb' d).symm
      exact ⟨rows, rows', some v, a1, b1, va, this ▸ va'⟩
    · have h0 : dOrder deriv = 0 := h.resolve_right (fun hc => hc hl)
      subst hl
      obtain ⟨rows, v, a1, a2, a3⟩ := C26_end hb times dim deriv e (Or.inl hk) (Or.inl h0) i hi
      obtain ⟨rows', v', b1, b2, b3⟩ := C26_end hb times' dim deriv e (Or.inl hk) (Or.inl h0) i' hi'
      have : v = v' := funext fun d => (a3 d).trans (b3 d).symm
      exact ⟨rows, rows', some v, a1, b1, a2, this ▸ b2⟩
    · rcases lt_or_ge 0 (documentedOrder b.order (option e)) with h0 | h0
      · obtain ⟨rows, v, a1, a2, a3⟩ := outside_row hb times dim deriv e hk h0 i t _ _ hi (Or.inr ⟨hl, rfl, rfl⟩)
        obtain ⟨rows', v', b1, b2, b3⟩ := outside_row hb times' dim deriv e hk h0 i' t _ _ hi' (Or.inr ⟨hl, rfl, rfl⟩)
        have : v = v' := funext fun d => (a3 d).trans (b3 d).symm
        exact ⟨rows, rows', some v, a1, b1, a2, this ▸ b2⟩
      · have r1 := rows_of_prepare (dim := dim) (deriv := deriv) hb (prepare_off hb times _ hne ⟨t, List.mem_of_getElem? hi, Or.inr hl⟩ hk h0)
        have r2 := rows_of_prepare (dim := dim) (deriv := deriv) hb (prepare_off hb times' _ hne' ⟨t, List.mem_of_getElem? hi', Or.inr hl⟩ hk h0)
        exact ⟨_, _, _, r1, r2, row_get hi, row_get hi'⟩

/-- **C28** at the end point (the excluded case): a derivative at the end of the model is the one of the last
piece if all times are inside, but comes from the extrapolating polynomial (factors `q!`, zero from the
extrapolation order on) as soon as another time of the call is outside. -/
theorem C28_derivative_at_end (hb : Proper b c) (times : List ℝ) (dim deriv : Option ℕ) (e : Option Extrap)
    (hk : Known (option e)) (hpos : 0 < documentedOrder b.order (option e)) (hout : Outside b times) (i : ℕ)
    (hi : times[i]? = some (last b.breaks)) :
    ∃ rows v, b.synthCoeffs times dim deriv e = .ok (columns b dim, rows) ∧ rows[i]? = some (some v) ∧
      ∀ d, v d = (if (dOrder deriv : ℤ) < documentedOrder b.order (option e) then
        ((dOrder deriv).factorial : ℝ) *
          iteratedDeriv (dOrder deriv) (piece b c (b.breaks.length - 2) d) (last b.breaks) * (365.25 : ℝ) ^ dOrder deriv
        else 0) := by
  have hne : times ≠ [] := by rintro rfl; simp at hi
  refine ⟨_, _, rows_of_prepare hb (prepare_on hb times _ hne hout hk hpos), (row_get hi).trans ?_, fun d => rfl⟩
  simp only
  rw [ppExt_right hb _ _ _ (documentedOrder_le _ _) le_rfl]
  simp only [Option.map_some]
  congr 2
  funext d
  generalize hK : documentedOrder b.order (option e) = K at *
  have hsum := evalPoly_iteratedDeriv K.toNat (fun i => iteratedDeriv (K.toNat - 1 - i) (piece b c (b.breaks.length - 2) d) (last b.breaks))
    (dOrder deriv) (last b.breaks) (last b.breaks)
  have e1 : (fun s => ∑ q ∈ Finset.range K.toNat, iteratedDeriv q (piece b c (b.breaks.length - 2) d) (last b.breaks) * (s - last b.breaks) ^ q) =
      fun t => ∑ p ∈ Finset.range K.toNat, (fun i => iteratedDeriv (K.toNat - 1 - i) (piece b c (b.breaks.length - 2) d) (last b.breaks)) (K.toNat - 1 - p) * (t - last b.breaks) ^ p := by
    funext s
    apply Finset.sum_congr rfl
    intro q hq
    rw [Finset.mem_range] at hq
    simp only
    rw [show K.toNat - 1 - (K.toNat - 1 - q) = q by omega]
  rw [e1, hsum]
  unfold evalPoly
  by_cases h : (dOrder deriv : ℤ) < K
  · rw [if_pos h, Finset.sum_eq_single (dOrder deriv)]
    · simp only
      rw [if_pos le_rfl, Nat.sub_self, pow_zero, mul_one, Nat.descFactorial_self,
        show K.toNat - 1 - (K.toNat - 1 - dOrder deriv) = dOrder deriv by omega]
      ring
    · intro q _ hq
      by_cases hq' : dOrder deriv ≤ q
      · rw [if_pos hq', sub_self, zero_pow (by omega), mul_zero]
      · rw [if_neg hq']
    · intro hc
      exact absurd (Finset.mem_range.2 (by omega)) hc
  · rw [if_neg h]
    rw [Finset.sum_eq_zero, zero_mul]
    intro q hq
    rw [Finset.mem_range] at hq
    rw [if_neg (by omega)]

end

/-! ### Static models -/

/-- **C27** (static model: one break point, order 1): every time, inside or outside, gets the stored values for
every option that extrapolates. -/
theorem C27_static (a : ℝ) (order : Option ℕ) (horder : order ≠ some 0) (dim : ℕ) (hdim : 0 < dim) (c : ℕ → ℕ → ℕ → ℝ)
    (times : List ℝ) (hne : times ≠ []) (deriv : Option ℕ) (e : Option Extrap) (hk : Known (option e))
    (hpos : 0 < documentedOrder 1 (option e)) :
    (Base.init [a] order 1 dim c).synthCoeffs times none deriv e =
      .ok (dim, times.map fun _ => some fun d => if dOrder deriv = 0 then c 0 0 d else 0) := by
  have hinit : Base.init [a] order 1 dim c = { breaks := [a, a], order := 1, dim := dim, coeffs := some c } := by
    rcases order with _ | o
    · simp [Base.init]
    · have : o ≠ 0 := fun h => horder (by rw [h])
      have : min o 1 = 1 := by omega
      simp [Base.init, this]
  rw [hinit]
  generalize hb : ({ breaks := [a, a], order := 1, dim := dim, coeffs := some c } : Base) = b
  have hK : documentedOrder 1 (option e) = 1 := by
    have := documentedOrder_le 1 (option e)
    omega
  have hf : first [a, a] = a := rfl
  have hl : last [a, a] = a := rfl
  -- evaluation of one-row polynomials
  have hev : ∀ (x : List ℝ) (c' : ℕ → ℕ → ℕ → ℝ) (t : ℝ) (nu : ℕ),
      (∀ j d, findInterval x true t = some j → c' 0 j d = c 0 0 d) →
      ({ k := 1, x := x, c := c' } : PP).eval true nu t = some fun d => if nu = 0 then c 0 0 d else 0 := by
    intro x c' t nu hc
    unfold PP.eval
    have : ∃ j, findInterval x true t = some j := by
      unfold findInterval
      split_ifs <;> simp_all
    obtain ⟨j, hj⟩ := this
    simp only [hj, Option.map_some]
    congr 1
    funext d
    unfold evalPoly
    rcases Nat.eq_zero_or_pos nu with rfl | h0
    · simp [hc j d hj]
    · rw [if_neg (by omega)]
      simp
      omega
  have hfi : ∀ t j, findInterval [a, a] true t = some j → j = 0 := by
    intro t j
    unfold findInterval
    rw [hf, hl]
    rcases lt_trichotomy t a with h | h | h
    · rw [if_pos h]; simp; omega
    · subst h; simp; omega
    · rw [if_neg (not_lt.2 h.le), if_pos h]; simp; omega
  have hbase : ∀ t nu, ({ k := 1, x := [a, a], c := c } : PP).eval true nu t = some fun d => if nu = 0 then c 0 0 d else 0 :=
    fun t nu => hev _ _ t nu fun j d hj => by rw [hfi t j hj]
  have hprep : ∃ x c', prepare b c times (option e) = .ok ({ k := 1, x := x, c := c' }, true) ∧
      ∀ t nu, ({ k := 1, x := x, c := c' } : PP).eval true nu t = some fun d => if nu = 0 then c 0 0 d else 0 := by
    obtain ⟨lo, hi, ha, hiff⟩ := aminmax_outside times a a hne
    unfold prepare
    subst hb
    simp only [ha, bind, Except.bind, hf, hl]
    by_cases hout : lo < a ∨ hi > a
    · rw [if_pos hout, extrapKey_known _ _ hk, hK]
      simp only [if_pos (show (1 : ℤ) > 0 by norm_num), Int.reduceToNat]
      have hbin : ∀ (x : List ℝ) (c' : ℕ → ℕ → ℕ → ℝ), (∀ t nu, ({ k := 1, x := x, c := c' } : PP).eval true nu t = some fun d => if nu = 0 then c 0 0 d else 0) →
          ∀ d, extensionBin { k := 1, x := x, c := c' } 1 a 0 d = c 0 0 d := by
        intro x c' h d
        unfold extensionBin
        simp only [h]
        simp
      have s1 : extendSide { k := 1, x := [a, a], c := c } 1 a = .ok { k := 1, x := [a, a, a], c := fun i j d => if j < 1 then c i j d else extensionBin { k := 1, x := [a, a], c := c } 1 a i d } := by
        unfold extendSide PP.extend
        rw [if_pos (show a ≥ last [a, a] from le_rfl)]
        rfl
      rw [s1]
      simp only
      have e1 : ∀ t nu, ({ k := 1, x := [a, a, a], c := fun i j d => if j < 1 then c i j d else extensionBin { k := 1, x := [a, a], c := c } 1 a i d } : PP).eval true nu t = some fun d => if nu = 0 then c 0 0 d else 0 := by
        intro t nu
        apply hev
        intro j d _
        by_cases hj : j < 1
        · rw [if_pos hj, show j = 0 by omega]
        · rw [if_neg hj]
          exact hbin _ _ hbase d
      generalize hp1 : (fun (i j d : ℕ) => if j < 1 then c i j d else extensionBin { k := 1, x := [a, a], c := c } 1 a i d) = c1 at *
      have s2 : extendSide { k := 1, x := [a, a, a], c := c1 } 1 a = .ok { k := 1, x := [a, a, a, a], c := fun i j d => if j < 2 then c1 i j d else extensionBin { k := 1, x := [a, a, a], c := c1 } 1 a i d } := by
        unfold extendSide PP.extend
        rw [if_pos (show a ≥ last [a, a, a] from le_rfl)]
        rfl
      rw [s2]
      refine ⟨_, _, rfl, ?_⟩
      intro t nu
      apply hev
      intro j d _
      by_cases hj : j < 2
      · rw [if_pos hj, ← hp1]
        simp only
        by_cases hj : j < 1
        · rw [if_pos hj, show j = 0 by omega]
        · rw [if_neg hj]
          exact hbin _ _ hbase d
      · rw [if_neg hj]
        exact hbin _ _ e1 d
    · rw [if_neg hout]
      exact ⟨[a, a], c, rfl, hbase⟩
  obtain ⟨x, c', hprep, hval⟩ := hprep
  subst hb
  unfold Base.synthCoeffs
  simp only
  rw [if_neg (by simp; omega)]
  rw [show e.getD (.str "linear") = option e from rfl, hprep]
  simp only [bind, Except.bind, pure, Except.pure]
  congr 2
  congr 1
  funext t
  rw [derivative_eval, hval]
  simp only [Option.map_some]
  congr 1
  funext d
  split_ifs with h
  · have : deriv.getD 0 = 0 := h
    rw [this]; simp
  · exact zero_mul _

/-! ### Truncation -/

/-- **C29.** Truncation only changes the number of columns: with `nmax` the result has `nmax * (nmax + 2)` columns
(at most all), and the values are those of the full evaluation. This holds for every model, proper or not. -/
theorem C29_truncation (b : Base) (times : List ℝ) (nmax deriv : Option ℕ) (e : Option Extrap) (n : ℕ)
    (rows : List (Option (ℕ → ℝ))) (h : modelSynthCoeffs b times none deriv e = .ok (n, rows)) :
    n = b.dim ∧ modelSynthCoeffs b times nmax deriv e =
      .ok (match nmax with | none => b.dim | some N => min (N * (N + 2)) b.dim, rows) := by
  unfold modelSynthCoeffs Base.synthCoeffs at *
  cases hc : b.coeffs with
  | none => rw [hc] at h; exact absurd h (by simp)
  | some c =>
    rw [hc] at h
    simp only at h ⊢
    split_ifs at h with h0
    rw [if_neg h0]
    simp only [bind, Except.bind, pure, Except.pure, Option.map_none] at h ⊢
    cases hp : prepare b c times (e.getD (.str "linear")) with
    | error z => rw [hp] at h; exact absurd h (by simp)
    | ok r =>
      rw [hp] at h
      simp only [Except.ok.injEq, Prod.mk.injEq] at h ⊢
      refine ⟨h.1.symm, ?_, h.2⟩
      cases nmax with
      | none => rfl
      | some N =>
        simp only [Option.map_some]
        split_ifs with hN
        · rw [min_eq_right (by omega)]
        · rw [min_eq_left (by omega)]

/-- **C29** (errors): a model without coefficients raises a `ValueError` for every call. -/
theorem C29_missing (b : Base) (times : List ℝ) (nmax deriv : Option ℕ) (e : Option Extrap)
    (h : b.coeffs = none ∨ b.order = 0 ∨ b.breaks.length ≤ 1 ∨ b.dim = 0) :
    modelSynthCoeffs b times nmax deriv e = .error .valueError := by
  unfold modelSynthCoeffs Base.synthCoeffs
  cases hc : b.coeffs with
  | none => rfl
  | some c =>
    simp only
    rw [if_pos]
    rcases h with h | h
    · rw [hc] at h; exact absurd h (by simp)
    · exact h

/-! ### MAT-file layout -/

/-- **C30.** Writing the coefficients to the two-dimensional array of the MAT-file and reshaping it on loading
gives back every coefficient. -/
theorem C30_roundtrip (dim : ℕ) (c : ℕ → ℕ → ℕ → ℝ) (i j d : ℕ) (hd : d < dim) :
    fromPPCoefs dim (toPPCoefs dim c) i j d = c i j d := by
  unfold fromPPCoefs toPPCoefs
  have h1 : (j * dim + d) / dim = j := by
    rw [Nat.mul_comm, Nat.mul_add_div (by omega), Nat.div_eq_of_lt hd, Nat.add_zero]
  have h2 : (j * dim + d) % dim = d := by
    rw [Nat.mul_comm, Nat.mul_add_mod, Nat.mod_eq_of_lt hd]
  rw [h1, h2]

/-- **C30** (the other direction): loading a valid MAT-file array (`pieces * dim` rows) and writing it again
gives back every entry. -/
theorem C30_roundtrip_file (dim pieces : ℕ) (m : ℕ → ℕ → ℝ) (a i : ℕ) (ha : a < pieces * dim) :
    toPPCoefs dim (fromPPCoefs dim m) a i = m a i ∧ a / dim < pieces ∧ a % dim < dim := by
  have hd : 0 < dim := by
    rcases Nat.eq_zero_or_pos dim with rfl | h
    · simp at ha
    · exact h
  refine ⟨?_, (Nat.div_lt_iff_lt_mul hd).2 ha, Nat.mod_lt _ hd⟩
  unfold fromPPCoefs toPPCoefs
  simp only
  rw [Nat.div_add_mod']

/-! ### A concrete model: break points 0, 1, 3, order 3, three coefficients, all equal to the square of the
time since the start of the piece. -/

/-- Coefficients of the example. -/
def exC : ℕ → ℕ → ℕ → ℝ := fun i _ _ => if i = 0 then 1 else 0

/-- The example model. -/
def exModel : Base := { breaks := [0, 1, 3], order := 3, dim := 3, coeffs := some exC }

theorem exProper : Proper exModel exC where
  coeffs := rfl
  order := by norm_num [exModel]
  dim := by norm_num [exModel]
  sorted := by
    intro i j hij hj
    simp only [exModel, List.length_cons, List.length_nil] at hj
    interval_cases j <;> interval_cases i <;> norm_num [exModel]
  span := by norm_num [exModel, first, last]

theorem exPiece (t : ℝ) : piece exModel exC 1 0 t = (t - 1) ^ 2 := by
  simp [piece, poly, exModel, exC, Finset.sum_range_succ]

/-- Times inside, at the end and outside in one call: hypotheses of `C26_inside`, `C26_end`, `C28_values_independent`. -/
theorem ex_outside : Outside exModel [0.5, 2, 3, 4] ∧ IsPiece exModel.breaks 1 2 ∧ (2 : ℝ) < last exModel.breaks ∧
    Known (option none) ∧ last exModel.breaks = 3 ∧ documentedOrder exModel.order (option none) = 2 ∧
    NearEnd exModel 4 3 1 := by
  refine ⟨⟨4, by simp, Or.inr (by norm_num [exModel, last])⟩, ⟨by norm_num [exModel], Or.inl (by norm_num [exModel])⟩,
    by norm_num [exModel, last], by simp [Known, option], rfl, rfl, Or.inr ⟨by norm_num [exModel, last], rfl, rfl⟩⟩

/-- **C27**, witness: quadratic extrapolation of `(t-1)^2` from `t = 3` to `t = 4` gives `4 + 4 + 2 = 10`, not `9`. -/
theorem C27_quadratic_witness :
    ∃ rows v, exModel.synthCoeffs [4] none none (some (.str "quadratic")) = .ok (3, rows) ∧ rows[0]? = some (some v) ∧
      v 0 = 10 ∧ piece exModel exC 1 0 4 = 9 := by
  obtain ⟨rows, v, h1, h2, h3⟩ := C27_actual_formula exProper [4] none (some (.str "quadratic")) (by simp [Known, option])
    (by show (0 : ℤ) < min 3 ((3 : ℕ) : ℤ); norm_num) 0 4 3 1 rfl (Or.inr ⟨by norm_num [exModel, last], rfl, rfl⟩)
  refine ⟨rows, v, h1, h2, ?_, by rw [exPiece]; norm_num⟩
  rw [h3 0, show (documentedOrder exModel.order (option (some (.str "quadratic")))).toNat = 3 from rfl]
  have hq : ∀ q, iteratedDeriv q (piece exModel exC 1 0) 3 = evalPoly 3 (fun i => exC i 1 0) q (3 - 1) := by
    intro q
    rw [← evalPoly_iteratedDeriv 3 (fun i => exC i 1 0) q 1 3]
    rfl
  simp only [hq]
  norm_num [Finset.sum_range_succ, evalPoly, exC, Nat.descFactorial]

/-- **C28**, witness: with the default option the second derivative at the end point is `2 * 365.25^2` in a call
by itself and `0` if a later time is in the call. -/
theorem C28_witness :
    (∃ rows v, exModel.synthCoeffs [3] none (some 2) none = .ok (3, rows) ∧ rows[0]? = some (some v) ∧ v 0 = 2 * (365.25 : ℝ) ^ 2) ∧
    (∃ rows v, exModel.synthCoeffs [3, 4] none (some 2) none = .ok (3, rows) ∧ rows[0]? = some (some v) ∧ v 0 = 0) := by
  constructor
  · obtain ⟨rows, v, h1, h2, h3⟩ := C26_end exProper [3] none (some 2) none (Or.inl (by simp [Known, option]))
      (Or.inr (by rintro ⟨t, ht, h⟩; simp at ht; subst ht; norm_num [exModel, first, last] at h)) 0 rfl
    refine ⟨rows, v, h1, h2, ?_⟩
    rw [h3 0]
    have hq : iteratedDeriv 2 (piece exModel exC 1 0) 3 = evalPoly 3 (fun i => exC i 1 0) 2 (3 - 1) := by
      rw [← evalPoly_iteratedDeriv 3 (fun i => exC i 1 0) 2 1 3]
      rfl
    show iteratedDeriv 2 (piece exModel exC 1 0) 3 * 365.25 ^ 2 = _
    rw [hq]
    norm_num [Finset.sum_range_succ, evalPoly, exC, Nat.descFactorial]
  · obtain ⟨rows, v, h1, h2, h3⟩ := C28_derivative_at_end exProper [3, 4] none (some 2) none (by simp [Known, option])
      (by show (0 : ℤ) < min 2 ((3 : ℕ) : ℤ); norm_num) ⟨4, by simp, Or.inr (by norm_num [exModel, last])⟩ 0 rfl
    refine ⟨rows, v, h1, h2, ?_⟩
    rw [h3 0, if_neg]
    show ¬ ((2 : ℕ) : ℤ) < min 2 ((3 : ℕ) : ℤ)
    norm_num

/-- Hypotheses of `C29_truncation`: a successful call. -/
example : ∃ n rows, modelSynthCoeffs exModel [2] none none none = .ok (n, rows) := by
  obtain ⟨rows, h, _⟩ := C26_inside exProper [2] none none none (by simp) (Or.inl (by simp [Known, option]))
  exact ⟨_, rows, h⟩

end ChaosMagPy.PPoly
