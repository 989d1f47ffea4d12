import Verif.Lemmas.QResponse
import Mathlib.MeasureTheory.Integral.DivergenceTheorem
import Mathlib.Analysis.SpecialFunctions.Log.Deriv
/-!
# Solutions of the induction equation in a layered sphere
-/
namespace ChaosMagPy.QResponse
open Complex Filter Topology
open ChaosMagPy.Spec (GoodLayers conductivity InductionSolution)

/-- Power of a positive number. -/
noncomputable def pw (e : ℂ) (r : ℝ) : ℂ := Complex.exp (e * (Real.log r : ℝ))

theorem pw_ne (e : ℂ) (r : ℝ) : pw e r ≠ 0 := Complex.exp_ne_zero _

theorem pw_add (e f : ℂ) (r : ℝ) : pw (e + f) r = pw e r * pw f r := by
  unfold pw
  rw [← Complex.exp_add]
  congr 1
  ring

theorem hasDeriv_pw (e : ℂ) {r : ℝ} (hr : r ≠ 0) : HasDerivAt (pw e) (e / r * pw e r) r := by
  have h1 : HasDerivAt (fun x : ℝ => ((Real.log x : ℝ) : ℂ)) ((r⁻¹ : ℝ) : ℂ) r := (Real.hasDerivAt_log hr).ofReal_comp
  have h2 := (h1.const_mul e).cexp
  refine h2.congr_deriv ?_
  unfold pw
  push_cast
  ring

/-- A first integral of the equation `u'' = (b^2 - 1/4)/r^2 u`. -/
noncomputable def first (b : ℂ) (u du : ℝ → ℂ) (r : ℝ) : ℂ := pw (b - 1 / 2) r * (b * u r - (r * du r - u r / 2))

theorem hasDeriv_first (b : ℂ) (u du : ℝ → ℂ) {r : ℝ} (hr : r ≠ 0) (h1 : HasDerivAt u (du r) r)
    (h2 : HasDerivAt du ((b ^ 2 - 1 / 4) / (r : ℂ) ^ 2 * u r) r) : HasDerivAt (first b u du) 0 r := by
  have hrc : (r : ℂ) ≠ 0 := by exact_mod_cast hr
  have hid : HasDerivAt (fun x : ℝ => (x : ℂ)) 1 r := by simpa using (hasDerivAt_id r).ofReal_comp
  have h := (hasDeriv_pw (b - 1 / 2) hr).mul ((h1.const_mul b).sub ((hid.mul h2).sub (h1.div_const 2)))
  refine h.congr_deriv ?_
  simp only [Pi.sub_apply, Pi.mul_apply]
  field_simp
  ring

/-- On an interval where the equation holds up to finitely many points it is constant. -/
theorem first_const (b : ℂ) (u du : ℝ → ℂ) {r1 r2 : ℝ} (h0 : 0 < r1) (h12 : r1 ≤ r2) (S : Set ℝ) (hS : S.Finite)
    (hu : ∀ r ∈ Set.Icc r1 r2, HasDerivWithinAt u (du r) (Set.Icc r1 r2) r) (hdu : ContinuousOn du (Set.Icc r1 r2))
    (heq : ∀ r, r1 < r → r < r2 → r ∉ S → HasDerivAt du ((b ^ 2 - 1 / 4) / (r : ℂ) ^ 2 * u r) r) :
    first b u du r2 = first b u du r1 := by
  have hcu : ContinuousOn u (Set.Icc r1 r2) := fun r hr => (hu r hr).continuousWithinAt
  have hpw : ContinuousOn (pw (b - 1 / 2)) (Set.Icc r1 r2) := fun r hr =>
    (hasDeriv_pw (b - 1 / 2) (by have := hr.1; intro h; linarith : r ≠ 0)).continuousAt.continuousWithinAt
  have hc : ContinuousOn (first b u du) (Set.Icc r1 r2) := by
    unfold first
    exact hpw.mul ((continuousOn_const.mul hcu).sub ((Complex.continuous_ofReal.continuousOn.mul hdu).sub (hcu.div_const 2)))
  have := MeasureTheory.integral_eq_of_hasDerivAt_off_countable_of_le (first b u du) (fun _ => 0) h12 hS.countable hc (fun x hx => by
    have hx1 := hx.1
    refine hasDeriv_first b u du (by intro h; linarith [hx1.1]) ((hu x ⟨hx1.1.le, hx1.2.le⟩).hasDerivAt (Icc_mem_nhds hx1.1 hx1.2)) (heq x hx1.1 hx1.2 hx.2))
    (by simp)
  simp only [intervalIntegral.integral_zero] at this
  exact (sub_eq_zero.1 this.symm)

/-! ### Restriction to the layers below -/

theorem conductivity_below {s a s' a' : ℝ} {ls : List (ℝ × ℝ)} {r : ℝ} (h : r ≤ a') :
    conductivity ((s, a) :: (s', a') :: ls) r = conductivity ((s', a') :: ls) r := by
  simp only [conductivity, if_pos h]

theorem conductivity_above {s a s' a' : ℝ} {ls : List (ℝ × ℝ)} {r : ℝ} (h : a' < r) :
    conductivity ((s, a) :: (s', a') :: ls) r = s * (a / r) ^ 2 := by
  simp only [conductivity, if_neg (not_le.2 h)]

theorem solution_tail {n : ℕ} {w m s a s' a' : ℝ} {ls : List (ℝ × ℝ)} (hlt : a' < a) {u du : ℝ → ℂ}
    (h : InductionSolution n w m (conductivity ((s, a) :: (s', a') :: ls)) a u du) :
    InductionSolution n w m (conductivity ((s', a') :: ls)) a' u du := by
  obtain ⟨h1, h2, ⟨S, hS, h3⟩, h4⟩ := h
  refine ⟨fun r hr hr' => (h1 r hr (hr'.trans hlt.le)).mono (Set.Iic_subset_Iic.2 hlt.le),
    h2.mono (Set.Ioc_subset_Ioc_right hlt.le), ⟨S, hS, fun r hr hr' hrs => ?_⟩, h4⟩
  have := h3 r hr (hr'.trans hlt) hrs
  rwa [conductivity_below hr'.le] at this

/-- The equation in a layer in terms of the exponent. -/
theorem layer_coefficient (n : ℕ) {T s a r : ℝ} (hT : 0 < T) (hs : 0 ≤ s) (hr : r ≠ 0) :
    (n : ℂ) * (n + 1) / (r : ℂ) ^ 2 + Complex.I * angFreq T * mu * ((s * (a / r) ^ 2 : ℝ) : ℂ) = ((bk n T s a) ^ 2 - 1 / 4) / (r : ℂ) ^ 2 := by
  have hrc : (r : ℂ) ≠ 0 := by exact_mod_cast hr
  rw [(bk_spec n a hT hs).1]
  push_cast
  field_simp
  ring

/-- Every regular solution in the innermost layer is proportional to the power `1/2 + b`. -/
theorem core_solution {n : ℕ} (hn : 1 ≤ n) {T s a : ℝ} (hT : 0 < T) (hs : 0 ≤ s) (ha : 0 < a) {u du : ℝ → ℂ}
    (h : InductionSolution n (angFreq T) mu (conductivity [(s, a)]) a u du) : (a : ℂ) * du a - u a / 2 = bk n T s a * u a := by
  obtain ⟨h1, h2, ⟨S, hS, h3⟩, ⟨M, d, hd, h4⟩⟩ := h
  set b := bk n T s a with hbdef
  obtain ⟨-, hbre, hb3, hb4⟩ := bk_spec n a hT hs
  have hreg := root_region b (half n) (half_pos n) hbre hb3 hb4
  have hbhalf : 1 < b.re := by
    have : (1 : ℝ) ≤ n := by exact_mod_cast hn
    have := hreg.1
    unfold half at this
    linarith
  have hconst : ∀ (e : ℂ), e ^ 2 = b ^ 2 → ∀ r, 0 < r → r ≤ a → first e u du a = first e u du r := by
    intro e he r hr hra
    refine first_const e u du hr hra S hS (fun x hx => (h1 x (hr.trans_le hx.1) hx.2).mono (fun y hy => hy.2))
      (h2.mono (fun y hy => ⟨hr.trans_le hy.1, hy.2⟩)) (fun x hx hx' hxS => ?_)
    have := h3 x (hr.trans hx) hx' hxS
    rw [he]
    rwa [show conductivity [(s, a)] x = s * (a / x) ^ 2 from rfl, layer_coefficient n hT hs (hr.trans hx).ne'] at this
  -- the first integral with exponent b vanishes
  have hF : first b u du a = 0 := by
    have hb1 := hconst b rfl
    have hb2 := hconst (-b) (by ring)
    have hexp : ∀ r, 0 < r → r ≤ a → first b u du a = pw (b - 1 / 2) r * (2 * b * u r) + pw (2 * b) r * first (-b) u du a := by
      intro r hr hra
      rw [hb1 r hr hra, hb2 r hr hra]
      unfold first
      have : pw (2 * b) r * pw (-b - 1 / 2) r = pw (b - 1 / 2) r := by
        rw [← pw_add]; congr 1; ring
      linear_combination (-(-b * u r - (r * du r - u r / 2))) * this
    have hpwn : ∀ (e : ℂ) (r : ℝ), ‖pw e r‖ = Real.exp (e.re * Real.log r) := by
      intro e r
      unfold pw
      rw [Complex.norm_exp, Complex.re_mul_ofReal]
    set K := ‖2 * b‖ * |M| + ‖first (-b) u du a‖
    have hbound : ∀ᶠ r in 𝓝[>] (0 : ℝ), ‖first b u du a‖ ≤ Real.exp ((1 / 2) * Real.log r) * K := by
      have hmem : Set.Ioo (0 : ℝ) (min (min d a) 1) ∈ 𝓝[>] (0 : ℝ) := Ioo_mem_nhdsGT (by
        refine lt_min (lt_min hd ha) one_pos)
      filter_upwards [hmem] with r hr
      have hrd : r < d := lt_of_lt_of_le hr.2 ((min_le_left _ _).trans (min_le_left _ _))
      have hra : r < a := lt_of_lt_of_le hr.2 ((min_le_left _ _).trans (min_le_right _ _))
      have hr1 : r < 1 := lt_of_lt_of_le hr.2 (min_le_right _ _)
      have hlog : Real.log r < 0 := Real.log_neg hr.1 hr1
      rw [hexp r hr.1 hra.le]
      refine (norm_add_le _ _).trans ?_
      rw [norm_mul, norm_mul (pw (2 * b) r), hpwn, hpwn, norm_mul (2 * b)]
      have e1 : Real.exp ((b - 1 / 2).re * Real.log r) ≤ Real.exp ((1 / 2) * Real.log r) := by
        rw [Real.exp_le_exp]
        apply mul_le_mul_of_nonpos_right _ hlog.le
        simp
        linarith
      have e2 : Real.exp ((2 * b).re * Real.log r) ≤ Real.exp ((1 / 2) * Real.log r) := by
        rw [Real.exp_le_exp]
        apply mul_le_mul_of_nonpos_right _ hlog.le
        simp
        linarith
      have e3 : ‖u r‖ ≤ |M| := (h4 r hr.1 hrd).trans (le_abs_self M)
      have e4 : ‖2 * b‖ * ‖u r‖ ≤ ‖2 * b‖ * |M| := mul_le_mul_of_nonneg_left e3 (norm_nonneg _)
      calc _ ≤ Real.exp ((1 / 2) * Real.log r) * (‖2 * b‖ * |M|) + Real.exp ((1 / 2) * Real.log r) * ‖first (-b) u du a‖ := by
            refine add_le_add (mul_le_mul e1 e4 (by positivity) (by positivity)) (mul_le_mul_of_nonneg_right e2 (norm_nonneg _))
        _ = _ := by simp only [K]; ring
    have hlim : Tendsto (fun r : ℝ => Real.exp ((1 / 2) * Real.log r) * K) (𝓝[>] 0) (𝓝 0) := by
      have h5 : Tendsto (fun r : ℝ => (1 / 2) * Real.log r) (𝓝[>] 0) atBot := Real.tendsto_log_nhdsGT_zero.const_mul_atBot (by norm_num)
      have h6 := (Real.tendsto_exp_atBot.comp h5).mul_const K
      simpa using h6
    have := ge_of_tendsto hlim hbound
    exact norm_le_zero_iff.1 this
  unfold first at hF
  rcases mul_eq_zero.1 hF with hc | hc
  · exact absurd hc (pw_ne _ _)
  · linear_combination -hc

/-- Transport through a layer. -/
theorem layer_solution {n : ℕ} {T s a s' a' : ℝ} {ls : List (ℝ × ℝ)} (hT : 0 < T) (hs : 0 ≤ s) (ha' : 0 < a') (hlt : a' < a) {u du : ℝ → ℂ}
    (h : InductionSolution n (angFreq T) mu (conductivity ((s, a) :: (s', a') :: ls)) a u du) (p : ℂ) (hp : half n ≤ p.re) (hp' : 0 ≤ p.im)
    (hrel : (a' : ℂ) * du a' - u a' / 2 = p * u a') :
    (a : ℂ) * du a - u a / 2 = dvFun (bk n T s a) p (Real.log (a / a')) / vFun (bk n T s a) p (Real.log (a / a')) * u a ∧ (u a' ≠ 0 → u a ≠ 0) := by
  obtain ⟨h1, h2, ⟨S, hS, h3⟩, -⟩ := h
  have hb := bk_ne n a hT hs
  obtain ⟨-, hbre, hb3, hb4⟩ := bk_spec n a hT hs
  have ha : 0 < a := ha'.trans hlt
  have hL : 0 ≤ Real.log (a / a') := Real.log_nonneg (by rw [le_div_iff₀ ha']; linarith)
  have hv := (energy _ p (half n) (half_pos n) hb hb3 hb4 hp hp' _ hL).1
  set b := bk n T s a with hbdef
  have hconst : ∀ (e : ℂ), e ^ 2 = b ^ 2 → first e u du a = first e u du a' := by
    intro e he
    refine first_const e u du ha' hlt.le S hS (fun x hx => (h1 x (ha'.trans_le hx.1) hx.2).mono (fun y hy => hy.2))
      (h2.mono (fun y hy => ⟨ha'.trans_le hy.1, hy.2⟩)) (fun x hx hx' hxS => ?_)
    have := h3 x (ha'.trans hx) hx' hxS
    rw [he]
    rwa [conductivity_above hx, layer_coefficient n hT hs (ha'.trans hx).ne'] at this
  have hF := hconst b rfl
  have hG := hconst (-b) (by ring)
  have hlog : Real.log (a / a') = Real.log a - Real.log a' := Real.log_div ha.ne' ha'.ne'
  -- growth of the first integrals
  set L := Real.log (a / a') with hLdef
  set R := Complex.exp ((1 / 2 : ℂ) * (L : ℂ)) with hR
  have hRne : R ≠ 0 := Complex.exp_ne_zero _
  have hq1 : pw (b - 1 / 2) a = pw (b - 1 / 2) a' * (Complex.exp (b * L) / R) := by
    unfold pw
    rw [hR, ← Complex.exp_sub, ← Complex.exp_add, hlog]
    congr 1
    push_cast
    ring
  have hq2 : pw (-b - 1 / 2) a = pw (-b - 1 / 2) a' * (Complex.exp (-(b * L)) / R) := by
    unfold pw
    rw [hR, ← Complex.exp_sub, ← Complex.exp_add, hlog]
    congr 1
    push_cast
    ring
  unfold first at hF hG
  rw [hq1, mul_assoc] at hF
  rw [hq2, mul_assoc] at hG
  have hF := mul_left_cancel₀ (pw_ne _ _) hF
  have hG := mul_left_cancel₀ (pw_ne _ _) hG
  rw [hrel] at hF hG
  set E := Complex.exp (b * L) with hE
  have hEne : E ≠ 0 := Complex.exp_ne_zero _
  have hEinv : Complex.exp (-(b * L)) = E⁻¹ := by rw [hE, Complex.exp_neg]
  rw [hEinv] at hG
  have hF' : b * u a - (a * du a - u a / 2) = R * E⁻¹ * ((b - p) * u a') := by
    field_simp at hF ⊢
    linear_combination hF
  have hG' : b * u a + (a * du a - u a / 2) = R * E * ((b + p) * u a') := by
    field_simp at hG ⊢
    linear_combination -hG
  have hua : u a = R * u a' * vFun b p L := by
    unfold vFun
    rw [Complex.cosh, Complex.sinh, hEinv, ← hE]
    have : 2 * b * u a = R * E⁻¹ * ((b - p) * u a') + R * E * ((b + p) * u a') := by linear_combination hF' + hG'
    field_simp at this ⊢
    linear_combination this
  have hya : a * du a - u a / 2 = R * u a' * dvFun b p L := by
    unfold dvFun
    rw [Complex.cosh, Complex.sinh, hEinv, ← hE]
    have : 2 * (a * du a - u a / 2) = R * E * ((b + p) * u a') - R * E⁻¹ * ((b - p) * u a') := by linear_combination hG' - hF'
    linear_combination this / 2
  refine ⟨?_, fun hne => ?_⟩
  · rw [hya, hua]
    field_simp
  · rw [hua]
    exact mul_ne_zero (mul_ne_zero hRne hne) hv

/-- **Uniqueness**: every regular solution has the logarithmic derivative computed by the recursion. -/
theorem solution_slope {n : ℕ} (hn : 1 ≤ n) {T : ℝ} (hT : 0 < T) (ls : List (ℝ × ℝ)) (h : GoodLayers ls) {u du : ℝ → ℂ}
    (hu : InductionSolution n (angFreq T) mu (conductivity ls) ((ls.map Prod.snd).getD 0 0) u du) :
    (((ls.map Prod.snd).getD 0 0 : ℝ) : ℂ) * du ((ls.map Prod.snd).getD 0 0) - u ((ls.map Prod.snd).getD 0 0) / 2 = slope n T ls * u ((ls.map Prod.snd).getD 0 0) := by
  induction ls with
  | nil => exact absurd rfl h.nonempty
  | cons l ls ih =>
    obtain ⟨s, a⟩ := l
    have hs := h.sigma (s, a) List.mem_cons_self
    have ha := h.radius (s, a) List.mem_cons_self
    cases ls with
    | nil => exact core_solution hn hT hs ha hu
    | cons m ls =>
      obtain ⟨s', a'⟩ := m
      have ha' := h.radius (s', a') (by simp)
      have hlt := h.step
      have hreg := slope_region n hT _ h.tail
      have hrel := ih h.tail (solution_tail hlt hu)
      exact (layer_solution hT hs ha' hlt hu _ hreg.1 hreg.2 hrel).1

/-! ### Existence -/

/-- A combination of the two powers. -/
noncomputable def comb (b α β : ℂ) (r : ℝ) : ℂ := α * pw (1 / 2 + b) r + β * pw (1 / 2 - b) r

/-- Its derivative. -/
noncomputable def dcomb (b α β : ℂ) (r : ℝ) : ℂ := (α * (1 / 2 + b) * pw (1 / 2 + b) r + β * (1 / 2 - b) * pw (1 / 2 - b) r) / r

theorem hasDeriv_comb (b α β : ℂ) {r : ℝ} (hr : r ≠ 0) : HasDerivAt (comb b α β) (dcomb b α β r) r := by
  have h := ((hasDeriv_pw (1 / 2 + b) hr).const_mul α).add ((hasDeriv_pw (1 / 2 - b) hr).const_mul β)
  refine h.congr_deriv ?_
  unfold dcomb
  ring

theorem hasDeriv_dcomb (b α β : ℂ) {r : ℝ} (hr : r ≠ 0) :
    HasDerivAt (dcomb b α β) ((b ^ 2 - 1 / 4) / (r : ℂ) ^ 2 * comb b α β r) r := by
  have hrc : (r : ℂ) ≠ 0 := by exact_mod_cast hr
  have hid : HasDerivAt (fun x : ℝ => (x : ℂ)) 1 r := by simpa using (hasDerivAt_id r).ofReal_comp
  have h := (((hasDeriv_pw (1 / 2 + b) hr).const_mul (α * (1 / 2 + b))).add ((hasDeriv_pw (1 / 2 - b) hr).const_mul (β * (1 / 2 - b)))).div hid hrc
  refine h.congr_deriv ?_
  unfold comb
  simp only [Pi.add_apply]
  field_simp
  ring

theorem glue_deriv {f g : ℝ → ℂ} {d : ℂ} {c : ℝ} (hf : HasDerivWithinAt f d (Set.Iic c) c) (hg : HasDerivAt g d c) (hfg : f c = g c) :
    HasDerivAt (fun x => if x ≤ c then f x else g x) d c := by
  rw [← hasDerivWithinAt_univ, ← Set.Iic_union_Ici (a := c)]
  refine HasDerivWithinAt.union ?_ ?_
  · refine hf.congr (fun x hx => ?_) ?_
    · exact if_pos (Set.mem_Iic.1 hx)
    · rw [if_pos le_rfl]
  · refine hg.hasDerivWithinAt.congr (fun x hx => ?_) ?_
    · by_cases hxc : x ≤ c
      · have : x = c := le_antisymm hxc hx
        rw [if_pos hxc, this, hfg]
      · rw [if_neg hxc]
    · rw [if_pos le_rfl, hfg]

theorem glue_below {f g : ℝ → ℂ} {c r : ℝ} (h : r < c) : (fun x => if x ≤ c then f x else g x) =ᶠ[𝓝 r] f := by
  filter_upwards [Iio_mem_nhds h] with x hx
  rw [if_pos (le_of_lt hx)]

theorem glue_above {f g : ℝ → ℂ} {c r : ℝ} (h : c < r) : (fun x => if x ≤ c then f x else g x) =ᶠ[𝓝 r] g := by
  filter_upwards [Ioi_mem_nhds h] with x hx
  rw [if_neg (not_le.2 hx)]

theorem glue_continuous {f g : ℝ → ℂ} {c : ℝ} (hf : ContinuousWithinAt f (Set.Iic c) c) (hg : ContinuousAt g c) (hfg : f c = g c) :
    ContinuousAt (fun x => if x ≤ c then f x else g x) c := by
  rw [← continuousWithinAt_univ, ← Set.Iic_union_Ici (a := c)]
  refine ContinuousWithinAt.union ?_ ?_
  · refine hf.congr (fun x hx => ?_) ?_
    · exact if_pos (Set.mem_Iic.1 hx)
    · rw [if_pos le_rfl]
  · refine hg.continuousWithinAt.congr (fun x hx => ?_) ?_
    · by_cases hxc : x ≤ c
      · have : x = c := le_antisymm hxc hx
        rw [if_pos hxc, this, hfg]
      · rw [if_neg hxc]
    · rw [if_pos le_rfl, hfg]

/-- **Existence** of a regular solution that does not vanish at the surface. -/
theorem solution_exists {n : ℕ} (hn : 1 ≤ n) {T : ℝ} (hT : 0 < T) (ls : List (ℝ × ℝ)) (h : GoodLayers ls) :
    ∃ u du : ℝ → ℂ, InductionSolution n (angFreq T) mu (conductivity ls) ((ls.map Prod.snd).getD 0 0) u du ∧ u ((ls.map Prod.snd).getD 0 0) ≠ 0 := by
  induction ls with
  | nil => exact absurd rfl h.nonempty
  | cons l ls ih =>
    obtain ⟨s, a⟩ := l
    have hs := h.sigma (s, a) List.mem_cons_self
    have ha : 0 < a := h.radius (s, a) List.mem_cons_self
    have hb := bk_ne n a hT hs
    obtain ⟨-, hbre, hb3, hb4⟩ := bk_spec n a hT hs
    cases ls with
    | nil =>
      show ∃ u du : ℝ → ℂ, InductionSolution n (angFreq T) mu (conductivity [(s, a)]) a u du ∧ u a ≠ 0
      refine ⟨comb (bk n T s a) 1 0, dcomb (bk n T s a) 1 0, ⟨?_, ?_, ⟨∅, Set.finite_empty, ?_⟩, ⟨1, 1, one_pos, ?_⟩⟩, ?_⟩
      · intro r hr _
        exact (hasDeriv_comb _ _ _ hr.ne').hasDerivWithinAt
      · intro r hr
        exact (hasDeriv_dcomb _ _ _ hr.1.ne').continuousAt.continuousWithinAt
      · intro r hr _ _
        have := hasDeriv_dcomb (bk n T s a) 1 0 hr.ne'
        rwa [← layer_coefficient n hT hs hr.ne'] at this
      · intro r hr hr1
        unfold comb
        rw [one_mul, zero_mul, add_zero]
        unfold pw
        rw [Complex.norm_exp, Complex.re_mul_ofReal, Real.exp_le_one_iff]
        have hlog : Real.log r < 0 := Real.log_neg hr hr1
        have : 0 ≤ (1 / 2 + bk n T s a).re := by simp; linarith
        nlinarith
      · unfold comb
        rw [one_mul, zero_mul, add_zero]
        exact pw_ne _ _
    | cons m ls =>
      obtain ⟨s', a'⟩ := m
      have ha' : 0 < a' := h.radius (s', a') (by simp)
      have hlt : a' < a := h.step
      have hreg := slope_region n hT _ h.tail
      obtain ⟨u1, du1, hsol, hne⟩ := ih h.tail
      have hrel := solution_slope hn hT _ h.tail hsol
      change InductionSolution n (angFreq T) mu (conductivity ((s', a') :: ls)) a' u1 du1 at hsol
      change u1 a' ≠ 0 at hne
      change (a' : ℂ) * du1 a' - u1 a' / 2 = _ * u1 a' at hrel
      show ∃ u du : ℝ → ℂ, InductionSolution n (angFreq T) mu (conductivity ((s, a) :: (s', a') :: ls)) a u du ∧ u a ≠ 0
      set p := slope n T ((s', a') :: ls)
      set b := bk n T s a with hbdef
      set α := (b + p) / (2 * b) * u1 a' / pw (1 / 2 + b) a'
      set β := (b - p) / (2 * b) * u1 a' / pw (1 / 2 - b) a'
      have ha'c : (a' : ℂ) ≠ 0 := by exact_mod_cast ha'.ne'
      have hαp : α * pw (1 / 2 + b) a' = (b + p) / (2 * b) * u1 a' := div_mul_cancel₀ _ (pw_ne _ _)
      have hβp : β * pw (1 / 2 - b) a' = (b - p) / (2 * b) * u1 a' := div_mul_cancel₀ _ (pw_ne _ _)
      have hm1 : u1 a' = comb b α β a' := by
        unfold comb
        rw [hαp, hβp]
        field_simp
        ring
      have hm2 : du1 a' = dcomb b α β a' := by
        unfold dcomb
        rw [show α * (1 / 2 + b) * pw (1 / 2 + b) a' = (1 / 2 + b) * (α * pw (1 / 2 + b) a') by ring,
          show β * (1 / 2 - b) * pw (1 / 2 - b) a' = (1 / 2 - b) * (β * pw (1 / 2 - b) a') by ring, hαp, hβp]
        have : du1 a' = (p * u1 a' + u1 a' / 2) / a' := by
          field_simp
          linear_combination 2 * hrel
        rw [this]
        field_simp
        ring
      obtain ⟨h1, h2, ⟨S, hS, h3⟩, ⟨M, d, hd, h4⟩⟩ := id hsol
      have hglue : InductionSolution n (angFreq T) mu (conductivity ((s, a) :: (s', a') :: ls)) a
          (fun x => if x ≤ a' then u1 x else comb b α β x) (fun x => if x ≤ a' then du1 x else dcomb b α β x) := by
        refine ⟨?_, ?_, ⟨S ∪ {a'}, hS.union (Set.finite_singleton _), ?_⟩, ⟨M, min d a', lt_min hd ha', ?_⟩⟩
        · intro r hr hra
          apply HasDerivAt.hasDerivWithinAt
          rcases lt_trichotomy r a' with hc | hc | hc
          · rw [if_pos hc.le]
            exact ((h1 r hr hc.le).hasDerivAt (Iic_mem_nhds hc)).congr_of_eventuallyEq (glue_below hc)
          · subst hc
            rw [if_pos le_rfl]
            exact glue_deriv (h1 r hr le_rfl) (by rw [hm2]; exact hasDeriv_comb _ _ _ hr.ne') hm1
          · rw [if_neg (not_le.2 hc)]
            exact (hasDeriv_comb _ _ _ hr.ne').congr_of_eventuallyEq (glue_above hc)
        · intro r hr
          apply ContinuousAt.continuousWithinAt
          rcases lt_trichotomy r a' with hc | hc | hc
          · refine ContinuousAt.congr ?_ (glue_below hc).symm
            exact (h2 r ⟨hr.1, hc.le⟩).continuousAt (Ioc_mem_nhds hr.1 hc)
          · subst hc
            refine glue_continuous ?_ (hasDeriv_dcomb _ _ _ hr.1.ne').continuousAt hm2
            refine (h2 r ⟨hr.1, le_rfl⟩).mono_of_mem_nhdsWithin ?_
            exact Ioc_mem_nhdsLE hr.1
          · exact ContinuousAt.congr (hasDeriv_dcomb _ _ _ hr.1.ne').continuousAt (glue_above hc).symm
        · intro r hr hra hrS
          rw [Set.mem_union, not_or, Set.mem_singleton_iff] at hrS
          rcases lt_or_gt_of_ne hrS.2 with hc | hc
          · rw [if_pos hc.le, conductivity_below hc.le]
            exact (h3 r hr hc hrS.1).congr_of_eventuallyEq (glue_below hc)
          · rw [if_neg (not_le.2 hc), conductivity_above hc, layer_coefficient n hT hs hr.ne']
            exact (hasDeriv_dcomb _ _ _ hr.ne').congr_of_eventuallyEq (glue_above hc)
        · intro r hr hrd
          rw [if_pos (hrd.trans_le (min_le_right _ _)).le]
          exact h4 r hr (hrd.trans_le (min_le_left _ _))
      refine ⟨_, _, hglue, ?_⟩
      refine (layer_solution hT hs ha' hlt hglue p hreg.1 hreg.2 ?_).2 ?_
      · rw [if_pos le_rfl, if_pos le_rfl]
        exact hrel
      · rw [if_pos le_rfl]
        exact hne

end ChaosMagPy.QResponse
