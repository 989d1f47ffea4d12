import Verif.Model.QResponse
import Verif.Spec.Induction
import Mathlib.Analysis.Calculus.Deriv.MeanValue
import Mathlib.Analysis.Calculus.Deriv.Star
import Mathlib.Analysis.SpecialFunctions.Trigonometric.DerivHyp
import Mathlib.Analysis.Complex.RealDeriv
/-!
# Lemmas about the Q-response: square roots, one layer
-/
namespace ChaosMagPy.QResponse
open Complex

/-- The principal root of a number in the right half plane. -/
theorem sqrt_spec (z : ℂ) (h : 0 < z.re) : (z ^ (1 / 2 : ℂ)) ^ 2 = z ∧ 0 < (z ^ (1 / 2 : ℂ)).re := by
  have hz : z ≠ 0 := by rintro rfl; simp at h
  constructor
  · rw [← Complex.cpow_mul_nat]
    norm_num
  · rw [Complex.cpow_def_of_ne_zero hz, Complex.exp_re]
    refine mul_pos (Real.exp_pos _) (Real.cos_pos_of_mem_Ioo ?_)
    have harg := Complex.abs_arg_lt_pi_div_two_iff.2 (Or.inl h)
    rw [abs_lt] at harg
    have him : (Complex.log z * (1 / 2 : ℂ)).im = Complex.arg z / 2 := by
      simp [Complex.mul_im, Complex.log_im, Complex.log_re]
      ring
    rw [him]
    constructor <;> linarith [harg.1, harg.2, Real.pi_pos]

/-- The root stays in the quadrant and its real part does not fall below the root of the real part. -/
theorem root_region (b : ℂ) (c : ℝ) (hc : 0 < c) (hb : 0 < b.re) (h1 : (b ^ 2).re = c ^ 2) (h2 : 0 ≤ (b ^ 2).im) : c ≤ b.re ∧ 0 ≤ b.im := by
  rw [pow_two, Complex.mul_re] at h1
  rw [pow_two, Complex.mul_im] at h2
  constructor
  · nlinarith [mul_self_nonneg b.im]
  · by_contra hneg
    push Not at hneg
    nlinarith

/-- Solution of `v'' = b^2 v` with `v(0) = 1`, `v'(0) = p`. -/
noncomputable def vFun (b p : ℂ) (t : ℝ) : ℂ := Complex.cosh (b * t) + p / b * Complex.sinh (b * t)

/-- Its derivative. -/
noncomputable def dvFun (b p : ℂ) (t : ℝ) : ℂ := b * Complex.sinh (b * t) + p * Complex.cosh (b * t)

theorem hasDeriv_v (b p : ℂ) (hb : b ≠ 0) (t : ℝ) : HasDerivAt (vFun b p) (dvFun b p t) t := by
  have hlin : HasDerivAt (fun z : ℂ => b * z) b (t : ℂ) := by simpa using (hasDerivAt_id (t : ℂ)).const_mul b
  have h1 := (hlin.ccosh.add (hlin.csinh.const_mul (p / b))).comp_ofReal
  refine h1.congr_deriv ?_
  unfold dvFun
  field_simp

theorem hasDeriv_dv (b p : ℂ) (hb : b ≠ 0) (t : ℝ) : HasDerivAt (dvFun b p) (b ^ 2 * vFun b p t) t := by
  have hlin : HasDerivAt (fun z : ℂ => b * z) b (t : ℂ) := by simpa using (hasDerivAt_id (t : ℂ)).const_mul b
  have h1 := ((hlin.csinh.const_mul b).add (hlin.ccosh.const_mul p)).comp_ofReal
  refine h1.congr_deriv ?_
  unfold vFun
  field_simp

/-- Energy argument: the logarithmic derivative stays in the region. -/
theorem energy (b p : ℂ) (c : ℝ) (hc : 0 < c) (hb : b ≠ 0) (h1 : (b ^ 2).re = c ^ 2) (h2 : 0 ≤ (b ^ 2).im) (hp : c ≤ p.re) (hp' : 0 ≤ p.im)
    (L : ℝ) (hL : 0 ≤ L) : vFun b p L ≠ 0 ∧ c ≤ (dvFun b p L / vFun b p L).re ∧ 0 ≤ (dvFun b p L / vFun b p L).im := by
  set V := vFun b p
  set W := dvFun b p
  -- the products conj(v) v' and |v|^2
  have hE : ∀ t, HasDerivAt (fun t => (starRingEnd ℂ) (V t) * W t) ((starRingEnd ℂ) (W t) * W t + (starRingEnd ℂ) (V t) * (b ^ 2 * V t)) t := by
    intro t
    exact (hasDeriv_v b p hb t).star.mul (hasDeriv_dv b p hb t)
  have hN : ∀ t, HasDerivAt (fun t => (starRingEnd ℂ) (V t) * V t) ((starRingEnd ℂ) (W t) * V t + (starRingEnd ℂ) (V t) * W t) t := by
    intro t
    exact (hasDeriv_v b p hb t).star.mul (hasDeriv_v b p hb t)
  have hre : ∀ {f : ℝ → ℂ} {f' : ℂ} {t : ℝ}, HasDerivAt f f' t → HasDerivAt (fun t => (f t).re) f'.re t := by
    intro f f' t h
    exact (Complex.reCLM.hasFDerivAt.comp_hasDerivAt t h)
  have him : ∀ {f : ℝ → ℂ} {f' : ℂ} {t : ℝ}, HasDerivAt f f' t → HasDerivAt (fun t => (f t).im) f'.im t := by
    intro f f' t h
    exact (Complex.imCLM.hasFDerivAt.comp_hasDerivAt t h)
  have hV0 : V 0 = 1 := by simp [V, vFun]
  have hW0 : W 0 = p := by simp [W, dvFun]
  have hmono : ∀ (f f' : ℝ → ℝ), (∀ t, HasDerivAt f (f' t) t) → (∀ t, 0 ≤ f' t) → f 0 ≤ f L := by
    intro f f' hf hf'
    exact monotone_of_hasDerivAt_nonneg hf hf' hL
  have e1 : c ≤ ((starRingEnd ℂ) (V L) * W L).re := by
    have := hmono (fun t => ((starRingEnd ℂ) (V t) * W t).re) _ (fun t => hre (hE t)) (fun t => by
      simp only [Complex.add_re, Complex.mul_re, Complex.conj_re, Complex.conj_im, Complex.mul_im, h1]
      nlinarith [mul_self_nonneg (W t).re, mul_self_nonneg (W t).im, mul_self_nonneg (V t).re, mul_self_nonneg (V t).im, sq_nonneg c,
        mul_nonneg (sq_nonneg c) (mul_self_nonneg (V t).re), mul_nonneg (sq_nonneg c) (mul_self_nonneg (V t).im)])
    simp only [hV0, hW0, map_one, one_mul] at this
    linarith
  have e2 : 0 ≤ ((starRingEnd ℂ) (V L) * W L).im := by
    have := hmono (fun t => ((starRingEnd ℂ) (V t) * W t).im) _ (fun t => him (hE t)) (fun t => by
      simp only [Complex.add_im, Complex.mul_re, Complex.conj_re, Complex.conj_im, Complex.mul_im, h1]
      nlinarith [mul_nonneg h2 (mul_self_nonneg (V t).re), mul_nonneg h2 (mul_self_nonneg (V t).im)])
    simp only [hV0, hW0, map_one, one_mul] at this
    linarith
  have e3 : p.re - c ≤ ((starRingEnd ℂ) (V L) * W L).re - c * ((starRingEnd ℂ) (V L) * V L).re := by
    have := hmono (fun t => ((starRingEnd ℂ) (V t) * W t).re - c * ((starRingEnd ℂ) (V t) * V t).re) _
      (fun t => (hre (hE t)).sub ((hre (hN t)).const_mul c)) (fun t => by
      simp only [Complex.add_re, Complex.mul_re, Complex.conj_re, Complex.conj_im, Complex.mul_im, h1]
      nlinarith [sq_nonneg ((W t).re - c * (V t).re), sq_nonneg ((W t).im - c * (V t).im)])
    simp only [hV0, hW0, map_one, one_mul, Complex.one_re, mul_one] at this
    linarith
  have hne : V L ≠ 0 := by
    intro h0
    rw [h0, map_zero, zero_mul, Complex.zero_re] at e1
    linarith
  have hns : 0 < Complex.normSq (V L) := Complex.normSq_pos.2 hne
  have hdiv : W L / V L = (starRingEnd ℂ) (V L) * W L / (Complex.normSq (V L) : ℂ) := by
    rw [← Complex.mul_conj]
    have : (starRingEnd ℂ) (V L) ≠ 0 := by simpa using hne
    field_simp
  have hnn : ((starRingEnd ℂ) (V L) * V L).re = Complex.normSq (V L) := by
    rw [mul_comm, Complex.mul_conj, Complex.ofReal_re]
  rw [hnn] at e3
  refine ⟨hne, ?_, ?_⟩
  · rw [hdiv, Complex.div_ofReal_re, le_div_iff₀ hns]
    linarith
  · rw [hdiv, Complex.div_ofReal_im]
    exact div_nonneg e2 hns.le

/-! ### The code's parameters -/

/-- Angular frequency. -/
noncomputable def angFreq (T : ℝ) : ℝ := 2 * Real.pi / T

theorem omega_eq (T : ℝ) : omega T = Complex.I * (angFreq T : ℂ) := by
  unfold omega angFreq
  push_cast
  ring

theorem mu_pos : 0 < mu := by
  unfold mu
  have := Real.pi_pos
  positivity

theorem angFreq_pos {T : ℝ} (hT : 0 < T) : 0 < angFreq T := by
  unfold angFreq
  have := Real.pi_pos
  positivity

theorem qk_ne {T r : ℝ} (hT : 0 < T) (hr : 0 < r) : qk T r ≠ 0 := by
  unfold qk
  rw [omega_eq]
  have h1 : (angFreq T : ℂ) ≠ 0 := by exact_mod_cast (angFreq_pos hT).ne'
  have h2 : (mu : ℂ) ≠ 0 := by exact_mod_cast mu_pos.ne'
  have h3 : (r : ℂ) ≠ 0 := by exact_mod_cast hr.ne'
  simp [h1, h2, h3]

/-- `n + 1/2`. -/
noncomputable def half (n : ℕ) : ℝ := (n : ℝ) + 1 / 2

theorem half_pos (n : ℕ) : 0 < half n := by unfold half; positivity

theorem bk_spec (n : ℕ) {T sigma : ℝ} (r : ℝ) (hT : 0 < T) (hs : 0 ≤ sigma) :
    (bk n T sigma r) ^ 2 = (((n : ℂ) * (n + 1) + 1 / 4) + Complex.I * (angFreq T * mu * (sigma * r ^ 2) : ℝ)) ∧ 0 < (bk n T sigma r).re ∧
    ((bk n T sigma r) ^ 2).re = half n ^ 2 ∧ 0 ≤ ((bk n T sigma r) ^ 2).im := by
  have harg : (((n : ℂ) + 0.5) ^ 2 - qk T r * (sigma : ℂ) * (r : ℂ)) = ((half n ^ 2 : ℝ) : ℂ) + Complex.I * (angFreq T * mu * (sigma * r ^ 2) : ℝ) := by
    unfold qk half
    rw [omega_eq]
    push_cast
    norm_num
    ring
  have hre : (((half n ^ 2 : ℝ) : ℂ) + Complex.I * (angFreq T * mu * (sigma * r ^ 2) : ℝ)).re = half n ^ 2 := by
    rw [Complex.add_re, Complex.ofReal_re, Complex.mul_re, Complex.I_re, Complex.I_im, Complex.ofReal_re, Complex.ofReal_im]
    ring
  have him : (((half n ^ 2 : ℝ) : ℂ) + Complex.I * (angFreq T * mu * (sigma * r ^ 2) : ℝ)).im = angFreq T * mu * (sigma * r ^ 2) := by
    rw [Complex.add_im, Complex.ofReal_im, Complex.mul_im, Complex.I_re, Complex.I_im, Complex.ofReal_re, Complex.ofReal_im]
    ring
  have hsq := sqrt_spec _ (by rw [hre]; have := half_pos n; positivity : 0 < (((half n ^ 2 : ℝ) : ℂ) + Complex.I * (angFreq T * mu * (sigma * r ^ 2) : ℝ)).re)
  unfold bk
  rw [harg]
  refine ⟨?_, hsq.2, ?_, ?_⟩
  · rw [hsq.1]
    congr 1
    unfold half
    push_cast
    ring
  · rw [hsq.1, hre]
  · rw [hsq.1, him]
    have h1 := angFreq_pos hT
    have h2 := mu_pos
    have h3 := mul_nonneg hs (sq_nonneg r)
    positivity

theorem bk_ne (n : ℕ) {T sigma : ℝ} (r : ℝ) (hT : 0 < T) (hs : 0 ≤ sigma) : bk n T sigma r ≠ 0 := by
  have := (bk_spec n r hT hs).2.1
  intro h
  rw [h] at this
  simp at this

/-- The pass of the loop is the transport of the logarithmic derivative through the layer. -/
theorem layer_eq (n : ℕ) {T sigma r r1 : ℝ} (hT : 0 < T) (hs : 0 ≤ sigma) (hr1 : 0 < r1) (hr : r1 < r) (Y p : ℂ)
    (hY : -(qk T r1 * Y) = 1 / 2 + p) (hp : half n ≤ p.re) (hp' : 0 ≤ p.im) :
    -(qk T r * layer n T sigma r r1 Y) = 1 / 2 + dvFun (bk n T sigma r) p (Real.log (r / r1)) / vFun (bk n T sigma r) p (Real.log (r / r1)) := by
  obtain ⟨hb2, hbre, hb3, hb4⟩ := bk_spec n r hT hs
  have hb := bk_ne n r hT hs
  have hr0 : 0 < r := hr1.trans hr
  have hq := qk_ne hT hr0
  have hLpos : 0 < Real.log (r / r1) := Real.log_pos (by rw [lt_div_iff₀ hr1]; linarith)
  have hen := energy (bk n T sigma r) p (half n) (half_pos n) hb hb3 hb4 hp hp' (Real.log (r / r1)) hLpos.le
  have hzeta : ((r / r1 : ℝ) : ℂ) ^ (2 * bk n T sigma r) = Complex.exp (bk n T sigma r * (Real.log (r / r1) : ℝ)) ^ 2 := by
    rw [Complex.cpow_def_of_ne_zero (by exact_mod_cast (div_pos hr0 hr1).ne'), ← Complex.ofReal_log (div_pos hr0 hr1).le, ← Complex.exp_nat_mul]
    congr 1
    push_cast
    ring
  have hnorm : 1 < ‖Complex.exp (bk n T sigma r * (Real.log (r / r1) : ℝ))‖ := by
    rw [Complex.norm_exp, Real.one_lt_exp_iff, Complex.re_mul_ofReal]
    exact mul_pos hbre hLpos
  unfold layer
  simp only
  rw [hzeta]
  have hv := hen.1
  clear hen
  unfold vFun at hv ⊢
  unfold dvFun
  rw [Complex.cosh, Complex.sinh, Complex.exp_neg] at hv ⊢
  generalize Complex.exp (bk n T sigma r * (Real.log (r / r1) : ℝ)) = E at hnorm hv ⊢
  generalize bk n T sigma r = b at *
  have hE : E ≠ 0 := by rintro rfl; simp at hnorm; linarith
  have hE1 : 1 + E ^ 2 ≠ 0 := by
    intro h
    have : E ^ 2 = -1 := by linear_combination h
    have h2 : ‖E‖ ^ 2 = 1 := by rw [← norm_pow, this, norm_neg, norm_one]
    nlinarith
  have hqY : qk T r1 * Y = -(1 / 2 + p) := by linear_combination -hY
  rw [hqY]
  have hD : b * (E ^ 2 + 1) + p * (E ^ 2 - 1) ≠ 0 := by
    intro h
    apply hv
    have : (E + E⁻¹) / 2 + p / b * ((E - E⁻¹) / 2) = (b * (E ^ 2 + 1) + p * (E ^ 2 - 1)) / (2 * E * b) := by
      field_simp
    rw [this, h, zero_div]
  have hvD : (E + E⁻¹) / 2 + p / b * ((E - E⁻¹) / 2) = (b * (E ^ 2 + 1) + p * (E ^ 2 - 1)) / (2 * E * b) := by
    field_simp
  have hden : b + (1 - E ^ 2) / (1 + E ^ 2) * (1 / 2 + -(1 / 2 + p)) = (b * (E ^ 2 + 1) + p * (E ^ 2 - 1)) / (1 + E ^ 2) := by
    field_simp
    ring
  have h5 : (0.5 : ℂ) = 1 / 2 := by norm_num
  have hmain : (-(1 / 2 + p) * (b - 0.5 * ((1 - E ^ 2) / (1 + E ^ 2))) + (b + 0.5) * (b - 0.5) * ((1 - E ^ 2) / (1 + E ^ 2))) / (b + (1 - E ^ 2) / (1 + E ^ 2) * (0.5 + -(1 / 2 + p)))
      = -(1 / 2 + (b * ((E - E⁻¹) / 2) + p * ((E + E⁻¹) / 2)) / ((E + E⁻¹) / 2 + p / b * ((E - E⁻¹) / 2))) := by
    rw [h5, hvD, hden]
    generalize hDD : b * (E ^ 2 + 1) + p * (E ^ 2 - 1) = D at hD ⊢
    field_simp
    rw [← hDD]
    ring
  rw [mul_div_assoc, hmain]
  field_simp

/-- The logarithmic derivative (minus 1/2) at the top of a stack of layers. -/
noncomputable def slope (n : ℕ) (T : ℝ) : List (ℝ × ℝ) → ℂ
  | [] => 0
  | [(s, a)] => bk n T s a
  | (s, a) :: (s', a') :: ls =>
    dvFun (bk n T s a) (slope n T ((s', a') :: ls)) (Real.log (a / a')) / vFun (bk n T s a) (slope n T ((s', a') :: ls)) (Real.log (a / a'))

open ChaosMagPy.Spec (GoodLayers conductivity InductionSolution)

theorem _root_.ChaosMagPy.Spec.GoodLayers.tail {l m : ℝ × ℝ} {ls : List (ℝ × ℝ)} (h : GoodLayers (l :: m :: ls)) : GoodLayers (m :: ls) :=
  ⟨by simp, fun x hx => h.sigma x (List.mem_cons_of_mem _ hx), fun x hx => h.radius x (List.mem_cons_of_mem _ hx), by
    have := h.decreasing
    rw [List.map_cons, List.pairwise_cons] at this
    exact this.2⟩

theorem _root_.ChaosMagPy.Spec.GoodLayers.step {l m : ℝ × ℝ} {ls : List (ℝ × ℝ)} (h : GoodLayers (l :: m :: ls)) : m.2 < l.2 := by
  have := h.decreasing
  rw [List.map_cons, List.pairwise_cons] at this
  exact this.1 m.2 (by simp)

theorem slope_region (n : ℕ) {T : ℝ} (hT : 0 < T) (ls : List (ℝ × ℝ)) (h : GoodLayers ls) : half n ≤ (slope n T ls).re ∧ 0 ≤ (slope n T ls).im := by
  induction ls with
  | nil => exact absurd rfl h.nonempty
  | cons l ls ih =>
    obtain ⟨s, a⟩ := l
    have hs := h.sigma (s, a) List.mem_cons_self
    have hb := bk_spec n a hT hs
    cases ls with
    | nil =>
      simp only [slope]
      exact root_region _ _ (half_pos n) hb.2.1 hb.2.2.1 hb.2.2.2
    | cons m ls =>
      obtain ⟨s', a'⟩ := m
      have ih := ih h.tail
      have ha' := h.radius (s', a') (by simp)
      have hlt := h.step
      simp only at ha' hlt
      simp only [slope]
      have hL : 0 ≤ Real.log (a / a') := Real.log_nonneg (by rw [le_div_iff₀ ha']; linarith)
      exact (energy _ _ (half n) (half_pos n) (bk_ne n a hT hs) hb.2.2.1 hb.2.2.2 ih.1 ih.2 _ hL).2

/-- The loop as a recursion over the layers. -/
theorem admittance_cons (n : ℕ) (T s a s' a' : ℝ) (ls : List (ℝ × ℝ)) :
    admittance n T (((s, a) :: (s', a') :: ls).map Prod.fst) (((s, a) :: (s', a') :: ls).map Prod.snd) =
      layer n T s a a' (admittance n T (((s', a') :: ls).map Prod.fst) (((s', a') :: ls).map Prod.snd)) := by
  unfold admittance
  simp only [List.map_cons, List.length_cons, List.length_map, Nat.add_sub_cancel, List.foldl_reverse]
  rw [List.range_succ_eq_map, List.foldr_cons, List.foldr_map]
  simp only [List.getD_cons_succ, List.getD_cons_zero]

theorem admittance_slope (n : ℕ) {T : ℝ} (hT : 0 < T) (ls : List (ℝ × ℝ)) (h : GoodLayers ls) :
    -(qk T ((ls.map Prod.snd).getD 0 0) * admittance n T (ls.map Prod.fst) (ls.map Prod.snd)) = 1 / 2 + slope n T ls := by
  induction ls with
  | nil => exact absurd rfl h.nonempty
  | cons l ls ih =>
    obtain ⟨s, a⟩ := l
    have hs := h.sigma (s, a) List.mem_cons_self
    have ha := h.radius (s, a) List.mem_cons_self
    cases ls with
    | nil =>
      have hq := qk_ne hT ha
      simp only [slope, admittance, core, List.map_cons, List.map_nil, List.length_cons, List.length_nil, Nat.zero_add, Nat.sub_self, List.range_zero,
        List.reverse_nil, List.foldl_nil, List.getD_cons_zero] at hq ⊢
      field_simp
      norm_num
      ring
    | cons m ls =>
      obtain ⟨s', a'⟩ := m
      have ih := ih h.tail
      have ha' := h.radius (s', a') (by simp)
      have hlt := h.step
      have hreg := slope_region n hT _ h.tail
      rw [admittance_cons]
      exact layer_eq n hT hs ha' hlt _ _ ih hreg.1 hreg.2

end ChaosMagPy.QResponse
