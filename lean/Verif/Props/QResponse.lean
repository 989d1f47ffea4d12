import Verif.Lemmas.Induction
import Verif.Lemmas.SynthCall
import Mathlib.Data.List.GetD
/-!
# C46: the Q-response is the response of the layered sphere
-/
namespace ChaosMagPy.QResponse
open Complex
open ChaosMagPy.Spec (GoodLayers conductivity InductionSolution)

/-- Layers with radii in metres. -/
noncomputable def inMetres (ls : List (ℝ × ℝ)) : List (ℝ × ℝ) := ls.map fun l => (l.1, 1000 * l.2)

/-- Radius of the surface in km. -/
def surface (ls : List (ℝ × ℝ)) : ℝ := (ls.map Prod.snd).getD 0 0

theorem inMetres_good {ls : List (ℝ × ℝ)} (h : GoodLayers ls) : GoodLayers (inMetres ls) := by
  refine ⟨by simpa [inMetres] using h.nonempty, ?_, ?_, ?_⟩
  · intro l hl
    obtain ⟨m, hm, rfl⟩ := List.mem_map.1 hl
    exact h.sigma m hm
  · intro l hl
    obtain ⟨m, hm, rfl⟩ := List.mem_map.1 hl
    have := h.radius m hm
    positivity
  · have := h.decreasing
    unfold inMetres
    rw [List.map_map]
    rw [List.pairwise_map] at this ⊢
    exact this.imp fun {a b} hab => by simp only [Function.comp]; linarith

theorem inMetres_fst (ls : List (ℝ × ℝ)) : (inMetres ls).map Prod.fst = ls.map Prod.fst := by
  unfold inMetres; rw [List.map_map]; rfl

theorem inMetres_snd (ls : List (ℝ × ℝ)) : (inMetres ls).map Prod.snd = (ls.map Prod.snd).map fun r => 1000 * r := by
  unfold inMetres; rw [List.map_map, List.map_map]; rfl

theorem inMetres_top {ls : List (ℝ × ℝ)} (h : ls ≠ []) : ((inMetres ls).map Prod.snd).getD 0 0 = 1000 * surface ls := by
  cases ls with
  | nil => exact absurd rfl h
  | cons l ls => rfl

theorem surface_pos {ls : List (ℝ × ℝ)} (h : GoodLayers ls) : 0 < surface ls := by
  cases ls with
  | nil => exact absurd rfl h.nonempty
  | cons l ls => exact h.radius l List.mem_cons_self

/-- `C` and `Q` in terms of the logarithmic derivative. -/
theorem respond_C {n : ℕ} {T : ℝ} (hT : 0 < T) {ls : List (ℝ × ℝ)} (h : GoodLayers ls) :
    (respond n T (ls.map Prod.fst) (ls.map Prod.snd)).C = surface ls / (1 / 2 + slope n T (inMetres ls)) ∧
    (1 / 2 + slope n T (inMetres ls)) ≠ 0 := by
  have hA := admittance_slope n hT _ (inMetres_good h)
  have hreg := slope_region n hT _ (inMetres_good h)
  rw [inMetres_top h.nonempty, inMetres_fst, inMetres_snd] at hA
  have hne : (1 / 2 + slope n T (inMetres ls)) ≠ 0 := by
    intro hc
    have := congrArg Complex.re hc
    simp at this
    have := half_pos n
    linarith [hreg.1]
  refine ⟨?_, hne⟩
  have hs : (surface ls : ℂ) ≠ 0 := by exact_mod_cast (surface_pos h).ne'
  unfold respond
  simp only
  set Y := admittance n T (ls.map Prod.fst) ((ls.map Prod.snd).map fun r => 1000 * r)
  unfold qk at hA
  push_cast at hA
  have : omega T * (mu : ℂ) * Y = (1 / 2 + slope n T (inMetres ls)) / (1000 * surface ls) := by
    rw [eq_div_iff (mul_ne_zero (by norm_num) hs)]
    linear_combination hA
  rw [this]
  generalize 1 / 2 + slope n T (inMetres ls) = q at *
  field_simp

theorem respond_Q {n : ℕ} {T : ℝ} (hT : 0 < T) {ls : List (ℝ × ℝ)} (h : GoodLayers ls) :
    (respond n T (ls.map Prod.fst) (ls.map Prod.snd)).Q =
      n / (n + 1) * ((slope n T (inMetres ls) - half n) / (slope n T (inMetres ls) + half n)) ∧ slope n T (inMetres ls) + half n ≠ 0 := by
  obtain ⟨hC, hne⟩ := respond_C (n := n) hT h
  have hreg := slope_region n hT _ (inMetres_good h)
  have hne2 : slope n T (inMetres ls) + half n ≠ 0 := by
    intro hc
    have := congrArg Complex.re hc
    simp at this
    have := half_pos n
    linarith [hreg.1]
  refine ⟨?_, hne2⟩
  have hs : (surface ls : ℂ) ≠ 0 := by exact_mod_cast (surface_pos h).ne'
  have htop : ((((ls.map Prod.snd).map fun r => 1000 * r).getD 0 0 : ℝ) : ℂ) / 1000 = surface ls := by
    rw [← inMetres_snd, inMetres_top h.nonempty]
    push_cast
    field_simp
  have hQ : (respond n T (ls.map Prod.fst) (ls.map Prod.snd)).Q = (n : ℂ) / ((n : ℂ) + 1) * (1 - ((n : ℂ) + 1) * (respond n T (ls.map Prod.fst) (ls.map Prod.snd)).C / surface ls)
      / (1 + (n : ℂ) * (respond n T (ls.map Prod.fst) (ls.map Prod.snd)).C / surface ls) := by
    conv_lhs => unfold respond
    simp only
    rw [htop]
    rfl
  rw [hQ, hC, mul_div_assoc]
  congr 1
  have hh : (half n : ℂ) = n + 1 / 2 := by unfold half; push_cast; ring
  rw [hh] at hne2 ⊢
  generalize slope n T (inMetres ls) = p at *
  have e1 : 1 - ((n : ℂ) + 1) * (surface ls / (1 / 2 + p)) / surface ls = (p - (n + 1 / 2)) / (1 / 2 + p) := by
    generalize hq : 1 / 2 + p = q at *
    field_simp
    rw [← hq]
    ring
  have e2 : 1 + (n : ℂ) * (surface ls / (1 / 2 + p)) / surface ls = (p + (n + 1 / 2)) / (1 / 2 + p) := by
    generalize hq : 1 / 2 + p = q at *
    field_simp
    rw [← hq]
    ring
  rw [e1, e2, div_div_div_cancel_right₀ hne]

/-- **C46.** The C-response is the ratio `u/u'` at the surface (in km) of the regular solutions of the induction equation
in the sphere with the conductivity `sigma[k] (radius[k]/r)^2` in layer `k`: there is a solution that does not vanish at
the surface, and all solutions have this ratio. -/
theorem C46_induction {n : ℕ} (hn : 1 ≤ n) {T : ℝ} (hT : 0 < T) {ls : List (ℝ × ℝ)} (h : GoodLayers ls) :
    (∃ u du : ℝ → ℂ, InductionSolution n (2 * Real.pi / T) (4 * Real.pi * (1 / 10 ^ 7)) (conductivity (inMetres ls)) (1000 * surface ls) u du ∧
      u (1000 * surface ls) ≠ 0 ∧ du (1000 * surface ls) ≠ 0) ∧
    ∀ u du : ℝ → ℂ, InductionSolution n (2 * Real.pi / T) (4 * Real.pi * (1 / 10 ^ 7)) (conductivity (inMetres ls)) (1000 * surface ls) u du →
      u (1000 * surface ls) = 1000 * (respond n T (ls.map Prod.fst) (ls.map Prod.snd)).C * du (1000 * surface ls) := by
  have hall : ∀ u du : ℝ → ℂ, InductionSolution n (2 * Real.pi / T) (4 * Real.pi * (1 / 10 ^ 7)) (conductivity (inMetres ls)) (1000 * surface ls) u du →
      u (1000 * surface ls) = 1000 * (respond n T (ls.map Prod.fst) (ls.map Prod.snd)).C * du (1000 * surface ls) := by
    intro u du hu
    obtain ⟨hC, hne⟩ := respond_C (n := n) hT h
    have := solution_slope hn hT _ (inMetres_good h) (by rw [inMetres_top h.nonempty]; exact hu)
    rw [inMetres_top h.nonempty] at this
    push_cast at this
    rw [hC]
    generalize hq : 1 / 2 + slope n T (inMetres ls) = q at *
    have e : 1000 * ((surface ls : ℂ) / q) * du (1000 * surface ls) = (1000 * surface ls * du (1000 * surface ls)) / q := by ring
    rw [e, eq_div_iff hne]
    linear_combination -1 * this - u (1000 * surface ls) * hq
  refine ⟨?_, hall⟩
  obtain ⟨u, du, hu, hne⟩ := solution_exists hn hT _ (inMetres_good h)
  rw [inMetres_top h.nonempty] at hu hne
  refine ⟨u, du, hu, hne, ?_⟩
  intro h0
  have := hall u du hu
  rw [h0, mul_zero] at this
  exact hne this

theorem solution_scale {n : ℕ} {w m r0 : ℝ} {sg : ℝ → ℝ} {u du : ℝ → ℂ} (h : InductionSolution n w m sg r0 u du) (z : ℂ) :
    InductionSolution n w m sg r0 (fun r => z * u r) (fun r => z * du r) := by
  obtain ⟨h1, h2, ⟨S, hS, h3⟩, ⟨M, d, hd, h4⟩⟩ := h
  refine ⟨fun r hr hr' => (h1 r hr hr').const_mul z, continuousOn_const.mul h2, ⟨S, hS, fun r hr hr' hrS => ?_⟩, ⟨‖z‖ * M, d, hd, fun r hr hr' => ?_⟩⟩
  · exact ((h3 r hr hr' hrS).const_mul z).congr_deriv (by ring)
  · rw [norm_mul]
    exact mul_le_mul_of_nonneg_left (h4 r hr hr') (norm_nonneg _)

/-- **C46.** `Q` relates induced (internal, `i`) and inducing (external, `e`) potential coefficients: outside the conductor
the potential `r0 (e (r/r0)^n + i (r0/r)^(n+1)) Y` has the radial and horizontal field of
`u = r0^2 (i/n (r0/r)^n - e/(n+1) (r/r0)^(n+1))`; it fits continuously to a regular field inside if and only if
`i = Q e`. -/
theorem C46_potential {n : ℕ} (hn : 1 ≤ n) {T : ℝ} (hT : 0 < T) {ls : List (ℝ × ℝ)} (h : GoodLayers ls) (e i : ℂ) :
    (∃ u du : ℝ → ℂ, InductionSolution n (2 * Real.pi / T) (4 * Real.pi * (1 / 10 ^ 7)) (conductivity (inMetres ls)) (1000 * surface ls) u du ∧
      u (1000 * surface ls) = (1000 * surface ls) ^ 2 * (i / n - e / (n + 1)) ∧
      du (1000 * surface ls) = -(1000 * surface ls) * (e + i)) ↔
    i = (respond n T (ls.map Prod.fst) (ls.map Prod.snd)).Q * e := by
  obtain ⟨⟨u0, du0, hu0, hne0, hdne0⟩, hall⟩ := C46_induction hn hT h
  obtain ⟨hC, hne⟩ := respond_C (n := n) hT h
  obtain ⟨hQ, hne2⟩ := respond_Q (n := n) hT h
  have hs : (surface ls : ℂ) ≠ 0 := by exact_mod_cast (surface_pos h).ne'
  have hnc : (n : ℂ) ≠ 0 := by exact_mod_cast (by omega : n ≠ 0)
  have hn1 : (n : ℂ) + 1 ≠ 0 := by exact_mod_cast (by omega : n + 1 ≠ 0)
  have hh : (half n : ℂ) = n + 1 / 2 := by unfold half; push_cast; ring
  rw [hQ]
  rw [hh] at hne2 ⊢
  have key : ((1000 * surface ls : ℂ) ^ 2 * (i / n - e / (n + 1)) = 1000 * (surface ls / (1 / 2 + slope n T (inMetres ls))) * (-(1000 * surface ls) * (e + i))) ↔
      i = n / (n + 1) * ((slope n T (inMetres ls) - (n + 1 / 2)) / (slope n T (inMetres ls) + (n + 1 / 2))) * e := by
    generalize slope n T (inMetres ls) = p at *
    have e1 : (1000 * (surface ls : ℂ)) ^ 2 * (i / n - e / (n + 1)) - 1000 * (surface ls / (1 / 2 + p)) * (-(1000 * surface ls) * (e + i)) =
        (1000 * (surface ls : ℂ)) ^ 2 * ((p + (n + 1 / 2)) / (n * (1 / 2 + p))) * (i - n / (n + 1) * ((p - (n + 1 / 2)) / (p + (n + 1 / 2))) * e) := by
      generalize hD : p + ((n : ℂ) + 1 / 2) = D at *
      generalize hq : 1 / 2 + p = q at *
      field_simp
      rw [← hD, ← hq]
      ring
    rw [← sub_eq_zero, e1, mul_eq_zero, or_iff_right, sub_eq_zero]
    refine mul_ne_zero (pow_ne_zero _ (mul_ne_zero (by norm_num) hs)) (div_ne_zero hne2 (mul_ne_zero hnc hne))
  constructor
  · rintro ⟨u, du, hu, h1, h2⟩
    have := hall u du hu
    rw [h1, h2, hC] at this
    exact key.1 this
  · intro hi
    have hk := key.2 hi
    have hu := solution_scale hu0 (-(1000 * surface ls) * (e + i) / du0 (1000 * surface ls))
    refine ⟨_, _, hu, ?_, ?_⟩
    · have := hall _ _ hu
      rw [this, div_mul_cancel₀ _ hdne0, hC]
      exact hk.symm
    · rw [div_mul_cancel₀ _ hdne0]

/-- **C46** (passivity): induced fields are weaker than those of a perfect conductor, and the response has the right
signs, for every profile and period: `|Q| < n/(n+1)`, `Re Q >= 0`, `Im Q >= 0`, `0 < Re C <= radius[0]/(n+1)`, `Im C <= 0`. -/
theorem C46_passive {n : ℕ} (hn : 1 ≤ n) {T : ℝ} (hT : 0 < T) {ls : List (ℝ × ℝ)} (h : GoodLayers ls) :
    let R := respond n T (ls.map Prod.fst) (ls.map Prod.snd);
    ‖R.Q‖ < n / (n + 1) ∧ 0 ≤ R.Q.re ∧ 0 ≤ R.Q.im ∧ 0 < R.C.re ∧ R.C.re ≤ surface ls / (n + 1) ∧ R.C.im ≤ 0 := by
  intro R
  obtain ⟨hC, hne⟩ := respond_C (n := n) hT h
  obtain ⟨hQ, hne2⟩ := respond_Q (n := n) hT h
  have hreg := slope_region n hT _ (inMetres_good h)
  have hsp := surface_pos h
  have hp := half_pos n
  have hnr : (1 : ℝ) ≤ n := by exact_mod_cast hn
  simp only [R]
  rw [hQ, hC]
  generalize slope n T (inMetres ls) = p at *
  have hns : 0 < Complex.normSq (p + half n) := Complex.normSq_pos.2 hne2
  have hns2 : 0 < Complex.normSq (1 / 2 + p) := Complex.normSq_pos.2 hne
  have hk : (0 : ℝ) < n / (n + 1) := by positivity
  have hkc : ((n : ℂ) / (n + 1)) = ((n / (n + 1) : ℝ) : ℂ) := by push_cast; rfl
  rw [hkc]
  have hlt : ‖(p - half n) / (p + half n)‖ < 1 := by
    rw [norm_div, div_lt_one (norm_pos_iff.2 hne2)]
    rw [← sq_lt_sq₀ (norm_nonneg _) (norm_nonneg _), ← Complex.normSq_eq_norm_sq, ← Complex.normSq_eq_norm_sq, Complex.normSq_apply, Complex.normSq_apply]
    simp only [Complex.sub_re, Complex.sub_im, Complex.add_re, Complex.add_im, Complex.ofReal_re, Complex.ofReal_im]
    nlinarith [mul_pos hp (hp.trans_le hreg.1)]
  have hh : half n + 1 / 2 = (n : ℝ) + 1 := by unfold half; ring
  refine ⟨?_, ?_, ?_, ?_, ?_, ?_⟩
  · rw [norm_mul, Complex.norm_real, Real.norm_of_nonneg hk.le]
    nlinarith
  · rw [Complex.re_ofReal_mul]
    refine mul_nonneg hk.le ?_
    rw [Complex.div_re, ← add_div]
    refine div_nonneg ?_ hns.le
    simp only [Complex.sub_re, Complex.sub_im, Complex.add_re, Complex.add_im, Complex.ofReal_re, Complex.ofReal_im]
    nlinarith [mul_self_nonneg p.im, mul_nonneg (sub_nonneg.2 hreg.1) (add_nonneg hp.le (hp.le.trans hreg.1))]
  · rw [Complex.im_ofReal_mul]
    refine mul_nonneg hk.le ?_
    rw [Complex.div_im, ← sub_div]
    refine div_nonneg ?_ hns.le
    simp only [Complex.sub_re, Complex.sub_im, Complex.add_re, Complex.add_im, Complex.ofReal_re, Complex.ofReal_im]
    nlinarith [mul_nonneg hp.le hreg.2]
  · rw [Complex.div_re, ← add_div]
    refine div_pos ?_ hns2
    simp
    nlinarith [mul_pos hsp (hp.trans_le hreg.1)]
  · rw [Complex.div_re, ← add_div, div_le_div_iff₀ hns2 (by positivity), Complex.normSq_apply]
    simp
    rw [← hh]
    have h2 : 0 ≤ p.re - half n := sub_nonneg.2 hreg.1
    have h3 : (2⁻¹ + p.re) * (half n + 1 / 2) ≤ (2⁻¹ + p.re) * (2⁻¹ + p.re) + p.im * p.im := by
      nlinarith [mul_self_nonneg p.im, mul_nonneg h2 (add_nonneg hp.le h2)]
    nlinarith [mul_le_mul_of_nonneg_left h3 hsp.le]
  · rw [Complex.div_im, ← sub_div]
    refine div_nonpos_of_nonpos_of_nonneg ?_ hns2.le
    simp
    nlinarith [mul_nonneg hsp.le hreg.2]

/-- **C46**: the returned phase lies between -0.01 and 90 degrees (57.3 is a rounded 180/pi). -/
theorem C46_phase {n : ℕ} (hn : 1 ≤ n) {T : ℝ} (hT : 0 < T) {ls : List (ℝ × ℝ)} (h : GoodLayers ls) :
    let R := respond n T (ls.map Prod.fst) (ls.map Prod.snd);
    (-0.01 : ℝ) < R.phi ∧ R.phi ≤ 90 := by
  intro R
  obtain ⟨-, -, -, h1, -, h2⟩ := C46_passive hn hT h
  have hphi : R.phi = 90 + 57.3 * Complex.arg R.C := rfl
  have ha := Complex.abs_arg_lt_pi_div_two_iff.2 (Or.inl h1)
  rw [abs_lt] at ha
  have hb : Complex.arg R.C ≤ 0 := by
    rcases h2.lt_or_eq with hc | hc
    · exact (Complex.arg_neg_iff.2 hc).le
    · rw [Complex.arg_eq_zero_iff.2 ⟨h1.le, hc⟩]
  rw [hphi]
  have hpi := Real.pi_lt_d4
  constructor
  · have := ha.1
    change -(Real.pi / 2) < Complex.arg R.C at this
    norm_num at hpi ⊢
    linarith
  · norm_num
    linarith

/-- **C46** (finding): in the default mode the documented real "surface resistance" is returned as a purely imaginary number. -/
theorem C46_resistance_imaginary (n : ℕ) (T : ℝ) (sigma radius : List ℝ) :
    (respond n T sigma radius).rhoA.re = 0 ∧
    (respond n T sigma radius).rhoA.im = (4 * Real.pi * (1 / 10 ^ 7)) * (2 * Real.pi / T) * ‖(respond n T sigma radius).C * 1000‖ ^ 2 := by
  have e : (respond n T sigma radius).rhoA = ((mu * angFreq T * ‖(respond n T sigma radius).C * 1000‖ ^ 2 : ℝ) : ℂ) * Complex.I := by
    conv_lhs => unfold respond
    simp only
    rw [omega_eq]
    push_cast
    have : (respond n T sigma radius).C = 1 / (Complex.I * (angFreq T : ℂ) * (mu : ℂ) * admittance n T sigma (radius.map fun r => 1000 * r)) / 1000 := by
      unfold respond
      simp only
      rw [omega_eq]
    rw [this]
    ring
  rw [e]
  constructor
  · rw [Complex.mul_I_re, Complex.ofReal_im, neg_zero]
  · rw [Complex.mul_I_im, Complex.ofReal_re]; rfl

theorem conductivity_scale (ls : List (ℝ × ℝ)) (r : ℝ) : conductivity (inMetres ls) (1000 * r) = conductivity ls r := by
  have aux : ∀ a : ℝ, 1000 * a / (1000 * r) = a / r := fun a => mul_div_mul_left _ _ (by norm_num)
  induction ls with
  | nil => rfl
  | cons l ls ih =>
    obtain ⟨s, a⟩ := l
    cases ls with
    | nil => change s * (1000 * a / (1000 * r)) ^ 2 = s * (a / r) ^ 2; rw [aux]
    | cons m ls =>
      obtain ⟨s', a'⟩ := m
      by_cases hr : r ≤ a'
      · rw [conductivity_below hr, ← ih]
        exact conductivity_below (by linarith)
      · rw [conductivity_above (not_le.1 hr)]
        have : conductivity (inMetres ((s, a) :: (s', a') :: ls)) (1000 * r) = s * (1000 * a / (1000 * r)) ^ 2 :=
          conductivity_above (by linarith [not_le.1 hr])
        rw [this, aux]

/-- All results are determined by `C`, the period, the degree and the surface radius. -/
theorem respond_ext {n : ℕ} {T : ℝ} {ls ms : List (ℝ × ℝ)} (hs : surface ls = surface ms)
    (h1 : ls ≠ []) (h2 : ms ≠ []) (hC : (respond n T (ls.map Prod.fst) (ls.map Prod.snd)).C = (respond n T (ms.map Prod.fst) (ms.map Prod.snd)).C) :
    respond n T (ls.map Prod.fst) (ls.map Prod.snd) = respond n T (ms.map Prod.fst) (ms.map Prod.snd) := by
  have e1 := inMetres_top h1
  have e2 := inMetres_top h2
  rw [inMetres_snd] at e1 e2
  unfold respond at hC ⊢
  simp only at hC ⊢
  rw [hC, e1, e2, hs]

theorem solution_congr {n : ℕ} {w m r0 : ℝ} {sg sg' : ℝ → ℝ} {u du : ℝ → ℂ} {S : Set ℝ} (hS : S.Finite)
    (heq : ∀ r, 0 < r → r < r0 → r ∉ S → sg r = sg' r) (h : InductionSolution n w m sg r0 u du) : InductionSolution n w m sg' r0 u du := by
  obtain ⟨h1, h2, ⟨S', hS', h3⟩, h4⟩ := h
  refine ⟨h1, h2, ⟨S ∪ S', hS.union hS', fun r hr hr' hrS => ?_⟩, h4⟩
  have := h3 r hr hr' fun hc => hrS (Or.inr hc)
  rw [heq r hr hr' fun hc => hrS (Or.inl hc)] at this
  exact this

/-- **C46**: the results depend only on the conductivity as a function of the radius, not on how it is cut into layers. -/
theorem C46_profile {n : ℕ} (hn : 1 ≤ n) {T : ℝ} (hT : 0 < T) {ls ms : List (ℝ × ℝ)} (h1 : GoodLayers ls) (h2 : GoodLayers ms)
    (hs : surface ls = surface ms) {S : Set ℝ} (hS : S.Finite)
    (heq : ∀ r, 0 < r → r < surface ls → r ∉ S → conductivity ls r = conductivity ms r) :
    respond n T (ls.map Prod.fst) (ls.map Prod.snd) = respond n T (ms.map Prod.fst) (ms.map Prod.snd) := by
  refine respond_ext hs h1.nonempty h2.nonempty ?_
  obtain ⟨⟨u, du, hu, hne, hdne⟩, hall1⟩ := C46_induction hn hT h1
  obtain ⟨-, hall2⟩ := C46_induction hn hT h2
  have e1 := hall1 u du hu
  have hu' : InductionSolution n (2 * Real.pi / T) (4 * Real.pi * (1 / 10 ^ 7)) (conductivity (inMetres ms)) (1000 * surface ls) u du := by
    refine solution_congr (hS.image fun r => 1000 * r) (fun r hr hr' hrS => ?_) hu
    have e : r = 1000 * (r / 1000) := by ring
    rw [e, conductivity_scale, conductivity_scale]
    exact heq _ (by positivity) (by rw [div_lt_iff₀ (by norm_num)]; linarith) fun hc => hrS ⟨_, hc, e.symm⟩
  rw [hs] at hu' e1 hdne
  have e2 := hall2 u du hu'
  rw [e1] at e2
  have := mul_right_cancel₀ hdne e2
  exact mul_left_cancel₀ (by norm_num) this

theorem conductivity_split (pre : List (ℝ × ℝ)) (s a a' : ℝ) (post : List (ℝ × ℝ)) (h : GoodLayers (pre ++ (s, a) :: (s * (a / a') ^ 2, a') :: post)) {r : ℝ}
    (hr : 0 < r) : conductivity (pre ++ (s, a) :: (s * (a / a') ^ 2, a') :: post) r = conductivity (pre ++ (s, a) :: post) r := by
  have key : s * (a / a') ^ 2 * (a' / r) ^ 2 = s * (a / r) ^ 2 := by
    have ha' : 0 < a' := h.radius (s * (a / a') ^ 2, a') (by simp)
    field_simp
  induction pre with
  | nil =>
    simp only [List.nil_append] at h ⊢
    by_cases hra : r ≤ a'
    · rw [conductivity_below hra]
      cases post with
      | nil => exact key
      | cons m post =>
        obtain ⟨s', a''⟩ := m
        by_cases hrb : r ≤ a''
        · rw [conductivity_below hrb, conductivity_below hrb]
        · rw [conductivity_above (not_le.1 hrb), conductivity_above (not_le.1 hrb), key]
    · rw [conductivity_above (not_le.1 hra)]
      cases post with
      | nil => rfl
      | cons m post =>
        obtain ⟨s', a''⟩ := m
        have := h.tail.step
        simp only at this
        rw [conductivity_above (this.trans (not_le.1 hra))]
  | cons l pre ih =>
    have hg : GoodLayers (pre ++ (s, a) :: (s * (a / a') ^ 2, a') :: post) := by
      cases pre with
      | nil => exact h.tail
      | cons m pre => exact h.tail
    have ih := ih hg
    obtain ⟨s1, a1⟩ := l
    cases pre with
    | nil =>
      simp only [List.cons_append, List.nil_append] at ih ⊢
      by_cases hra : r ≤ a
      · rw [conductivity_below hra, conductivity_below hra, ih]
      · rw [conductivity_above (not_le.1 hra), conductivity_above (not_le.1 hra)]
    | cons m pre =>
      obtain ⟨s2, a2⟩ := m
      simp only [List.cons_append] at ih ⊢
      by_cases hra : r ≤ a2
      · rw [conductivity_below hra, conductivity_below hra, ih]
      · rw [conductivity_above (not_le.1 hra), conductivity_above (not_le.1 hra)]

/-- **C46**: cutting any layer in two at an arbitrary radius (with the conductivity the profile has there) changes nothing. -/
theorem C46_split {n : ℕ} (hn : 1 ≤ n) {T : ℝ} (hT : 0 < T) (pre : List (ℝ × ℝ)) (s a a' : ℝ) (post : List (ℝ × ℝ))
    (h : GoodLayers (pre ++ (s, a) :: (s * (a / a') ^ 2, a') :: post)) :
    respond n T ((pre ++ (s, a) :: (s * (a / a') ^ 2, a') :: post).map Prod.fst) ((pre ++ (s, a) :: (s * (a / a') ^ 2, a') :: post).map Prod.snd) =
    respond n T ((pre ++ (s, a) :: post).map Prod.fst) ((pre ++ (s, a) :: post).map Prod.snd) := by
  have hsub : (pre ++ (s, a) :: post).Sublist (pre ++ (s, a) :: (s * (a / a') ^ 2, a') :: post) :=
    (List.Sublist.refl _).append (((List.Sublist.refl post).cons _).cons_cons _)
  have h' : GoodLayers (pre ++ (s, a) :: post) :=
    ⟨by simp, fun l hl => h.sigma l (hsub.subset hl), fun l hl => h.radius l (hsub.subset hl), h.decreasing.sublist (hsub.map _)⟩
  refine C46_profile hn hT h h' ?_ Set.finite_empty fun r hr _ _ => conductivity_split pre s a a' post h hr
  cases pre <;> rfl

/-- **C46**: a non-conducting sphere induces nothing. -/
theorem C46_insulator {n : ℕ} (hn : 1 ≤ n) {T : ℝ} (hT : 0 < T) {ls : List (ℝ × ℝ)} (h : GoodLayers ls) (h0 : ∀ l ∈ ls, l.1 = 0) :
    (respond n T (ls.map Prod.fst) (ls.map Prod.snd)).C = (surface ls / (n + 1) : ℝ) ∧ (respond n T (ls.map Prod.fst) (ls.map Prod.snd)).Q = 0 := by
  have hsl : slope n T (inMetres ls) = half n := by
    have hc : ∀ (ms : List (ℝ × ℝ)), (∀ l ∈ ms, l.1 = 0) → ∀ r, conductivity ms r = 0 := by
      intro ms
      induction ms with
      | nil => intro _ r; rfl
      | cons l ms ih =>
        intro hm r
        obtain ⟨s, a⟩ := l
        have hs0 : s = 0 := hm (s, a) List.mem_cons_self
        have := ih (fun l hl => hm l (List.mem_cons_of_mem _ hl)) r
        cases ms with
        | nil => change s * (a / r) ^ 2 = 0; rw [hs0, zero_mul]
        | cons m ms =>
          obtain ⟨s', a'⟩ := m
          by_cases hra : r ≤ a'
          · rw [conductivity_below hra, this]
          · rw [conductivity_above (not_le.1 hra), hs0, zero_mul]
    have hz : ∀ r, conductivity (inMetres ls) r = 0 := hc _ fun l hl => by
      obtain ⟨m, hm, rfl⟩ := List.mem_map.1 hl
      exact h0 m hm
    have hsol : InductionSolution n (2 * Real.pi / T) (4 * Real.pi * (1 / 10 ^ 7)) (conductivity (inMetres ls)) (1000 * surface ls)
        (fun r => (r : ℂ) ^ (n + 1)) (fun r => (n + 1) * (r : ℂ) ^ n) := by
      have hd : ∀ (k : ℕ) (r : ℝ), HasDerivAt (fun r : ℝ => (r : ℂ) ^ k) (k * (r : ℂ) ^ (k - 1)) r := fun k r => by
        have := (hasDerivAt_pow k (r : ℂ)).comp_ofReal
        simpa using this
      refine ⟨fun r _ _ => ?_, ?_, ⟨∅, Set.finite_empty, fun r hr _ _ => ?_⟩, ⟨1, 1, one_pos, fun r hr hr1 => ?_⟩⟩
      · have := hd (n + 1) r
        push_cast at this
        exact this.hasDerivWithinAt
      · exact (continuous_const.mul (Complex.continuous_ofReal.pow n)).continuousOn
      · have := (hd n r).const_mul ((n : ℂ) + 1)
        refine this.congr_deriv ?_
        rw [hz r]
        have hr0 : (r : ℂ) ≠ 0 := by exact_mod_cast hr.ne'
        obtain ⟨m, rfl⟩ : ∃ m, n = m + 1 := ⟨n - 1, by omega⟩
        push_cast
        field_simp
        ring
      · rw [norm_pow, Complex.norm_real, Real.norm_of_nonneg hr.le]
        exact pow_le_one₀ hr.le hr1.le
    have := solution_slope hn hT _ (inMetres_good h) (by rw [inMetres_top h.nonempty]; exact hsol)
    rw [inMetres_top h.nonempty] at this
    have hs : ((1000 * surface ls : ℝ) : ℂ) ≠ 0 := by exact_mod_cast (mul_pos (by norm_num) (surface_pos h)).ne'
    generalize ((1000 * surface ls : ℝ) : ℂ) = x at *
    have hx : x ^ (n + 1) ≠ 0 := pow_ne_zero _ hs
    refine mul_right_cancel₀ hx ?_
    rw [← this]
    unfold half
    push_cast
    ring
  obtain ⟨hC, -⟩ := respond_C (n := n) hT h
  obtain ⟨hQ, -⟩ := respond_Q (n := n) hT h
  rw [hC, hQ, hsl]
  refine ⟨?_, by simp⟩
  unfold half
  push_cast
  congr 1
  ring

/-- **C46**: for an array of periods every result is that of the single period, in the same order. -/
theorem C46_vectorised (Ts : List ℝ) {ls : List (ℝ × ℝ)} (hne : ls ≠ []) (n : ℕ) (kind : Option String)
    (hk : kind = none ∨ kind = some "quadratic") :
    qResponse1D (.array Ts) (ls.map Prod.fst) (ls.map Prod.snd) n kind = .ok (Ts.map fun T => respond n T (ls.map Prod.fst) (ls.map Prod.snd)) := by
  have hk' : kind.getD "quadratic" = "quadratic" := by rcases hk with rfl | rfl <;> rfl
  unfold qResponse1D
  simp only [hk']
  rw [if_neg (by decide), if_pos trivial, if_neg (by simp [hne])]

/-- **C46**: an unknown `kind` is rejected, and (finding) a scalar period with more than one layer fails. -/
theorem C46_errors (ls : List (ℝ × ℝ)) (n : ℕ) :
    (∀ (periods : Periods) (kind : String), kind ≠ "constant" → kind ≠ "quadratic" →
      qResponse1D periods (ls.map Prod.fst) (ls.map Prod.snd) n (some kind) = .error .valueError) ∧
    (∀ T : ℝ, 2 ≤ ls.length → qResponse1D (.scalar T) (ls.map Prod.fst) (ls.map Prod.snd) n none = .error .typeError) := by
  constructor
  · intro periods kind h1 h2
    unfold qResponse1D
    simp only [Option.getD_some]
    rw [if_neg h1, if_neg h2]
  · intro T h
    have hne : ls ≠ [] := by rintro rfl; simp at h
    unfold qResponse1D
    simp only [Option.getD_none]
    rw [if_neg (by decide), if_pos trivial, if_neg (by simp [hne])]
    simp only [List.length_map]
    rw [if_pos (by omega)]

theorem fillMask_map (p : ℝ → Bool) (g : ℝ → ℂ) (fs : List ℝ) :
    fillMask (fs.map p) ((fs.filter p).map g) = fs.map fun f => if p f then g f else 0 := by
  induction fs with
  | nil => rfl
  | cons f fs ih =>
    by_cases hp : p f
    · rw [List.filter_cons_of_pos hp, List.map_cons, List.map_cons, List.map_cons, hp, if_pos rfl]
      change g f :: fillMask _ _ = _
      rw [ih]
    · rw [List.filter_cons_of_neg hp, List.map_cons, List.map_cons, if_neg hp, Bool.eq_false_iff.2 hp]
      change 0 :: fillMask _ _ = _
      rw [ih]

open Classical in
/-- **C46**: the table of `q_response`: row `n - 1` belongs to degree `n`, its entries to the frequencies in the given
order; the entry of a positive frequency is `Q` for that degree and the period `1/f`, others are zero. -/
theorem C46_table (model : List (ℝ × ℝ)) (hne : model ≠ []) (frequency : List ℝ) (nmax : ℕ) :
    ∃ table, qResponse model frequency nmax = .ok table ∧ table.length = nmax ∧
      ∀ n, 1 ≤ n → n ≤ nmax → table[n - 1]? = some (frequency.map fun f =>
        if 0 < f then (respond n (1 / f) (model.map Prod.snd) (model.map fun l => 6371.2 - l.1)).Q else 0) := by
  have hrow : ∀ n : ℕ, (match qResponse1D (.array ((frequency.filter fun f => decide (f > 0)).map fun f => 1 / f))
        (model.map fun p => p.2) (model.map fun p => 6371.2 - p.1) (n + 1) (some "quadratic") with
      | .error e => (.error e : Except Error (List ℂ))
      | .ok rs => .ok (fillMask (frequency.map fun f => decide (f > 0)) (rs.map Response.Q))) =
      .ok (frequency.map fun f => if 0 < f then (respond (n + 1) (1 / f) (model.map Prod.snd) (model.map fun l => 6371.2 - l.1)).Q else 0) := by
    intro n
    have := C46_vectorised ((frequency.filter fun f => decide (f > 0)).map fun f => 1 / f)
      (ls := model.map fun l => (l.2, 6371.2 - l.1)) (by simpa using hne) (n + 1) (some "quadratic") (Or.inr rfl)
    simp only [List.map_map, Function.comp_def] at this
    simp only [this, List.map_map, Function.comp_def]
    congr 1
    have hf := fillMask_map (fun f => decide (f > 0))
      (fun x => (respond (n + 1) (1 / x) (List.map (fun p => p.2) model) (List.map (fun p => 6371.2 - p.1) model)).Q) frequency
    simp only [decide_eq_true_eq] at hf
    exact hf
  refine ⟨(List.range nmax).map fun n => frequency.map fun f =>
    if 0 < f then (respond (n + 1) (1 / f) (model.map Prod.snd) (model.map fun l => 6371.2 - l.1)).Q else 0, ?_, by simp, ?_⟩
  · unfold qResponse
    exact Synth.mapM_map _ _ _ fun n _ => hrow n
  · intro n h1 h2
    rw [List.getElem?_map, List.getElem?_range (by omega)]
    simp only [Option.map_some]
    rw [Nat.sub_add_cancel h1]

/-- The hypotheses are met: a conducting core under a mantle. -/
theorem ex_layers : GoodLayers [(1, 6371.2), (1000, 3480)] ∧ surface [(1, 6371.2), (1000, 3480)] = 6371.2 := by
  refine ⟨⟨by simp, ?_, ?_, ?_⟩, rfl⟩
  · intro l hl; simp at hl; rcases hl with rfl | rfl <;> norm_num
  · intro l hl; simp at hl; rcases hl with rfl | rfl <;> norm_num
  · simp; norm_num

end ChaosMagPy.QResponse
