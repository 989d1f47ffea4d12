import Verif.Lemmas.FloatAngles
/-!
# C92: accuracy of the Legendre table in double precision
-/
namespace ChaosMagPy.FloatLegendre
open ChaosMagPy.Spec ChaosMagPy.Float ChaosMagPy.Legendre

variable (R : Rounding)

/-- A growth factor `1 + ε`. -/
theorem grow_of {ε : ℝ} {K : ℕ} (h0 : 2⁻¹ ^ 51 ≤ ε) (h1 : 2 * (K * ε) ≤ 1) : Grow (1 + ε) K :=
  ⟨by linarith, (pow_growth ((by positivity : (0 : ℝ) ≤ 2⁻¹ ^ 51).trans h0) K h1).trans (by linarith)⟩

theorem Nr.final {ε : ℝ} {k : ℕ} {x y A : ℝ} (h0 : 0 ≤ ε) (hk : 2 * (k * ε) ≤ 1) (h : Nr (1 + ε) k x y A) : |x - y| ≤ 2 * (k * ε) * A := by
  have h1 := Near.err h
  have h2 := pow_growth h0 k hk
  have h3 := h.nonneg.1
  nlinarith [mul_le_mul_of_nonneg_right h2 h3]

/-- What holds at a colatitude that is not too close to a pole. -/
theorem colat_near {C : ℝ → ℝ} (hC : IsCosine C) {θ : ℝ} (h0 : 0 ≤ θ) (h180 : θ ≤ 180) {K : ℕ} {w : ℝ} (g : Grow w K) (hs : 0 < Real.sin (rad θ))
    (hw : 1 + 2⁻¹ ^ 48 / Real.sin (rad θ) ≤ w) :
    Nr w 1 (C (radians R θ)) (Real.cos (rad θ)) 1 ∧ Nr w 1 (sine R (C (radians R θ))) (Real.sin (rad θ)) 1 ∧
      R (C (radians R θ)) = C (radians R θ) ∧ R (sine R (C (radians R θ))) = sine R (C (radians R θ)) := by
  have hle := hC.le_one (radians R θ)
  have h1 : (2 : ℝ)⁻¹ ^ 48 ≤ 2⁻¹ ^ 48 / Real.sin (rad θ) := by
    rw [le_div_iff₀ hs]
    nlinarith [Real.sin_le_one (rad θ), (by positivity : (0 : ℝ) < 2⁻¹ ^ 48)]
  refine ⟨cos_near R g hC h0 h180 (by linarith), sin_near R g hC h0 h180 hs hw, rnd_double R (hC.double _) (big' (by linarith)), ?_⟩
  obtain ⟨a, b⟩ := sine_le_one R hle
  refine rnd_double R ?_ (big' (by rw [abs_of_nonneg a]; linarith))
  unfold sine
  have h1 := (sine_range R hle).2.1
  exact (R.nearest _ (big' (by
    rw [abs_of_nonneg (Real.sqrt_nonneg _)]
    have : Real.sqrt (R (1 - R (C (radians R θ) * C (radians R θ)))) ≤ 1 := by rw [Real.sqrt_le_one]; exact h1
    linarith))).1

theorem eps_bounds {s : ℝ} (h0 : 2⁻¹ ^ 20 ≤ s) (h1 : s ≤ 1) : (2 : ℝ)⁻¹ ^ 48 ≤ 2⁻¹ ^ 48 / s ∧ (2 : ℝ)⁻¹ ^ 48 / s ≤ 2⁻¹ ^ 28 := by
  have hs : 0 < s := lt_of_lt_of_le (by positivity) h0
  constructor
  · rw [le_div_iff₀ hs]
    nlinarith [(by positivity : (0 : ℝ) < 2⁻¹ ^ 48)]
  · rw [div_le_iff₀ hs]
    calc (2 : ℝ)⁻¹ ^ 48 = 2⁻¹ ^ 28 * 2⁻¹ ^ 20 := by norm_num
      _ ≤ 2⁻¹ ^ 28 * s := mul_le_mul_of_nonneg_left h0 (by positivity)

/-- **C92, values.** For every maximum degree up to 250 and every colatitude with a sine of at least `2^-20` (that is farther than `6·10^-5` degrees
from the poles) the value computed for degree `n` and order `m` differs from the Schmidt semi-normalised Legendre function by at most
`n 2^-44 (5/2)^n / sin θ`. -/
theorem C92_values {C : ℝ → ℝ} (hC : IsCosine C) {nmax : ℕ} (h1 : 1 ≤ nmax) (hmax : nmax ≤ 250) {θ : ℝ} (h0 : 0 ≤ θ) (h180 : θ ≤ 180)
    (hs : 2⁻¹ ^ 20 ≤ Real.sin (rad θ)) :
    ∃ T, legendrePolyF R C nmax θ = .ok T ∧ ∀ n m, m ≤ n → n ≤ nmax →
      ∃ t, T (n, m) = some t ∧ |t - schmidt n m (rad θ)| ≤ n * 2⁻¹ ^ 44 * (5 / 2) ^ n / Real.sin (rad θ) := by
  obtain ⟨e1, e2⟩ := eps_bounds hs (Real.sin_le_one _)
  have hpos : 0 < Real.sin (rad θ) := lt_of_lt_of_le (by positivity) hs
  set ε := (2 : ℝ)⁻¹ ^ 48 / Real.sin (rad θ) with hε
  have g : Grow (1 + ε) 2020 := grow_of (by norm_num at e1 ⊢; linarith) (by norm_num at e2 ⊢; linarith)
  obtain ⟨a, b, c, d⟩ := colat_near R hC h0 h180 g hpos le_rfl
  refine ⟨_, legendrePolyF_ok R C nmax θ h1, fun n m hm hn => ?_⟩
  obtain ⟨t, ht, h⟩ := near_val R g a b c d h1 hmax (by omega) n m hm hn
  refine ⟨t, ht, ?_⟩
  rw [schmidt_eq, ← fin_val nmax _ _ n m h1 hm hn]
  have hnr : (n : ℝ) ≤ 250 := by exact_mod_cast (by omega : n ≤ 250)
  have hn0 : (0 : ℝ) ≤ n := by positivity
  have hε0 : 0 ≤ ε := (by positivity : (0 : ℝ) ≤ 2⁻¹ ^ 48).trans e1
  refine (Nr.final hε0 ?_ h).trans (le_of_eq ?_)
  · push_cast
    norm_num at e2
    nlinarith
  · rw [hε]
    push_cast
    ring

/-- **C92, derivatives.** The derivatives computed with respect to the colatitude (in radians) differ from the exact ones by at most
`n (n+1) 2^-42 (5/2)^n / sin θ`. -/
theorem C92_derivatives {C : ℝ → ℝ} (hC : IsCosine C) {nmax : ℕ} (h1 : 1 ≤ nmax) (hmax : nmax ≤ 250) {θ : ℝ} (h0 : 0 ≤ θ) (h180 : θ ≤ 180)
    (hs : 2⁻¹ ^ 20 ≤ Real.sin (rad θ)) :
    ∃ T, legendrePolyF R C nmax θ = .ok T ∧ ∀ n m, 1 ≤ n → m ≤ n → n ≤ nmax → ∃ t d, T (m, n + 1) = some t ∧
      HasDerivAt (schmidt n m) d (rad θ) ∧ |t - d| ≤ n * (n + 1) * 2⁻¹ ^ 42 * (5 / 2) ^ n / Real.sin (rad θ) := by
  obtain ⟨e1, e2⟩ := eps_bounds hs (Real.sin_le_one _)
  have hpos : 0 < Real.sin (rad θ) := lt_of_lt_of_le (by positivity) hs
  set ε := (2 : ℝ)⁻¹ ^ 48 / Real.sin (rad θ) with hε
  have g : Grow (1 + ε) 2020 := grow_of (by norm_num at e1 ⊢; linarith) (by norm_num at e2 ⊢; linarith)
  obtain ⟨a, b, c, d⟩ := colat_near R hC h0 h180 g hpos le_rfl
  refine ⟨_, legendrePolyF_ok R C nmax θ h1, fun n m hn1 hm hn => ?_⟩
  obtain ⟨t, ht, h⟩ := near_deriv R g a b c d h1 hmax (by omega) n m hn1 hm hn
  refine ⟨t, _, ht, hasDerivAt_schmidt n m (rad θ), ?_⟩
  rw [← fin_deriv nmax _ _ (Real.sin_sq _) n m h1 hm hn]
  have hnr : (n : ℝ) ≤ 250 := by exact_mod_cast (by omega : n ≤ 250)
  have hn1r : (1 : ℝ) ≤ n := by exact_mod_cast hn1
  have hε0 : 0 ≤ ε := (by positivity : (0 : ℝ) ≤ 2⁻¹ ^ 48).trans e1
  refine (Nr.final hε0 ?_ h).trans ?_
  · push_cast
    norm_num at e2
    nlinarith
  · have h2 : Real.sqrt 2 ≤ 2 := by rw [Real.sqrt_le_left (by norm_num)]; norm_num
    have h3 : 2 * ((8 * n + 4 : ℕ) * ε) * (Real.sqrt 2 * (n + 1) * (5 / 2) ^ n) = (2 * (8 * n + 4) * Real.sqrt 2) * (ε * ((n + 1) * (5 / 2) ^ n)) := by
      push_cast
      ring
    have h4 : n * (n + 1) * 2⁻¹ ^ 42 * (5 / 2) ^ n / Real.sin (rad θ) = (64 * n) * (ε * ((n + 1) * (5 / 2) ^ n)) := by
      rw [hε]
      ring
    rw [h3, h4]
    refine mul_le_mul_of_nonneg_right ?_ (by positivity)
    nlinarith [Real.sqrt_nonneg 2]

end ChaosMagPy.FloatLegendre
