import Verif.Lemmas.FloatCoord
/-!
# C95: zenith angles in double precision
-/
namespace ChaosMagPy.FloatCoord
open ChaosMagPy.Spec ChaosMagPy.Float ChaosMagPy.FloatLegendre

variable (R : Rounding)

theorem zenith_core {C S : ℝ → ℝ} (hC : IsCosine C) (hS : IsSine S) {θs φs θ φ : ℝ} (h1 : |θs| ≤ 360) (h2 : |φs| ≤ 360)
    (h3 : |θ| ≤ 360) (h4 : |φ| ≤ 360) {ζ : ℝ} (hd : Real.cos (rad ζ) = dot (direction θ φ) (direction θs φs)) :
    |cosZeta R C S θs φs θ φ - Real.cos (rad ζ)| ≤ 2⁻¹ ^ 46 := by
  rw [hd]
  exact cosZeta_err R hC hS h1 h2 h3 h4

theorem rad_range {ζ : ℝ} (h0 : 0 ≤ ζ) (h : ζ ≤ 180) : 0 ≤ rad ζ ∧ rad ζ ≤ Real.pi := by
  have hp := Real.pi_pos
  unfold rad
  constructor
  · positivity
  · nlinarith

/-- **C95, accuracy.** If the computed zenith angle is a number, it differs from the angle between the directions of the point and of the sun by at most
`2^-15` degrees, and by at most `2^-37 / sin ζ` degrees. -/
theorem C95_zenith {C S A : ℝ → ℝ} (hC : IsCosine C) (hS : IsSine S) (hA : IsArccos A) {θs φs θ φ : ℝ} (h1 : |θs| ≤ 360) (h2 : |φs| ≤ 360)
    (h3 : |θ| ≤ 360) (h4 : |φ| ≤ 360) {ζ : ℝ} (hζ0 : 0 ≤ ζ) (hζ : ζ ≤ 180) (hd : Real.cos (rad ζ) = dot (direction θ φ) (direction θs φs))
    {z : ℝ} (hz : zenithAngle R C S A θs φs θ φ = some z) : |z - ζ| ≤ 2⁻¹ ^ 15 ∧ |z - ζ| * Real.sin (rad ζ) ≤ 2⁻¹ ^ 37 := by
  have he := zenith_core R hC hS h1 h2 h3 h4 hd
  unfold zenithAngle at hz
  simp only at hz
  set c := cosZeta R C S θs φs θ φ
  split_ifs at hz with hc
  cases hz
  obtain ⟨r0, r1⟩ := rad_range hζ0 hζ
  have hp := Real.pi_gt_d4
  have hp' := Real.pi_lt_d4
  rw [← Real.cos_arccos (abs_le.1 hc).1 (abs_le.1 hc).2] at he
  obtain ⟨g1, g2⟩ := angle_of_cos (Real.arccos_nonneg c) (Real.arccos_le_pi c) r0 r1 he
  set q := |Real.arccos c - rad ζ| / Real.pi with hq
  have hq0 : 0 ≤ q := by positivity
  have q1 : q ≤ 2⁻¹ ^ 23 := by
    refine (sq_le_sq₀ hq0 (by positivity)).1 ?_
    norm_num at g1 ⊢
    linarith
  have ha := hA.err c hc
  have habs : |A c| ≤ 4 := by
    have := Real.arccos_nonneg c
    have := Real.arccos_le_pi c
    rw [abs_le] at *
    norm_num at *
    constructor <;> linarith
  have hdeg := degrees_err R habs
  have e1 : |A c * (180 / Real.pi) - ζ| ≤ 2⁻¹ ^ 51 * 58 + 180 * q := by
    have e2 : A c * (180 / Real.pi) - ζ = (A c - Real.arccos c) * (180 / Real.pi) + (Real.arccos c - rad ζ) / Real.pi * 180 := by
      unfold rad
      field_simp
      ring
    rw [e2]
    refine (abs_add_le _ _).trans (add_le_add ?_ ?_)
    · rw [abs_mul, abs_of_pos (by positivity : 0 < 180 / Real.pi)]
      refine mul_le_mul ha ?_ (by positivity) (by positivity)
      rw [div_le_iff₀ (by positivity)]
      linarith
    · rw [abs_mul, abs_div, abs_of_pos Real.pi_pos, ← hq]
      norm_num
      linarith
  have e3 : |degrees R (A c) - ζ| ≤ 2⁻¹ ^ 44 + 2⁻¹ ^ 51 * 58 + 180 * q := by
    have := abs_add_le (degrees R (A c) - A c * (180 / Real.pi)) (A c * (180 / Real.pi) - ζ)
    rw [sub_add_sub_cancel] at this
    linarith
  constructor
  · refine e3.trans ?_
    norm_num at q1 ⊢
    linarith
  · have s0 : 0 ≤ Real.sin (rad ζ) := Real.sin_nonneg_of_nonneg_of_le_pi r0 r1
    have s1 := Real.sin_le_one (rad ζ)
    have e4 := mul_le_mul_of_nonneg_right e3 s0
    refine e4.trans ?_
    generalize Real.sin (rad ζ) = s at *
    have e5 : (2⁻¹ ^ 44 + 2⁻¹ ^ 51 * 58 + 180 * q) * s = (2⁻¹ ^ 44 + 2⁻¹ ^ 51 * 58) * s + 180 * (s * q) := by ring
    rw [e5]
    have e6 : ((2 : ℝ)⁻¹ ^ 44 + 2⁻¹ ^ 51 * 58) * s ≤ (2⁻¹ ^ 44 + 2⁻¹ ^ 51 * 58) * 1 := mul_le_mul_of_nonneg_left s1 (by positivity)
    norm_num at e6 g2 ⊢
    linarith

/-- **C95, missing values.** The computed zenith angle is NaN only if the sun is within `2^-15` degrees of the zenith or of the nadir. -/
theorem C95_nan {C S : ℝ → ℝ} (hC : IsCosine C) (hS : IsSine S) (A : ℝ → ℝ) {θs φs θ φ : ℝ} (h1 : |θs| ≤ 360) (h2 : |φs| ≤ 360)
    (h3 : |θ| ≤ 360) (h4 : |φ| ≤ 360) {ζ : ℝ} (hζ0 : 0 ≤ ζ) (hζ : ζ ≤ 180) (hd : Real.cos (rad ζ) = dot (direction θ φ) (direction θs φs))
    (hz : zenithAngle R C S A θs φs θ φ = none) : ζ ≤ 2⁻¹ ^ 15 ∨ 180 - ζ ≤ 2⁻¹ ^ 15 := by
  have he := zenith_core R hC hS h1 h2 h3 h4 hd
  unfold zenithAngle at hz
  simp only at hz
  set c := cosZeta R C S θs φs θ φ
  split_ifs at hz with hc
  rw [not_le, lt_abs] at hc
  obtain ⟨r0, r1⟩ := rad_range hζ0 hζ
  have hp := Real.pi_pos
  have hz1 := Real.cos_le_one (rad ζ)
  have hz2 := Real.neg_one_le_cos (rad ζ)
  have sm : ∀ {q : ℝ}, 0 ≤ q → 2 * q ^ 2 ≤ 2⁻¹ ^ 46 → q ≤ 2⁻¹ ^ 23 := by
    intro q h0 h
    refine (sq_le_sq₀ h0 (by positivity)).1 ?_
    norm_num at h ⊢
    linarith
  rcases hc with hc | hc
  · left
    have h5 : |Real.cos (rad ζ) - Real.cos 0| ≤ 2⁻¹ ^ 46 := by
      rw [Real.cos_zero, abs_le] at *
      constructor <;> linarith [he.1, he.2]
    obtain ⟨g, -⟩ := angle_of_cos r0 r1 le_rfl hp.le h5
    have g' := sm (by positivity) g
    rw [sub_zero, abs_of_nonneg r0] at g'
    have e : rad ζ / Real.pi = ζ / 180 := by unfold rad; field_simp
    rw [e] at g'
    norm_num at g' ⊢
    linarith
  · right
    have h5 : |Real.cos (rad ζ) - Real.cos Real.pi| ≤ 2⁻¹ ^ 46 := by
      rw [Real.cos_pi, abs_le] at *
      constructor <;> linarith [he.1, he.2]
    obtain ⟨g, -⟩ := angle_of_cos r0 r1 hp.le le_rfl h5
    have g' := sm (by positivity) g
    rw [abs_sub_comm, abs_of_nonneg (by linarith)] at g'
    have e : (Real.pi - rad ζ) / Real.pi = 1 - ζ / 180 := by unfold rad; field_simp
    rw [e] at g'
    norm_num at g' ⊢
    linarith

end ChaosMagPy.FloatCoord
