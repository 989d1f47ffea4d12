import Verif.Lemmas.FloatAccuracy
import Verif.Props.Legendre
/-!
# Rounding errors of angles, sines and cosines
-/
namespace ChaosMagPy.FloatLegendre
open ChaosMagPy.Spec ChaosMagPy.Float ChaosMagPy.Legendre

variable (R : Rounding)

/-- The double `π/180`, sharper. -/
theorem deg_err' : |R (R Real.pi / 180) - Real.pi / 180| ≤ 2⁻¹ ^ 59 + 2⁻¹ ^ 52 / 180 := by
  have hp := Real.pi_gt_d4
  have hp' := Real.pi_lt_d4
  have h1 := rnd_err R (x := Real.pi) (k := 2) (by rw [abs_of_pos Real.pi_pos]; norm_num; linarith) (by norm_num) (by norm_num)
  have h2 : |R Real.pi / 180| ≤ (2 : ℝ) ^ (-5 : ℤ) := by
    rw [abs_le] at h1 ⊢
    norm_num at h1 ⊢
    constructor <;> linarith
  have h3 := rnd_err R h2 (by norm_num) (by norm_num)
  rw [abs_le] at *
  norm_num at *
  constructor <;> linarith

/-- `np.radians` in `[0°, 180°]`, sharper. -/
theorem radians_err' {θ : ℝ} (h0 : 0 ≤ θ) (h1 : θ ≤ 180) : |radians R θ - rad θ| ≤ 2⁻¹ ^ 50 := by
  have hd := deg_err' R
  have hp := Real.pi_gt_d4
  have hp' := Real.pi_lt_d4
  unfold radians rad
  set d := R (R Real.pi / 180)
  have h2 : |θ * d - θ * (Real.pi / 180)| ≤ 180 * (2⁻¹ ^ 59 + 2⁻¹ ^ 52 / 180) := by
    rw [← mul_sub, abs_mul, abs_of_nonneg h0]
    exact mul_le_mul h1 hd (abs_nonneg _) (by norm_num)
  have h3 : |θ * d| ≤ (2 : ℝ) ^ (2 : ℤ) := by
    have : |θ * (Real.pi / 180)| ≤ 3.1416 := by
      rw [abs_of_nonneg (by positivity)]
      nlinarith
    rw [abs_le] at *
    norm_num at *
    constructor <;> linarith
  have h4 := rnd_err R h3 (by norm_num) (by norm_num)
  have e : θ * Real.pi / 180 = θ * (Real.pi / 180) := by ring
  rw [abs_le] at *
  norm_num at *
  constructor <;> linarith

/-- `np.radians` of azimuths. -/
theorem radians_err_wide {x : ℝ} (h : |x| ≤ 360) : |radians R x - rad x| ≤ 2⁻¹ ^ 49 ∧ |radians R x| ≤ 7 := by
  have hd := deg_err' R
  have hp := Real.pi_gt_d4
  have hp' := Real.pi_lt_d4
  unfold radians rad
  set d := R (R Real.pi / 180)
  have h2 : |x * d - x * (Real.pi / 180)| ≤ 360 * (2⁻¹ ^ 59 + 2⁻¹ ^ 52 / 180) := by
    rw [← mul_sub, abs_mul]
    exact mul_le_mul h hd (abs_nonneg _) (by norm_num)
  have h5 : |x * (Real.pi / 180)| ≤ 6.2832 := by
    rw [abs_mul, abs_of_pos (by positivity : 0 < Real.pi / 180)]
    nlinarith [abs_nonneg x]
  have h3 : |x * d| ≤ (2 : ℝ) ^ (3 : ℤ) := by
    rw [abs_le] at *
    norm_num at *
    constructor <;> linarith
  have h4 := rnd_err R h3 (by norm_num) (by norm_num)
  have e : x * Real.pi / 180 = x * (Real.pi / 180) := by ring
  constructor
  · rw [abs_le] at *
    norm_num at *
    constructor <;> linarith
  · rw [abs_le] at *
    norm_num at *
    constructor <;> linarith

/-- The computed cosine of the colatitude. -/
theorem cos_err {C : ℝ → ℝ} (hC : IsCosine C) {θ : ℝ} (h0 : 0 ≤ θ) (h180 : θ ≤ 180) :
    |C (radians R θ) - Real.cos (rad θ)| ≤ 2⁻¹ ^ 52 + 2⁻¹ ^ 50 := by
  have e2 := hC.err (radians R θ)
  have e3 := radians_err' R h0 h180
  have e4 : |Real.cos (radians R θ) - Real.cos (rad θ)| ≤ |radians R θ - rad θ| := Real.abs_cos_sub_cos_le _ _
  refine (abs_sub_le _ (Real.cos (radians R θ)) _).trans ?_
  linarith

/-- The computed sine of the colatitude. -/
theorem sin_err {C : ℝ → ℝ} (hC : IsCosine C) {θ : ℝ} (h0 : 0 ≤ θ) (h180 : θ ≤ 180) (hs : 0 < Real.sin (rad θ)) :
    |sine R (C (radians R θ)) - Real.sin (rad θ)| ≤ 2⁻¹ ^ 48 / Real.sin (rad θ) := by
  have hle := hC.le_one (radians R θ)
  have e1 := sine_sq_err R hle
  have e5 := cos_err R hC h0 h180
  have hs0 := (sine_le_one R hle).1
  set c := C (radians R θ)
  set t := sine R c
  set s := Real.sin (rad θ) with hsd
  have e6 : |c ^ 2 - Real.cos (rad θ) ^ 2| ≤ 2 * (2⁻¹ ^ 52 + 2⁻¹ ^ 50) := by
    rw [sq_sub_sq, abs_mul]
    refine mul_le_mul ?_ e5 (abs_nonneg _) (by norm_num)
    exact (abs_add_le _ _).trans (by linarith [Real.abs_cos_le_one (rad θ)])
  have e7 : |t ^ 2 - s ^ 2| ≤ 2⁻¹ ^ 48 := by
    rw [hsd, Real.sin_sq]
    rw [abs_le] at e1 e6 ⊢
    norm_num at e1 e6 ⊢
    constructor <;> linarith
  rw [le_div_iff₀ hs]
  rw [sq_sub_sq, abs_mul, abs_of_nonneg (by linarith), mul_comm] at e7
  exact (mul_le_mul_of_nonneg_left (by linarith) (abs_nonneg _)).trans e7

section
variable {w : ℝ} {K : ℕ} (g : Grow w K)
include g

theorem cos_near {C : ℝ → ℝ} (hC : IsCosine C) {θ : ℝ} (h0 : 0 ≤ θ) (h180 : θ ≤ 180) (hw : 1 + 2⁻¹ ^ 48 ≤ w) :
    Nr w 1 (C (radians R θ)) (Real.cos (rad θ)) 1 := by
  refine g.of_err ((cos_err R hC h0 h180).trans ?_) (Real.abs_cos_le_one _)
  rw [mul_one]
  norm_num at hw ⊢
  linarith

theorem sin_near {C : ℝ → ℝ} (hC : IsCosine C) {θ : ℝ} (h0 : 0 ≤ θ) (h180 : θ ≤ 180) (hs : 0 < Real.sin (rad θ))
    (hw : 1 + 2⁻¹ ^ 48 / Real.sin (rad θ) ≤ w) : Nr w 1 (sine R (C (radians R θ))) (Real.sin (rad θ)) 1 := by
  refine g.of_err ((sin_err R hC h0 h180 hs).trans ?_) (Real.abs_sin_le_one _)
  rw [mul_one]
  linarith

/-- Values that depend on an angle `mφ`. -/
theorem turn_near {f f' : ℝ → ℝ} (hf : ∀ x, |f' x - f x| ≤ 2⁻¹ ^ 52) (hl : ∀ x y, |f x - f y| ≤ |x - y|) (hb : ∀ x, |f x| ≤ 1)
    {m : ℕ} (hm1 : 1 ≤ m) (hm : m ≤ 250) {x : ℝ} (hx : |x| ≤ 360) (hw : 1 + 2⁻¹ ^ 47 ≤ w) :
    Nr w m (f' (R ((m : ℝ) * radians R x))) (f (m * rad x)) 1 := by
  obtain ⟨e1, e2⟩ := radians_err_wide R hx
  have hmr : (1 : ℝ) ≤ m := by exact_mod_cast hm1
  have hmr' : (m : ℝ) ≤ 250 := by exact_mod_cast hm
  have e3 : |(m : ℝ) * radians R x| ≤ m * 7 := by
    rw [abs_mul, abs_of_nonneg (by linarith)]
    exact mul_le_mul_of_nonneg_left e2 (by linarith)
  have e4 := rnd_rel R (x := (m : ℝ) * radians R x) (big (e3.trans (by linarith [show (1750 : ℝ) ≤ 2 ^ 60 by norm_num])))
  have e5 : |(m : ℝ) * radians R x - m * rad x| ≤ m * 2⁻¹ ^ 49 := by
    rw [← mul_sub, abs_mul, abs_of_nonneg (by linarith)]
    exact mul_le_mul_of_nonneg_left e1 (by linarith)
  have e6 : uu * |(m : ℝ) * radians R x| ≤ 2⁻¹ ^ 53 * (m * 7) := by
    have : uu = 2⁻¹ ^ 53 := by unfold uu; norm_num
    rw [this]
    exact mul_le_mul_of_nonneg_left e3 (by positivity)
  have ht : tiny ≤ 2⁻¹ ^ 60 := by
    unfold tiny
    rw [show (2 : ℝ)⁻¹ ^ 60 = (2 : ℝ) ^ (-60 : ℤ) by norm_num]
    exact zpow_le_zpow_right₀ (by norm_num) (by norm_num)
  have e7 := abs_sub_le (R ((m : ℝ) * radians R x)) (m * radians R x) (m * rad x)
  have e8 := hl (R ((m : ℝ) * radians R x)) (m * rad x)
  have e9 := hf (R ((m : ℝ) * radians R x))
  have e10 := abs_sub_le (f' (R ((m : ℝ) * radians R x))) (f (R ((m : ℝ) * radians R x))) (f (m * rad x))
  refine ⟨?_, hb _⟩
  rw [mul_one]
  have e11 : 1 + (m : ℝ) * 2⁻¹ ^ 47 ≤ w ^ m := by
    refine (one_add_mul_le_pow (by norm_num) m).trans ?_
    exact pow_le_pow_left₀ (by positivity) hw m
  have e12 : |f' (R ((m : ℝ) * radians R x)) - f (m * rad x)| ≤ m * 2⁻¹ ^ 47 := by
    have : 2⁻¹ ^ 52 + (2⁻¹ ^ 53 * (m * 7) + 2⁻¹ ^ 60 + m * 2⁻¹ ^ 49) ≤ (m : ℝ) * 2⁻¹ ^ 47 := by
      norm_num
      linarith
    linarith
  linarith

end

end ChaosMagPy.FloatLegendre
