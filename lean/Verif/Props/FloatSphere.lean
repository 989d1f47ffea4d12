import Verif.Lemmas.FloatSphere
/-!
# C96: spherical and cartesian coordinates in double precision
-/
namespace ChaosMagPy.FloatCoord
open ChaosMagPy.Spec ChaosMagPy.Float ChaosMagPy.FloatLegendre

variable (R : Rounding)

/-- One of the products `radius * f(phi) * sin(theta)`. -/
theorem product_err {r f s f0 s0 : ℝ} (h1 : 2⁻¹ ^ 100 ≤ r) (h2 : r ≤ 2 ^ 100) (hf : |f| ≤ 1) (hs : |s| ≤ 1) (hf0 : |f0| ≤ 1)
    (ef : |f - f0| ≤ 2⁻¹ ^ 49 + 2⁻¹ ^ 52) (es : |s - s0| ≤ 2⁻¹ ^ 49 + 2⁻¹ ^ 52) :
    |R (R (r * f) * s) - r * (f0 * s0)| ≤ r * 2⁻¹ ^ 47 := by
  have hr : 0 ≤ r := le_trans (by positivity) h1
  have k1 : |r * f| ≤ r := by rw [abs_mul, abs_of_nonneg hr]; exact mul_le_of_le_one_right hr hf
  have k2 := rnd_scale R h1 h2 (k1.trans (by linarith))
  have k3 : |R (r * f) * s| ≤ 2 * r := by
    rw [abs_mul]
    refine (mul_le_of_le_one_right (abs_nonneg _) hs).trans ?_
    have := abs_add_le (R (r * f) - r * f) (r * f)
    rw [sub_add_cancel] at this
    norm_num at k2 ⊢
    linarith
  have k4 := rnd_scale R h1 h2 k3
  have k5 : |(R (r * f) - r * f) * s| ≤ r * 2⁻¹ ^ 51 := by
    rw [abs_mul]
    exact (mul_le_of_le_one_right (abs_nonneg _) hs).trans k2
  have k6 : |r * ((f - f0) * s)| ≤ r * (2⁻¹ ^ 49 + 2⁻¹ ^ 52) := by
    rw [abs_mul, abs_of_nonneg hr, abs_mul]
    exact mul_le_mul_of_nonneg_left ((mul_le_of_le_one_right (abs_nonneg _) hs).trans ef) hr
  have k7 : |r * (f0 * (s - s0))| ≤ r * (2⁻¹ ^ 49 + 2⁻¹ ^ 52) := by
    rw [abs_mul, abs_of_nonneg hr, abs_mul]
    exact mul_le_mul_of_nonneg_left ((mul_le_of_le_one_left (abs_nonneg _) hf0).trans es) hr
  have e : R (R (r * f) * s) - r * (f0 * s0) = (R (R (r * f) * s) - R (r * f) * s) + (R (r * f) - r * f) * s + r * ((f - f0) * s) + r * (f0 * (s - s0)) := by
    ring
  rw [e]
  refine (abs_add_le _ _).trans ?_
  have a1 := abs_add_le ((R (R (r * f) * s) - R (r * f) * s) + (R (r * f) - r * f) * s) (r * ((f - f0) * s))
  have a2 := abs_add_le (R (R (r * f) * s) - R (r * f) * s) ((R (r * f) - r * f) * s)
  norm_num at *
  linarith

/-- **C96, cartesian coordinates.** For radii from `2^-100` to `2^100`, colatitudes and longitudes up to 360 degrees in size, each cartesian
coordinate differs from `radius` times the direction of the point by at most `2^-47 radius`. -/
theorem C96_cartesian {C S : ℝ → ℝ} (hC : IsCosine C) (hS : IsSine S) {r θ φ : ℝ} (h1 : 2⁻¹ ^ 100 ≤ r) (h2 : r ≤ 2 ^ 100) (h3 : |θ| ≤ 360) (h4 : |φ| ≤ 360) :
    ∃ x y z, sphericalToCartesian R C S r θ φ = (x, y, z) ∧ |x - r * direction θ φ 0| ≤ r * 2⁻¹ ^ 47 ∧ |y - r * direction θ φ 1| ≤ r * 2⁻¹ ^ 47 ∧
      |z - r * direction θ φ 2| ≤ r * 2⁻¹ ^ 47 := by
  have hr : 0 ≤ r := le_trans (by positivity) h1
  have e : ∀ x : ℝ, x * Real.pi / 180 = rad x := fun x => by unfold rad; ring
  refine ⟨_, _, _, rfl, ?_, ?_, ?_⟩
  · have := product_err R h1 h2 (hC.le_one (radians R φ)) (hS.le_one (radians R θ)) (Real.abs_cos_le_one (rad φ)) (cos_wide R hC h4) (sin_wide R hS h3)
    simp only [direction, e]
    simp only [Matrix.cons_val_zero]
    rw [mul_comm (Real.sin (rad θ))]
    exact this
  · have := product_err R h1 h2 (hS.le_one (radians R φ)) (hS.le_one (radians R θ)) (Real.abs_sin_le_one (rad φ)) (sin_wide R hS h4) (sin_wide R hS h3)
    simp only [direction, e]
    simp only [Matrix.cons_val_one, Matrix.cons_val_zero]
    rw [mul_comm (Real.sin (rad θ))]
    exact this
  · have k1 : |r * C (radians R θ)| ≤ r := by rw [abs_mul, abs_of_nonneg hr]; exact mul_le_of_le_one_right hr (hC.le_one _)
    have k2 := rnd_scale R h1 h2 (k1.trans (by linarith))
    have k3 : |r * (C (radians R θ) - Real.cos (rad θ))| ≤ r * (2⁻¹ ^ 49 + 2⁻¹ ^ 52) := by
      rw [abs_mul, abs_of_nonneg hr]
      exact mul_le_mul_of_nonneg_left (cos_wide R hC h3) hr
    have ed : direction θ φ 2 = Real.cos (rad θ) := by simp [direction, e]
    rw [ed]
    have := abs_add_le (R (r * C (radians R θ)) - r * C (radians R θ)) (r * (C (radians R θ) - Real.cos (rad θ)))
    rw [show R (r * C (radians R θ)) - r * C (radians R θ) + r * (C (radians R θ) - Real.cos (rad θ)) = R (r * C (radians R θ)) - r * Real.cos (rad θ) by ring] at this
    norm_num at *
    linarith

/-- The length of a vector near a vector of length `r`. -/
theorem sqrt_near {a b a0 b0 d : ℝ} (h1 : |a - a0| ≤ d) (h2 : |b - b0| ≤ d) : |Real.sqrt (a ^ 2 + b ^ 2) - Real.sqrt (a0 ^ 2 + b0 ^ 2)| ≤ 2 * d := by
  have k : ∀ u v : ℝ, Real.sqrt (u ^ 2 + v ^ 2) = ‖(⟨u, v⟩ : ℂ)‖ := by
    intro u v
    rw [Complex.norm_eq_sqrt_sq_add_sq]
  rw [k, k]
  refine (abs_norm_sub_norm_le _ _).trans ?_
  refine (Complex.norm_le_abs_re_add_abs_im _).trans ?_
  simp only [Complex.sub_re, Complex.sub_im]
  linarith

theorem degrees_near {A t : ℝ} {a : ℝ} (ha : |a| ≤ Real.pi) (hA : |A - a| ≤ 2⁻¹ ^ 51) (h : |a - rad t| ≤ 5 * 2⁻¹ ^ 45) : |degrees R A - t| ≤ 2⁻¹ ^ 36 := by
  have hp := Real.pi_gt_d4
  have hp' := Real.pi_lt_d4
  have habs : |A| ≤ 4 := by
    rw [abs_le] at *
    norm_num at *
    constructor <;> linarith
  have h1 := degrees_err R habs
  have e : A * (180 / Real.pi) - t = (A - rad t) * (180 / Real.pi) := by
    unfold rad
    have := Real.pi_pos.ne'
    field_simp
  have h2 : |A - rad t| ≤ 6 * 2⁻¹ ^ 45 := by
    have := abs_add_le (A - a) (a - rad t)
    rw [sub_add_sub_cancel] at this
    norm_num at *
    linarith
  have h3 : |A * (180 / Real.pi) - t| ≤ 6 * 2⁻¹ ^ 45 * 58 := by
    rw [e, abs_mul, abs_of_pos (by positivity : 0 < 180 / Real.pi)]
    refine mul_le_mul h2 ?_ (by positivity) (by positivity)
    rw [div_le_iff₀ (by positivity)]
    linarith
  have := abs_add_le (degrees R A - A * (180 / Real.pi)) (A * (180 / Real.pi) - t)
  rw [sub_add_sub_cancel] at this
  norm_num at *
  linarith

/-- **C96, radius and colatitude.** From spherical to cartesian coordinates and back: the radius is recovered to a relative error of `2^-44`, the
colatitude to `2^-36` degrees, at every point including the poles. -/
theorem C96_round_trip {C S : ℝ → ℝ} {A : ℝ → ℝ → ℝ} (hC : IsCosine C) (hS : IsSine S) (hA : IsArctan2 A) {r θ φ : ℝ} (h1 : 2⁻¹ ^ 100 ≤ r) (h2 : r ≤ 2 ^ 100)
    (h0 : 0 ≤ θ) (h180 : θ ≤ 180) (h4 : |φ| ≤ 360) :
    ∃ r' θ' φ', cartesianToSpherical R A (sphericalToCartesian R C S r θ φ) = (r', θ', φ') ∧ |r' - r| ≤ r * 2⁻¹ ^ 44 ∧ |θ' - θ| ≤ 2⁻¹ ^ 36 := by
  have hr : 0 < r := lt_of_lt_of_le (by positivity) h1
  obtain ⟨x, y, z, e, ex, ey, ez⟩ := C96_cartesian R hC hS h1 h2 (θ := θ) (by rw [abs_of_nonneg h0]; linarith) h4
  rw [e]
  refine ⟨_, _, _, rfl, ?_, ?_⟩ <;> simp only
  all_goals
    have ed : ∀ x : ℝ, x * Real.pi / 180 = rad x := fun x => by unfold rad; ring
    have d0 : direction θ φ 0 = Real.sin (rad θ) * Real.cos (rad φ) := by simp [direction, ed]
    have d1 : direction θ φ 1 = Real.sin (rad θ) * Real.sin (rad φ) := by simp [direction, ed]
    have d2 : direction θ φ 2 = Real.cos (rad θ) := by simp [direction, ed]
    rw [d0] at ex
    rw [d1] at ey
    rw [d2] at ez
    have hp := Real.pi_pos
    have r0 : 0 ≤ rad θ := by unfold rad; positivity
    have r1 : rad θ ≤ Real.pi := by unfold rad; nlinarith
    have s0 : 0 ≤ Real.sin (rad θ) := Real.sin_nonneg_of_nonneg_of_le_pi r0 r1
    have s1 := Real.sin_le_one (rad θ)
    have sc := Real.sin_sq_add_cos_sq (rad θ)
    have scφ := Real.sin_sq_add_cos_sq (rad φ)
    have hm := sqrt_near ex ey
    have em : (r * (Real.sin (rad θ) * Real.cos (rad φ))) ^ 2 + (r * (Real.sin (rad θ) * Real.sin (rad φ))) ^ 2 = (r * Real.sin (rad θ)) ^ 2 := by
      linear_combination r ^ 2 * Real.sin (rad θ) ^ 2 * scφ
    rw [em, Real.sqrt_sq (by positivity)] at hm
    have small : ∀ {u u0 : ℝ}, |u - u0| ≤ r * 2⁻¹ ^ 47 → |u0| ≤ r → |u| ≤ 2 ^ 200 := by
      intro u u0 k1 k2
      have := abs_add_le (u - u0) u0
      rw [sub_add_cancel] at this
      have h3 : |u| ≤ 2 * r := by
        norm_num at k1
        linarith
      calc |u| ≤ 2 * 2 ^ 100 := by linarith
        _ ≤ 2 ^ 200 := by norm_num
    have b2 : ∀ {u v : ℝ}, |u| ≤ 1 → |v| ≤ 1 → |r * (u * v)| ≤ r := by
      intro u v k1 k2
      rw [abs_mul, abs_of_pos hr, abs_mul]
      exact mul_le_of_le_one_right hr.le (mul_le_one₀ k1 (abs_nonneg _) k2)
    have bx := small ex (b2 (Real.abs_sin_le_one _) (Real.abs_cos_le_one _))
    have by' := small ey (b2 (Real.abs_sin_le_one _) (Real.abs_sin_le_one _))
    have bz := small ez (by rw [abs_mul, abs_of_pos hr]; exact mul_le_of_le_one_right hr.le (Real.abs_cos_le_one _))
    obtain ⟨x1, -⟩ := sq_big bx
    obtain ⟨y1, -⟩ := sq_big by'
    obtain ⟨z1, -⟩ := sq_big bz
    rw [← sq] at x1 y1 z1
    have t510 : (2 : ℝ)⁻¹ ^ 510 ≤ r * 2⁻¹ ^ 60 := by
      calc (2 : ℝ)⁻¹ ^ 510 ≤ 2⁻¹ ^ 100 * 2⁻¹ ^ 60 := by
            rw [← pow_add]
            exact pow_le_pow_of_le_one (by norm_num) (by norm_num) (by norm_num)
        _ ≤ r * 2⁻¹ ^ 60 := mul_le_mul_of_nonneg_right h1 (by positivity)
  · obtain ⟨q0, q1⟩ := sum3 R bx by' bz
    obtain ⟨-, hroot⟩ := root_err R (m := x ^ 2 + y ^ 2 + z ^ 2) (by positivity) (three_sq x1 y1 z1) q0 q1
    have hn : |Real.sqrt (x ^ 2 + y ^ 2 + z ^ 2) - r| ≤ 2 * (2 * (r * 2⁻¹ ^ 47)) := by
      have := sqrt_near (a := Real.sqrt (x ^ 2 + y ^ 2)) (b := z) (a0 := r * Real.sin (rad θ)) (b0 := r * Real.cos (rad θ)) hm
        (ez.trans (by nlinarith [(by positivity : (0 : ℝ) ≤ r * 2⁻¹ ^ 47)]))
      rw [Real.sq_sqrt (by positivity), show (r * Real.sin (rad θ)) ^ 2 + (r * Real.cos (rad θ)) ^ 2 = r ^ 2 by linear_combination r ^ 2 * sc,
        Real.sqrt_sq hr.le] at this
      exact this
    have hle : Real.sqrt (x ^ 2 + y ^ 2 + z ^ 2) ≤ 2 * r := by
      have := (abs_le.1 hn).2
      norm_num at this
      linarith
    generalize Real.sqrt (x ^ 2 + y ^ 2 + z ^ 2) = n at *
    generalize R (Real.sqrt (R (R (R (x * x) + R (y * y)) + R (z * z)))) = w at *
    have := abs_add_le (w - n) (n - r)
    rw [sub_add_sub_cancel] at this
    generalize (2 : ℝ)⁻¹ ^ 510 = v at *
    clear x1 y1 z1 bx by' bz q0 q1 h1 h2
    norm_num at *
    linarith
  · obtain ⟨q0, q1⟩ := sum2 R bx by'
    obtain ⟨w0, hroot⟩ := root_err R (m := x ^ 2 + y ^ 2) (by positivity) (by rw [← add_zero (x ^ 2 + y ^ 2)]; exact three_sq x1 y1 (by positivity)) q0
      (q1.trans (by have := uu_pos; have := tiny_pos; have : 0 ≤ uu * (x ^ 2 + y ^ 2) := by positivity
                    linarith))
    have hle : Real.sqrt (x ^ 2 + y ^ 2) ≤ 2 * r := by
      have := (abs_le.1 hm).2
      norm_num at this
      nlinarith
    generalize Real.sqrt (x ^ 2 + y ^ 2) = n at *
    generalize R (Real.sqrt (R (R (x * x) + R (y * y)))) = w at *
    have hw : |w - r * Real.sin (rad θ)| ≤ 2⁻¹ ^ 45 * r := by
      have := abs_add_le (w - n) (n - r * Real.sin (rad θ))
      rw [sub_add_sub_cancel] at this
      generalize (2 : ℝ)⁻¹ ^ 510 = v at *
      clear x1 y1 z1 bx by' bz q0 q1 h1 h2
      norm_num at *
      linarith
    have hz : |z - r * Real.cos (rad θ)| ≤ 2⁻¹ ^ 45 * r := by
      norm_num at ez ⊢
      linarith
    have a1 : 0 ≤ Complex.arg ⟨z, w⟩ := Complex.arg_nonneg_iff.2 w0
    have a2 := Complex.arg_le_pi ⟨z, w⟩
    have hδ : |Complex.arg ⟨z, w⟩ - rad θ| ≤ Real.pi := by
      rw [abs_le]
      constructor <;> linarith
    exact degrees_near R (by rw [abs_of_nonneg a1]; exact a2) (hA.err w z) (angle_close hr (by norm_num) hz hw hδ rfl rfl)

theorem azimuth_component {r f s f0 : ℝ} (h1 : 2⁻¹ ^ 100 ≤ r) (h2 : r ≤ 2 ^ 100) (hf : |f| ≤ 1) (hs0 : 2⁻¹ ^ 41 ≤ s) (hs : s ≤ 1)
    (ef : |f - f0| ≤ 2⁻¹ ^ 49 + 2⁻¹ ^ 52) : |R (R (r * f) * s) - r * s * f0| ≤ 2⁻¹ ^ 45 * (r * s) := by
  have hr : 0 < r := lt_of_lt_of_le (by positivity) h1
  have hsp : 0 < s := lt_of_lt_of_le (by positivity) hs0
  have k1 : |r * f| ≤ r := by rw [abs_mul, abs_of_pos hr]; exact mul_le_of_le_one_right hr.le hf
  have k2 := rnd_scale R h1 h2 (k1.trans (by linarith))
  have k2' : |R (r * f)| ≤ 2 * r := by
    have := abs_add_le (R (r * f) - r * f) (r * f)
    rw [sub_add_cancel] at this
    norm_num at k2 ⊢
    linarith
  have k3 : |R (r * f) * s| ≤ 2 * (r * s) := by
    rw [abs_mul, abs_of_pos hsp, ← mul_assoc]
    exact mul_le_mul_of_nonneg_right k2' hsp.le
  have hb : |R (r * f) * s| ≤ 2 ^ 1000 := by
    have : r * s ≤ r := mul_le_of_le_one_right hr.le hs
    calc |R (r * f) * s| ≤ 2 * 2 ^ 100 := by linarith
      _ = 2 ^ 101 := by norm_num
      _ ≤ 2 ^ 1000 := pow_le_pow_right₀ (by norm_num) (by norm_num)
  have k4 := rnd_rel R hb
  rw [uu_eq] at k4
  have kt : tiny ≤ r * s * 2⁻¹ ^ 60 := by
    refine (tiny_le h1).trans ?_
    have : (2 : ℝ)⁻¹ ^ 900 ≤ s * 2⁻¹ ^ 60 := by
      calc (2 : ℝ)⁻¹ ^ 900 ≤ 2⁻¹ ^ 101 := pow_le_pow_of_le_one (by norm_num) (by norm_num) (by norm_num)
        _ = 2⁻¹ ^ 41 * 2⁻¹ ^ 60 := by rw [← pow_add]
        _ ≤ s * 2⁻¹ ^ 60 := mul_le_mul_of_nonneg_right hs0 (by positivity)
    rw [mul_assoc]
    exact mul_le_mul_of_nonneg_left this hr.le
  have k5 : |(R (r * f) - r * f) * s| ≤ r * s * 2⁻¹ ^ 51 := by
    rw [abs_mul, abs_of_pos hsp]
    have := mul_le_mul_of_nonneg_right k2 hsp.le
    linarith
  have k6 : |r * s * (f - f0)| ≤ r * s * (2⁻¹ ^ 49 + 2⁻¹ ^ 52) := by
    rw [abs_mul, abs_of_pos (mul_pos hr hsp)]
    exact mul_le_mul_of_nonneg_left ef (mul_pos hr hsp).le
  have e : R (R (r * f) * s) - r * s * f0 = (R (R (r * f) * s) - R (r * f) * s) + (R (r * f) - r * f) * s + r * s * (f - f0) := by ring
  rw [e]
  have a1 := abs_add_le ((R (R (r * f) * s) - R (r * f) * s) + (R (r * f) - r * f) * s) (r * s * (f - f0))
  have a2 := abs_add_le (R (R (r * f) * s) - R (r * f) * s) ((R (r * f) - r * f) * s)
  refine a1.trans ?_
  have hL := mul_pos hr hsp
  generalize r * s = L at *
  norm_num at *
  linarith

/-- **C96, longitude.** From spherical to cartesian coordinates and back, for colatitudes with a sine of at least `2^-40`: the longitude is recovered to
`2^-36` degrees, modulo 360 degrees, and without this if it is more than `2^-30` degrees away from the date line. -/
theorem C96_longitude {C S : ℝ → ℝ} {A : ℝ → ℝ → ℝ} (hC : IsCosine C) (hS : IsSine S) (hA : IsArctan2 A) {r θ φ : ℝ} (h1 : 2⁻¹ ^ 100 ≤ r) (h2 : r ≤ 2 ^ 100)
    (h3 : |θ| ≤ 360) (hs : 2⁻¹ ^ 40 ≤ Real.sin (rad θ)) (h4 : |φ| ≤ 360) :
    ∃ r' θ' φ', cartesianToSpherical R A (sphericalToCartesian R C S r θ φ) = (r', θ', φ') ∧ (∃ k : ℤ, |φ' - (φ + 360 * k)| ≤ 2⁻¹ ^ 36) ∧
      (|φ| ≤ 180 - 2⁻¹ ^ 30 → |φ' - φ| ≤ 2⁻¹ ^ 36) := by
  have hr : 0 < r := lt_of_lt_of_le (by positivity) h1
  have hsw := sin_wide R hS h3
  have hs0 : 2⁻¹ ^ 41 ≤ S (radians R θ) := by
    have := (abs_le.1 hsw).1
    norm_num at this hs ⊢
    linarith
  have hs1 := (abs_le.1 (hS.le_one (radians R θ))).2
  have hL : 0 < r * S (radians R θ) := mul_pos hr (lt_of_lt_of_le (by positivity) hs0)
  have hx := azimuth_component R h1 h2 (hC.le_one (radians R φ)) hs0 hs1 (cos_wide R hC h4)
  have hy := azimuth_component R h1 h2 (hS.le_one (radians R φ)) hs0 hs1 (sin_wide R hS h4)
  refine ⟨_, _, _, rfl, ?_⟩
  simp only [sphericalToCartesian]
  set x := R (R (r * C (radians R φ)) * S (radians R θ))
  set y := R (R (r * S (radians R φ)) * S (radians R θ))
  have hp := Real.pi_pos
  have harg := Complex.abs_arg_le_pi ⟨x, y⟩
  set k := round ((Complex.arg ⟨x, y⟩ - rad φ) / (2 * Real.pi)) with hk
  have hδ : |Complex.arg ⟨x, y⟩ - rad φ - k * (2 * Real.pi)| ≤ Real.pi := by
    have := abs_sub_round ((Complex.arg ⟨x, y⟩ - rad φ) / (2 * Real.pi))
    rw [← hk] at this
    have e : Complex.arg ⟨x, y⟩ - rad φ - k * (2 * Real.pi) = ((Complex.arg ⟨x, y⟩ - rad φ) / (2 * Real.pi) - k) * (2 * Real.pi) := by
      field_simp
    rw [e, abs_mul, abs_of_pos (by positivity : 0 < 2 * Real.pi)]
    nlinarith
  have hc := angle_close hL (by norm_num) hx hy hδ (Real.sin_sub_int_mul_two_pi _ _) (Real.cos_sub_int_mul_two_pi _ _)
  have hrad : rad (φ + 360 * k) = rad φ + k * (2 * Real.pi) := by unfold rad; ring
  have main : |degrees R (A y x) - (φ + 360 * k)| ≤ 2⁻¹ ^ 36 := by
    refine degrees_near R harg (hA.err y x) ?_
    rw [hrad, ← sub_sub]
    exact hc
  refine ⟨⟨k, main⟩, fun hφ => ?_⟩
  have hself : |degrees R (A y x) - Complex.arg ⟨x, y⟩ * (180 / Real.pi)| ≤ 2⁻¹ ^ 36 := by
    refine degrees_near R harg (hA.err y x) ?_
    have : rad (Complex.arg ⟨x, y⟩ * (180 / Real.pi)) = Complex.arg ⟨x, y⟩ := by unfold rad; field_simp
    rw [this, sub_self, abs_zero]
    positivity
  have hb : |Complex.arg ⟨x, y⟩ * (180 / Real.pi)| ≤ 180 := by
    rw [abs_mul, abs_of_pos (by positivity : 0 < 180 / Real.pi), ← mul_div_assoc, div_le_iff₀ hp]
    nlinarith
  have hk0 : k = 0 := by
    have h5 : |(k : ℝ)| < 1 := by
      rw [abs_le] at *
      rw [abs_lt]
      norm_num at *
      constructor <;> linarith
    have h6 : |k| < 1 := by exact_mod_cast h5
    exact Int.abs_lt_one_iff.1 h6
  rw [hk0] at main
  simpa using main

end ChaosMagPy.FloatCoord
