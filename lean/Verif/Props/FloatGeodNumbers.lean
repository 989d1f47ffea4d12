import Verif.Lemmas.FloatGeodNear
import Verif.Lemmas.FloatCoord
/-!
# C98: away from the poles `geo_to_gg` returns numbers in double precision
-/
namespace ChaosMagPy.FloatGeod
open ChaosMagPy.Spec ChaosMagPy.Float ChaosMagPy.FloatLegendre ChaosMagPy.FloatNear

variable (R : Rounding)

theorem abs_mul_pow {x y : ℝ} {i j : ℕ} (hx : |x| ≤ 2 ^ i) (hy : |y| ≤ 2 ^ j) : |x * y| ≤ 2 ^ (i + j) := by
  rw [abs_mul, pow_add]
  exact mul_le_mul hx hy (abs_nonneg _) (by positivity)

theorem abs_sub_pow {x y : ℝ} {i : ℕ} (hx : |x| ≤ 2 ^ i) (hy : |y| ≤ 2 ^ i) : |x - y| ≤ 2 ^ (i + 1) := by
  rw [pow_succ]
  have := abs_sub x y
  linarith

theorem abs_add_pow {x y : ℝ} {i : ℕ} (hx : |x| ≤ 2 ^ i) (hy : |y| ≤ 2 ^ i) : |x + y| ≤ 2 ^ (i + 1) := by
  rw [pow_succ]
  have := abs_add_le x y
  linarith

/-- The coordinates `r` and `z` of the point, as computed. -/
theorem numbers_core (p : Platform) (hcube : ∀ x, (2 : ℝ) ^ (-300 : ℤ) ≤ x → x ≤ (2 : ℝ) ^ (300 : ℤ) → |p.cube x - x ^ 3| ≤ 4 / 2 ^ 52 * x ^ 3)
    (hcbrt : ∀ x, (2 : ℝ) ^ (-300 : ℤ) ≤ x → x ≤ (2 : ℝ) ^ (300 : ℤ) → |p.cbrt x - x ^ ((1 : ℝ) / 3)| ≤ 256 / 2 ^ 52 * x ^ ((1 : ℝ) / 3))
    {radius theta : ℝ} (hr1 : 1 ≤ R (radius * p.sin (radians R theta))) (hr2 : R (radius * p.sin (radians R theta)) ≤ 50001)
    (hz1 : (2 : ℝ) ^ (-100 : ℤ) ≤ |R (radius * p.cos (radians R theta))|) (hz2 : |R (radius * p.cos (radians R theta))| ≤ 50001)
    (hrz : 3800 ≤ R (radius * p.sin (radians R theta)) ^ 2 + R (radius * p.cos (radians R theta)) ^ 2) :
    ∃ h β, geoToGg R p (R 6378.137) (R 6356.752) radius theta = (some h, some β) := by
  rw [show (6378.137 : ℝ) = 6378137 / 1000 by norm_num, show (6356.752 : ℝ) = 6356752 / 1000 by norm_num, v_a, v_b,
    show (7012835795048333 / 1099511627776 : ℝ) = a₀ from rfl, show (873665342361043 / 137438953472 : ℝ) = b₀ from rfl]
  unfold geoToGg
  generalize R (radius * p.sin (radians R theta)) = ρ at *
  generalize R (radius * p.cos (radians R theta)) = ζ at *
  obtain ⟨P', q', rad, hP, hq, hrad, bP, bq, rad0, rad1⟩ := radicand_near (R := R) p hcube hcbrt hr1 hr2 hz1 hz2 hrz
  obtain ⟨ep, hep⟩ := const_ep2 (R := R)
  extract_lets c1 a2 b2 e2 e4 ep2 r z r2 z2 bigF G c s P Q radicand r0 U V z0 height beta
  have h_e2 : e2 = some (7718207876587895 / 1152921504606846976) := const_e2_val
  have h_b2 : b2 = some (R (b₀ * b₀)) := rfl
  have h_ep2 : ep2 = some ep := hep
  have h_P : P = some P' := hP
  have h_q : fadd R c1 Q = some q' := hq
  have h_rad : radicand = some rad := hrad
  obtain ⟨kz, h_kz, n_kz⟩ : NearF 3 (-201) 32 (fmul R (fsub R c1 e2) z2) ((1 - e₀) * ζ ^ 2) := by
    refine nearF_mul (const_k1 (R := R)) (n2 := 1) (l2 := -200) (h2 := 32) ?_ (by norm_num)
    have h1 : NearF 1 (-200) 32 (fsq R (some |ζ|)) (|ζ| ^ 2) :=
      nearF_sq (n1 := 0) (l1 := -100) (h1 := 16) ⟨_, rfl, near_exact hz1 (hz2.trans (by norm_num))⟩ (by norm_num)
    rw [sq_abs] at h1
    have e : z2 = fsq R (some |ζ|) := by simp only [z2, z, fsq, fmul, abs_mul_abs_self]
    rw [e]
    exact h1
  have h_z2 : z2 = some (R (ζ * ζ)) := rfl
  clear_value radicand P Q ep2 e2 b2
  clear hP hq hrad
  have bρ : |ρ| ≤ 2 ^ 16 := by rw [abs_of_pos (by linarith)]; exact hr2.trans (by norm_num)
  have bζ : |ζ| ≤ 2 ^ 16 := hz2.trans (by norm_num)
  -- r0
  have h_r0 : ∃ v, r0 = some v ∧ |v| ≤ 2 ^ 84 := by
    refine ⟨R (R (R (R (-P' * (7718207876587895 / 1152921504606846976)) * ρ) / q') + R (Real.sqrt rad)), ?_, ?_⟩
    · simp only [r0]
      rw [h_P, h_e2, h_q, h_rad, fsqrt_val R (not_lt.2 rad0)]
      simp only [fneg, fmul, r]
      rw [fdiv_val R (by linarith : q' ≠ 0)]
      rfl
    · have b1 : |-P' * (7718207876587895 / 1152921504606846976)| ≤ 2 ^ (66 + 0) := abs_mul_pow (by rwa [abs_neg]) (by norm_num [abs_le])
      have b2 := abs_mul_pow (rnd_bound (R := R) b1 (by norm_num)) bρ
      have b3 := rnd_bound (R := R) b2 (by norm_num)
      have b4 : |R (R (-P' * (7718207876587895 / 1152921504606846976)) * ρ) / q'| ≤ 2 ^ (66 + 0 + 16 + 1) := by
        rw [abs_div, abs_of_pos (by linarith : 0 < q'), div_le_iff₀ (by linarith), pow_succ]
        refine b3.trans ?_
        have : (0 : ℝ) ≤ 2 ^ (66 + 0 + 16) := by positivity
        nlinarith
      have b5 := rnd_bound (R := R) b4 (by norm_num)
      have b6 : |Real.sqrt rad| ≤ 2 ^ 83 := by
        rw [abs_of_nonneg (Real.sqrt_nonneg _)]
        apply Real.sqrt_le_left (by norm_num) |>.2
        exact rad1.trans (by norm_num)
      have b7 := rnd_bound (R := R) b6 (by norm_num)
      exact rnd_bound (R := R) (abs_add_pow b5 b7) (by norm_num)
  obtain ⟨v, h_r0, bv⟩ := h_r0
  -- x := r - e2 r0
  obtain ⟨x2, h_x2, x20, bx2⟩ : ∃ x2, fsq R (fsub R r (fmul R e2 r0)) = some x2 ∧ 0 ≤ x2 ∧ x2 ≤ 2 ^ 170 := by
    refine ⟨R (R (ρ - R (7718207876587895 / 1152921504606846976 * v)) * R (ρ - R (7718207876587895 / 1152921504606846976 * v))), ?_, ?_, ?_⟩
    · rw [h_e2, h_r0]
      rfl
    all_goals
      have b1 : |7718207876587895 / 1152921504606846976 * v| ≤ 2 ^ (0 + 84) := abs_mul_pow (by norm_num [abs_le]) bv
      have b2 := rnd_bound (R := R) b1 (by norm_num)
      have b3 := abs_sub_pow (x := ρ) (bρ.trans (by norm_num : (2 : ℝ) ^ 16 ≤ 2 ^ (0 + 84))) b2
      have b4 := rnd_bound (R := R) b3 (by norm_num)
      have b5 := abs_mul_pow b4 b4
    · exact rnd_nonneg (mul_self_nonneg _) ((le_abs_self _).trans (b5.trans (pow_le_pow_right₀ (by norm_num) (by norm_num))))
    · exact (le_abs_self _).trans (rnd_bound (R := R) b5 (by norm_num))
  have hbig : (2 : ℝ) ^ 200 ≤ 2 ^ 900 := pow_le_pow_right₀ (by norm_num) (by norm_num)
  have kz0 : (2 : ℝ) ^ (-202 : ℤ) ≤ kz ∧ kz ≤ 2 ^ 33 := by
    have h1 := n_kz.pos' (by norm_num)
    have h2 := n_kz.lo
    have h3 := n_kz.hi
    constructor
    · refine le_trans ?_ h1.1
      rw [show (2 : ℝ) ^ (-202 : ℤ) = (2 : ℝ) ^ (-201 : ℤ) / 2 by norm_num]
      exact div_le_div_of_nonneg_right h2 (by norm_num)
    · norm_num at h3 ⊢
      linarith
  have hsum : x2 + kz ≤ 2 ^ 171 := by
    have : (2 : ℝ) ^ 33 ≤ 2 ^ 170 := by norm_num
    have : (2 : ℝ) ^ 171 = 2 * 2 ^ 170 := by norm_num
    linarith [kz0.2]
  -- V
  obtain ⟨w, h_V, hw, bw⟩ : ∃ w, V = some w ∧ (2 : ℝ) ^ (-101 : ℤ) ≤ w ∧ w ≤ 2 ^ 100 := by
    have g1 : (2 : ℝ) ^ (-202 : ℤ) ≤ R (x2 + kz) := rnd_ge (by linarith [kz0.1]) (hsum.trans ((by norm_num : (2 : ℝ) ^ 171 ≤ 2 ^ 200).trans hbig)) (by norm_num) (by norm_num)
    have g0 : 0 < R (x2 + kz) := lt_of_lt_of_le (by positivity) g1
    have g2 : R (x2 + kz) ≤ 2 ^ 171 := (le_abs_self _).trans (rnd_bound (R := R) (by rw [abs_of_nonneg (by linarith [kz0.1, (by positivity : (0 : ℝ) < (2 : ℝ) ^ (-202 : ℤ))])]; exact hsum) (by norm_num))
    have g3 : (2 : ℝ) ^ (-101 : ℤ) ≤ Real.sqrt (R (x2 + kz)) := by
      apply Real.le_sqrt_of_sq_le
      refine le_trans (le_of_eq ?_) g1
      norm_num
    have g4 : Real.sqrt (R (x2 + kz)) ≤ 2 ^ 100 := (Real.sqrt_le_left (by norm_num)).2 (g2.trans (by norm_num))
    refine ⟨R (Real.sqrt (R (x2 + kz))), ?_, rnd_ge g3 (g4.trans ((by norm_num : (2 : ℝ) ^ 100 ≤ 2 ^ 200).trans hbig)) (by norm_num) (by norm_num), ?_⟩
    · simp only [V]
      rw [h_x2, h_kz]
      exact fsqrt_val R (not_lt.2 g0.le)
    · exact (le_abs_self _).trans (rnd_bound (R := R) (by rw [abs_of_nonneg (Real.sqrt_nonneg _)]; exact g4) (by norm_num))
  -- a V
  have hav : (2 : ℝ) ^ (-101 : ℤ) ≤ R (a₀ * w) := by
    have ha : (1 : ℝ) ≤ a₀ ∧ a₀ ≤ 2 ^ 13 := by constructor <;> norm_num [a₀]
    have hw0 : 0 < w := lt_of_lt_of_le (by positivity) hw
    refine rnd_ge (by nlinarith) ?_ (by norm_num) (by norm_num)
    calc a₀ * w ≤ 2 ^ 13 * 2 ^ 100 := mul_le_mul ha.2 bw hw0.le (by norm_num)
      _ ≤ 2 ^ 200 := by norm_num
      _ ≤ _ := hbig
  have hav0 : R (a₀ * w) ≠ 0 := (lt_of_lt_of_le (by positivity) hav).ne'
  have h_aV : fmul R (some a₀) V = some (R (a₀ * w)) := by rw [h_V]; rfl
  -- U
  obtain ⟨y, h_U⟩ : ∃ y, U = some y := by
    refine ⟨R (Real.sqrt (R (x2 + R (ζ * ζ)))), ?_⟩
    simp only [U]
    rw [h_x2, h_z2]
    refine fsqrt_val R (not_lt.2 (rnd_nonneg ?_ ?_))
    · exact add_nonneg x20 (rnd_nonneg (mul_self_nonneg _) ((le_abs_self _).trans ((abs_mul_pow bζ bζ).trans (pow_le_pow_right₀ (by norm_num) (by norm_num)))))
    · have := (le_abs_self _).trans (rnd_bound (R := R) (abs_mul_pow bζ bζ) (by norm_num))
      refine le_trans ?_ hbig
      have e1 : (2 : ℝ) ^ (16 + 16) ≤ 2 ^ 170 := by norm_num
      have e2 : 2 * (2 : ℝ) ^ 170 ≤ 2 ^ 200 := by norm_num
      linarith
  have h_h : ∃ h, height = some h := by
    simp only [height]
    rw [h_aV, h_b2, h_U, fdiv_val R hav0]
    exact ⟨_, rfl⟩
  have h_z0 : ∃ t, z0 = some t := by
    simp only [z0]
    rw [h_aV, h_b2]
    exact ⟨_, fdiv_val R hav0⟩
  obtain ⟨t, h_z0⟩ := h_z0
  obtain ⟨h, h_h⟩ := h_h
  have h_beta : ∃ β, beta = some β := by
    simp only [beta]
    rw [h_z0, h_ep2]
    exact ⟨_, rfl⟩
  obtain ⟨β, h_beta⟩ := h_beta
  exact ⟨h, β, by rw [h_h, h_beta]⟩

theorem rnd_abs_ge {t : ℝ} {j : ℤ} (h1 : (2 : ℝ) ^ j ≤ |t|) (h2 : |t| ≤ 2 ^ 900) (hj : -1000 ≤ j) (hj' : j ≤ 900) : (2 : ℝ) ^ j ≤ |R t| := by
  rcases le_total 0 t with h | h
  · rw [abs_of_nonneg h] at h1 h2
    exact (rnd_ge h1 h2 hj hj').trans (le_abs_self _)
  · rw [abs_of_nonpos h] at h1 h2
    have hb : (2 : ℝ) ^ 900 ≤ (2 : ℝ) ^ 1000 := pow_le_pow_right₀ (by norm_num) (by norm_num)
    have hp : (0 : ℝ) < (2 : ℝ) ^ j := by positivity
    have hd : IsDouble ((2 : ℝ) ^ j) := by
      have := double_of (m := 1) (e := j) (by norm_num) (by omega) (by omega)
      simpa using this
    have hle : |-(2 : ℝ) ^ j| ≤ 2 ^ 1000 := by rw [abs_neg, abs_of_pos hp]; exact (h1.trans h2).trans hb
    have := rnd_mono R (by rw [abs_of_nonpos h]; exact h2.trans hb) hle (by linarith : t ≤ -(2 : ℝ) ^ j)
    rw [rnd_double R (double_neg hd) hle] at this
    exact le_trans (by linarith) (neg_le_abs _)

theorem coord_err {radius s s₀ : ℝ} (h1 : 0 ≤ radius) (h2 : radius ≤ 50000) (hs : |s - s₀| ≤ 2⁻¹ ^ 49 + 2⁻¹ ^ 52) (hs0 : |s₀| ≤ 1) :
    |R (radius * s) - radius * s₀| ≤ 1 / 1000 := by
  have e1 : |radius * s - radius * s₀| ≤ 1 / 4000 := by
    rw [← mul_sub, abs_mul, abs_of_nonneg h1]
    calc _ ≤ 50000 * (2⁻¹ ^ 49 + 2⁻¹ ^ 52) := mul_le_mul h2 hs (abs_nonneg _) (by norm_num)
      _ ≤ _ := by norm_num
  have e2 : |radius * s₀| ≤ 50000 := by
    rw [abs_mul, abs_of_nonneg h1]
    calc _ ≤ 50000 * 1 := mul_le_mul h2 hs0 (abs_nonneg _) (by norm_num)
      _ = _ := by norm_num
  have e3 : |radius * s| ≤ (2 : ℝ) ^ (16 : ℤ) := by
    have h := abs_add_le (radius * s - radius * s₀) (radius * s₀)
    rw [sub_add_cancel] at h
    have : (50001 : ℝ) ≤ (2 : ℝ) ^ (16 : ℤ) := by norm_num
    linarith
  have e4 := rnd_err R e3 (by norm_num) (by norm_num)
  have h := abs_add_le (R (radius * s) - radius * s) (radius * s - radius * s₀)
  rw [sub_add_sub_cancel] at h
  norm_num at e4
  linarith

/-- **C98.** For the default ellipsoid, every point at radii from 100 to 50000 km that is at least 1.001 km away from the axis: height and colatitude are
numbers. (The cosine is not smaller than `2^-100` in size: for doubles the exact cosine is not.) -/
theorem C98_numbers (p : Platform) (hS : IsSine p.sin) (hC : IsCosine p.cos)
    (hcube : ∀ x, (2 : ℝ) ^ (-300 : ℤ) ≤ x → x ≤ (2 : ℝ) ^ (300 : ℤ) → |p.cube x - x ^ 3| ≤ 4 / 2 ^ 52 * x ^ 3)
    (hcbrt : ∀ x, (2 : ℝ) ^ (-300 : ℤ) ≤ x → x ≤ (2 : ℝ) ^ (300 : ℤ) → |p.cbrt x - x ^ ((1 : ℝ) / 3)| ≤ 256 / 2 ^ 52 * x ^ ((1 : ℝ) / 3))
    {radius theta : ℝ} (h1 : 100 ≤ radius) (h2 : radius ≤ 50000) (h3 : 0 ≤ theta) (h4 : theta ≤ 180)
    (hdist : 1.001 ≤ radius * Real.sin (rad theta)) (hcos : (2 : ℝ) ^ (-100 : ℤ) ≤ |p.cos (radians R theta)|) :
    ∃ h β, geoToGg R p (R 6378.137) (R 6356.752) radius theta = (some h, some β) := by
  have h5 : |theta| ≤ 360 := by rw [abs_of_nonneg h3]; linarith
  have hs := FloatCoord.sin_wide R hS h5
  have hc := FloatCoord.cos_wide R hC h5
  have hr := coord_err R (by linarith) h2 hs (Real.abs_sin_le_one _)
  have hz := coord_err R (by linarith) h2 hc (Real.abs_cos_le_one _)
  have hsc := Real.sin_sq_add_cos_sq (rad theta)
  have bs := Real.sin_le_one (rad theta)
  have bc := abs_le.1 (Real.abs_cos_le_one (rad theta))
  have hXY : (radius * Real.sin (rad theta)) ^ 2 + (radius * Real.cos (rad theta)) ^ 2 = radius ^ 2 := by linear_combination radius ^ 2 * hsc
  have hX : radius * Real.sin (rad theta) ≤ 50000 := by nlinarith
  have hY : |radius * Real.cos (rad theta)| ≤ 50000 := by
    rw [abs_mul, abs_of_nonneg (by linarith)]
    calc _ ≤ 50000 * 1 := mul_le_mul h2 (Real.abs_cos_le_one _) (abs_nonneg _) (by norm_num)
      _ = _ := by norm_num
  have hzb : |radius * p.cos (radians R theta)| ≤ 2 ^ 100 := by
    have hcb : |p.cos (radians R theta)| ≤ 2 := by
      have h := abs_add_le (p.cos (radians R theta) - Real.cos (rad theta)) (Real.cos (rad theta))
      rw [sub_add_cancel] at h
      have := Real.abs_cos_le_one (rad theta)
      have : (2⁻¹ ^ 49 + 2⁻¹ ^ 52 : ℝ) ≤ 1 := by norm_num
      linarith
    rw [abs_mul, abs_of_nonneg (by linarith : 0 ≤ radius)]
    calc _ ≤ (50000 : ℝ) * 2 := mul_le_mul h2 hcb (abs_nonneg _) (by norm_num)
      _ ≤ _ := by norm_num
  have hz1 : (2 : ℝ) ^ (-100 : ℤ) ≤ |R (radius * p.cos (radians R theta))| := by
    refine rnd_abs_ge R ?_ (hzb.trans (pow_le_pow_right₀ (by norm_num) (by norm_num))) (by norm_num) (by norm_num)
    rw [abs_mul, abs_of_nonneg (by linarith : 0 ≤ radius)]
    exact hcos.trans (le_mul_of_one_le_left (abs_nonneg _) (by linarith))
  have hr' := abs_le.1 hr
  have hz2 : |R (radius * p.cos (radians R theta))| ≤ 50001 := by
    have h := abs_add_le (R (radius * p.cos (radians R theta)) - radius * Real.cos (rad theta)) (radius * Real.cos (rad theta))
    rw [sub_add_cancel] at h
    linarith
  refine numbers_core R p hcube hcbrt (by norm_num at hdist ⊢; linarith) (by linarith) hz1 hz2 ?_
  generalize R (radius * p.sin (radians R theta)) = r at *
  generalize R (radius * p.cos (radians R theta)) = z at *
  generalize radius * Real.sin (rad theta) = X at *
  generalize radius * Real.cos (rad theta) = Y at *
  have g1 : (r - X) ^ 2 ≤ 1 := by rw [← sq_abs]; exact pow_le_one₀ (abs_nonneg _) (by linarith)
  have g2 : (z - Y) ^ 2 ≤ 1 := by rw [← sq_abs]; exact pow_le_one₀ (abs_nonneg _) (by linarith)
  nlinarith [sq_nonneg (2 * r - X), sq_nonneg (2 * z - Y)]

end ChaosMagPy.FloatGeod
