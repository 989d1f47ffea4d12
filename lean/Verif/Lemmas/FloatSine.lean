import Verif.Model.FloatLegendre
import Verif.Spec.FloatCos
import Verif.Lemmas.Float
import Verif.Lemmas.Near
import Mathlib.Analysis.SpecialFunctions.Trigonometric.Bounds
import Mathlib.Analysis.Real.Pi.Bounds
/-! The sine of `legendre_poly` in double precision. -/
namespace ChaosMagPy.FloatLegendre
open ChaosMagPy.Spec ChaosMagPy.Float

variable (R : Rounding)

theorem big {x : ℝ} (h : |x| ≤ 2 ^ 60) : |x| ≤ 2 ^ 1000 := h.trans (pow_le_pow_right₀ (by norm_num) (by norm_num))

theorem big' {x : ℝ} (h : |x| ≤ 1000) : |x| ≤ 2 ^ 1000 := big (h.trans (by norm_num))

theorem rnd_le_one {x : ℝ} (h0 : 0 ≤ x) (h1 : x ≤ 1) : 0 ≤ R x ∧ R x ≤ 1 := by
  have e0 : R 0 = 0 := by simpa using rnd_int R (m := 0) (by norm_num)
  have e1 : R 1 = 1 := by simpa using rnd_int R (m := 1) (by norm_num)
  have hx : |x| ≤ 2 ^ 1000 := big' (by rw [abs_of_nonneg h0]; linarith)
  constructor
  · rw [← e0]; exact rnd_mono R (big' (by norm_num)) hx h0
  · rw [← e1]; exact rnd_mono R hx (big' (by norm_num)) h1

theorem err_one {x : ℝ} (h : |x| ≤ 1) : |R x - x| ≤ 2⁻¹ ^ 54 := by
  have := rnd_err R (k := 0) (by simpa using h) (by norm_num) (by norm_num)
  norm_num at this ⊢
  exact this

/-- The double `π/180`. -/
theorem deg_err : |R (R Real.pi / 180) - Real.pi / 180| ≤ 2⁻¹ ^ 57 := by
  have hp := Real.pi_gt_d4
  have hp' := Real.pi_lt_d4
  have h1 := rnd_err R (x := Real.pi) (k := 2) (by rw [abs_of_pos Real.pi_pos]; norm_num; linarith) (by norm_num) (by norm_num)
  have h2 : |R Real.pi / 180| ≤ (2 : ℝ) ^ (-5 : ℤ) := by
    rw [abs_le] at h1 ⊢
    norm_num at h1 ⊢
    constructor <;> linarith
  have h3 := rnd_err R h2 (by norm_num) (by norm_num)
  rw [abs_le] at *
  norm_num at *
  constructor <;> linarith

/-- `np.radians` in `[0°, 180°]`. -/
theorem radians_err {θ : ℝ} (h0 : 0 ≤ θ) (h1 : θ ≤ 180) : |radians R θ - rad θ| ≤ 2⁻¹ ^ 48 := by
  have hd := deg_err R
  have hp := Real.pi_gt_d4
  have hp' := Real.pi_lt_d4
  unfold radians rad
  set d := R (R Real.pi / 180)
  have h2 : |θ * d - θ * (Real.pi / 180)| ≤ 180 * 2⁻¹ ^ 57 := by
    rw [← mul_sub, abs_mul, abs_of_nonneg h0]
    exact mul_le_mul h1 hd (abs_nonneg _) (by norm_num)
  have h3 : |θ * d| ≤ (2 : ℝ) ^ (2 : ℤ) := by
    have : |θ * (Real.pi / 180)| ≤ 3.1416 := by
      rw [abs_of_nonneg (by positivity)]
      nlinarith
    rw [abs_le] at *
    norm_num at *
    constructor <;> linarith
  have h4 := rnd_err R h3 (by norm_num) (by norm_num)
  have e : θ * Real.pi / 180 = θ * (Real.pi / 180) := by ring
  rw [abs_le] at *
  norm_num at *
  constructor <;> linarith

/-- The radians of small angles. -/
theorem radians_small {θ : ℝ} (h0 : 0 ≤ θ) (h1 : θ ≤ 180) : 0 ≤ radians R θ ∧ radians R θ ≤ 0.0174536 * θ + 2⁻¹ ^ 1000 := by
  have hd := deg_err R
  have hp := Real.pi_gt_d4
  have hp' := Real.pi_lt_d4
  unfold radians
  set d := R (R Real.pi / 180)
  have hd0 : 0 ≤ d := by
    rw [abs_le] at hd
    norm_num at hd
    linarith
  have hd1 : d ≤ 0.0174535 := by
    rw [abs_le] at hd
    norm_num at hd ⊢
    linarith
  have hx : |θ * d| ≤ 2 ^ 1000 := by
    apply big'
    rw [abs_of_nonneg (mul_nonneg h0 hd0)]
    nlinarith
  have e0 : R 0 = 0 := by simpa using rnd_int R (m := 0) (by norm_num)
  constructor
  · rw [← e0]
    exact rnd_mono R (big' (by norm_num)) hx (mul_nonneg h0 hd0)
  · have h2 := rnd_rel R hx
    rw [abs_of_nonneg (mul_nonneg h0 hd0)] at h2
    have ht : tiny ≤ 2⁻¹ ^ 1000 := by
      unfold tiny
      rw [inv_pow, ← zpow_natCast, ← zpow_neg]
      exact zpow_le_zpow_right₀ (by norm_num) (by norm_num)
    have hu : uu ≤ 0.000001 := by unfold uu; norm_num
    have h3 : θ * d ≤ 0.0174535 * θ := by nlinarith
    have h4 : uu * (θ * d) ≤ 0.000001 * (0.0174535 * θ) := mul_le_mul hu h3 (mul_nonneg h0 hd0) (by norm_num)
    have h5 := (abs_le.1 h2).2
    generalize (2⁻¹ : ℝ) ^ 1000 = M at *
    nlinarith

/-! ### The cosine -/

theorem one_double : IsDouble 1 := by simpa using double_int (m := 1) (by norm_num)

/-- Cosines that round to one. -/
theorem cos_one {x : ℝ} (h : |x| ≤ 1.05366e-8) : R (Real.cos x) = 1 := by
  have h1 := Real.one_sub_sq_div_two_le_cos (x := x)
  have h2 := Real.cos_le_one x
  have h3 : x ^ 2 ≤ 1.05366e-8 ^ 2 := sq_le_sq' (by linarith [(abs_le.1 h).1]) (abs_le.1 h).2
  refine rnd_eq R one_double (k := -1) (by norm_num) (big' ?_) ?_
  · rw [abs_le]; norm_num at h3 ⊢; constructor <;> linarith
  · rw [abs_lt]; norm_num at h3 ⊢; constructor <;> linarith

theorem cos_neg_one {x : ℝ} (h : |Real.pi - x| ≤ 1.05366e-8) : R (Real.cos x) = -1 := by
  have h1 := Real.one_sub_sq_div_two_le_cos (x := Real.pi - x)
  have h2 := Real.cos_le_one (Real.pi - x)
  rw [Real.cos_pi_sub] at h1 h2
  have h3 : (Real.pi - x) ^ 2 ≤ 1.05366e-8 ^ 2 := sq_le_sq' (by linarith [(abs_le.1 h).1]) (abs_le.1 h).2
  refine rnd_eq R (double_neg one_double) (k := -1) (by norm_num) (big' ?_) ?_
  · rw [abs_le]; norm_num at h3 ⊢; constructor <;> linarith
  · rw [abs_lt]; norm_num at h3 ⊢; constructor <;> linarith

/-- Cosines away from the poles. -/
theorem cos_away {x a : ℝ} (h0 : 0 ≤ a) (ha : a ≤ 1) (h1 : a ≤ x) (h2 : x ≤ Real.pi - a) : |Real.cos x| ≤ 1 - a ^ 2 / 2 + a ^ 4 * (5 / 96) := by
  have h3 := (abs_le.1 (Real.cos_bound (x := a) (by rwa [abs_of_nonneg h0]))).2
  rw [abs_of_nonneg h0] at h3
  have h4 : Real.cos x ≤ Real.cos a := Real.cos_le_cos_of_nonneg_of_le_pi h0 (by linarith) h1
  have h5 : Real.cos (Real.pi - x) ≤ Real.cos a := Real.cos_le_cos_of_nonneg_of_le_pi h0 (by linarith) (by linarith)
  rw [Real.cos_pi_sub] at h5
  rw [abs_le]
  constructor <;> linarith

theorem bestCos_isCosine : IsCosine (bestCos R) := by
  have hx : ∀ x, |Real.cos x| ≤ 2 ^ 1000 := fun x => big' ((Real.abs_cos_le_one x).trans (by norm_num))
  refine ⟨fun x => (R.nearest _ (hx x)).1, fun x => ?_, fun x => ?_⟩
  · have e1 : R 1 = 1 := by simpa using rnd_int R (m := 1) (by norm_num)
    have e2 : R (-1) = -1 := by simpa using rnd_int R (m := -1) (by norm_num)
    rw [abs_le]
    constructor
    · rw [← e2]; exact rnd_mono R (big' (by norm_num)) (hx x) (Real.neg_one_le_cos x)
    · rw [← e1]; exact rnd_mono R (hx x) (big' (by norm_num)) (Real.cos_le_one x)
  · refine (err_one R (Real.abs_cos_le_one x)).trans (by norm_num)

/-- The correctly rounded cosine is one only for very small angles. -/
theorem bestCos_lt {x : ℝ} (h : |Real.cos x| < 1 - 2⁻¹ ^ 54) : |bestCos R x| < 1 := by
  have hx : |Real.cos x| ≤ 2 ^ 1000 := big' ((Real.abs_cos_le_one x).trans (by norm_num))
  have hle := (bestCos_isCosine R).le_one x
  refine lt_of_le_of_ne hle (fun he => ?_)
  have hd : IsDouble (1 - 2⁻¹ ^ 53) := by
    have := double_of (m := 2 ^ 53 - 1) (e := -53) (by norm_num) (by norm_num) (by norm_num)
    norm_num at this ⊢
    exact this
  unfold bestCos at he
  rw [abs_lt] at h
  rcases (abs_eq (by norm_num)).1 he with he | he
  · have := (R.nearest _ hx).2 _ hd
    rw [he, abs_of_nonneg (by norm_num at h ⊢; linarith)] at this
    rcases abs_cases ((1 : ℝ) - 2⁻¹ ^ 53 - Real.cos x) with ⟨a, b⟩ | ⟨a, b⟩ <;> rw [a] at this <;> norm_num at h b <;> norm_num at this <;> linarith
  · have := (R.nearest _ hx).2 _ (double_neg hd)
    rw [he, abs_of_nonpos (by norm_num at h ⊢; linarith)] at this
    rcases abs_cases (-((1 : ℝ) - 2⁻¹ ^ 53) - Real.cos x) with ⟨a, b⟩ | ⟨a, b⟩ <;> rw [a] at this <;> norm_num at h b <;> norm_num at this <;> linarith

/-! ### The sine -/

theorem sine_range {c : ℝ} (h : |c| ≤ 1) : 0 ≤ R (1 - R (c * c)) ∧ R (1 - R (c * c)) ≤ 1 ∧ 0 ≤ 1 - R (c * c) ∧ 0 ≤ R (c * c) := by
  have h1 : c * c ≤ 1 := by nlinarith [(abs_le.1 h).1, (abs_le.1 h).2, sq_abs c, abs_nonneg c]
  obtain ⟨a, b⟩ := rnd_le_one R (mul_self_nonneg c) h1
  obtain ⟨a', b'⟩ := rnd_le_one R (x := 1 - R (c * c)) (by linarith) (by linarith)
  exact ⟨a', b', by linarith, a⟩

theorem sine_le_one {c : ℝ} (h : |c| ≤ 1) : 0 ≤ sine R c ∧ sine R c ≤ 1 := by
  obtain ⟨a, b, -⟩ := sine_range R h
  unfold sine
  exact rnd_le_one R (Real.sqrt_nonneg _) (by rw [Real.sqrt_le_one]; exact b)

theorem sine_sq_err {c : ℝ} (h : |c| ≤ 1) : |sine R c ^ 2 - (1 - c ^ 2)| ≤ 2⁻¹ ^ 51 := by
  obtain ⟨a, b, a2, a3⟩ := sine_range R h
  have hc : c * c ≤ 1 := by nlinarith [(abs_le.1 h).1, (abs_le.1 h).2, sq_abs c, abs_nonneg c]
  have e1 := err_one R (x := c * c) (by rw [abs_of_nonneg (mul_self_nonneg c)]; exact hc)
  have e2 := err_one R (x := 1 - R (c * c)) (by rw [abs_of_nonneg a2]; linarith)
  obtain ⟨s0, s1⟩ := sine_le_one R h
  unfold sine at *
  set y := R (1 - R (c * c))
  have hs1 : Real.sqrt y ≤ 1 := by rw [Real.sqrt_le_one]; exact b
  have e3 := err_one R (x := Real.sqrt y) (by rw [abs_of_nonneg (Real.sqrt_nonneg _)]; exact hs1)
  have hy : Real.sqrt y ^ 2 = y := Real.sq_sqrt a
  set t := Real.sqrt y
  have ht0 : 0 ≤ t := Real.sqrt_nonneg _
  have e4 : |R t ^ 2 - y| ≤ 2 * 2⁻¹ ^ 54 := by
    rw [← hy, sq_sub_sq, abs_mul, abs_of_nonneg (by linarith)]
    exact mul_le_mul (by linarith) e3 (abs_nonneg _) (by norm_num)
  rw [abs_le] at *
  norm_num at *
  constructor <;> nlinarith

/-- Once the cosine is not one, the sine is not zero. -/
theorem sine_pos {c : ℝ} (hd : IsDouble c) (h : |c| < 1) : 2⁻¹ ^ 26 ≤ sine R c := by
  have hc : |c| ≤ 1 - 2⁻¹ ^ 53 := by
    rcases lt_or_ge |c| (2 : ℝ)⁻¹ with hs | hs
    · norm_num at hs ⊢; linarith
    · obtain ⟨m, hm⟩ := double_multiple hd (k := -1) (by norm_num at hs ⊢; exact hs)
      have hp : (0 : ℝ) < (2 : ℝ) ^ (-1 - 52 : ℤ) := by positivity
      rw [hm, abs_mul, abs_of_pos hp] at h ⊢
      have hm1 : |(m : ℝ)| < 2 ^ 53 := by
        by_contra hcon
        push Not at hcon
        have : (2 : ℝ) ^ 53 * (2 : ℝ) ^ (-1 - 52 : ℤ) ≤ |(m : ℝ)| * (2 : ℝ) ^ (-1 - 52 : ℤ) := mul_le_mul_of_nonneg_right hcon hp.le
        norm_num at this h
        linarith
      have hm2 : |m| ≤ 2 ^ 53 - 1 := by
        have : |m| < 2 ^ 53 := by exact_mod_cast hm1
        omega
      have hm3 : |(m : ℝ)| ≤ 2 ^ 53 - 1 := by exact_mod_cast hm2
      calc |(m : ℝ)| * (2 : ℝ) ^ (-1 - 52 : ℤ) ≤ (2 ^ 53 - 1) * (2 : ℝ) ^ (-1 - 52 : ℤ) := mul_le_mul_of_nonneg_right hm3 hp.le
        _ = 1 - 2⁻¹ ^ 53 := by norm_num
  have hq : c * c ≤ (1 - 2⁻¹ ^ 53) ^ 2 := by
    rw [← abs_mul_abs_self, sq]
    exact mul_self_le_mul_self (abs_nonneg _) hc
  have hd2 : IsDouble (1 - 2⁻¹ ^ 52) := by
    have := double_of (m := 2 ^ 52 - 1) (e := -52) (by norm_num) (by norm_num) (by norm_num)
    norm_num at this ⊢
    exact this
  have e1 : R ((1 - 2⁻¹ ^ 53) ^ 2) = 1 - 2⁻¹ ^ 52 := by
    refine rnd_eq R hd2 (k := -1) ?_ (big' ?_) ?_
    · norm_num
    · norm_num
    · norm_num
  have h0 : |c * c| ≤ 2 ^ 1000 := big' (by rw [abs_of_nonneg (mul_self_nonneg c)]; norm_num at hq; linarith)
  have h1 : R (c * c) ≤ 1 - 2⁻¹ ^ 52 := by
    rw [← e1]
    exact rnd_mono R h0 (big' (by norm_num)) hq
  obtain ⟨-, -, r1, r2⟩ := sine_range R h.le
  have e2 : R (2⁻¹ ^ 52) = 2⁻¹ ^ 52 := by
    refine rnd_double R ?_ (big' (by norm_num))
    have := double_of (m := 1) (e := -52) (by norm_num) (by norm_num) (by norm_num)
    norm_num at this ⊢
    exact this
  have h2 : 2⁻¹ ^ 52 ≤ R (1 - R (c * c)) := by
    rw [← e2]
    exact rnd_mono R (big' (by norm_num)) (big' (by rw [abs_of_nonneg r1]; linarith)) (by linarith)
  have h3 : 2⁻¹ ^ 26 ≤ Real.sqrt (R (1 - R (c * c))) := by
    apply Real.le_sqrt_of_sq_le
    rw [← pow_mul]
    exact h2
  have e3 : R (2⁻¹ ^ 26) = 2⁻¹ ^ 26 := by
    refine rnd_double R ?_ (big' (by norm_num))
    have := double_of (m := 1) (e := -26) (by norm_num) (by norm_num) (by norm_num)
    norm_num at this ⊢
    exact this
  have h4 : Real.sqrt (R (1 - R (c * c))) ≤ 1 := by
    rw [Real.sqrt_le_one]
    exact (sine_range R h.le).2.1
  unfold sine
  rw [← e3]
  exact rnd_mono R (big' (by norm_num)) (big' (by rw [abs_of_nonneg (Real.sqrt_nonneg _)]; linarith)) h3

theorem sine_one {c : ℝ} (h : c = 1 ∨ c = -1) : sine R c = 0 := by
  have e0 : R 0 = 0 := by simpa using rnd_int R (m := 0) (by norm_num)
  have e1 : R 1 = 1 := by simpa using rnd_int R (m := 1) (by norm_num)
  have hc : c * c = 1 := by rcases h with rfl | rfl <;> norm_num
  unfold sine
  rw [hc, e1, sub_self, e0, Real.sqrt_zero, e0]

end ChaosMagPy.FloatLegendre
