import Verif.Lemmas.Layer
import Mathlib.Analysis.Complex.ExponentialBounds
import Mathlib.Analysis.SpecialFunctions.Trigonometric.Series
/-!
# The divisor of the power series branch does not vanish
-/
namespace ChaosMagPy.QResponse
open Complex Filter Topology

/-! ### Remainders -/

theorem remainder_le {f : ℕ → ℂ} {S : ℂ} (hs : HasSum f S) (J : ℕ) {q : ℝ} (h0 : 0 ≤ q) (h1 : q < 1) (h : ∀ j, J ≤ j → ‖f (j + 1)‖ ≤ q * ‖f j‖) :
    ‖S - ∑ j ∈ Finset.range J, f j‖ ≤ ‖f J‖ / (1 - q) := by
  have hb : ∀ j, ‖f (j + J)‖ ≤ ‖f J‖ * q ^ j := by
    intro j
    induction j with
    | zero => simp
    | succ j ih =>
      rw [show j + 1 + J = j + J + 1 by ring]
      calc ‖f (j + J + 1)‖ ≤ q * ‖f (j + J)‖ := h _ (by omega)
        _ ≤ q * (‖f J‖ * q ^ j) := mul_le_mul_of_nonneg_left ih h0
        _ = ‖f J‖ * q ^ (j + 1) := by ring
  have h2 : HasSum (fun j => f (j + J)) (S - ∑ j ∈ Finset.range J, f j) := (hasSum_nat_add_iff' J).2 hs
  have h3 := (hasSum_geometric_of_lt_one h0 h1).mul_left ‖f J‖
  rw [← h2.tsum_eq, div_eq_mul_inv]
  exact tsum_of_norm_bounded h3 hb

/-- Size of the terms. -/
theorem term_succ (t : ℤ) (x : ℂ) (j : ℕ) {m : ℝ} (hm : 0 < m) (h : m ≤ ((j : ℝ) + 1) * |2 * ((j : ℝ) + 1) + 2 * t - 1|) :
    ‖frob t (j + 1) * x ^ (j + 1)‖ ≤ ‖x‖ / 2 / m * ‖frob t j * x ^ j‖ := by
  have e := frob_succ t j
  have hn : ‖(2 * ((j : ℂ) + 1) * (2 * ((j : ℂ) + 1) + 2 * t - 1))‖ = 2 * (((j : ℝ) + 1) * |2 * ((j : ℝ) + 1) + 2 * t - 1|) := by
    have : (2 * ((j : ℂ) + 1) * (2 * ((j : ℂ) + 1) + 2 * t - 1)) = ((2 * ((j : ℝ) + 1) * (2 * ((j : ℝ) + 1) + 2 * t - 1) : ℝ) : ℂ) := by push_cast; ring
    rw [this, Complex.norm_real, Real.norm_eq_abs, abs_mul, abs_of_pos (by positivity)]
    ring
  have e2 : 2 * (((j : ℝ) + 1) * |2 * ((j : ℝ) + 1) + 2 * t - 1|) * ‖frob t (j + 1)‖ = ‖frob t j‖ := by rw [← hn, ← norm_mul, e]
  rw [norm_mul, norm_mul, ← e2, norm_pow, norm_pow, pow_succ]
  have hx : 0 ≤ ‖x‖ ^ j * ‖x‖ * ‖frob t (j + 1)‖ := by positivity
  have h2 : 1 ≤ (((j : ℝ) + 1) * |2 * ((j : ℝ) + 1) + 2 * t - 1|) / m := by rw [le_div_iff₀ hm]; linarith
  calc ‖frob t (j + 1)‖ * (‖x‖ ^ j * ‖x‖) = 1 * (‖x‖ ^ j * ‖x‖ * ‖frob t (j + 1)‖) := by ring
    _ ≤ (((j : ℝ) + 1) * |2 * ((j : ℝ) + 1) + 2 * t - 1|) / m * (‖x‖ ^ j * ‖x‖ * ‖frob t (j + 1)‖) := mul_le_mul_of_nonneg_right h2 hx
    _ = ‖x‖ / 2 / m * (2 * (((j : ℝ) + 1) * |2 * ((j : ℝ) + 1) + 2 * t - 1|) * ‖frob t (j + 1)‖ * ‖x‖ ^ j) := by ring

theorem term_one (t : ℤ) (x : ℂ) : frob t 1 * x ^ 1 = x / (2 * (2 * t + 1)) := by
  have h := frob_succ t 0
  have h0 : (2 * (t : ℂ) + 1) ≠ 0 := by have := odd_ne t 0; push_cast at this; convert this using 1; ring
  have : frob t 0 = 1 := rfl
  rw [this] at h
  push_cast at h
  have h2 : frob t 1 * (2 * (2 * (t : ℂ) + 1)) = 1 := by linear_combination h
  rw [pow_one, eq_div_iff (mul_ne_zero two_ne_zero h0)]
  linear_combination x * h2

/-- The series is close to its first two terms: `m2` bounds the second divisor, `m` all later ones. -/
theorem phi_near (t : ℤ) (x : ℂ) {m2 m : ℝ} (hm2 : 0 < m2) (hm : 0 < m) (hx : ‖x‖ / 2 < m) (h2 : m2 ≤ 2 * |2 * (t : ℝ) + 3|)
    (h : ∀ j : ℕ, 2 ≤ j → m ≤ ((j : ℝ) + 1) * |2 * ((j : ℝ) + 1) + 2 * t - 1|) :
    ‖phi t x - 1 - x / (2 * (2 * t + 1))‖ ≤ ‖x‖ / 2 / |2 * (t : ℝ) + 1| * (‖x‖ / 2 / m2) / (1 - ‖x‖ / 2 / m) := by
  have hs := (frob_entire t).hasSum x
  have hq0 : 0 ≤ ‖x‖ / 2 / m := by positivity
  have hq1 : ‖x‖ / 2 / m < 1 := (div_lt_one hm).2 hx
  have hr := remainder_le hs 2 hq0 hq1 fun j hj => term_succ t x j hm (h j hj)
  rw [Finset.sum_range_succ, Finset.sum_range_one, term_one] at hr
  have e : phi t x - 1 - x / (2 * (2 * t + 1)) = ps (frob t) x - (frob t 0 * x ^ 0 + x / (2 * (2 * t + 1))) := by
    have : frob t 0 = 1 := rfl
    rw [this, phi]
    ring
  rw [e]
  refine hr.trans ?_
  refine div_le_div_of_nonneg_right ?_ (by linarith)
  have h3 := term_succ t x 1 hm2 (by push_cast; norm_num; rw [show (4 : ℝ) + 2 * t - 1 = 2 * t + 3 by ring]; exact h2)
  refine h3.trans_eq ?_
  rw [term_one, norm_div]
  have : ‖(2 * (2 * (t : ℂ) + 1))‖ = 2 * |2 * (t : ℝ) + 1| := by
    have : (2 * (2 * (t : ℂ) + 1)) = ((2 * (2 * (t : ℝ) + 1) : ℝ) : ℂ) := by push_cast; ring
    rw [this, Complex.norm_real, Real.norm_eq_abs, abs_mul, abs_of_pos (by norm_num : (0 : ℝ) < 2)]
  rw [this]
  ring

/-- A bound for all arguments. -/
theorem phi_le {n : ℕ} (hn : 1 ≤ n) (x : ℂ) : ‖phi (-n) x‖ ≤ 1 + (Real.exp (‖x‖ / 2) - 1) / (2 * n - 1) := by
  have hs := (frob_entire (-n)).hasSum x
  have hn1 : (1 : ℝ) ≤ n := by exact_mod_cast hn
  have hd : (0 : ℝ) < 2 * n - 1 := by linarith
  set y := ‖x‖ / 2 with hy
  have hy0 : 0 ≤ y := by positivity
  have hb : ∀ j : ℕ, ‖frob (-n) (j + 1) * x ^ (j + 1)‖ ≤ y ^ (j + 1) / (j + 1).factorial / (2 * n - 1) := by
    intro j
    induction j with
    | zero =>
      rw [term_one, norm_div]
      have : ‖(2 * (2 * ((-n : ℤ) : ℂ) + 1))‖ = 2 * (2 * n - 1) := by
        have : (2 * (2 * ((-n : ℤ) : ℂ) + 1)) = ((-(2 * (2 * (n : ℝ) - 1)) : ℝ) : ℂ) := by push_cast; ring
        rw [this, Complex.norm_real, Real.norm_eq_abs, abs_neg, abs_of_pos (by linarith)]
      rw [this]
      simp only [zero_add, pow_one, Nat.factorial_one, Nat.cast_one, div_one]
      rw [hy, div_div]
    | succ j ih =>
      have h1 : (1 : ℝ) ≤ |2 * (((j + 1 : ℕ) : ℝ) + 1) + 2 * ((-n : ℤ) : ℝ) - 1| := by
        have := one_le_odd (-n) (j + 1)
        have e : (2 * (((j + 1 : ℕ) : ℂ) + 1) + 2 * ((-n : ℤ) : ℂ) - 1) = ((2 * (((j + 1 : ℕ) : ℝ) + 1) + 2 * ((-n : ℤ) : ℝ) - 1 : ℝ) : ℂ) := by push_cast; ring
        rw [e, Complex.norm_real, Real.norm_eq_abs] at this
        exact this
      have h2 := term_succ (-n) x (j + 1) (m := ((j + 1 : ℕ) : ℝ) + 1) (by positivity) (le_mul_of_one_le_right (by positivity) h1)
      refine h2.trans ((mul_le_mul_of_nonneg_left ih (by positivity)).trans_eq ?_)
      rw [Nat.factorial_succ (j + 1), pow_succ y (j + 1), ← hy]
      push_cast
      field_simp
  have h2 : HasSum (fun j => frob (-n) (j + 1) * x ^ (j + 1)) (phi (-n) x - 1) := by
    have := (hasSum_nat_add_iff' 1).2 hs
    rw [Finset.sum_range_one] at this
    have e : frob (-n) 0 * x ^ 0 = 1 := by rw [pow_zero, mul_one]; rfl
    rw [e] at this
    exact this
  have h3 : HasSum (fun j : ℕ => y ^ (j + 1) / (j + 1).factorial / (2 * n - 1)) ((Real.exp y - 1) / (2 * n - 1)) := by
    have := (hasSum_nat_add_iff' 1).2 (NormedSpace.expSeries_div_hasSum_exp y)
    rw [Finset.sum_range_one, ← Real.exp_eq_exp_ℝ] at this
    simp only [pow_zero, Nat.factorial_zero, Nat.cast_one, div_one] at this
    exact this.div_const _
  have h4 : ‖phi (-n) x - 1‖ ≤ (Real.exp y - 1) / (2 * n - 1) := by
    rw [← h2.tsum_eq]
    exact tsum_of_norm_bounded h3 hb
  calc ‖phi (-n) x‖ = ‖1 + (phi (-n) x - 1)‖ := by rw [add_sub_cancel]
    _ ≤ ‖(1 : ℂ)‖ + ‖phi (-n) x - 1‖ := norm_add_le _ _
    _ ≤ 1 + (Real.exp y - 1) / (2 * n - 1) := by rw [norm_one]; linarith

/-! ### A zero of the divisor -/

section
variable {n : ℕ} {z : ℂ} {t : ℝ}

/-- The diagonal. -/
theorem diagonal (hre : 0 < z.re) (ht : 0 < t) (hz : z ^ 2 = Complex.I * t) : z = (z.re : ℂ) * (1 + Complex.I) ∧ 2 * z.re ^ 2 = t := by
  have h1 := congrArg Complex.re hz
  have h2 := congrArg Complex.im hz
  simp [pow_two] at h1 h2
  have h3 : z.im = z.re := by
    have h4 : 0 < z.im := by
      by_contra hc
      nlinarith [mul_nonneg hre.le (neg_nonneg.2 (not_lt.1 hc))]
    have h5 : (z.re - z.im) * (z.re + z.im) = 0 := by linear_combination h1
    rcases mul_eq_zero.1 h5 with h | h
    · linarith
    · linarith
  refine ⟨?_, by rw [h3] at h2; linear_combination h2⟩
  apply Complex.ext
  · simp
  · simp [h3]

theorem zero_eq (hre : 0 < z.re) (ht : 0 < t) (hz : z ^ 2 = Complex.I * t) (h : smallQ n z = 0) :
    ((z.re * t ^ n * (2 * n + 1) : ℝ) : ℂ) * ((1 + Complex.I) * phi (n + 1) (z ^ 2)) = Complex.I ^ n * (((n.factorial : ℝ) ^ 2 : ℝ) * phi (-n) (z ^ 2)) := by
  have hz0 : z ≠ 0 := by rintro rfl; simp at hre
  have hpi : (Real.pi : ℂ) ≠ 0 := by exact_mod_cast Real.pi_ne_zero
  have hfac : (n.factorial : ℂ) ≠ 0 := by exact_mod_cast n.factorial_ne_zero
  have h2n : (2 * (n : ℂ) + 1) ≠ 0 := by exact_mod_cast (by omega : 2 * n + 1 ≠ 0)
  unfold smallQ at h
  have hc : ((-1 : ℂ) ^ (n + 1) * Real.pi / 2) ≠ 0 := div_ne_zero (mul_ne_zero (pow_ne_zero _ (by norm_num)) hpi) two_ne_zero
  have h1 := (mul_eq_zero.1 h).resolve_left hc
  unfold frobG at h1
  have e1 : z ^ ((n : ℤ) + 1) = z ^ n * z := by rw [zpow_add_one₀ hz0, zpow_natCast]
  have e2 : z ^ (-(n : ℤ)) = (z ^ n)⁻¹ := by rw [zpow_neg, zpow_natCast]
  rw [e1, e2] at h1
  have hzn : z ^ n ≠ 0 := pow_ne_zero _ hz0
  have h2 : z * (z ^ 2) ^ n * (2 * n + 1) * phi (n + 1) (z ^ 2) = (-1) ^ n * ((n.factorial : ℂ) ^ 2 * phi (-n) (z ^ 2)) := by
    have h3 : z ^ n * z * phi (n + 1) (z ^ 2) / n.factorial = (-1) ^ n * n.factorial / (2 * n + 1) * ((z ^ n)⁻¹ * phi (-n) (z ^ 2)) := sub_eq_zero.1 h1
    have e3 : (z ^ 2) ^ n = z ^ n * z ^ n := by rw [← pow_mul, mul_comm, pow_mul, pow_two]
    rw [e3]
    field_simp at h3
    linear_combination h3
  obtain ⟨hd, -⟩ := diagonal hre ht hz
  have hI : (Complex.I : ℂ) ^ n ≠ 0 := pow_ne_zero _ Complex.I_ne_zero
  have e4 : ((-1 : ℂ)) ^ n = Complex.I ^ n * Complex.I ^ n := by rw [← mul_pow, Complex.I_mul_I]
  have e5 : z * (z ^ 2) ^ n = Complex.I ^ n * (z * t ^ n) := by
    rw [hz, mul_pow]
    ring
  rw [e5, e4] at h2
  refine mul_left_cancel₀ hI ?_
  rw [show z * (t : ℂ) ^ n = (z.re : ℂ) * (1 + Complex.I) * t ^ n by rw [← hd]] at h2
  push_cast
  linear_combination h2

/-- Comparison of sizes. -/
theorem zero_norm (hre : 0 < z.re) (ht : 0 < t) (hz : z ^ 2 = Complex.I * t) (h : smallQ n z = 0) :
    t ^ (2 * n + 1) * (2 * n + 1) ^ 2 * ‖phi (n + 1) (z ^ 2)‖ ^ 2 = (n.factorial : ℝ) ^ 4 * ‖phi (-n) (z ^ 2)‖ ^ 2 := by
  have e := congrArg Complex.normSq (zero_eq hre ht hz h)
  obtain ⟨-, hd⟩ := diagonal hre ht hz
  have e1 : Complex.normSq (1 + Complex.I) = 2 := by simp [Complex.normSq_apply]; norm_num
  rw [map_mul, map_mul, map_mul, map_mul, map_pow, Complex.normSq_ofReal, Complex.normSq_ofReal, Complex.normSq_I, one_pow, one_mul, e1, Complex.normSq_eq_norm_sq,
    Complex.normSq_eq_norm_sq] at e
  have e2 : t ^ (2 * n + 1) = t * t ^ n * t ^ n := by ring
  rw [e2]
  linear_combination e - t ^ n * t ^ n * (2 * n + 1) ^ 2 * ‖phi (n + 1) (z ^ 2)‖ ^ 2 * hd

/-- Comparison of arguments. -/
theorem zero_arg (hre : 0 < z.re) (ht : 0 < t) (hz : z ^ 2 = Complex.I * t) (h : smallQ n z = 0) :
    (Even n → ((phi (n + 1) (z ^ 2)).re + (phi (n + 1) (z ^ 2)).im) * (phi (-n) (z ^ 2)).re -
      ((phi (n + 1) (z ^ 2)).re - (phi (n + 1) (z ^ 2)).im) * (phi (-n) (z ^ 2)).im = 0) ∧
    (Odd n → (phi (n + 1) (z ^ 2)).re * ((phi (-n) (z ^ 2)).re + (phi (-n) (z ^ 2)).im) -
      (phi (n + 1) (z ^ 2)).im * ((phi (-n) (z ^ 2)).re - (phi (-n) (z ^ 2)).im) = 0) := by
  have e := zero_eq hre ht hz h
  have hB : z.re * t ^ n * (2 * n + 1) ≠ 0 := by positivity
  generalize z.re * t ^ n * (2 * n + 1) = B at e hB
  generalize ((n.factorial : ℝ) ^ 2 : ℝ) = F at e
  generalize phi (n + 1) (z ^ 2) = f1 at e ⊢
  generalize phi (-n) (z ^ 2) = f2 at e ⊢
  constructor
  · rintro ⟨m, hm⟩
    have hI : (Complex.I : ℂ) ^ n = (((-1 : ℝ) ^ m : ℝ) : ℂ) := by
      rw [hm, ← two_mul, pow_mul, Complex.I_sq]; push_cast; rfl
    rw [hI] at e
    generalize ((-1 : ℝ) ^ m) = c at e
    have e1 := congrArg Complex.re e
    have e2 := congrArg Complex.im e
    simp at e1 e2
    refine mul_left_cancel₀ hB ?_
    rw [mul_zero]
    linear_combination f2.re * e2 - f2.im * e1
  · rintro ⟨m, hm⟩
    have hI : (Complex.I : ℂ) ^ n = (((-1 : ℝ) ^ m : ℝ) : ℂ) * Complex.I := by
      rw [hm, pow_succ, pow_mul, Complex.I_sq]; push_cast; rfl
    rw [hI] at e
    generalize ((-1 : ℝ) ^ m) = c at e
    have e1 := congrArg Complex.re e
    have e2 := congrArg Complex.im e
    simp at e1 e2
    refine mul_left_cancel₀ hB ?_
    rw [mul_zero]
    linear_combination f2.re * e1 + f2.im * e2

/-- The regular series. -/
theorem near1 (n : ℕ) (ht : 0 < t) (hz : z ^ 2 = Complex.I * t) (ht2 : t < 4 * (2 * n + 5)) {α δ : ℝ} (hα : t / 2 / (2 * n + 3) ≤ α)
    (hδ : α * (t / 2 / (2 * (2 * n + 5))) / (1 - t / 2 / (2 * (2 * n + 5))) ≤ δ) :
    |(phi (n + 1) (z ^ 2)).re - 1| ≤ δ ∧ -δ ≤ (phi (n + 1) (z ^ 2)).im ∧ (phi (n + 1) (z ^ 2)).im ≤ α + δ := by
  have hx : ‖z ^ 2‖ = t := by rw [hz]; simp [abs_of_pos ht]
  have hn0 : (0 : ℝ) ≤ n := by positivity
  have ha1 : |2 * (((n : ℤ) + 1 : ℤ) : ℝ) + 3| = 2 * n + 5 := by push_cast; rw [abs_of_pos (by linarith)]; ring
  have ha2 : |2 * (((n : ℤ) + 1 : ℤ) : ℝ) + 1| = 2 * n + 3 := by push_cast; rw [abs_of_pos (by linarith)]; ring
  have h := phi_near ((n : ℤ) + 1) (z ^ 2) (m2 := 2 * (2 * n + 5)) (m := 2 * (2 * n + 5)) (by positivity) (by positivity) (by rw [hx]; linarith) (by rw [ha1])
    (fun j hj => by
      have hj2 : (2 : ℝ) ≤ j := by exact_mod_cast hj
      push_cast
      rw [abs_of_pos (by linarith)]
      nlinarith)
  rw [hx, ha2] at h
  have e : z ^ 2 / (2 * (2 * (((n : ℤ) + 1 : ℤ) : ℂ) + 1)) = ((t / 2 / (2 * n + 3) : ℝ) : ℂ) * Complex.I := by
    have : (2 * (n : ℂ) + 3) ≠ 0 := by exact_mod_cast (by omega : 2 * n + 3 ≠ 0)
    rw [hz]
    push_cast
    rw [show (2 * ((n : ℂ) + 1) + 1) = 2 * n + 3 by ring]
    field_simp
  rw [e] at h
  have hq : 0 < 1 - t / 2 / (2 * (2 * n + 5)) := by
    rw [sub_pos, div_lt_one (by positivity)]
    linarith
  have hα0 : 0 ≤ t / 2 / (2 * (n : ℝ) + 3) := by positivity
  have h' : ‖phi (n + 1) (z ^ 2) - 1 - ((t / 2 / (2 * n + 3) : ℝ) : ℂ) * Complex.I‖ ≤ δ :=
    h.trans (le_trans (div_le_div_of_nonneg_right (mul_le_mul_of_nonneg_right hα (by positivity)) hq.le) hδ)
  have h1 := (Complex.abs_re_le_norm _).trans h'
  have h2 := (Complex.abs_im_le_norm _).trans h'
  simp only [Complex.sub_re, Complex.sub_im, Complex.one_re, Complex.one_im, Complex.mul_I_re, Complex.mul_I_im, Complex.ofReal_re, Complex.ofReal_im, neg_zero, sub_zero] at h1 h2
  rw [abs_le] at h2
  exact ⟨h1, by linarith [h2.1], by linarith [h2.2]⟩

/-- The other series. -/
theorem near2 (hn : 2 ≤ n) (ht : 0 < t) (hz : z ^ 2 = Complex.I * t) {m : ℝ} (htm : t / 2 < m)
    (hm : ∀ j : ℕ, 2 ≤ j → m ≤ ((j : ℝ) + 1) * |2 * ((j : ℝ) + 1) + 2 * ((-n : ℤ) : ℝ) - 1|) {β δ : ℝ} (hβ : t / 2 / (2 * n - 1) ≤ β)
    (hδ : β * (t / 2 / (2 * (2 * n - 3))) / (1 - t / 2 / m) ≤ δ) :
    |(phi (-n) (z ^ 2)).re - 1| ≤ δ ∧ -(β + δ) ≤ (phi (-n) (z ^ 2)).im ∧ (phi (-n) (z ^ 2)).im ≤ δ := by
  have hx : ‖z ^ 2‖ = t := by rw [hz]; simp [abs_of_pos ht]
  have hn2 : (2 : ℝ) ≤ n := by exact_mod_cast hn
  have ha1 : |2 * ((-n : ℤ) : ℝ) + 3| = 2 * n - 3 := by push_cast; rw [abs_of_neg (by linarith)]; ring
  have ha2 : |2 * ((-n : ℤ) : ℝ) + 1| = 2 * n - 1 := by push_cast; rw [abs_of_neg (by linarith)]; ring
  have hm0 : 0 < m := lt_trans (by positivity) htm
  have h := phi_near (-n) (z ^ 2) (m2 := 2 * (2 * n - 3)) (m := m) (by linarith) hm0 (by rw [hx]; exact htm) (by rw [ha1]) hm
  rw [hx, ha2] at h
  have hne : (2 * (n : ℝ) - 1) ≠ 0 := by linarith
  have e : z ^ 2 / (2 * (2 * ((-n : ℤ) : ℂ) + 1)) = ((-(t / 2 / (2 * n - 1)) : ℝ) : ℂ) * Complex.I := by
    have : (2 * (n : ℂ) - 1) ≠ 0 := by exact_mod_cast hne
    rw [hz]
    push_cast
    rw [show (2 * -(n : ℂ) + 1) = -(2 * n - 1) by ring]
    field_simp
  rw [e] at h
  have hq : 0 < 1 - t / 2 / m := by
    rw [sub_pos, div_lt_one hm0]
    exact htm
  have hβ0 : 0 ≤ t / 2 / (2 * (n : ℝ) - 1) := div_nonneg (by positivity) (by linarith)
  have h' : ‖phi (-n) (z ^ 2) - 1 - ((-(t / 2 / (2 * n - 1)) : ℝ) : ℂ) * Complex.I‖ ≤ δ :=
    h.trans (le_trans (div_le_div_of_nonneg_right (mul_le_mul_of_nonneg_right hβ (div_nonneg (by positivity) (by linarith))) hq.le) hδ)
  have h1 := (Complex.abs_re_le_norm _).trans h'
  have h2 := (Complex.abs_im_le_norm _).trans h'
  simp only [Complex.sub_re, Complex.sub_im, Complex.one_re, Complex.one_im, Complex.mul_I_re, Complex.mul_I_im, Complex.ofReal_re, Complex.ofReal_im, neg_zero, sub_zero] at h1 h2
  rw [abs_le] at h2
  exact ⟨h1, by linarith [h2.1], by linarith [h2.2]⟩

theorem even_ne {a b c d α β δ1 δ2 : ℝ} (h1 : |a - 1| ≤ δ1) (h2 : -δ1 ≤ b) (h3 : b ≤ α + δ1) (h4 : |c - 1| ≤ δ2) (h6 : d ≤ δ2)
    (hα : α + 2 * δ1 ≤ 1) (hk : (1 + 2 * δ1) * δ2 < (1 - 2 * δ1) * (1 - δ2)) (hδ : 2 * δ1 ≤ 1) : (a + b) * c - (a - b) * d ≠ 0 := by
  rw [abs_le] at h1 h4
  have hδ1 : 0 ≤ δ1 := by linarith [h1.1, h1.2]
  have hδ2 : 0 ≤ δ2 := by linarith [h4.1, h4.2]
  have k1 : 1 - 2 * δ1 ≤ a + b := by linarith [h1.1]
  have k2 : 0 ≤ a - b := by linarith [h1.1]
  have k3 : a - b ≤ 1 + 2 * δ1 := by linarith [h1.2]
  have k4 : (a - b) * d ≤ (1 + 2 * δ1) * δ2 := (mul_le_mul_of_nonneg_left h6 k2).trans (mul_le_mul_of_nonneg_right k3 hδ2)
  have k5 : 0 ≤ 1 - δ2 := by
    by_contra hc
    have := mul_nonneg (by linarith : 0 ≤ 1 - 2 * δ1) (by linarith : 0 ≤ -(1 - δ2))
    have := mul_nonneg (by linarith : 0 ≤ 1 + 2 * δ1) hδ2
    nlinarith
  have k6 : (1 - 2 * δ1) * (1 - δ2) ≤ (a + b) * c := mul_le_mul k1 (by linarith [h4.1]) k5 (by linarith)
  linarith

theorem odd_ne' {a b c d α β δ1 δ2 : ℝ} (h1 : |a - 1| ≤ δ1) (h3 : b ≤ α + δ1) (h4 : |c - 1| ≤ δ2) (h5 : -(β + δ2) ≤ d) (h6 : d ≤ δ2)
    (hδ : δ1 ≤ 1) (hβ : β + 2 * δ2 ≤ 1) (hα : 0 ≤ α) (hβ0 : 0 ≤ β) (hk : (α + δ1) * (1 + β + 2 * δ2) < (1 - δ1) * (1 - β - 2 * δ2)) : a * (c + d) - b * (c - d) ≠ 0 := by
  rw [abs_le] at h1 h4
  have hδ1 : 0 ≤ δ1 := by linarith [h1.1, h1.2]
  have hδ2 : 0 ≤ δ2 := by linarith [h4.1, h4.2]
  have k1 : (1 - δ1) * (1 - β - 2 * δ2) ≤ a * (c + d) := mul_le_mul (by linarith [h1.1]) (by linarith [h4.1]) (by linarith) (by linarith [h1.1])
  have k2 : 0 ≤ c - d := by linarith [h4.1]
  have k3 : b * (c - d) ≤ (α + δ1) * (c - d) := mul_le_mul_of_nonneg_right h3 k2
  have k4 : (α + δ1) * (c - d) ≤ (α + δ1) * (1 + β + 2 * δ2) := mul_le_mul_of_nonneg_left (by linarith [h4.2]) (by linarith)
  linarith

/-- Different sizes. -/
theorem size_ne (hre : 0 < z.re) (ht : 0 < t) (hz : z ^ 2 = Complex.I * t) {A P t0 : ℝ} (hA0 : 0 ≤ A) (ht0 : 0 ≤ t0) (h0 : t0 ≤ t)
    (hA : A ≤ (phi (n + 1) (z ^ 2)).re) (hP : ‖phi (-n) (z ^ 2)‖ ≤ P) (hk : (n.factorial : ℝ) ^ 4 * P ^ 2 < t0 ^ (2 * n + 1) * (2 * n + 1) ^ 2 * A ^ 2) :
    smallQ n z ≠ 0 := by
  intro h
  have e := zero_norm hre ht hz h
  have h1 : A ≤ ‖phi (n + 1) (z ^ 2)‖ := hA.trans ((le_abs_self _).trans (Complex.abs_re_le_norm _))
  have h2 : A ^ 2 ≤ ‖phi (n + 1) (z ^ 2)‖ ^ 2 := pow_le_pow_left₀ hA0 h1 2
  have h3 : ‖phi (-n) (z ^ 2)‖ ^ 2 ≤ P ^ 2 := pow_le_pow_left₀ (norm_nonneg _) hP 2
  have h4 : t0 ^ (2 * n + 1) ≤ t ^ (2 * n + 1) := pow_le_pow_left₀ ht0 h0 _
  have h5 : t0 ^ (2 * n + 1) * (2 * n + 1) ^ 2 * A ^ 2 ≤ t ^ (2 * n + 1) * (2 * n + 1) ^ 2 * ‖phi (n + 1) (z ^ 2)‖ ^ 2 := by gcongr
  have h6 : (n.factorial : ℝ) ^ 4 * ‖phi (-n) (z ^ 2)‖ ^ 2 ≤ (n.factorial : ℝ) ^ 4 * P ^ 2 := by gcongr
  linarith

/-- The exponential bound for an argument up to `k`. -/
theorem phi_le_nat (hn : 1 ≤ n) (ht : 0 < t) (hz : z ^ 2 = Complex.I * t) (k : ℕ) (hk : t / 2 ≤ k) :
    ‖phi (-n) (z ^ 2)‖ ≤ 1 + (2.7182818286 ^ k - 1) / (2 * n - 1) := by
  have hx : ‖z ^ 2‖ = t := by rw [hz]; simp [abs_of_pos ht]
  have hn1 : (1 : ℝ) ≤ n := by exact_mod_cast hn
  have h := phi_le hn (z ^ 2)
  rw [hx] at h
  have h2 : Real.exp (t / 2) ≤ 2.7182818286 ^ k := by
    calc Real.exp (t / 2) ≤ Real.exp k := Real.exp_le_exp.2 hk
      _ = Real.exp 1 ^ k := by rw [← Real.exp_nat_mul, mul_one]
      _ ≤ 2.7182818286 ^ k := pow_le_pow_left₀ (Real.exp_pos 1).le Real.exp_one_lt_d9.le k
  refine h.trans ?_
  have : (Real.exp (t / 2) - 1) / (2 * (n : ℝ) - 1) ≤ (2.7182818286 ^ k - 1) / (2 * n - 1) := div_le_div_of_nonneg_right (by linarith) (by linarith)
  linarith

theorem odd_abs (n j : ℕ) : (1 : ℝ) ≤ |2 * ((j : ℝ) + 1) + 2 * ((-n : ℤ) : ℝ) - 1| := by
  have := one_le_odd (-n) j
  have e : (2 * ((j : ℂ) + 1) + 2 * ((-n : ℤ) : ℂ) - 1) = ((2 * ((j : ℝ) + 1) + 2 * ((-n : ℤ) : ℝ) - 1 : ℝ) : ℂ) := by push_cast; ring
  rw [e, Complex.norm_real, Real.norm_eq_abs] at this
  exact this

/-- Divisors of the later terms. -/
theorem divisors (n : ℕ) (m : ℕ) (h : ∀ j, 2 ≤ j → j + 1 < m → j + 1 ≤ n ∧ m ≤ (j + 1) * (2 * n - 1 - 2 * j)) (j : ℕ) (hj : 2 ≤ j) :
    (m : ℝ) ≤ ((j : ℝ) + 1) * |2 * ((j : ℝ) + 1) + 2 * ((-n : ℤ) : ℝ) - 1| := by
  by_cases hc : m ≤ j + 1
  · have : (m : ℝ) ≤ (j : ℝ) + 1 := by exact_mod_cast hc
    exact this.trans (le_mul_of_one_le_right (by positivity) (odd_abs n j))
  · obtain ⟨h1, h2⟩ := h j hj (by omega)
    have h3 : ((2 * n - 1 - 2 * j : ℕ) : ℝ) = 2 * n - 1 - 2 * j := by
      rw [Nat.cast_sub (by omega), Nat.cast_sub (by omega)]
      push_cast
      ring
    have h4 : (m : ℝ) ≤ ((j : ℝ) + 1) * ((2 * n - 1 - 2 * j : ℕ) : ℝ) := by exact_mod_cast h2
    rw [h3] at h4
    refine h4.trans (mul_le_mul_of_nonneg_left ?_ (by positivity))
    push_cast
    rw [show (2 * ((j : ℝ) + 1) + 2 * -(n : ℝ) - 1) = -(2 * n - 1 - 2 * j) by ring, abs_neg]
    exact le_abs_self _

theorem frac_le {x X d D : ℝ} (hx : x ≤ X) (hX : 0 ≤ X) (hD : 0 < D) (hd : D ≤ d) : x / d ≤ X / D :=
  (div_le_div_of_nonneg_right hx (hD.le.trans hd)).trans (div_le_div_of_nonneg_left hX hD hd)

theorem ratio_le {α q r Q R : ℝ} (hα : 0 ≤ α) (hq0 : 0 ≤ q) (hq : q ≤ Q) (hr : r ≤ R) (hR : R < 1) : α * q / (1 - r) ≤ α * Q / (1 - R) := by
  have h1 : 0 < 1 - R := by linarith
  have h2 : 1 - R ≤ 1 - r := by linarith
  exact (div_le_div_of_nonneg_left (mul_nonneg hα hq0) h1 h2).trans (div_le_div_of_nonneg_right (mul_le_mul_of_nonneg_left hq hα) h1.le)

theorem high_even (hn : 6 ≤ n) (he : Even n) (hre : 0 < z.re) (ht : 0 < t) (ht9 : t < 9) (hz : z ^ 2 = Complex.I * t) : smallQ n z ≠ 0 := by
  intro h
  have hn6 : (6 : ℝ) ≤ n := by exact_mod_cast hn
  obtain ⟨a1, a2, a3⟩ := near1 (α := 0.3) (δ := 0.046) n ht hz (by linarith) ((frac_le (X := 4.5) (D := 15) (by norm_num; linarith) (by norm_num) (by norm_num) (by linarith)).trans (by norm_num))
    ((ratio_le (Q := 4.5 / 34) (R := 4.5 / 34) (by norm_num) (by positivity) (frac_le (by norm_num; linarith) (by norm_num) (by norm_num) (by linarith))
      (frac_le (by norm_num; linarith) (by norm_num) (by norm_num) (by linarith)) (by norm_num)).trans (by norm_num))
  obtain ⟨b1, b2, b3⟩ := near2 (m := ((6 : ℕ) : ℝ)) (β := 0.4091) (δ := 0.41) (by omega : 2 ≤ n) ht hz (by norm_num; linarith) (divisors n 6 (fun j h1 h2 => by
      have h3 : j < 5 := by omega
      interval_cases j <;> omega)) ((frac_le (X := 4.5) (D := 11) (by norm_num; linarith) (by norm_num) (by norm_num) (by linarith)).trans (by norm_num))
    ((ratio_le (Q := 4.5 / 18) (R := 4.5 / 6) (by norm_num) (div_nonneg (by positivity) (by linarith)) (frac_le (by norm_num; linarith) (by norm_num) (by norm_num) (by linarith))
      (frac_le (by norm_num; linarith) (by norm_num) (by norm_num) (by norm_num)) (by norm_num)).trans (by norm_num))
  exact even_ne (β := 0.4091) a1 a2 a3 b1 b3 (by norm_num) (by norm_num) (by norm_num) ((zero_arg hre ht hz h).1 he)

theorem high_odd (hn : 9 ≤ n) (he : Odd n) (hre : 0 < z.re) (ht : 0 < t) (ht9 : t < 9) (hz : z ^ 2 = Complex.I * t) : smallQ n z ≠ 0 := by
  intro h
  have hn6 : (9 : ℝ) ≤ n := by exact_mod_cast hn
  obtain ⟨a1, a2, a3⟩ := near1 (α := 0.215) (δ := 0.024) n ht hz (by linarith) ((frac_le (X := 4.5) (D := 21) (by norm_num; linarith) (by norm_num) (by norm_num) (by linarith)).trans (by norm_num))
    ((ratio_le (Q := 4.5 / 46) (R := 4.5 / 46) (by norm_num) (by positivity) (frac_le (by norm_num; linarith) (by norm_num) (by norm_num) (by linarith))
      (frac_le (by norm_num; linarith) (by norm_num) (by norm_num) (by linarith)) (by norm_num)).trans (by norm_num))
  obtain ⟨b1, b2, b3⟩ := near2 (m := ((9 : ℕ) : ℝ)) (β := 0.265) (δ := 0.08) (by omega : 2 ≤ n) ht hz (by norm_num; linarith) (divisors n 9 (fun j h1 h2 => by
      have h3 : j < 8 := by omega
      interval_cases j <;> omega)) ((frac_le (X := 4.5) (D := 17) (by norm_num; linarith) (by norm_num) (by norm_num) (by linarith)).trans (by norm_num))
    ((ratio_le (Q := 4.5 / 30) (R := 4.5 / 9) (by norm_num) (div_nonneg (by positivity) (by linarith)) (frac_le (by norm_num; linarith) (by norm_num) (by norm_num) (by linarith))
      (frac_le (by norm_num; linarith) (by norm_num) (by norm_num) (by norm_num)) (by norm_num)).trans (by norm_num))
  exact odd_ne' (β := 0.265) a1 a3 b1 b2 b3 (by norm_num) (by norm_num) (by norm_num) (by norm_num) (by norm_num) ((zero_arg hre ht hz h).2 he)

theorem divisor_2 (hre : 0 < z.re) (ht : 0 < t) (ht9 : t < 9) (hz : z ^ 2 = Complex.I * t) : smallQ 2 z ≠ 0 := by
  by_cases hc : t ≤ 1.44
  · intro h
    obtain ⟨a1, a2, a3⟩ := near1 (α := 0.103) (δ := 0.0045) 2 ht hz (by norm_num; linarith) ((frac_le (X := 0.72) (D := 7) (by norm_num; linarith) (by norm_num) (by norm_num) (by norm_num)).trans (by norm_num))
      ((ratio_le (Q := 0.72 / 18) (R := 0.72 / 18) (by norm_num) (by positivity) (frac_le (by norm_num; linarith) (by norm_num) (by norm_num) (by norm_num))
        (frac_le (by norm_num; linarith) (by norm_num) (by norm_num) (by norm_num)) (by norm_num)).trans (by norm_num))
    obtain ⟨b1, b2, b3⟩ := near2 (n := 2) (m := ((3 : ℕ) : ℝ)) (β := 0.24) (δ := 0.114) (by norm_num) ht hz (by norm_num; linarith) (divisors 2 3 (fun j h1 h2 => by
        have h3 : j < 2 := by omega
        interval_cases j <;> omega)) ((frac_le (X := 0.72) (D := 3) (by norm_num; linarith) (by norm_num) (by norm_num) (by norm_num)).trans (by norm_num))
      ((ratio_le (Q := 0.72 / 2) (R := 0.72 / 3) (by norm_num) (div_nonneg (by positivity) (by norm_num)) (frac_le (by norm_num; linarith) (by norm_num) (by norm_num) (by norm_num))
        (frac_le (by norm_num; linarith) (by norm_num) (by norm_num) (by norm_num)) (by norm_num)).trans (by norm_num))
    exact even_ne (β := 0.24) a1 a2 a3 b1 b3 (by norm_num) (by norm_num) (by norm_num) ((zero_arg hre ht hz h).1 (by decide))
  · obtain ⟨a1, -, -⟩ := near1 (α := 0.643) (δ := 0.215) 2 ht hz (by norm_num; linarith) ((frac_le (X := 4.5) (D := 7) (by norm_num; linarith) (by norm_num) (by norm_num) (by norm_num)).trans (by norm_num))
      ((ratio_le (Q := 4.5 / 18) (R := 4.5 / 18) (by norm_num) (by positivity) (frac_le (by norm_num; linarith) (by norm_num) (by norm_num) (by norm_num))
        (frac_le (by norm_num; linarith) (by norm_num) (by norm_num) (by norm_num)) (by norm_num)).trans (by norm_num))
    have hA : 0.785 ≤ (phi (((2 : ℕ) : ℤ) + 1) (z ^ 2)).re := by rw [abs_le] at a1; linarith [a1.1]
    by_cases hc1 : t ≤ 2
    · exact size_ne hre ht hz (t0 := 1.44) (by norm_num) (by norm_num) (by linarith) hA (phi_le_nat (by norm_num) ht hz 1 (by norm_num; linarith)) (by norm_num [Nat.factorial])
    by_cases hc2 : t ≤ 4
    · exact size_ne hre ht hz (t0 := 2) (by norm_num) (by norm_num) (by linarith) hA (phi_le_nat (by norm_num) ht hz 2 (by norm_num; linarith)) (by norm_num [Nat.factorial])
    by_cases hc3 : t ≤ 6
    · exact size_ne hre ht hz (t0 := 4) (by norm_num) (by norm_num) (by linarith) hA (phi_le_nat (by norm_num) ht hz 3 (by norm_num; linarith)) (by norm_num [Nat.factorial])
    by_cases hc4 : t ≤ 8
    · exact size_ne hre ht hz (t0 := 6) (by norm_num) (by norm_num) (by linarith) hA (phi_le_nat (by norm_num) ht hz 4 (by norm_num; linarith)) (by norm_num [Nat.factorial])
    exact size_ne hre ht hz (t0 := 8) (by norm_num) (by norm_num) (by linarith) hA (phi_le_nat (by norm_num) ht hz 5 (by norm_num; linarith)) (by norm_num [Nat.factorial])

theorem divisor_3 (hre : 0 < z.re) (ht : 0 < t) (ht9 : t < 9) (hz : z ^ 2 = Complex.I * t) : smallQ 3 z ≠ 0 := by
  by_cases hc : t ≤ 2.25
  · intro h
    obtain ⟨a1, a2, a3⟩ := near1 (α := 0.125) (δ := 0.007) 3 ht hz (by norm_num; linarith) ((frac_le (X := 1.125) (D := 9) (by norm_num; linarith) (by norm_num) (by norm_num) (by norm_num)).trans (by norm_num))
      ((ratio_le (Q := 1.125 / 22) (R := 1.125 / 22) (by norm_num) (by positivity) (frac_le (by norm_num; linarith) (by norm_num) (by norm_num) (by norm_num))
        (frac_le (by norm_num; linarith) (by norm_num) (by norm_num) (by norm_num)) (by norm_num)).trans (by norm_num))
    obtain ⟨b1, b2, b3⟩ := near2 (n := 3) (m := ((3 : ℕ) : ℝ)) (β := 0.225) (δ := 0.068) (by norm_num) ht hz (by norm_num; linarith) (divisors 3 3 (fun j h1 h2 => by
        have h3 : j < 2 := by omega
        interval_cases j <;> omega)) ((frac_le (X := 1.125) (D := 5) (by norm_num; linarith) (by norm_num) (by norm_num) (by norm_num)).trans (by norm_num))
      ((ratio_le (Q := 1.125 / 6) (R := 1.125 / 3) (by norm_num) (div_nonneg (by positivity) (by norm_num)) (frac_le (by norm_num; linarith) (by norm_num) (by norm_num) (by norm_num))
        (frac_le (by norm_num; linarith) (by norm_num) (by norm_num) (by norm_num)) (by norm_num)).trans (by norm_num))
    exact odd_ne' (β := 0.225) a1 a3 b1 b2 b3 (by norm_num) (by norm_num) (by norm_num) (by norm_num) (by norm_num) ((zero_arg hre ht hz h).2 (by decide))
  · obtain ⟨a1, -, -⟩ := near1 (α := 0.5) (δ := 0.129) 3 ht hz (by norm_num; linarith) ((frac_le (X := 4.5) (D := 9) (by norm_num; linarith) (by norm_num) (by norm_num) (by norm_num)).trans (by norm_num))
      ((ratio_le (Q := 4.5 / 22) (R := 4.5 / 22) (by norm_num) (by positivity) (frac_le (by norm_num; linarith) (by norm_num) (by norm_num) (by norm_num))
        (frac_le (by norm_num; linarith) (by norm_num) (by norm_num) (by norm_num)) (by norm_num)).trans (by norm_num))
    have hA : 0.871 ≤ (phi (((3 : ℕ) : ℤ) + 1) (z ^ 2)).re := by rw [abs_le] at a1; linarith [a1.1]
    by_cases hc2 : t ≤ 4
    · exact size_ne hre ht hz (t0 := 2.25) (by norm_num) (by norm_num) (by linarith) hA (phi_le_nat (by norm_num) ht hz 2 (by norm_num; linarith)) (by norm_num [Nat.factorial])
    by_cases hc3 : t ≤ 6
    · exact size_ne hre ht hz (t0 := 4) (by norm_num) (by norm_num) (by linarith) hA (phi_le_nat (by norm_num) ht hz 3 (by norm_num; linarith)) (by norm_num [Nat.factorial])
    by_cases hc4 : t ≤ 8
    · exact size_ne hre ht hz (t0 := 6) (by norm_num) (by norm_num) (by linarith) hA (phi_le_nat (by norm_num) ht hz 4 (by norm_num; linarith)) (by norm_num [Nat.factorial])
    exact size_ne hre ht hz (t0 := 8) (by norm_num) (by norm_num) (by linarith) hA (phi_le_nat (by norm_num) ht hz 5 (by norm_num; linarith)) (by norm_num [Nat.factorial])

theorem divisor_4 (hre : 0 < z.re) (ht : 0 < t) (ht9 : t < 9) (hz : z ^ 2 = Complex.I * t) : smallQ 4 z ≠ 0 := by
  by_cases hc : t ≤ 3.24
  · intro h
    obtain ⟨a1, a2, a3⟩ := near1 (α := 0.148) (δ := 0.0099) 4 ht hz (by norm_num; linarith) ((frac_le (X := 1.62) (D := 11) (by norm_num; linarith) (by norm_num) (by norm_num) (by norm_num)).trans (by norm_num))
      ((ratio_le (Q := 1.62 / 26) (R := 1.62 / 26) (by norm_num) (by positivity) (frac_le (by norm_num; linarith) (by norm_num) (by norm_num) (by norm_num))
        (frac_le (by norm_num; linarith) (by norm_num) (by norm_num) (by norm_num)) (by norm_num)).trans (by norm_num))
    obtain ⟨b1, b2, b3⟩ := near2 (n := 4) (m := ((3 : ℕ) : ℝ)) (β := 0.232) (δ := 0.082) (by norm_num) ht hz (by norm_num; linarith) (divisors 4 3 (fun j h1 h2 => by
        have h3 : j < 2 := by omega
        interval_cases j <;> omega)) ((frac_le (X := 1.62) (D := 7) (by norm_num; linarith) (by norm_num) (by norm_num) (by norm_num)).trans (by norm_num))
      ((ratio_le (Q := 1.62 / 10) (R := 1.62 / 3) (by norm_num) (div_nonneg (by positivity) (by norm_num)) (frac_le (by norm_num; linarith) (by norm_num) (by norm_num) (by norm_num))
        (frac_le (by norm_num; linarith) (by norm_num) (by norm_num) (by norm_num)) (by norm_num)).trans (by norm_num))
    exact even_ne (β := 0.232) a1 a2 a3 b1 b3 (by norm_num) (by norm_num) (by norm_num) ((zero_arg hre ht hz h).1 (by decide))
  · obtain ⟨a1, -, -⟩ := near1 (α := 0.41) (δ := 0.086) 4 ht hz (by norm_num; linarith) ((frac_le (X := 4.5) (D := 11) (by norm_num; linarith) (by norm_num) (by norm_num) (by norm_num)).trans (by norm_num))
      ((ratio_le (Q := 4.5 / 26) (R := 4.5 / 26) (by norm_num) (by positivity) (frac_le (by norm_num; linarith) (by norm_num) (by norm_num) (by norm_num))
        (frac_le (by norm_num; linarith) (by norm_num) (by norm_num) (by norm_num)) (by norm_num)).trans (by norm_num))
    have hA : 0.914 ≤ (phi (((4 : ℕ) : ℤ) + 1) (z ^ 2)).re := by rw [abs_le] at a1; linarith [a1.1]
    by_cases hc2 : t ≤ 4
    · exact size_ne hre ht hz (t0 := 3.24) (by norm_num) (by norm_num) (by linarith) hA (phi_le_nat (by norm_num) ht hz 2 (by norm_num; linarith)) (by norm_num [Nat.factorial])
    by_cases hc3 : t ≤ 6
    · exact size_ne hre ht hz (t0 := 4) (by norm_num) (by norm_num) (by linarith) hA (phi_le_nat (by norm_num) ht hz 3 (by norm_num; linarith)) (by norm_num [Nat.factorial])
    by_cases hc4 : t ≤ 8
    · exact size_ne hre ht hz (t0 := 6) (by norm_num) (by norm_num) (by linarith) hA (phi_le_nat (by norm_num) ht hz 4 (by norm_num; linarith)) (by norm_num [Nat.factorial])
    exact size_ne hre ht hz (t0 := 8) (by norm_num) (by norm_num) (by linarith) hA (phi_le_nat (by norm_num) ht hz 5 (by norm_num; linarith)) (by norm_num [Nat.factorial])

theorem divisor_5 (hre : 0 < z.re) (ht : 0 < t) (ht9 : t < 9) (hz : z ^ 2 = Complex.I * t) : smallQ 5 z ≠ 0 := by
  by_cases hc : t ≤ 5
  · intro h
    obtain ⟨a1, a2, a3⟩ := near1 (α := 0.193) (δ := 0.018) 5 ht hz (by norm_num; linarith) ((frac_le (X := 2.5) (D := 13) (by norm_num; linarith) (by norm_num) (by norm_num) (by norm_num)).trans (by norm_num))
      ((ratio_le (Q := 2.5 / 30) (R := 2.5 / 30) (by norm_num) (by positivity) (frac_le (by norm_num; linarith) (by norm_num) (by norm_num) (by norm_num))
        (frac_le (by norm_num; linarith) (by norm_num) (by norm_num) (by norm_num)) (by norm_num)).trans (by norm_num))
    obtain ⟨b1, b2, b3⟩ := near2 (n := 5) (m := ((5 : ℕ) : ℝ)) (β := 0.278) (δ := 0.1) (by norm_num) ht hz (by norm_num; linarith) (divisors 5 5 (fun j h1 h2 => by
        have h3 : j < 4 := by omega
        interval_cases j <;> omega)) ((frac_le (X := 2.5) (D := 9) (by norm_num; linarith) (by norm_num) (by norm_num) (by norm_num)).trans (by norm_num))
      ((ratio_le (Q := 2.5 / 14) (R := 2.5 / 5) (by norm_num) (div_nonneg (by positivity) (by norm_num)) (frac_le (by norm_num; linarith) (by norm_num) (by norm_num) (by norm_num))
        (frac_le (by norm_num; linarith) (by norm_num) (by norm_num) (by norm_num)) (by norm_num)).trans (by norm_num))
    exact odd_ne' (β := 0.278) a1 a3 b1 b2 b3 (by norm_num) (by norm_num) (by norm_num) (by norm_num) (by norm_num) ((zero_arg hre ht hz h).2 (by decide))
  · obtain ⟨a1, -, -⟩ := near1 (α := 0.347) (δ := 0.062) 5 ht hz (by norm_num; linarith) ((frac_le (X := 4.5) (D := 13) (by norm_num; linarith) (by norm_num) (by norm_num) (by norm_num)).trans (by norm_num))
      ((ratio_le (Q := 4.5 / 30) (R := 4.5 / 30) (by norm_num) (by positivity) (frac_le (by norm_num; linarith) (by norm_num) (by norm_num) (by norm_num))
        (frac_le (by norm_num; linarith) (by norm_num) (by norm_num) (by norm_num)) (by norm_num)).trans (by norm_num))
    have hA : 0.938 ≤ (phi (((5 : ℕ) : ℤ) + 1) (z ^ 2)).re := by rw [abs_le] at a1; linarith [a1.1]
    by_cases hc3 : t ≤ 6
    · exact size_ne hre ht hz (t0 := 5) (by norm_num) (by norm_num) (by linarith) hA (phi_le_nat (by norm_num) ht hz 3 (by norm_num; linarith)) (by norm_num [Nat.factorial])
    by_cases hc4 : t ≤ 8
    · exact size_ne hre ht hz (t0 := 6) (by norm_num) (by norm_num) (by linarith) hA (phi_le_nat (by norm_num) ht hz 4 (by norm_num; linarith)) (by norm_num [Nat.factorial])
    exact size_ne hre ht hz (t0 := 8) (by norm_num) (by norm_num) (by linarith) hA (phi_le_nat (by norm_num) ht hz 5 (by norm_num; linarith)) (by norm_num [Nat.factorial])

theorem divisor_7 (hre : 0 < z.re) (ht : 0 < t) (ht9 : t < 9) (hz : z ^ 2 = Complex.I * t) : smallQ 7 z ≠ 0 := by
  by_cases hc : t ≤ 7.6
  · intro h
    obtain ⟨a1, a2, a3⟩ := near1 (α := 0.224) (δ := 0.025) 7 ht hz (by norm_num; linarith) ((frac_le (X := 3.8) (D := 17) (by norm_num; linarith) (by norm_num) (by norm_num) (by norm_num)).trans (by norm_num))
      ((ratio_le (Q := 3.8 / 38) (R := 3.8 / 38) (by norm_num) (by positivity) (frac_le (by norm_num; linarith) (by norm_num) (by norm_num) (by norm_num))
        (frac_le (by norm_num; linarith) (by norm_num) (by norm_num) (by norm_num)) (by norm_num)).trans (by norm_num))
    obtain ⟨b1, b2, b3⟩ := near2 (n := 7) (m := ((7 : ℕ) : ℝ)) (β := 0.2924) (δ := 0.111) (by norm_num) ht hz (by norm_num; linarith) (divisors 7 7 (fun j h1 h2 => by
        have h3 : j < 6 := by omega
        interval_cases j <;> omega)) ((frac_le (X := 3.8) (D := 13) (by norm_num; linarith) (by norm_num) (by norm_num) (by norm_num)).trans (by norm_num))
      ((ratio_le (Q := 3.8 / 22) (R := 3.8 / 7) (by norm_num) (div_nonneg (by positivity) (by norm_num)) (frac_le (by norm_num; linarith) (by norm_num) (by norm_num) (by norm_num))
        (frac_le (by norm_num; linarith) (by norm_num) (by norm_num) (by norm_num)) (by norm_num)).trans (by norm_num))
    exact odd_ne' (β := 0.2924) a1 a3 b1 b2 b3 (by norm_num) (by norm_num) (by norm_num) (by norm_num) (by norm_num) ((zero_arg hre ht hz h).2 (by decide))
  · obtain ⟨a1, -, -⟩ := near1 (α := 0.265) (δ := 0.036) 7 ht hz (by norm_num; linarith) ((frac_le (X := 4.5) (D := 17) (by norm_num; linarith) (by norm_num) (by norm_num) (by norm_num)).trans (by norm_num))
      ((ratio_le (Q := 4.5 / 38) (R := 4.5 / 38) (by norm_num) (by positivity) (frac_le (by norm_num; linarith) (by norm_num) (by norm_num) (by norm_num))
        (frac_le (by norm_num; linarith) (by norm_num) (by norm_num) (by norm_num)) (by norm_num)).trans (by norm_num))
    have hA : 0.964 ≤ (phi (((7 : ℕ) : ℤ) + 1) (z ^ 2)).re := by rw [abs_le] at a1; linarith [a1.1]
    obtain ⟨b1, b2, b3⟩ := near2 (n := 7) (m := ((7 : ℕ) : ℝ)) (β := 0.3462) (δ := 0.199) (by norm_num) ht hz (by norm_num; linarith) (divisors 7 7 (fun j h1 h2 => by
        have h3 : j < 6 := by omega
        interval_cases j <;> omega)) ((frac_le (X := 4.5) (D := 13) (by norm_num; linarith) (by norm_num) (by norm_num) (by norm_num)).trans (by norm_num))
      ((ratio_le (Q := 4.5 / 22) (R := 4.5 / 7) (by norm_num) (div_nonneg (by positivity) (by norm_num)) (frac_le (by norm_num; linarith) (by norm_num) (by norm_num) (by norm_num))
        (frac_le (by norm_num; linarith) (by norm_num) (by norm_num) (by norm_num)) (by norm_num)).trans (by norm_num))
    have hP : ‖phi (-((7 : ℕ) : ℤ)) (z ^ 2)‖ ≤ 1.75 := by
      have key : ∀ w : ℂ, |w.re - 1| ≤ 0.199 → -(0.3462 + 0.199) ≤ w.im → w.im ≤ 0.199 → ‖w‖ ≤ 1.75 := by
        intro w b1 b2 b3
        refine (Complex.norm_le_abs_re_add_abs_im _).trans ?_
        rw [abs_le] at b1
        have h1 : |w.re| ≤ 1.199 := abs_le.2 ⟨by linarith [b1.1], by linarith [b1.2]⟩
        have h2 : |w.im| ≤ 0.5452 := abs_le.2 ⟨by linarith, by linarith⟩
        linarith
      exact key _ b1 b2 b3
    exact size_ne hre ht hz (t0 := 7.6) (by norm_num) (by norm_num) (by linarith) hA hP (by norm_num [Nat.factorial])

/-! Degree one. -/

theorem frob_two (j : ℕ) : frob 2 j = 3 * (2 * (j : ℂ) + 2) / (2 * j + 3).factorial := by
  induction j with
  | zero => simp [frob, Nat.factorial]; norm_num
  | succ j ih =>
    have h1 := odd_ne 2 j
    have h2 := succ_ne j
    have h3 : ((2 * j + 3).factorial : ℂ) ≠ 0 := by exact_mod_cast Nat.factorial_ne_zero _
    have h4 : (2 * (j : ℂ) + 5) ≠ 0 := by exact_mod_cast (by omega : 2 * j + 5 ≠ 0)
    have h5 : (2 * (j : ℂ) + 4) ≠ 0 := by exact_mod_cast (by omega : 2 * j + 4 ≠ 0)
    have h6 : (2 * (j : ℂ) + 2) ≠ 0 := by exact_mod_cast (by omega : 2 * j + 2 ≠ 0)
    rw [frob, ih, show 2 * (j + 1) + 3 = (2 * j + 3) + 1 + 1 by ring, Nat.factorial_succ (2 * j + 3 + 1), Nat.factorial_succ (2 * j + 3)]
    push_cast at h1 ⊢
    rw [show (2 * ((j : ℂ) + 1) + 2 * 2 - 1) = 2 * j + 5 by ring, show (2 * (j : ℂ) + 3 + 1 + 1) = 2 * j + 5 by ring, show (2 * (j : ℂ) + 3 + 1) = 2 * j + 4 by ring,
      show 2 * ((j : ℂ) + 1) = 2 * j + 2 by ring, show (2 * (j : ℂ) + 2 + 2) = 2 * j + 4 by ring]
    field_simp

theorem frob_neg_one (j : ℕ) : frob (-1) j = (1 - 2 * (j : ℂ)) / (2 * j).factorial := by
  induction j with
  | zero => simp [frob]
  | succ j ih =>
    have h1 := odd_ne (-1) j
    have h3 : ((2 * j).factorial : ℂ) ≠ 0 := by exact_mod_cast Nat.factorial_ne_zero _
    have h5 : (2 * (j : ℂ) + 1) ≠ 0 := by exact_mod_cast (by omega : 2 * j + 1 ≠ 0)
    have h6 : (2 * (j : ℂ) + 2) ≠ 0 := by exact_mod_cast (by omega : 2 * j + 2 ≠ 0)
    rw [frob, ih, show 2 * (j + 1) = 2 * j + 1 + 1 by ring, Nat.factorial_succ, Nat.factorial_succ]
    push_cast at h1 ⊢
    have h7 : (2 * (j : ℂ) - 1) ≠ 0 := by convert h1 using 1; ring
    rw [show (2 * ((j : ℂ) + 1) + 2 * -1 - 1) = 2 * j - 1 by ring, show (2 * (j : ℂ) + 1 + 1) = 2 * j + 2 by ring, show 2 * ((j : ℂ) + 1) = 2 * j + 2 by ring,
      show (1 : ℂ) - 2 * j = -(2 * j - 1) by ring]
    field_simp
    ring

theorem phi_two (z : ℂ) : z ^ 3 * phi 2 (z ^ 2) = 3 * (z * Complex.cosh z - Complex.sinh z) := by
  have h1 := ((Complex.hasSum_cosh z).mul_left z).sub (Complex.hasSum_sinh z)
  have h2 : HasSum (fun j : ℕ => (2 * (j : ℂ) + 2) * z ^ (2 * j + 3) / (2 * j + 3).factorial) (z * Complex.cosh z - Complex.sinh z) := by
    have := (hasSum_nat_add_iff' 1).2 h1
    simp only [Finset.sum_range_one, mul_zero, pow_zero, Nat.factorial_zero, Nat.cast_one, div_one, mul_one, zero_add, pow_one, Nat.factorial_one, sub_self, sub_zero] at this
    refine this.congr_fun fun j => ?_
    have h3 : ((2 * (j + 1)).factorial : ℂ) ≠ 0 := by exact_mod_cast Nat.factorial_ne_zero _
    have h4 : (2 * (j : ℂ) + 3) ≠ 0 := by exact_mod_cast (by omega : 2 * j + 3 ≠ 0)
    rw [show 2 * j + 3 = 2 * (j + 1) + 1 by ring, Nat.factorial_succ]
    push_cast
    rw [show (2 * ((j : ℂ) + 1) + 1) = 2 * j + 3 by ring]
    field_simp
    ring
  have h3 := ((frob_entire 2).hasSum (z ^ 2)).mul_left (z ^ 3)
  refine h3.unique ((h2.mul_left 3).congr_fun fun j => ?_)
  rw [frob_two]
  ring

theorem phi_neg_one (z : ℂ) : phi (-1) (z ^ 2) = Complex.cosh z - z * Complex.sinh z := by
  have h2 : HasSum (fun j : ℕ => 2 * (j : ℂ) * z ^ (2 * j) / (2 * j).factorial) (z * Complex.sinh z) := by
    rw [← hasSum_nat_add_iff' 1]
    simp only [Finset.sum_range_one, Nat.cast_zero, mul_zero, zero_mul, zero_div, sub_zero]
    refine ((Complex.hasSum_sinh z).mul_left z).congr_fun fun j => ?_
    have h3 : ((2 * j + 1).factorial : ℂ) ≠ 0 := by exact_mod_cast Nat.factorial_ne_zero _
    have h4 : (2 * (j : ℂ) + 2) ≠ 0 := by exact_mod_cast (by omega : 2 * j + 2 ≠ 0)
    rw [show 2 * (j + 1) = 2 * j + 1 + 1 by ring, Nat.factorial_succ]
    push_cast
    rw [show (2 * (j : ℂ) + 1 + 1) = 2 * j + 2 by ring]
    field_simp
    ring
  have h3 := (frob_entire (-1)).hasSum (z ^ 2)
  refine h3.unique (((Complex.hasSum_cosh z).sub h2).congr_fun fun j => ?_)
  rw [frob_neg_one, ← pow_mul]
  ring

theorem trig_pos {y : ℝ} (h0 : 0 < y) (h1 : y ≤ Real.pi / 2) : (1 - y ^ 2 / 2) * Real.sin y - y * Real.cos y < 0 := by
  have hd : ∀ x : ℝ, HasDerivAt (fun y : ℝ => (1 - y ^ 2 / 2) * Real.sin y - y * Real.cos y) (-(x ^ 2 / 2 * Real.cos x)) x := by
    intro x
    have e1 : HasDerivAt (fun y : ℝ => 1 - y ^ 2 / 2) (-x) x := by
      refine (((hasDerivAt_id x).pow 2).div_const 2 |>.const_sub 1).congr_deriv ?_
      simp
    refine ((e1.mul (Real.hasDerivAt_sin x)).sub ((hasDerivAt_id x).mul (Real.hasDerivAt_cos x))).congr_deriv ?_
    simp
    ring
  have hanti : StrictAntiOn (fun y : ℝ => (1 - y ^ 2 / 2) * Real.sin y - y * Real.cos y) (Set.Icc 0 (Real.pi / 2)) := by
    refine strictAntiOn_of_deriv_neg (convex_Icc _ _) (fun x _ => (hd x).continuousAt.continuousWithinAt) fun x hx => ?_
    rw [interior_Icc] at hx
    rw [(hd x).deriv]
    have := Real.cos_pos_of_mem_Ioo ⟨by linarith [hx.1, Real.pi_pos], hx.2⟩
    have := hx.1
    have : 0 < x ^ 2 / 2 * Real.cos x := by positivity
    linarith
  have := hanti ⟨le_rfl, by positivity⟩ ⟨h0.le, h1⟩ h0
  simpa using this

theorem divisor_1 (hre : 0 < z.re) (ht : 0 < t) (hz : z ^ 2 = Complex.I * t) : smallQ 1 z ≠ 0 := by
  intro h
  have e := zero_eq hre ht hz h
  obtain ⟨hd, hs⟩ := diagonal hre ht hz
  simp only [Nat.cast_one, pow_one, Nat.factorial_one, one_pow, Complex.ofReal_one, one_mul] at e
  have e0 : ((1 : ℤ) + 1) = 2 := by norm_num
  rw [e0] at e
  have e1 : 3 * (z ^ 3 * phi 2 (z ^ 2)) = -phi (-1) (z ^ 2) := by
    have : z ^ 3 = z * (Complex.I * t) := by rw [← hz]; ring
    rw [this]
    have e2 : ((z.re * t * (2 * 1 + 1) : ℝ) : ℂ) * ((1 + Complex.I) * phi 2 (z ^ 2)) = 3 * (z * t * phi 2 (z ^ 2)) := by
      have : ((z.re * t * (2 * 1 + 1) : ℝ) : ℂ) = (z.re : ℂ) * t * 3 := by push_cast; ring
      rw [this]
      conv_rhs => rw [show z * (t : ℂ) * phi 2 (z ^ 2) = ((z.re : ℂ) * (1 + Complex.I)) * t * phi 2 (z ^ 2) by rw [← hd]]
      ring
    rw [e2] at e
    have hI := Complex.I_mul_I
    linear_combination Complex.I * e + phi (-1) (z ^ 2) * hI
  rw [phi_two, phi_neg_one] at e1
  rw [Complex.cosh, Complex.sinh] at e1
  have e2 : 4 * Complex.exp z * (1 - z) = 5 * Complex.exp (-z) * (1 + z) := by linear_combination -e1
  have e3 : 4 * (Complex.exp z * Complex.exp z) * (1 - z) = 5 * (1 + z) := by
    have h1 : Complex.exp z * Complex.exp (-z) = 1 := by rw [← Complex.exp_add, add_neg_cancel, Complex.exp_zero]
    linear_combination Complex.exp z * e2 + 5 * (1 + z) * h1
  rw [← Complex.exp_add] at e3
  set s := z.re with hsdef
  have e4 : z + z = ((2 * s : ℝ) : ℂ) + ((2 * s : ℝ) : ℂ) * Complex.I := by rw [hd]; push_cast; ring
  rw [e4] at e3
  have him : z.im = s := by
    have := congrArg Complex.im hd
    simpa using this
  have hE : Complex.exp (((2 * s : ℝ) : ℂ) + ((2 * s : ℝ) : ℂ) * Complex.I) = (Real.exp (2 * s) : ℂ) * (Real.cos (2 * s) + Real.sin (2 * s) * Complex.I) := by
    rw [Complex.exp_add, Complex.exp_mul_I]
    push_cast
    rfl
  rw [hE] at e3
  set E := Real.exp (2 * s) with hEdef
  have hE0 : 0 < E := Real.exp_pos _
  have r1 := congrArg Complex.re e3
  have r2 := congrArg Complex.im e3
  simp only [Complex.mul_re, Complex.mul_im, Complex.add_re, Complex.add_im, Complex.sub_re, Complex.sub_im, Complex.one_re, Complex.one_im, Complex.ofReal_re, Complex.ofReal_im,
    Complex.I_re, Complex.I_im, him, ← hsdef, Complex.re_ofNat, Complex.im_ofNat] at r1 r2
  ring_nf at r1 r2
  by_cases hc : 2 * s ≤ 1.5
  · have hp : 2 * s ≤ Real.pi / 2 := by linarith [Real.pi_gt_d2]
    have := trig_pos (y := 2 * s) (by linarith) hp
    have key : E * ((1 - (2 * s) ^ 2 / 2) * Real.sin (2 * s) - 2 * s * Real.cos (2 * s)) = 0 := by
      ring_nf
      linear_combination (-s / 4) * r1 + (1 + s) / 4 * r2
    rcases mul_eq_zero.1 key with h | h
    · exact hE0.ne' h
    · linarith
  · have hc' : 1.5 < 2 * s := not_le.1 hc
    have hE2 : 10 ≤ E ^ 2 := by
      have h1 : Real.exp 1 * Real.exp 0.5 ≤ E := by
        rw [← Real.exp_add, hEdef]
        exact Real.exp_le_exp.2 (by norm_num; linarith)
      have h2 := Real.exp_one_gt_d9
      have h3 := Real.add_one_le_exp (0.5 : ℝ)
      have h4 : (4 : ℝ) ≤ E := by
        refine le_trans ?_ h1
        calc (4 : ℝ) ≤ 2.7 * 1.5 := by norm_num
          _ ≤ Real.exp 1 * Real.exp 0.5 := mul_le_mul (by linarith) (by linarith) (by norm_num) (Real.exp_pos _).le
      nlinarith
    have hcs := Real.sin_sq_add_cos_sq (2 * s)
    have key : 16 * E ^ 2 * ((1 - s) ^ 2 + s ^ 2) = 25 * ((1 + s) ^ 2 + s ^ 2) := by
      have hk := congrArg Complex.normSq e3
      have n1 : Complex.normSq ((Real.cos (2 * s) : ℂ) + Real.sin (2 * s) * Complex.I) = 1 := by
        rw [Complex.normSq_add_mul_I]
        linarith
      have n2 : Complex.normSq (1 - z) = (1 - s) ^ 2 + s ^ 2 := by rw [Complex.normSq_apply]; simp [him, ← hsdef]; ring
      have n3 : Complex.normSq (1 + z) = (1 + s) ^ 2 + s ^ 2 := by rw [Complex.normSq_apply]; simp [him, ← hsdef]; ring
      have n4 : Complex.normSq (4 : ℂ) = 16 := by rw [Complex.normSq_apply]; norm_num
      have n5 : Complex.normSq (5 : ℂ) = 25 := by rw [Complex.normSq_apply]; norm_num
      rw [map_mul, map_mul, map_mul, map_mul, n1, n2, n3, n4, n5, Complex.normSq_ofReal] at hk
      linear_combination hk
    nlinarith [mul_le_mul_of_nonneg_right hE2 (by positivity : 0 ≤ (1 - s) ^ 2 + s ^ 2), sq_nonneg (s - 37 / 54)]

/-- The divisor does not vanish, for every degree and every argument below three. -/
theorem divisor_ne (hn : 1 ≤ n) (hre : 0 < z.re) (ht : 0 < t) (ht9 : t < 9) (hz : z ^ 2 = Complex.I * t) : smallQ n z ≠ 0 := by
  by_cases h9 : 9 ≤ n
  · rcases Nat.even_or_odd n with he | ho
    · exact high_even (by omega) he hre ht ht9 hz
    · exact high_odd h9 ho hre ht ht9 hz
  · have h8 : n < 9 := by omega
    interval_cases n
    · exact divisor_1 hre ht hz
    · exact divisor_2 hre ht ht9 hz
    · exact divisor_3 hre ht ht9 hz
    · exact divisor_4 hre ht ht9 hz
    · exact divisor_5 hre ht ht9 hz
    · exact high_even (by norm_num) (by decide) hre ht ht9 hz
    · exact divisor_7 hre ht ht9 hz
    · exact high_even (by norm_num) (by decide) hre ht ht9 hz

end

end ChaosMagPy.QResponse
