import Verif.Lemmas.SynthField
import Verif.Lemmas.LegendreOrth
import Verif.Spec.Spectrum
/-! Mean squares over the sphere. -/
namespace ChaosMagPy.MeanSquare
open ChaosMagPy.Spec ChaosMagPy.Legendre MeasureTheory
open ChaosMagPy.Synth (R)

/-! ### Longitude -/

theorem int_cos (k : ℤ) : ∫ y in (0 : ℝ)..2 * Real.pi, Real.cos (k * y) = if k = 0 then 2 * Real.pi else 0 := by
  split_ifs with h
  · subst h; simp
  · have hk : (k : ℝ) ≠ 0 := by exact_mod_cast h
    rw [intervalIntegral.integral_comp_mul_left (fun x => Real.cos x) hk, integral_cos]
    rw [show (k : ℝ) * (2 * Real.pi) = ((2 * k : ℤ) : ℝ) * Real.pi by push_cast; ring, Real.sin_int_mul_pi]
    simp

theorem int_sin (k : ℤ) : ∫ y in (0 : ℝ)..2 * Real.pi, Real.sin (k * y) = 0 := by
  by_cases h : k = 0
  · subst h; simp
  · have hk : (k : ℝ) ≠ 0 := by exact_mod_cast h
    rw [intervalIntegral.integral_comp_mul_left (fun x => Real.sin x) hk, integral_sin]
    rw [Real.cos_int_mul_two_pi]
    simp

theorem int_pair (m l : ℕ) (a b a' b' : ℝ) :
    ∫ y in (0 : ℝ)..2 * Real.pi, (a * Real.cos (m * y) + b * Real.sin (m * y)) * (a' * Real.cos (l * y) + b' * Real.sin (l * y)) =
      if m = l then Real.pi * (if m = 0 then 2 * (a * a') else a * a' + b * b') else 0 := by
  have e : ∀ y : ℝ, (a * Real.cos (m * y) + b * Real.sin (m * y)) * (a' * Real.cos (l * y) + b' * Real.sin (l * y)) =
      (((a * a' + b * b') / 2 * Real.cos (((m : ℤ) - (l : ℤ) : ℤ) * y) + (a * a' - b * b') / 2 * Real.cos (((m : ℤ) + (l : ℤ) : ℤ) * y)) +
      (a * b' + b * a') / 2 * Real.sin (((m : ℤ) + (l : ℤ) : ℤ) * y)) + (b * a' - a * b') / 2 * Real.sin (((m : ℤ) - (l : ℤ) : ℤ) * y) := by
    intro y
    push_cast
    rw [sub_mul, add_mul (m : ℝ) (l : ℝ) y, Real.cos_sub, Real.cos_add, Real.sin_add, Real.sin_sub]
    ring
  simp only [e]
  rw [intervalIntegral.integral_add, intervalIntegral.integral_add, intervalIntegral.integral_add]
  · simp only [intervalIntegral.integral_const_mul, int_cos, int_sin]
    by_cases h : m = l
    · subst h
      by_cases h0 : m = 0
      · subst h0; simp; ring
      · simp [h0]
        ring
    · rw [if_neg (by omega), if_neg (by omega), if_neg h]
      ring
  all_goals exact Continuous.intervalIntegrable (by fun_prop) _ _

/-- Parseval for trigonometric polynomials. -/
theorem parseval (K : ℕ) (a b : ℕ → ℝ) :
    ∫ y in (0 : ℝ)..2 * Real.pi, (∑ m ∈ Finset.range K, (a m * Real.cos (m * y) + b m * Real.sin (m * y))) ^ 2 =
      Real.pi * ∑ m ∈ Finset.range K, (if m = 0 then 2 * a m ^ 2 else a m ^ 2 + b m ^ 2) := by
  simp only [pow_two, Finset.sum_mul_sum]
  rw [intervalIntegral.integral_finset_sum]
  swap
  · intro i _
    exact Continuous.intervalIntegrable (by fun_prop) _ _
  rw [Finset.mul_sum]
  apply Finset.sum_congr rfl
  intro m hm
  rw [intervalIntegral.integral_finset_sum]
  swap
  · intro i _
    exact Continuous.intervalIntegrable (by fun_prop) _ _
  simp only [int_pair]
  rw [Finset.sum_ite_eq, if_pos hm]

/-! ### Colatitude -/

theorem int_poly (p : Polynomial ℝ) : ∫ x in (0 : ℝ)..Real.pi, p.eval (Real.cos x) * Real.sin x = integ p := by
  have h := intervalIntegral.integral_comp_mul_deriv (a := 0) (b := Real.pi) (f := Real.cos) (f' := fun x => -Real.sin x) (g := fun t => p.eval t)
    (fun x _ => Real.hasDerivAt_cos x) (by fun_prop) (by fun_prop)
  simp only [Function.comp, Real.cos_zero, Real.cos_pi, mul_neg, intervalIntegral.integral_neg] at h
  unfold integ
  rw [intervalIntegral.integral_symm 1 (-1), ← h]
  ring

theorem int_SS {n k m : ℕ} (hn : m ≤ n) (hk : m ≤ k) :
    ∫ x in (0 : ℝ)..Real.pi, schmidt n m x * schmidt k m x * Real.sin x =
      if n = k then (if m = 0 then (2 : ℝ) / (2 * n + 1) else 4 / (2 * n + 1)) else 0 := by
  rw [← integ_pairPoly hn hk, ← int_poly]
  simp only [pairPoly_eval]

theorem cont_S (n m : ℕ) : Continuous fun x => schmidt n m x := by
  unfold schmidt
  fun_prop

theorem cont_dS (n m : ℕ) : Continuous fun x => dS (Real.cos x) (Real.sin x) n m := by
  unfold dS
  fun_prop

theorem cont_R (n m : ℕ) : Continuous fun x => R n m x := by
  unfold R
  fun_prop

/-- The associated Legendre equation in divergence form. -/
theorem hasDerivAt_sin_dS (n m : ℕ) (x : ℝ) :
    HasDerivAt (fun y => Real.sin y * dS (Real.cos y) (Real.sin y) n m)
      ((m : ℝ) ^ 2 * R n m x - n * (n + 1) * (Real.sin x * schmidt n m x)) x := by
  have hs := Real.hasDerivAt_sin x
  have hc := Real.hasDerivAt_cos x
  have hp : ∀ k, HasDerivAt (fun y => (dl n k).eval (Real.cos y)) ((dl n (k + 1)).eval (Real.cos x) * (-Real.sin x)) x := by
    intro k
    have := HasDerivAt.comp x ((dl n k).hasDerivAt (Real.cos x)) (Real.hasDerivAt_cos x)
    rw [← dl_succ] at this
    exact this
  have h1 := ((((hs.pow m).mul hc).mul (hp m)).const_mul (m : ℝ)).sub ((hs.pow (m + 2)).mul (hp (m + 1)))
  have h2 := h1.const_mul (kf m * q n m)
  refine (h2.congr_deriv ?_).congr_of_eventuallyEq (Filter.Eventually.of_forall fun y => ?_)
  · have ho := congrArg (fun p => Polynomial.eval (Real.cos x) p) (ode_m n m)
    simp only [Polynomial.eval_add, Polynomial.eval_mul, Polynomial.eval_sub, Polynomial.eval_pow, Polynomial.eval_X, Polynomial.eval_one, Polynomial.eval_C] at ho
    rw [schmidt_eq]
    unfold R S
    simp only [Pi.pow_apply, Pi.mul_apply]
    have h3 := Real.sin_sq_add_cos_sq x
    generalize Real.sin x = s at *
    generalize Real.cos x = c at *
    cases m with
    | zero =>
      simp only [Nat.cast_zero, zero_add, pow_zero, Nat.zero_sub] at ho ⊢
      push_cast
      simp only [mul_one] at ho ⊢
      have : c ^ 2 - 1 = - s ^ 2 := by linarith
      rw [this] at ho
      linear_combination (-(kf 0 * q n 0)) * s * ho
    | succ k =>
      simp only [Nat.add_sub_cancel]
      push_cast at ho ⊢
      have e : c ^ 2 - 1 = - s ^ 2 := by linarith
      have e' : c ^ 2 = 1 - s ^ 2 := by linarith
      rw [e] at ho
      have : k + 1 + 2 - 1 = k + 2 := rfl
      linear_combination (-(kf (k + 1) * q n (k + 1))) * s ^ (k + 2) * ho + (kf (k + 1) * q n (k + 1)) * ((k + 1) ^ 2 * s ^ k * Polynomial.eval c (dl n (k + 1))) * h3
  · simp only [Pi.pow_apply, Pi.mul_apply, Pi.sub_apply]
    unfold dS
    cases m with
    | zero => simp; ring
    | succ k => simp only [Nat.add_sub_cancel]; ring

/-- Horizontal part. -/
theorem int_horizontal {n k m : ℕ} (hn : m ≤ n) (hk : m ≤ k) :
    ∫ x in (0 : ℝ)..Real.pi, (dS (Real.cos x) (Real.sin x) n m * dS (Real.cos x) (Real.sin x) k m + (m * R n m x) * (m * R k m x)) * Real.sin x =
      n * (n + 1) * (if n = k then (if m = 0 then (2 : ℝ) / (2 * n + 1) else 4 / (2 * n + 1)) else 0) := by
  have hd : ∀ x ∈ Set.uIcc 0 Real.pi, HasDerivAt (fun y => Real.sin y * dS (Real.cos y) (Real.sin y) n m * schmidt k m y)
      ((dS (Real.cos x) (Real.sin x) n m * dS (Real.cos x) (Real.sin x) k m + (m * R n m x) * (m * R k m x)) * Real.sin x
        - n * (n + 1) * (schmidt n m x * schmidt k m x * Real.sin x)) x := by
    intro x _
    refine ((hasDerivAt_sin_dS n m x).mul (hasDerivAt_schmidt k m x)).congr_deriv ?_
    by_cases h0 : m = 0
    · subst h0
      simp
      ring
    · have h1 := Synth.R_mul_sin k m (by omega) x
      rw [← h1]
      ring
  have cS := cont_S n m
  have cS' := cont_S k m
  have cD := cont_dS n m
  have cD' := cont_dS k m
  have cR := cont_R n m
  have cR' := cont_R k m
  have hi := intervalIntegral.integral_eq_sub_of_hasDerivAt hd (Continuous.intervalIntegrable (by fun_prop) _ _)
  rw [intervalIntegral.integral_sub (Continuous.intervalIntegrable (by fun_prop) _ _) (Continuous.intervalIntegrable (by fun_prop) _ _),
    intervalIntegral.integral_const_mul, int_SS hn hk] at hi
  simp only [Real.sin_pi, Real.sin_zero, zero_mul, sub_self] at hi
  linarith

/-- Quadratic form of one order. -/
theorem int_order (N m : ℕ) (u v a : ℕ → ℝ) (ha : ∀ n, n < m → a n = 0) :
    ∫ x in (0 : ℝ)..Real.pi, ((∑ n ∈ Finset.Icc 1 N, u n * schmidt n m x * a n) ^ 2 +
      (∑ n ∈ Finset.Icc 1 N, v n * dS (Real.cos x) (Real.sin x) n m * a n) ^ 2 +
      (∑ n ∈ Finset.Icc 1 N, v n * (m * R n m x) * a n) ^ 2) * Real.sin x =
    ∑ n ∈ Finset.Icc 1 N, (u n ^ 2 + n * (n + 1) * v n ^ 2) * ((if m = 0 then (2 : ℝ) else 4) / (2 * n + 1)) * a n ^ 2 := by
  have cS := fun n => cont_S n m
  have cD := fun n => cont_dS n m
  have cR := fun n => cont_R n m
  have e : ∀ x : ℝ, ((∑ n ∈ Finset.Icc 1 N, u n * schmidt n m x * a n) ^ 2 +
      (∑ n ∈ Finset.Icc 1 N, v n * dS (Real.cos x) (Real.sin x) n m * a n) ^ 2 +
      (∑ n ∈ Finset.Icc 1 N, v n * (m * R n m x) * a n) ^ 2) * Real.sin x =
      ∑ n ∈ Finset.Icc 1 N, ∑ k ∈ Finset.Icc 1 N, (u n * u k * a n * a k * (schmidt n m x * schmidt k m x * Real.sin x) +
        v n * v k * a n * a k * ((dS (Real.cos x) (Real.sin x) n m * dS (Real.cos x) (Real.sin x) k m + (m * R n m x) * (m * R k m x)) * Real.sin x)) := by
    intro x
    simp only [pow_two, Finset.sum_mul_sum]
    rw [← Finset.sum_add_distrib, ← Finset.sum_add_distrib, Finset.sum_mul]
    apply Finset.sum_congr rfl
    intro n _
    rw [← Finset.sum_add_distrib, ← Finset.sum_add_distrib, Finset.sum_mul]
    apply Finset.sum_congr rfl
    intro k _
    ring
  simp only [e]
  rw [intervalIntegral.integral_finset_sum]
  swap
  · intro i _
    exact Continuous.intervalIntegrable (by fun_prop) _ _
  apply Finset.sum_congr rfl
  intro n hn
  rw [intervalIntegral.integral_finset_sum]
  swap
  · intro i _
    exact Continuous.intervalIntegrable (by fun_prop) _ _
  rw [Finset.sum_eq_single n]
  · rw [intervalIntegral.integral_add (Continuous.intervalIntegrable (by fun_prop) _ _) (Continuous.intervalIntegrable (by fun_prop) _ _),
      intervalIntegral.integral_const_mul, intervalIntegral.integral_const_mul]
    by_cases h : n < m
    · rw [ha n h]; ring
    · rw [int_SS (by omega) (by omega), int_horizontal (by omega) (by omega)]
      simp only [if_true]
      split_ifs <;> ring
  · intro k _ hkn
    rw [intervalIntegral.integral_add (Continuous.intervalIntegrable (by fun_prop) _ _) (Continuous.intervalIntegrable (by fun_prop) _ _),
      intervalIntegral.integral_const_mul, intervalIntegral.integral_const_mul]
    by_cases h : n < m
    · rw [ha n h]; ring
    by_cases h' : k < m
    · rw [ha k h']; ring
    rw [int_SS (by omega) (by omega), int_horizontal (by omega) (by omega), if_neg (Ne.symm hkn)]
    ring
  · intro h; exact absurd hn h

/-! ### Sphere -/

/-- Order of summation. -/
theorem swap_sum (N : ℕ) (f : ℕ → ℕ → ℝ) (g h : ℕ → ℕ → ℝ) (C D : ℕ → ℝ) :
    ∑ n ∈ Finset.Icc 1 N, ∑ m ∈ Finset.range (n + 1), f n m * (g n m * C m + h n m * D m) =
    ∑ m ∈ Finset.range (N + 1), ((∑ n ∈ Finset.Icc 1 N, f n m * (if n < m then 0 else g n m)) * C m + (∑ n ∈ Finset.Icc 1 N, f n m * (if n < m then 0 else h n m)) * D m) := by
  have e : ∀ n ∈ Finset.Icc 1 N, ∑ m ∈ Finset.range (n + 1), f n m * (g n m * C m + h n m * D m) =
      ∑ m ∈ Finset.range (N + 1), f n m * ((if n < m then 0 else g n m) * C m + (if n < m then 0 else h n m) * D m) := by
    intro n hn
    rw [Finset.mem_Icc] at hn
    rw [← Finset.sum_subset (Finset.range_subset_range.2 (by omega : n + 1 ≤ N + 1))]
    · apply Finset.sum_congr rfl
      intro m hm
      rw [Finset.mem_range] at hm
      rw [if_neg (by omega), if_neg (by omega)]
    · intro m _ hm
      rw [Finset.mem_range] at hm
      rw [if_pos (by omega), if_pos (by omega)]
      ring
  rw [Finset.sum_congr rfl e, Finset.sum_comm]
  apply Finset.sum_congr rfl
  intro m _
  rw [Finset.sum_mul, Finset.sum_mul, ← Finset.sum_add_distrib]
  apply Finset.sum_congr rfl
  intro n _
  ring

/-- Mean square of a field given by its spherical harmonics. -/
theorem mean_core (N : ℕ) (u v : ℕ → ℝ) (g h : ℕ → ℕ → ℝ) (h0 : ∀ n, h n 0 = 0) :
    sphereMean (fun x y =>
      (∑ n ∈ Finset.Icc 1 N, ∑ m ∈ Finset.range (n + 1), u n * schmidt n m x * (g n m * Real.cos (m * y) + h n m * Real.sin (m * y))) ^ 2 +
      (∑ n ∈ Finset.Icc 1 N, ∑ m ∈ Finset.range (n + 1), v n * dS (Real.cos x) (Real.sin x) n m * (g n m * Real.cos (m * y) + h n m * Real.sin (m * y))) ^ 2 +
      (∑ n ∈ Finset.Icc 1 N, ∑ m ∈ Finset.range (n + 1), v n * (m * R n m x) * (-h n m * Real.cos (m * y) + g n m * Real.sin (m * y))) ^ 2) =
    ∑ n ∈ Finset.Icc 1 N, (u n ^ 2 + n * (n + 1) * v n ^ 2) / (2 * n + 1) * ∑ m ∈ Finset.range (n + 1), (g n m ^ 2 + h n m ^ 2) := by
  have cS := cont_S
  have cD := cont_dS
  have cR := cont_R
  set G : ℕ → ℕ → ℝ := fun n m => if n < m then 0 else g n m with hG
  set H : ℕ → ℕ → ℝ := fun n m => if n < m then 0 else h n m with hH
  have hH0 : ∀ n, H n 0 = 0 := fun n => by simp [hH, h0]
  unfold sphereMean
  have inner : ∀ x : ℝ, ∫ y in (0 : ℝ)..2 * Real.pi,
      ((∑ n ∈ Finset.Icc 1 N, ∑ m ∈ Finset.range (n + 1), u n * schmidt n m x * (g n m * Real.cos (m * y) + h n m * Real.sin (m * y))) ^ 2 +
      (∑ n ∈ Finset.Icc 1 N, ∑ m ∈ Finset.range (n + 1), v n * dS (Real.cos x) (Real.sin x) n m * (g n m * Real.cos (m * y) + h n m * Real.sin (m * y))) ^ 2 +
      (∑ n ∈ Finset.Icc 1 N, ∑ m ∈ Finset.range (n + 1), v n * (m * R n m x) * (-h n m * Real.cos (m * y) + g n m * Real.sin (m * y))) ^ 2) =
      Real.pi * ∑ m ∈ Finset.range (N + 1), (if m = 0 then (2 : ℝ) else 1) * (
        ((∑ n ∈ Finset.Icc 1 N, u n * schmidt n m x * G n m) ^ 2 + (∑ n ∈ Finset.Icc 1 N, v n * dS (Real.cos x) (Real.sin x) n m * G n m) ^ 2 +
          (∑ n ∈ Finset.Icc 1 N, v n * (m * R n m x) * G n m) ^ 2) +
        ((∑ n ∈ Finset.Icc 1 N, u n * schmidt n m x * H n m) ^ 2 + (∑ n ∈ Finset.Icc 1 N, v n * dS (Real.cos x) (Real.sin x) n m * H n m) ^ 2 +
          (∑ n ∈ Finset.Icc 1 N, v n * (m * R n m x) * H n m) ^ 2)) := by
    intro x
    rw [intervalIntegral.integral_add (Continuous.intervalIntegrable (by fun_prop) _ _) (Continuous.intervalIntegrable (by fun_prop) _ _),
      intervalIntegral.integral_add (Continuous.intervalIntegrable (by fun_prop) _ _) (Continuous.intervalIntegrable (by fun_prop) _ _)]
    have s1 := fun y : ℝ => swap_sum N (fun n m => u n * schmidt n m x) g h (fun m => Real.cos (m * y)) (fun m => Real.sin (m * y))
    have s2 := fun y : ℝ => swap_sum N (fun n m => v n * dS (Real.cos x) (Real.sin x) n m) g h (fun m => Real.cos (m * y)) (fun m => Real.sin (m * y))
    have s3 := fun y : ℝ => swap_sum N (fun n m => v n * (m * R n m x)) (fun n m => -h n m) g (fun m => Real.cos (m * y)) (fun m => Real.sin (m * y))
    simp only [s1, s2, s3, parseval]
    rw [← mul_add, ← mul_add, ← Finset.sum_add_distrib, ← Finset.sum_add_distrib]
    congr 1
    apply Finset.sum_congr rfl
    intro m _
    have e : ∑ n ∈ Finset.Icc 1 N, v n * (m * R n m x) * (if n < m then 0 else -h n m) = -∑ n ∈ Finset.Icc 1 N, v n * (m * R n m x) * H n m := by
      rw [← Finset.sum_neg_distrib]
      apply Finset.sum_congr rfl
      intro n _
      simp only [hH]
      split_ifs <;> ring
    rw [e]
    split_ifs with hm
    · subst hm
      simp only [hH0, mul_zero, Finset.sum_const_zero, Nat.cast_zero, zero_mul]
      ring
    · ring
  simp only [inner]
  have e2 : ∀ x : ℝ, (Real.pi * ∑ m ∈ Finset.range (N + 1), (if m = 0 then (2 : ℝ) else 1) * (
        ((∑ n ∈ Finset.Icc 1 N, u n * schmidt n m x * G n m) ^ 2 + (∑ n ∈ Finset.Icc 1 N, v n * dS (Real.cos x) (Real.sin x) n m * G n m) ^ 2 +
          (∑ n ∈ Finset.Icc 1 N, v n * (m * R n m x) * G n m) ^ 2) +
        ((∑ n ∈ Finset.Icc 1 N, u n * schmidt n m x * H n m) ^ 2 + (∑ n ∈ Finset.Icc 1 N, v n * dS (Real.cos x) (Real.sin x) n m * H n m) ^ 2 +
          (∑ n ∈ Finset.Icc 1 N, v n * (m * R n m x) * H n m) ^ 2))) * Real.sin x =
      Real.pi * ∑ m ∈ Finset.range (N + 1), (if m = 0 then (2 : ℝ) else 1) * (
        ((∑ n ∈ Finset.Icc 1 N, u n * schmidt n m x * G n m) ^ 2 + (∑ n ∈ Finset.Icc 1 N, v n * dS (Real.cos x) (Real.sin x) n m * G n m) ^ 2 +
          (∑ n ∈ Finset.Icc 1 N, v n * (m * R n m x) * G n m) ^ 2) * Real.sin x +
        ((∑ n ∈ Finset.Icc 1 N, u n * schmidt n m x * H n m) ^ 2 + (∑ n ∈ Finset.Icc 1 N, v n * dS (Real.cos x) (Real.sin x) n m * H n m) ^ 2 +
          (∑ n ∈ Finset.Icc 1 N, v n * (m * R n m x) * H n m) ^ 2) * Real.sin x) := by
    intro x
    rw [mul_assoc, Finset.sum_mul]
    congr 1
    apply Finset.sum_congr rfl
    intro m _
    ring
  simp only [e2]
  rw [intervalIntegral.integral_const_mul, intervalIntegral.integral_finset_sum]
  swap
  · intro i _
    exact Continuous.intervalIntegrable (by fun_prop) _ _
  have e3 : ∀ m ∈ Finset.range (N + 1), ∫ x in (0 : ℝ)..Real.pi, (if m = 0 then (2 : ℝ) else 1) * (
        ((∑ n ∈ Finset.Icc 1 N, u n * schmidt n m x * G n m) ^ 2 + (∑ n ∈ Finset.Icc 1 N, v n * dS (Real.cos x) (Real.sin x) n m * G n m) ^ 2 +
          (∑ n ∈ Finset.Icc 1 N, v n * (m * R n m x) * G n m) ^ 2) * Real.sin x +
        ((∑ n ∈ Finset.Icc 1 N, u n * schmidt n m x * H n m) ^ 2 + (∑ n ∈ Finset.Icc 1 N, v n * dS (Real.cos x) (Real.sin x) n m * H n m) ^ 2 +
          (∑ n ∈ Finset.Icc 1 N, v n * (m * R n m x) * H n m) ^ 2) * Real.sin x) =
      ∑ n ∈ Finset.Icc 1 N, 4 * ((u n ^ 2 + n * (n + 1) * v n ^ 2) / (2 * n + 1) * (G n m ^ 2 + H n m ^ 2)) := by
    intro m _
    rw [intervalIntegral.integral_const_mul, intervalIntegral.integral_add (Continuous.intervalIntegrable (by fun_prop) _ _) (Continuous.intervalIntegrable (by fun_prop) _ _),
      int_order N m u v (fun n => G n m) (fun n hn => by simp [hG, hn]), int_order N m u v (fun n => H n m) (fun n hn => by simp [hH, hn]),
      ← Finset.sum_add_distrib, Finset.mul_sum]
    apply Finset.sum_congr rfl
    intro n _
    split_ifs <;> ring
  rw [Finset.sum_congr rfl e3, Finset.sum_comm, Finset.mul_sum, Finset.mul_sum]
  apply Finset.sum_congr rfl
  intro n hn
  rw [Finset.mem_Icc] at hn
  rw [← Finset.mul_sum, ← Finset.mul_sum, ← Finset.sum_subset (Finset.range_subset_range.2 (by omega : n + 1 ≤ N + 1))]
  · rw [Finset.sum_congr rfl (g := fun m => g n m ^ 2 + h n m ^ 2)]
    · have := Real.pi_pos.ne'
      field_simp
    · intro m hm
      rw [Finset.mem_range] at hm
      simp only [hG, hH]
      rw [if_neg (by omega), if_neg (by omega)]
  · intro m _ hm
    rw [Finset.mem_range] at hm
    simp only [hG, hH]
    rw [if_pos (by omega), if_pos (by omega)]
    ring

end ChaosMagPy.MeanSquare
