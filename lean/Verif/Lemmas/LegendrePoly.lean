import Verif.Spec.Harmonics
import Mathlib.Tactic.LinearCombination
import Mathlib.Tactic.FieldSimp
import Mathlib.Algebra.Polynomial.Degree.Lemmas
/-! Identities of Legendre polynomials, from Rodrigues' formula. -/
set_option linter.unusedSimpArgs false
namespace ChaosMagPy.Legendre
open Polynomial ChaosMagPy.Spec

theorem C2 : (C (2 : ℝ) : ℝ[X]) = 2 := map_ofNat C 2

theorem C3 : (C (3 : ℝ) : ℝ[X]) = 3 := map_ofNat C 3

/-- `u n = (X²-1)^n`. -/
noncomputable def u (n : ℕ) : ℝ[X] := (X ^ 2 - 1) ^ n

theorem deriv_u_succ (n : ℕ) : derivative (u (n + 1)) = C (2 * (n + 1 : ℝ)) * (u n * X) := by
  unfold u
  rw [derivative_pow_succ]
  simp only [derivative_sub, derivative_X_pow, derivative_one, sub_zero]
  simp only [map_add, map_mul, map_natCast, map_one, map_ofNat]
  push_cast
  ring

theorem iter_mul_X (k : ℕ) (p : ℝ[X]) :
    derivative^[k + 1] (p * X) = derivative^[k + 1] p * X + C (k + 1 : ℝ) * derivative^[k] p := by
  rw [iterate_derivative_mul_X]
  simp only [Nat.add_sub_cancel, nsmul_eq_mul, map_add, map_natCast, map_one]
  push_cast
  rfl

/-- Constant in Rodrigues' formula. -/
noncomputable def rc (n : ℕ) : ℝ := 1 / (2 ^ n * (n.factorial : ℝ))

theorem rc_succ (n : ℕ) : rc (n + 1) * (2 * (n + 1 : ℝ)) = rc n := by
  unfold rc
  rw [Nat.factorial_succ]
  push_cast
  field_simp
  ring

theorem legendre_eq (n : ℕ) : legendre n = C (rc n) * derivative^[n] (u n) := rfl

/-- `p'_{n+1} = X p'_n + (n+1) p_n`. -/
theorem leg_i (n : ℕ) :
    derivative (legendre (n + 1)) = X * derivative (legendre n) + C (n + 1 : ℝ) * legendre n := by
  simp only [legendre_eq, derivative_C_mul]
  rw [← Function.iterate_succ_apply' derivative (n + 1), ← Function.iterate_succ_apply' derivative n]
  rw [Function.iterate_succ_apply derivative (n + 1) (u (n + 1)), deriv_u_succ,
    iterate_derivative_C_mul, iter_mul_X]
  have h := rc_succ n
  have : C (rc n) = C (rc (n + 1)) * C (2 * (n + 1 : ℝ)) := by rw [← C_mul, h]
  rw [this]
  ring

theorem iter_sq (k : ℕ) (p : ℝ[X]) :
    derivative^[k + 1] (p * (X ^ 2 - 1)) = derivative^[k + 1] p * (X ^ 2 - 1)
      + C (2 * (k + 1 : ℝ)) * (derivative^[k] p * X)
      + C (((k + 1 : ℝ)) * k) * derivative^[k - 1] p := by
  cases k with
  | zero =>
    simp [derivative_mul, C2]
    ring
  | succ k =>
    have h1 : p * (X ^ 2 - 1) = (p * X) * X - p := by ring
    rw [h1, iterate_derivative_sub, iter_mul_X, iter_mul_X, iter_mul_X]
    simp only [Nat.add_sub_cancel]
    simp only [map_add, map_mul, map_natCast, map_one, map_ofNat]
    push_cast
    ring

/-- `(X²-1) p'_n = (n+1) (p_{n+1} - X p_n)`. -/
theorem leg_iii (n : ℕ) :
    (X ^ 2 - 1) * derivative (legendre n) = C (n + 1 : ℝ) * (legendre (n + 1) - X * legendre n) := by
  simp only [legendre_eq, derivative_C_mul]
  rw [← Function.iterate_succ_apply' derivative n]
  have h := rc_succ n
  have hC : C (rc n) = C (rc (n + 1)) * C (2 * (n + 1 : ℝ)) := by rw [← C_mul, h]
  -- first expression for D^{n+1} u_{n+1}
  have e1 : derivative^[n + 1] (u (n + 1)) = derivative^[n + 1] (u n) * (X ^ 2 - 1)
      + C (2 * (n + 1 : ℝ)) * (derivative^[n] (u n) * X)
      + C (((n + 1 : ℝ)) * n) * derivative^[n - 1] (u n) := by
    have : u (n + 1) = u n * (X ^ 2 - 1) := by unfold u; ring
    rw [this, iter_sq]
  -- second expression
  have e2 : derivative^[n + 1] (u (n + 1)) = C (2 * (n + 1 : ℝ)) * (derivative^[n] (u n) * X
      + C (n : ℝ) * derivative^[n - 1] (u n)) := by
    rw [Function.iterate_succ_apply, deriv_u_succ, iterate_derivative_C_mul]
    cases n with
    | zero => simp
    | succ k =>
      rw [iter_mul_X]
      simp
  rw [hC]
  have hsplit : C (((n + 1 : ℝ)) * n) = C (n + 1 : ℝ) * C (n : ℝ) := by rw [← C_mul]
  have htwo : C (2 * (n + 1 : ℝ)) = 2 * C (n + 1 : ℝ) := by rw [C_mul]; rfl
  rw [hsplit, htwo] at e1
  rw [htwo] at e2 ⊢
  linear_combination (2 * C (rc (n + 1)) * C (n + 1 : ℝ)) * e1 * (-1)
    + (C (rc (n + 1)) * C (n + 1 : ℝ)) * e2

theorem C_ne (a : ℝ) (h : a ≠ 0) : (C a : ℝ[X]) ≠ 0 := by simpa using h

theorem Xsq_ne : (X ^ 2 - 1 : ℝ[X]) ≠ 0 := by
  intro h
  have := congrArg (eval 0) h
  simp at this

/-- Bonnet: `(n+2) p_{n+2} = (2n+3) X p_{n+1} - (n+1) p_n`. -/
theorem bonnet (n : ℕ) :
    C (n + 2 : ℝ) * legendre (n + 2) =
      C (2 * n + 3 : ℝ) * (X * legendre (n + 1)) - C (n + 1 : ℝ) * legendre n := by
  have h1 := leg_i n
  have h2 := leg_iii n
  have h3 := leg_iii (n + 1)
  push_cast at h3
  rw [show (n : ℝ) + 1 + 1 = n + 2 by ring] at h3
  have e1 : (C (n + 2 : ℝ) : ℝ[X]) = C (n : ℝ) + 2 := by simp [C2, C3]
  have e2 : (C (2 * n + 3 : ℝ) : ℝ[X]) = 2 * C (n : ℝ) + 3 := by simp [C2, C3]
  have e3 : (C (n + 1 : ℝ) : ℝ[X]) = C (n : ℝ) + 1 := by simp [C2, C3]
  rw [e1] at h3 ⊢
  rw [e2]
  rw [e3] at h1 h2 ⊢
  linear_combination (-1) * h3 + (X ^ 2 - 1) * h1 + X * h2

/-- `p'_{n+2} - p'_n = (2n+3) p_{n+1}`. -/
theorem leg_iv (n : ℕ) :
    derivative (legendre (n + 2)) - derivative (legendre n) = C (2 * n + 3 : ℝ) * legendre (n + 1) := by
  have hb := congrArg derivative (bonnet n)
  simp only [derivative_sub, derivative_C_mul, derivative_mul, derivative_X, one_mul, derivative_C, zero_mul, zero_add] at hb
  have h1 := leg_i (n + 1)
  push_cast at h1
  rw [show (n : ℝ) + 1 + 1 = n + 2 by ring] at h1
  have e1 : (C (n + 2 : ℝ) : ℝ[X]) = C (n : ℝ) + 2 := by simp [C2, C3]
  have e2 : (C (2 * n + 3 : ℝ) : ℝ[X]) = 2 * C (n : ℝ) + 3 := by simp [C2, C3]
  have e3 : (C (n + 1 : ℝ) : ℝ[X]) = C (n : ℝ) + 1 := by simp [C2, C3]
  have hne : (C (n + 1 : ℝ) : ℝ[X]) ≠ 0 := C_ne _ (by positivity)
  apply mul_left_cancel₀ hne
  rw [e1, e2, e3] at hb
  rw [e1] at h1
  rw [e2, e3]
  linear_combination (-1) * hb + (2 * C (n : ℝ) + 3) * h1

theorem natDegree_legendre_le (n : ℕ) : (legendre n).natDegree ≤ n := by
  rw [legendre_eq]
  refine le_trans (natDegree_C_mul_le _ _) ?_
  refine le_trans (natDegree_iterate_derivative _ _) ?_
  have : (u n).natDegree ≤ n * 2 := by
    unfold u
    refine le_trans natDegree_pow_le ?_
    apply Nat.mul_le_mul_left
    refine le_trans (natDegree_sub_le _ _) ?_
    simp
  omega

/-- `m`-th derivative of the Legendre polynomial. -/
noncomputable def dl (n m : ℕ) : ℝ[X] := derivative^[m] (legendre n)

theorem dl_zero_of_lt {n m : ℕ} (h : n < m) : dl n m = 0 :=
  iterate_derivative_eq_zero (lt_of_le_of_lt (natDegree_legendre_le n) h)

theorem dl_succ (n m : ℕ) : dl n (m + 1) = derivative (dl n m) := Function.iterate_succ_apply' _ _ _

theorem dl_iv (n m : ℕ) : dl (n + 2) (m + 1) - dl n (m + 1) = C (2 * n + 3 : ℝ) * dl (n + 1) m := by
  have h := congrArg (derivative^[m]) (leg_iv n)
  rw [iterate_derivative_sub, iterate_derivative_C_mul] at h
  rw [← Function.iterate_succ_apply, ← Function.iterate_succ_apply] at h
  exact h

/-- `(n+2-m) p^{(m)}_{n+2} = (2n+3) X p^{(m)}_{n+1} - (n+1+m) p^{(m)}_n`. -/
theorem dl_three (n m : ℕ) :
    C (n + 2 - m : ℝ) * dl (n + 2) m =
      C (2 * n + 3 : ℝ) * (X * dl (n + 1) m) - C (n + 1 + m : ℝ) * dl n m := by
  cases m with
  | zero => simpa [dl] using bonnet n
  | succ m =>
    have h := congrArg (derivative^[m + 1]) (bonnet n)
    rw [iterate_derivative_sub, iterate_derivative_C_mul, iterate_derivative_C_mul,
      iterate_derivative_C_mul, mul_comm X, iter_mul_X] at h
    have h4 := dl_iv n m
    change C (n + 2 : ℝ) * dl (n + 2) (m + 1) = C (2 * n + 3 : ℝ) * (dl (n + 1) (m + 1) * X
      + C (m + 1 : ℝ) * dl (n + 1) m) - C (n + 1 : ℝ) * dl n (m + 1) at h
    push_cast
    have e1 : (C (n + 2 : ℝ) : ℝ[X]) = C (n : ℝ) + 2 := by simp [C2, C3]
    have e2 : (C (2 * n + 3 : ℝ) : ℝ[X]) = 2 * C (n : ℝ) + 3 := by simp [C2, C3]
    have e3 : (C (n + 1 : ℝ) : ℝ[X]) = C (n : ℝ) + 1 := by simp [C2, C3]
    have e4 : (C (m + 1 : ℝ) : ℝ[X]) = C (m : ℝ) + 1 := by simp [C2, C3]
    have e5 : (C (n + 2 - (m + 1) : ℝ) : ℝ[X]) = C (n : ℝ) + 2 - (C (m : ℝ) + 1) := by simp [C2, C3]
    have e6 : (C (n + 1 + (m + 1) : ℝ) : ℝ[X]) = C (n : ℝ) + 1 + (C (m : ℝ) + 1) := by simp [C2, C3]
    rw [e1, e2, e3, e4] at h
    rw [e2] at h4
    rw [e5, e2, e6]
    linear_combination h - (C (m : ℝ) + 1) * h4

theorem legendre_zero : legendre 0 = 1 := by simp [legendre]

theorem legendre_one : legendre 1 = X := by
  have h := leg_iii 0
  simp only [legendre_zero, derivative_one, mul_zero, Nat.cast_zero, zero_add, map_one, one_mul,
    mul_one] at h
  exact (sub_eq_zero.1 h.symm)

/-- `p^{(m+1)}_{m+1} = (2m+1) p^{(m)}_m`. -/
theorem dl_diag (m : ℕ) : dl (m + 1) (m + 1) = C (2 * m + 1 : ℝ) * dl m m := by
  cases m with
  | zero => simp [dl, legendre_zero, legendre_one]
  | succ k =>
    have h := dl_iv k (k + 1)
    rw [dl_zero_of_lt (by omega : k < k + 1 + 1), sub_zero] at h
    rw [h]
    congr 2
    push_cast
    ring

/-- `p^{(m)}_{m+1} = (2m+1) X p^{(m)}_m`. -/
theorem dl_sub (m : ℕ) : dl (m + 1) m = C (2 * m + 1 : ℝ) * (X * dl m m) := by
  cases m with
  | zero => simp [dl, legendre_zero, legendre_one]
  | succ k =>
    have h := dl_three k (k + 1)
    rw [dl_zero_of_lt (by omega : k < k + 1), mul_zero, sub_zero] at h
    have e : ((k : ℝ) + 2 - ((k + 1 : ℕ) : ℝ)) = 1 := by push_cast; ring
    rw [e, map_one, one_mul] at h
    rw [h]
    congr 2
    push_cast
    ring

/-- The Legendre equation `(X²-1) p'' + 2 X p' = n(n+1) p`. -/
theorem ode (n : ℕ) :
    (X ^ 2 - 1) * dl n 2 + 2 * (X * dl n 1) = C ((n : ℝ) * (n + 1)) * dl n 0 := by
  have h := congrArg derivative (leg_iii n)
  have h1 := leg_i n
  simp only [derivative_mul, derivative_sub, derivative_X_pow, derivative_one, sub_zero,
    derivative_C, zero_mul, zero_add, derivative_X, one_mul] at h
  have d1 : derivative (legendre n) = dl n 1 := rfl
  have d2 : derivative (dl n 1) = dl n 2 := rfl
  have d0 : legendre n = dl n 0 := rfl
  have d3 : derivative (legendre (n + 1)) = dl (n + 1) 1 := rfl
  rw [d1, d2, d3, d0] at h
  rw [d1, d3, d0] at h1
  have e3 : (C (n + 1 : ℝ) : ℝ[X]) = C (n : ℝ) + 1 := by simp [C2, C3]
  have e4 : (C ((n : ℝ) * (n + 1)) : ℝ[X]) = C (n : ℝ) * (C (n : ℝ) + 1) := by simp [C2, C3]
  rw [e3] at h h1
  rw [e4]
  simp only [Nat.cast_ofNat, map_ofNat, pow_one, Nat.add_one_sub_one] at h
  linear_combination h + (C (n : ℝ) + 1) * h1

/-- Differentiated Legendre equation
`(X²-1) p^{(m+2)} + 2(m+1) X p^{(m+1)} = (n+m+1)(n-m) p^{(m)}`. -/
theorem ode_m (n m : ℕ) :
    (X ^ 2 - 1) * dl n (m + 2) + C (2 * (m + 1) : ℝ) * (X * dl n (m + 1)) =
      C ((n + m + 1 : ℝ) * (n - m)) * dl n m := by
  induction m with
  | zero =>
    have h := ode n
    simp only [Nat.cast_zero, zero_add, mul_one, add_zero, sub_zero]
    have e : (C ((n + 1 : ℝ) * n) : ℝ[X]) = C ((n : ℝ) * (n + 1)) := by rw [mul_comm]
    rw [e, ← h]
    simp [C2]
  | succ m ih =>
    have h := congrArg derivative ih
    simp only [derivative_add, derivative_mul, derivative_sub, derivative_X_pow, derivative_one,
      sub_zero, derivative_C, zero_mul, zero_add, derivative_X, one_mul, ← dl_succ] at h
    have e1 : (C (2 * (m + 1) : ℝ) : ℝ[X]) = 2 * (C (m : ℝ) + 1) := by simp [C2, C3]
    have e2 : (C ((n + m + 1 : ℝ) * (n - m)) : ℝ[X]) = (C (n : ℝ) + C (m : ℝ) + 1) * (C (n : ℝ) - C (m : ℝ)) := by
      simp [C2, C3]
    have e3 : (C (2 * (((m + 1 : ℕ) : ℝ) + 1)) : ℝ[X]) = 2 * (C (m : ℝ) + 2) := by
      push_cast
      rw [show (2 * ((m : ℝ) + 1 + 1)) = 2 * (m + 2) by ring]; simp [C2, C3]
    have e4 : (C ((n + ((m + 1 : ℕ) : ℝ) + 1) * (n - ((m + 1 : ℕ) : ℝ))) : ℝ[X]) =
        (C (n : ℝ) + C (m : ℝ) + 2) * (C (n : ℝ) - C (m : ℝ) - 1) := by
      push_cast
      rw [show ((n : ℝ) + (m + 1) + 1) * (n - (m + 1)) = (n + m + 2) * (n - m - 1) by ring]; simp [C2, C3]
    rw [e1, e2] at h
    rw [e3, e4]
    simp only [Nat.cast_ofNat, map_ofNat, pow_one, Nat.add_one_sub_one] at h
    have i1 : m + 1 + 2 = m + 2 + 1 := by ring
    have i2 : m + 1 + 1 = m + 2 := by ring
    rw [i2] at h ⊢
    rw [i1]
    linear_combination h

end ChaosMagPy.Legendre
