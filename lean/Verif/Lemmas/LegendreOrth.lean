import Verif.Lemmas.LegendrePoly
import Mathlib.MeasureTheory.Integral.IntervalIntegral.IntegrationByParts
import Mathlib.Analysis.SpecialFunctions.Integrals.Basic
import Mathlib.Analysis.Calculus.Deriv.Polynomial
import Mathlib.Topology.Algebra.Polynomial
/-! Orthogonality of the associated Legendre functions. -/
namespace ChaosMagPy.Legendre
open Polynomial ChaosMagPy.Spec MeasureTheory

/-- Integral of a polynomial over `[-1, 1]`. -/
noncomputable def integ (p : ℝ[X]) : ℝ := ∫ x in (-1 : ℝ)..1, p.eval x

theorem integrable (p : ℝ[X]) : IntervalIntegrable (fun x => p.eval x) volume (-1) 1 :=
  Continuous.intervalIntegrable (by fun_prop) _ _

theorem integ_add (p q : ℝ[X]) : integ (p + q) = integ p + integ q := by
  unfold integ
  simp only [eval_add]
  exact intervalIntegral.integral_add (integrable p) (integrable q)

theorem integ_sub (p q : ℝ[X]) : integ (p - q) = integ p - integ q := by
  unfold integ
  simp only [eval_sub]
  exact intervalIntegral.integral_sub (integrable p) (integrable q)

theorem integ_C_mul (a : ℝ) (p : ℝ[X]) : integ (C a * p) = a * integ p := by
  unfold integ
  simp only [eval_mul, eval_C]
  exact intervalIntegral.integral_const_mul _ _

theorem integ_neg (p : ℝ[X]) : integ (-p) = -integ p := by
  have := integ_C_mul (-1) p
  rw [map_neg, map_one, neg_one_mul] at this
  rw [this, neg_one_mul]

theorem integ_derivative (p : ℝ[X]) : integ (derivative p) = p.eval 1 - p.eval (-1) := by
  unfold integ
  exact intervalIntegral.integral_eq_sub_of_hasDerivAt (fun x _ => p.hasDerivAt x) (integrable _)

/-- Sturm-Liouville form of the equation of the derivatives. -/
theorem sturm (n m : ℕ) : derivative ((1 - X ^ 2) ^ (m + 1) * dl n (m + 1)) = -(C ((n + m + 1 : ℝ) * (n - m)) * ((1 - X ^ 2) ^ m * dl n m)) := by
  have h := ode_m n m
  rw [derivative_mul, derivative_pow_succ, ← dl_succ]
  simp only [derivative_sub, derivative_X_pow, derivative_one, zero_sub]
  have e1 : (C (2 * (m + 1) : ℝ) : ℝ[X]) = 2 * (C (m : ℝ) + 1) := by simp [C2, C3]
  rw [e1] at h
  have e2 : (C ((m : ℝ) + 1) : ℝ[X]) = C (m : ℝ) + 1 := by simp
  simp only [Nat.cast_ofNat, map_ofNat, Nat.add_one_sub_one, pow_one]
  push_cast
  rw [e2]
  simp only [map_natCast] at h ⊢
  linear_combination (-(1 - X ^ 2) ^ m) * h

/-- `∫ (1-x²)^m P_n^{(m)} P_k^{(m)}`. -/
noncomputable def inner (n k m : ℕ) : ℝ := integ ((1 - X ^ 2) ^ m * dl n m * dl k m)

theorem inner_comm (n k m : ℕ) : inner n k m = inner k n m := by
  unfold inner
  congr 1
  ring

theorem inner_succ (n k m : ℕ) : inner n k (m + 1) = (n + m + 1) * (n - m) * inner n k m := by
  have h : derivative ((1 - X ^ 2) ^ (m + 1) * dl n (m + 1) * dl k m) =
      -(C ((n + m + 1 : ℝ) * (n - m)) * ((1 - X ^ 2) ^ m * dl n m * dl k m)) + (1 - X ^ 2) ^ (m + 1) * dl n (m + 1) * dl k (m + 1) := by
    rw [derivative_mul, sturm, ← dl_succ]
    ring
  have h2 := congrArg integ h
  rw [integ_derivative, integ_add, integ_neg, integ_C_mul] at h2
  unfold inner
  simp only [eval_mul, eval_pow, eval_sub, eval_one, eval_X] at h2
  norm_num at h2
  linarith

theorem inner_ne {n k : ℕ} (h : n ≠ k) (m : ℕ) : inner n k m = 0 := by
  induction m with
  | zero =>
    have h1 := inner_succ n k 0
    have h2 := inner_succ k n 0
    rw [inner_comm k n, inner_comm k n, h1] at h2
    have h3 : ((n : ℝ) - k) * (n + k + 1) * inner n k 0 = 0 := by
      push_cast at h2
      linear_combination h2
    rcases mul_eq_zero.1 h3 with h4 | h4
    · rcases mul_eq_zero.1 h4 with h5 | h5
      · exact absurd (by exact_mod_cast sub_eq_zero.1 h5) h
      · have : (0 : ℝ) < n + k + 1 := by positivity
        linarith
    · exact h4
  | succ m ih => rw [inner_succ, ih, mul_zero]

theorem inner_zero_eq (n k : ℕ) : inner n k 0 = integ (legendre n * legendre k) := by
  unfold inner dl
  simp

theorem inner_self_zero (n : ℕ) : inner n n 0 = 2 / (2 * n + 1) := by
  induction n with
  | zero =>
    rw [inner_zero_eq, legendre_zero]
    unfold integ
    norm_num
  | succ n ih =>
    -- ∫ x p_n p_{n+1}
    set K := integ (X * legendre n * legendre (n + 1)) with hK
    have h1 : ((n : ℝ) + 1) * inner (n + 1) (n + 1) 0 = (2 * n + 1) * K := by
      cases n with
      | zero =>
        rw [hK, inner_zero_eq, legendre_zero, legendre_one]
        simp
      | succ k =>
        have hb := congrArg (fun p => integ (p * legendre (k + 2))) (bonnet k)
        have e1 : C (k + 2 : ℝ) * legendre (k + 2) * legendre (k + 2) = C (k + 2 : ℝ) * (legendre (k + 2) * legendre (k + 2)) := by ring
        have e2 : (C (2 * k + 3 : ℝ) * (X * legendre (k + 1)) - C (k + 1 : ℝ) * legendre k) * legendre (k + 2) =
          C (2 * k + 3 : ℝ) * (X * legendre (k + 1) * legendre (k + 2)) - C (k + 1 : ℝ) * (legendre k * legendre (k + 2)) := by ring
        rw [e1, e2, integ_C_mul, integ_sub, integ_C_mul, integ_C_mul, ← inner_zero_eq, ← inner_zero_eq, inner_ne (by omega : k ≠ k + 2)] at hb
        push_cast
        rw [hK]
        linear_combination hb
    have h2 : (2 * (n : ℝ) + 3) * K = (n + 1) * inner n n 0 := by
      have hb := congrArg (fun p => integ (p * legendre n)) (bonnet n)
      have e1 : C (n + 2 : ℝ) * legendre (n + 2) * legendre n = C (n + 2 : ℝ) * (legendre (n + 2) * legendre n) := by ring
      have e2 : (C (2 * n + 3 : ℝ) * (X * legendre (n + 1)) - C (n + 1 : ℝ) * legendre n) * legendre n =
          C (2 * n + 3 : ℝ) * (X * legendre n * legendre (n + 1)) - C (n + 1 : ℝ) * (legendre n * legendre n) := by ring
      rw [e1, e2, integ_C_mul, integ_sub, integ_C_mul, integ_C_mul, ← inner_zero_eq, ← inner_zero_eq, inner_ne (by omega : n + 2 ≠ n)] at hb
      linear_combination -hb
    rw [ih] at h2
    have hn : ((n : ℝ) + 1) ≠ 0 := by positivity
    push_cast
    have h3 : (2 * (n : ℝ) + 3) ≠ 0 := by positivity
    have h4 : (2 * (n : ℝ) + 1) ≠ 0 := by positivity
    have h5 : K = (n + 1) * (2 / (2 * n + 1)) / (2 * n + 3) := by rw [eq_div_iff h3]; linarith
    rw [h5] at h1
    have h6 : (2 * ((n : ℝ) + 1) + 1) ≠ 0 := by positivity
    rw [eq_div_iff h6]
    field_simp at h1
    linear_combination h1

theorem inner_self {n m : ℕ} (h : m ≤ n) : inner n n m = ((n + m).factorial : ℝ) / ((n - m).factorial : ℝ) * (2 / (2 * n + 1)) := by
  induction m with
  | zero =>
    rw [inner_self_zero, add_zero, Nat.sub_zero, div_self (by positivity), one_mul]
  | succ m ih =>
    rw [inner_succ, ih (by omega)]
    have e1 : n - m = (n - (m + 1)) + 1 := by omega
    have e2 : ((n - m : ℕ) : ℝ) = n - m := by push_cast [Nat.cast_sub (by omega : m ≤ n)]; ring
    rw [← add_assoc, Nat.factorial_succ (n + m), e1, Nat.factorial_succ (n - (m + 1)), ← e1]
    push_cast
    have h2 : ((n - m : ℕ) : ℝ) ≠ 0 := by exact_mod_cast (by omega : n - m ≠ 0)
    have e3 : ((n - (m + 1) : ℕ) : ℝ) + 1 = n - m := by rw [← e2, e1]; push_cast; ring
    rw [e2] at h2 ⊢
    have h3 : ((n - (m + 1)).factorial : ℝ) ≠ 0 := by positivity
    field_simp

/-- Polynomial in `cos θ` of the product of two Schmidt functions of equal order. -/
noncomputable def pairPoly (n k m : ℕ) : ℝ[X] := C (schmidtNorm n m * schmidtNorm k m) * ((1 - X ^ 2) ^ m * dl n m * dl k m)

theorem pairPoly_eval (n k m : ℕ) (θ : ℝ) : (pairPoly n k m).eval (Real.cos θ) = schmidt n m θ * schmidt k m θ := by
  unfold pairPoly schmidt dl
  simp only [eval_mul, eval_C, eval_pow, eval_sub, eval_one, eval_X]
  rw [← Real.sin_sq]
  ring

theorem integ_pairPoly {n k m : ℕ} (hn : m ≤ n) (hk : m ≤ k) :
    integ (pairPoly n k m) = if n = k then (if m = 0 then (2 : ℝ) / (2 * n + 1) else 4 / (2 * n + 1)) else 0 := by
  unfold pairPoly
  rw [integ_C_mul]
  change _ * inner n k m = _
  by_cases h : n = k
  · subst h
    rw [if_pos rfl, inner_self hn]
    unfold schmidtNorm
    split_ifs with h0
    · subst h0
      rw [add_zero, Nat.sub_zero, div_self (by positivity)]
      ring
    · rw [Real.mul_self_sqrt (by positivity)]
      have h1 : ((n - m).factorial : ℝ) ≠ 0 := by positivity
      have h2 : ((n + m).factorial : ℝ) ≠ 0 := by positivity
      field_simp
      norm_num
  · rw [if_neg h, inner_ne h, mul_zero]

theorem natDegree_dl_le (n m : ℕ) : (dl n m).natDegree ≤ n - m :=
  (natDegree_iterate_derivative _ _).trans (Nat.sub_le_sub_right (natDegree_legendre_le n) m)

theorem natDegree_pairPoly {n k m : ℕ} (hn : m ≤ n) (hk : m ≤ k) : (pairPoly n k m).natDegree ≤ n + k := by
  unfold pairPoly
  refine (natDegree_C_mul_le _ _).trans (natDegree_mul_le.trans ?_)
  have h1 : ((1 - X ^ 2 : ℝ[X]) ^ m).natDegree ≤ m * 2 := by
    refine natDegree_pow_le.trans (Nat.mul_le_mul_left _ ?_)
    refine (natDegree_sub_le _ _).trans ?_
    simp
  have h2 : ((1 - X ^ 2 : ℝ[X]) ^ m * dl n m).natDegree ≤ m * 2 + (n - m) := natDegree_mul_le.trans (Nat.add_le_add h1 (natDegree_dl_le n m))
  have h3 := natDegree_dl_le k m
  omega

end ChaosMagPy.Legendre
