import Verif.Lemmas.LegendreOrth
import Verif.Spec.Quadrature
import Mathlib.LinearAlgebra.Lagrange
import Mathlib.Analysis.Calculus.LocalExtr.Rolle
/-! Gauss-Legendre rules exist for every number of points. -/
namespace ChaosMagPy.Legendre
open Polynomial ChaosMagPy.Spec

/-- `k`-th derivative of `(X²-1)^n`. -/
noncomputable def du (n k : ℕ) : ℝ[X] := derivative^[k] (u n)

theorem du_succ (n k : ℕ) : du n (k + 1) = derivative (du n k) := Function.iterate_succ_apply' _ _ _

theorem du_dvd {n k : ℕ} (h : k < n) : (X ^ 2 - 1 : ℝ[X]) ∣ du n k := by
  have h1 : (X ^ 2 - 1 : ℝ[X]) ^ (n - k) ∣ du n k := pow_sub_dvd_iterate_derivative_of_pow_dvd k (dvd_refl _)
  exact (dvd_pow_self _ (by omega)).trans h1

theorem du_ends {n k : ℕ} (h : k < n) : (du n k).eval 1 = 0 ∧ (du n k).eval (-1) = 0 := by
  obtain ⟨q, hq⟩ := du_dvd h
  rw [hq]
  simp

/-- Roots of the derivatives, by Rolle's theorem. -/
theorem du_roots (n k : ℕ) (h : k ≤ n) : ∃ x : ℕ → ℝ, x 0 = -1 ∧ x (k + 1) = 1 ∧ (∀ i ≤ k, x i < x (i + 1)) ∧
    ∀ i, 1 ≤ i → i ≤ k → (du n k).eval (x i) = 0 := by
  induction k with
  | zero =>
    refine ⟨fun i => if i = 0 then -1 else 1, by simp, by simp, fun i hi => ?_, fun i h1 h2 => by omega⟩
    obtain rfl : i = 0 := by omega
    norm_num
  | succ k ih =>
    obtain ⟨x, h0, h1, hx, hr⟩ := ih (by omega)
    have hz : ∀ i, i ≤ k + 1 → (du n k).eval (x i) = 0 := by
      intro i hi
      rcases Nat.eq_zero_or_pos i with rfl | hp
      · rw [h0]; exact (du_ends (by omega)).2
      · rcases Nat.lt_or_ge k i with hk | hk
        · obtain rfl : i = k + 1 := by omega
          rw [h1]; exact (du_ends (by omega)).1
        · exact hr i hp hk
    have hy : ∀ i, ∃ y, i ≤ k → x i < y ∧ y < x (i + 1) ∧ (du n (k + 1)).eval y = 0 := by
      intro i
      by_cases hi : i ≤ k
      · obtain ⟨c, hc, hd⟩ := exists_deriv_eq_zero (f := fun t => (du n k).eval t) (hx i hi) (by fun_prop) (by rw [hz i (by omega), hz (i + 1) (by omega)])
        refine ⟨c, fun _ => ⟨hc.1, hc.2, ?_⟩⟩
        rw [du_succ, ← hd]
        exact (Polynomial.deriv _).symm
      · exact ⟨0, fun h => absurd h hi⟩
    choose y hy using hy
    refine ⟨fun i => if i = 0 then -1 else if i = k + 2 then 1 else y (i - 1), by simp, by simp, fun i hi => ?_, fun i h2 h3 => ?_⟩
    · beta_reduce
      rcases Nat.eq_zero_or_pos i with rfl | hp
      · rw [if_pos rfl, if_neg (by omega), if_neg (by omega)]
        simp only [zero_add, Nat.sub_self]
        rw [← h0]
        exact (hy 0 (by omega)).1
      · rw [if_neg (by omega), if_neg (by omega), if_neg (by omega)]
        have hl := (hy (i - 1) (by omega)).2.1
        rw [Nat.sub_add_cancel hp] at hl
        split_ifs with he
        · obtain rfl : i = k + 1 := by omega
          rw [h1] at hl
          exact hl
        · rw [Nat.add_sub_cancel]
          exact hl.trans (hy i (by omega)).1
    · beta_reduce
      rw [if_neg (by omega), if_neg (by omega)]
      exact (hy (i - 1) (by omega)).2.2

theorem integ_du (n k : ℕ) (h : k ≤ n) (q : ℝ[X]) : integ (du n k * q) = (-1) ^ k * integ (u n * derivative^[k] q) := by
  induction k generalizing q with
  | zero => simp [du]
  | succ k ih =>
    have h1 : derivative (du n k * q) = du n (k + 1) * q + du n k * derivative q := by rw [derivative_mul, du_succ]
    have h2 := congrArg integ h1
    rw [integ_derivative, integ_add] at h2
    simp only [eval_mul] at h2
    rw [(du_ends (by omega : k < n)).1, (du_ends (by omega : k < n)).2, ih (by omega)] at h2
    rw [Function.iterate_succ_apply]
    rw [pow_succ]
    linarith

theorem legendre_orth {n : ℕ} {q : ℝ[X]} (h : q.natDegree < n) : integ (legendre n * q) = 0 := by
  rw [legendre_eq, mul_assoc, integ_C_mul]
  change _ * integ (du n n * q) = 0
  rw [integ_du n n le_rfl, iterate_derivative_eq_zero h]
  have : integ 0 = 0 := by unfold integ; simp
  rw [mul_zero, this, mul_zero, mul_zero]

theorem legendre_ne_zero (n : ℕ) : legendre n ≠ 0 := by
  intro h
  have h1 := inner_self_zero n
  rw [inner_zero_eq, h, zero_mul] at h1
  have : integ 0 = 0 := by unfold integ; simp
  rw [this] at h1
  have : (0 : ℝ) < 2 / (2 * n + 1) := by positivity
  linarith

/-- The zeros of the Legendre polynomial. -/
theorem legendre_nodes (n : ℕ) : ∃ S : Finset ℝ, S.card = n ∧ (∀ x ∈ S, -1 < x ∧ x < 1) ∧ ∀ x ∈ S, (legendre n).eval x = 0 := by
  obtain ⟨x, h0, h1, hx, hr⟩ := du_roots n n le_rfl
  have hlt : ∀ i j, i < j → j ≤ n + 1 → x i < x j := by
    intro i j hij hj
    induction j, hij using Nat.le_induction with
    | base => exact hx i (by omega)
    | succ j hij ih => exact (ih (by omega)).trans (hx j (by omega))
  refine ⟨(Finset.Icc 1 n).image x, ?_, ?_, ?_⟩
  · rw [Finset.card_image_of_injOn, Nat.card_Icc, Nat.add_sub_cancel]
    intro i hi j hj hij
    simp only [Finset.coe_Icc, Set.mem_Icc] at hi hj
    by_contra hne
    rcases Nat.lt_or_gt_of_ne hne with h | h
    · exact absurd hij (hlt i j h (by omega)).ne
    · exact absurd hij (hlt j i h (by omega)).ne'
  · intro y hy
    obtain ⟨i, hi, rfl⟩ := Finset.mem_image.1 hy
    rw [Finset.mem_Icc] at hi
    exact ⟨h0 ▸ hlt 0 i (by omega) (by omega), h1 ▸ hlt i (n + 1) (by omega) (by omega)⟩
  · intro y hy
    obtain ⟨i, hi, rfl⟩ := Finset.mem_image.1 hy
    rw [Finset.mem_Icc] at hi
    rw [legendre_eq, eval_mul]
    exact mul_eq_zero_of_right _ (hr i hi.1 hi.2)

/-- For every number of points there is a Gauss-Legendre rule. -/
theorem gaussRule_exists (n : ℕ) : ∃ rule, GaussRule n rule ∧ rule.length = n := by
  obtain ⟨S, hc, hin, hz⟩ := legendre_nodes n
  refine ⟨S.toList.map fun x => (x, integ (Lagrange.basis S id x)), ⟨?_, ?_⟩, by simp [hc]⟩
  · intro q hq
    obtain ⟨x, hx, rfl⟩ := List.mem_map.1 hq
    rw [Finset.mem_toList] at hx
    exact ⟨(hin x hx).1.le, (hin x hx).2.le⟩
  · intro p hp
    have hn : 0 < n := by omega
    set N := Lagrange.nodal S (id : ℝ → ℝ) with hN
    have hNm : N.Monic := Lagrange.nodal_monic
    have hNd : N.natDegree = n := by rw [hN, Lagrange.natDegree_nodal, hc]
    have hNz : ∀ x ∈ S, N.eval x = 0 := fun x hx => Lagrange.eval_nodal_at_node (v := id) hx
    have hmod0 : legendre n %ₘ N = 0 := by
      refine eq_zero_of_degree_lt_of_eval_finset_eq_zero S ?_ fun x hx => ?_
      · rw [hc, ← hNd, ← degree_eq_natDegree hNm.ne_zero]
        exact degree_modByMonic_lt _ hNm
      · have h1 := congrArg (eval x) (modByMonic_add_div (legendre n) N)
        rw [eval_add, eval_mul, hNz x hx, zero_mul, add_zero, hz x hx] at h1
        exact h1
    have hfac : legendre n = N * (legendre n /ₘ N) := by
      have h1 := modByMonic_add_div (legendre n) N
      rw [hmod0, zero_add] at h1
      exact h1.symm
    have hq0 : (legendre n /ₘ N).natDegree = 0 := by
      rw [natDegree_divByMonic _ hNm, hNd]
      exact Nat.sub_eq_zero_of_le (natDegree_legendre_le n)
    obtain ⟨c, hcq⟩ := natDegree_eq_zero.1 hq0
    rw [← hcq] at hfac
    have hc0 : c ≠ 0 := by
      rintro rfl
      rw [map_zero, mul_zero] at hfac
      exact legendre_ne_zero n hfac
    have hNl : N = C c⁻¹ * legendre n := by
      rw [hfac, mul_comm N, ← mul_assoc, ← C_mul, inv_mul_cancel₀ hc0, map_one, one_mul]
    set q := p /ₘ N with hq
    set r := p %ₘ N with hr
    have hpqr : p = r + N * q := (modByMonic_add_div p N).symm
    have hqd : q.natDegree < n := by
      rw [hq, natDegree_divByMonic _ hNm, hNd]
      omega
    have hint : integ p = integ r := by
      rw [hpqr, integ_add, hNl, mul_assoc, integ_C_mul, legendre_orth hqd, mul_zero, add_zero]
    have hrd : r.degree < S.card := by
      rw [hc, ← hNd, ← degree_eq_natDegree hNm.ne_zero]
      exact degree_modByMonic_lt _ hNm
    have hreq := Lagrange.eq_interpolate (s := S) (v := id) (f := r) (Function.injective_id.injOn) hrd
    have hsum : ∀ (l : List ℝ) (f : ℝ → ℝ) (g : ℝ → ℝ[X]), integ ((l.map fun x => C (f x) * g x).sum) = (l.map fun x => integ (g x) * f x).sum := by
      intro l f g
      induction l with
      | nil => simp [integ]
      | cons x l ih => simp only [List.map_cons, List.sum_cons]; rw [integ_add, integ_C_mul, ih, mul_comm]
    change _ = integ p
    rw [hint, hreq, Lagrange.interpolate_apply, ← Finset.sum_map_toList, hsum, List.map_map]
    congr 1
    refine List.map_congr_left fun x hx => ?_
    rw [Finset.mem_toList] at hx
    simp only [Function.comp, id]
    have h1 := congrArg (eval x) hpqr
    rw [eval_add, eval_mul, hNz x hx, zero_mul, add_zero] at h1
    rw [h1]

end ChaosMagPy.Legendre
