import Verif.Lemmas.Divisor
/-!
# The remainder of the power series when the loop ends
-/
namespace ChaosMagPy.QResponse
open Complex Filter Topology

theorem tail_step {f : ℕ → ℂ} {S : ℂ} (j : ℕ) {r c : ℝ} (h0 : 0 ≤ c) (hr : ‖f (j + 1)‖ ≤ r * ‖f j‖) (h : ‖S - ∑ i ∈ Finset.range (j + 1 + 1), f i‖ ≤ c * ‖f (j + 1)‖) :
    ‖S - ∑ i ∈ Finset.range (j + 1), f i‖ ≤ r * (1 + c) * ‖f j‖ := by
  have e : S - ∑ i ∈ Finset.range (j + 1), f i = (S - ∑ i ∈ Finset.range (j + 1 + 1), f i) + f (j + 1) := by rw [Finset.sum_range_succ f (j + 1)]; ring
  rw [e]
  calc ‖(S - ∑ i ∈ Finset.range (j + 1 + 1), f i) + f (j + 1)‖ ≤ c * ‖f (j + 1)‖ + ‖f (j + 1)‖ := (norm_add_le _ _).trans (by linarith)
    _ = (1 + c) * ‖f (j + 1)‖ := by ring
    _ ≤ (1 + c) * (r * ‖f j‖) := mul_le_mul_of_nonneg_left hr (by linarith)
    _ = r * (1 + c) * ‖f j‖ := by ring

theorem tail_p {n : ℕ} (hn : 1 ≤ n) {x : ℂ} (hx : ‖x‖ < 9) {j : ℕ} (hj : 1 ≤ j) :
    ‖phi (n + 1) x - ∑ i ∈ Finset.range (j + 1), frob (n + 1) i * x ^ i‖ ≤ ‖frob (n + 1) j * x ^ j‖ := by
  have hs := (frob_entire (n + 1)).hasSum x
  have hstep : ∀ i, 1 ≤ i → ‖frob (n + 1) (i + 1) * x ^ (i + 1)‖ ≤ 1 / 2 * ‖frob (n + 1) i * x ^ i‖ := by
    intro i hi
    have hi' : (1 : ℝ) ≤ i := by exact_mod_cast hi
    have hn' : (1 : ℝ) ≤ n := by exact_mod_cast hn
    refine (term_succ (n + 1) x i (m := 9) (by norm_num) ?_).trans (mul_le_mul_of_nonneg_right ?_ (norm_nonneg _))
    · push_cast
      rw [abs_of_pos (by linarith)]
      nlinarith
    · linarith
  have := remainder_le hs (j + 1) (q := 1 / 2) (by norm_num) (by norm_num) (fun i hi => hstep i (by omega))
  refine this.trans ?_
  have := hstep j hj
  rw [div_le_iff₀ (by norm_num)]
  linarith

theorem tail_q {n : ℕ} (hn : 1 ≤ n) {x : ℂ} (hx : ‖x‖ < 9) {j : ℕ} (hj : 1 ≤ j) :
    ‖phi (-n) x - ∑ i ∈ Finset.range (j + 1), frob (-n) i * x ^ i‖ ≤ 9 * ‖frob (-n) j * x ^ j‖ := by
  have hs := (frob_entire (-n)).hasSum x
  have hx0 := norm_nonneg x
  have hn' : (1 : ℝ) ≤ n := by exact_mod_cast hn
  have high : ∀ i, n + 1 ≤ i → ‖frob (-n) (i + 1) * x ^ (i + 1)‖ ≤ 1 / 2 * ‖frob (-n) i * x ^ i‖ := by
    intro i hi
    have hi' : (n : ℝ) + 1 ≤ i := by exact_mod_cast hi
    refine (term_succ (-n) x i (m := 9) (by norm_num) ?_).trans (mul_le_mul_of_nonneg_right ?_ (norm_nonneg _))
    · push_cast
      rw [abs_of_pos (by linarith)]
      nlinarith
    · linarith
  have htop : ∀ i, n + 1 ≤ i → ‖phi (-n) x - ∑ k ∈ Finset.range (i + 1), frob (-n) k * x ^ k‖ ≤ 1 * ‖frob (-n) i * x ^ i‖ := by
    intro i hi
    have := remainder_le hs (i + 1) (q := 1 / 2) (by norm_num) (by norm_num) (fun k hk => high k (by omega))
    have h2 := high i hi
    refine this.trans ?_
    rw [div_le_iff₀ (by norm_num)]
    linarith
  have hat : ‖phi (-n) x - ∑ k ∈ Finset.range (n + 1), frob (-n) k * x ^ k‖ ≤ 9 / ((n : ℝ) + 1) * ‖frob (-n) n * x ^ n‖ := by
    refine (tail_step (f := fun k => frob (-n) k * x ^ k) n zero_le_one (term_succ (-n) x n (m := (n : ℝ) + 1) (by linarith) ?_) (htop (n + 1) le_rfl)).trans
      (mul_le_mul_of_nonneg_right ?_ (norm_nonneg _))
    · push_cast
      rw [show 2 * ((n : ℝ) + 1) + 2 * -(n : ℝ) - 1 = 1 by ring, abs_one]
      linarith
    · rw [div_mul_eq_mul_div]
      exact div_le_div_of_nonneg_right (by linarith) (by linarith)
  have hat' : ‖phi (-n) x - ∑ k ∈ Finset.range (n + 1), frob (-n) k * x ^ k‖ ≤ 9 * ‖frob (-n) n * x ^ n‖ := by
    refine hat.trans (mul_le_mul_of_nonneg_right ?_ (norm_nonneg _))
    rw [div_le_iff₀ (by linarith)]
    linarith
  rcases Nat.lt_or_ge j n with hlt | hge
  · -- from the top down
    have down : ∀ d, d < n → 1 ≤ n - 1 - d → ‖phi (-n) x - ∑ k ∈ Finset.range (n - 1 - d + 1), frob (-n) k * x ^ k‖ ≤ 9 * ‖frob (-n) (n - 1 - d) * x ^ (n - 1 - d)‖ := by
      intro d
      induction d with
      | zero =>
        intro _ h1
        obtain ⟨m, rfl⟩ : ∃ m, n = m + 1 := ⟨n - 1, by omega⟩
        simp only [Nat.add_sub_cancel, Nat.sub_zero] at h1 ⊢
        have hm : (1 : ℝ) ≤ m := by exact_mod_cast h1
        refine (tail_step (f := fun k => frob (-((m + 1 : ℕ) : ℤ)) k * x ^ k) m (c := 3) (by norm_num) (term_succ _ x m (m := (m : ℝ) + 1) (by linarith) ?_) ?_).trans
          (mul_le_mul_of_nonneg_right ?_ (norm_nonneg _))
        · push_cast
          rw [show 2 * ((m : ℝ) + 1) + 2 * -((m : ℝ) + 1) - 1 = -1 by ring, abs_neg, abs_one]
          linarith
        · refine hat.trans (mul_le_mul_of_nonneg_right ?_ (norm_nonneg _))
          push_cast
          rw [div_le_iff₀ (by linarith)]
          linarith
        · rw [div_mul_eq_mul_div, div_le_iff₀ (by linarith)]
          linarith
      | succ d ih =>
        intro h1 h2
        have e : n - 1 - (d + 1) + 1 = n - 1 - d := by omega
        have ih' := ih (by omega) (by omega)
        generalize hj : n - 1 - (d + 1) = i at *
        rw [← e] at ih'
        have hi' : (1 : ℝ) ≤ i := by exact_mod_cast h2
        have hin : (i : ℝ) + 2 ≤ n := by have : i + 2 ≤ n := by omega
                                         exact_mod_cast this
        refine (tail_step (f := fun k => frob (-n) k * x ^ k) i (c := 9) (by norm_num) (term_succ _ x i (m := 6) (by norm_num) ?_) ih').trans
          (mul_le_mul_of_nonneg_right ?_ (norm_nonneg _))
        · push_cast
          rw [abs_of_neg (by linarith)]
          nlinarith
        · linarith
    have := down (n - 1 - j) (by omega) (by omega)
    rwa [show n - 1 - (n - 1 - j) = j by omega] at this
  · rcases Nat.eq_or_lt_of_le hge with rfl | hgt
    · exact hat'
    · have := htop j hgt
      have h0 := norm_nonneg (frob (-n) j * x ^ j)
      linarith

/-- The coefficients as products. -/
theorem frob_prod (t : ℤ) (j : ℕ) : frob t j = 1 / ∏ k ∈ Finset.range j, (2 * ((k : ℂ) + 1) * (2 * ((k : ℂ) + 1) + 2 * t - 1)) := by
  induction j with
  | zero => simp [frob]
  | succ j ih => rw [frob, ih, Finset.prod_range_succ, div_div]

theorem passes_pos (n : ℕ) (z : ℂ) {eps : ℝ} (he : 0 < eps) (he1 : eps < 1) : 1 ≤ passes n z eps := by
  unfold passes
  rw [dif_pos (loop_exists n z he), Nat.le_find_iff]
  intro i hi
  obtain rfl : i = 0 := by omega
  rw [not_not]
  refine Or.inl ?_
  show ‖(1 : ℂ)‖ > eps
  rw [norm_one]
  exact he1

theorem passes_spec (n : ℕ) (z : ℂ) {eps : ℝ} (he : 0 < eps) :
    ‖(Series.after n z (passes n z eps)).dp‖ ≤ eps ∧ ‖(Series.after n z (passes n z eps)).dq‖ ≤ eps := by
  unfold passes
  rw [dif_pos (loop_exists n z he)]
  refine ⟨not_lt.1 fun h => ?_, not_lt.1 fun h => ?_⟩
  · exact Nat.find_spec (loop_exists n z he) (Or.inl h)
  · exact Nat.find_spec (loop_exists n z he) (Or.inr h)

end ChaosMagPy.QResponse
