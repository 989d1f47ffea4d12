import Verif.Lemmas.LegendreProg
import Verif.Lemmas.LegendrePoly
import Mathlib.Analysis.SpecialFunctions.Trigonometric.Deriv
import Mathlib.Analysis.Calculus.Deriv.Polynomial
/-! The final table of `legendre_poly` in terms of the Schmidt functions. -/
namespace ChaosMagPy.Legendre
open Polynomial ChaosMagPy.Spec

/-- `√((n-m)!/(n+m)!)`. -/
noncomputable def q (n m : ℕ) : ℝ := Real.sqrt ((n - m).factorial / (n + m).factorial)

/-- `1` for `m = 0`, `√2` otherwise. -/
noncomputable def kf (m : ℕ) : ℝ := if m = 0 then 1 else Real.sqrt 2

theorem schmidtNorm_eq (n m : ℕ) : schmidtNorm n m = kf m * q n m := by
  unfold schmidtNorm kf q
  by_cases h : m = 0
  · subst h
    have : ((n.factorial : ℝ)) ≠ 0 := by positivity
    simp [this]
  · simp only [h, if_false]
    rw [← Real.sqrt_mul (by norm_num), mul_div_assoc]

theorem q_pos (n m : ℕ) : 0 < q n m := by unfold q; positivity

theorem kf_pos (m : ℕ) : 0 < kf m := by unfold kf; split_ifs <;> positivity

/-- Step in the degree. -/
theorem q_step_n (n m : ℕ) (h : m ≤ n) :
    q (n + 1) m * Real.sqrt ((n + 1 + m) * (n + 1 - m)) = q n m * (n + 1 - m) := by
  have hp : (0 : ℝ) < n + 1 - m := by
    have : (m : ℝ) ≤ n := by exact_mod_cast h
    linarith
  have hp2 : (0 : ℝ) < n + 1 + m := by positivity
  have e1 : (n + 1 - m).factorial = (n + 1 - m) * (n - m).factorial := by
    rw [show n + 1 - m = (n - m) + 1 by omega, Nat.factorial_succ]
  have e2 : (n + 1 + m).factorial = (n + 1 + m) * (n + m).factorial := by
    rw [show n + 1 + m = (n + m) + 1 by omega, Nat.factorial_succ]
  unfold q
  rw [← Real.sqrt_mul (by positivity), e1, e2]
  have : ((((n + 1 - m) * (n - m).factorial : ℕ) : ℝ) / (((n + 1 + m) * (n + m).factorial : ℕ) : ℝ) *
      ((n + 1 + m) * (n + 1 - m))) = ((n - m).factorial / (n + m).factorial) * (n + 1 - m : ℝ) ^ 2 := by
    push_cast [Nat.cast_sub (by omega : m ≤ n + 1)]
    field_simp
  rw [this, Real.sqrt_mul (by positivity), Real.sqrt_sq hp.le]

theorem q_step_n' (n m : ℕ) (h : m ≤ n) :
    q n m * Real.sqrt ((n + 1 + m) * (n + 1 - m)) = q (n + 1) m * (n + 1 + m) := by
  have hp : (0 : ℝ) < n + 1 - m := by
    have : (m : ℝ) ≤ n := by exact_mod_cast h
    linarith
  have hp2 : (0 : ℝ) < n + 1 + m := by positivity
  have h1 := q_step_n n m h
  have hs : Real.sqrt ((n + 1 + m) * (n + 1 - m) : ℝ) ^ 2 = (n + 1 + m) * (n + 1 - m) :=
    Real.sq_sqrt (by positivity)
  apply mul_right_cancel₀ hp.ne'
  linear_combination Real.sqrt ((n + 1 + m) * (n + 1 - m) : ℝ) * h1 * (-1) + q (n + 1) m * hs

/-- Step in the order. -/
theorem q_step_m (n m : ℕ) (h : m + 1 ≤ n) :
    q n (m + 1) * Real.sqrt ((n + m + 1) * (n - m)) = q n m := by
  have hp : (0 : ℝ) < n - m := by
    have : (m : ℝ) + 1 ≤ n := by exact_mod_cast h
    linarith
  have hp2 : (0 : ℝ) < n + m + 1 := by positivity
  have e1 : (n - m).factorial = (n - m) * (n - (m + 1)).factorial := by
    rw [show n - m = (n - (m + 1)) + 1 by omega, Nat.factorial_succ]
  have e2 : (n + (m + 1)).factorial = (n + m + 1) * (n + m).factorial := by
    rw [show n + (m + 1) = (n + m) + 1 by omega, Nat.factorial_succ]
  unfold q
  rw [← Real.sqrt_mul (by positivity), e1, e2]
  congr 1
  push_cast [Nat.cast_sub (by omega : m ≤ n)]
  field_simp

theorem q_step_m' (n m : ℕ) (h : m + 1 ≤ n) :
    Real.sqrt ((n + m + 1) * (n - m)) * q n m = q n (m + 1) * ((n + m + 1) * (n - m)) := by
  have hp : (0 : ℝ) < n - m := by
    have : (m : ℝ) + 1 ≤ n := by exact_mod_cast h
    linarith
  have hs : Real.sqrt ((n + m + 1) * (n - m) : ℝ) ^ 2 = (n + m + 1) * (n - m) :=
    Real.sq_sqrt (by positivity)
  rw [← q_step_m n m h]
  linear_combination q n (m + 1) * hs

theorem q_zero (n : ℕ) : q n 0 = 1 := by
  unfold q
  have : ((n.factorial : ℝ)) ≠ 0 := by positivity
  simp [this]

/-- The value the table should hold. -/
noncomputable def S (c s : ℝ) (n m : ℕ) : ℝ := kf m * q n m * s ^ m * (dl n m).eval c

theorem schmidt_eq (n m : ℕ) (x : ℝ) : schmidt n m x = S (Real.cos x) (Real.sin x) n m := by
  unfold schmidt S
  rw [schmidtNorm_eq]
  rfl

section table
variable (nmax : ℕ) (c s : ℝ)

/-- Final table. -/
noncomputable def fin : Table := runAll (program nmax c s) (fun _ => 0)

theorem fin_eq (a : Assign) (h : a ∈ program nmax c s) : fin nmax c s a.tgt = a.rhs.eval (fin nmax c s) :=
  runAll_ssa _ _ (program_pairwise _ _ _) (program_noself _ _ _) a h

theorem fin_00 : fin nmax c s (0, 0) = 1 := by
  have := fin_eq nmax c s ⟨(0, 0), .const 1⟩ (by simp [program])
  simpa [Expr.eval] using this

theorem fin_11 : fin nmax c s (1, 1) = s := by
  have := fin_eq nmax c s ⟨(1, 1), .const s⟩ (by simp [program])
  simpa [Expr.eval] using this

theorem mem_value {m : ℕ} (hm : m < nmax) {a : Assign} (ha : a ∈ valueBlock nmax c s m) :
    a ∈ program nmax c s := by
  unfold program
  simp only [List.mem_append, List.mem_flatMap, mem_pyRange]
  exact Or.inl (Or.inl (Or.inr ⟨m, ⟨by omega, hm⟩, ha⟩))

theorem mem_deriv {n : ℕ} (h2 : 2 ≤ n) (hn : n ≤ nmax) {a : Assign} (ha : a ∈ derivBlock n) :
    a ∈ program nmax c s := by
  unfold program
  simp only [List.mem_append, List.mem_flatMap, mem_pyRange]
  exact Or.inr ⟨n, ⟨h2, by omega⟩, ha⟩

theorem fin_sub (m : ℕ) (hm : m < nmax) :
    fin nmax c s (m + 1, m) = c * (Real.sqrt (2 * m + 1) * fin nmax c s (m, m)) := by
  have := fin_eq nmax c s _ (mem_value nmax c s hm (a := ⟨(m + 1, m), .mul (.const c)
    (.mul (.rootn ((m : ℤ) + m + 1)) (.read m m))⟩) (by simp [valueBlock]))
  simp only [Expr.eval] at this
  rw [this]
  push_cast
  ring_nf

theorem fin_diag (m : ℕ) (hm : m < nmax) (h0 : 0 < m) :
    fin nmax c s (m + 1, m + 1) =
      s * (Real.sqrt (2 * m + 1) * fin nmax c s (m, m)) / Real.sqrt (2 * m + 2) := by
  have := fin_eq nmax c s _ (mem_value nmax c s hm (a := ⟨(m + 1, m + 1), .div (.mul (.const s)
    (.mul (.rootn ((m : ℤ) + m + 1)) (.read m m))) (.rootn ((m : ℤ) + m + 2))⟩) (by simp [valueBlock, h0]))
  simp only [Expr.eval] at this
  rw [this]
  push_cast
  ring_nf

theorem fin_rec (m k : ℕ) (hk : m + k + 2 ≤ nmax) :
    fin nmax c s (m + k + 2, m) =
      ((2 * (m + k : ℝ) + 3) * c * fin nmax c s (m + k + 1, m)
        - Real.sqrt ((m + k + 1 + m) * (m + k + 1 - m)) * fin nmax c s (m + k, m)) /
      Real.sqrt ((m + k + 2 + m) * (m + k + 2 - m)) := by
  have := fin_eq nmax c s _ (mem_value nmax c s (m := m) (by omega) (a := valueStep c m (m + k + 2))
    (by
      simp only [valueBlock, List.mem_append, List.mem_map, mem_pyRange]
      exact Or.inr ⟨m + k + 2, ⟨by omega, by omega⟩, rfl⟩))
  simp only [valueStep, Expr.eval, Nat.add_sub_cancel] at this
  rw [this]
  have i1 : m + k + 2 - 1 = m + k + 1 := by omega
  rw [i1]
  congr 2
  · congr 2
    push_cast; ring
  · congr 2
    push_cast; ring
  · push_cast; ring

theorem eval_dl_three (n m : ℕ) (x : ℝ) :
    ((n : ℝ) + 2 - m) * (dl (n + 2) m).eval x =
      (2 * n + 3) * (x * (dl (n + 1) m).eval x) - (n + 1 + m) * (dl n m).eval x := by
  have := congrArg (eval x) (dl_three n m)
  simpa using this

theorem S_rec (n m : ℕ) (h : m ≤ n) :
    Real.sqrt ((n + 2 + m) * (n + 2 - m)) * S c s (n + 2) m =
      (2 * (n : ℝ) + 3) * c * S c s (n + 1) m
        - Real.sqrt ((n + 1 + m) * (n + 1 - m)) * S c s n m := by
  have h1 := q_step_n (n + 1) m (by omega)
  have h2 := q_step_n' n m h
  push_cast at h1
  rw [show (n : ℝ) + 1 + 1 = n + 2 by ring] at h1
  have h3 := eval_dl_three n m c
  unfold S
  linear_combination (kf m * s ^ m * eval c (dl (n + 2) m)) * h1 + (kf m * s ^ m * eval c (dl n m)) * h2
    + kf m * s ^ m * q (n + 1) m * h3

theorem dl_zero_zero : dl 0 0 = 1 := by simp [dl, legendre_zero]

theorem S_diag (m : ℕ) : Real.sqrt (2 * m + 2) * S c s (m + 1) (m + 1) * kf m =
    s * (Real.sqrt (2 * m + 1) * S c s m m) * kf (m + 1) := by
  have h1 := q_step_n m m (le_refl m)
  have h2 := q_step_m (m + 1) m (le_refl _)
  have h3 := congrArg (eval c) (dl_diag m)
  simp only [eval_mul, eval_C] at h3
  push_cast at h1 h2
  rw [show ((m : ℝ) + 1 + m) * (m + 1 - m) = 2 * m + 1 by ring,
    show ((m : ℝ) + 1 - m) = 1 by ring, mul_one] at h1
  rw [show ((m : ℝ) + 1 + m + 1) * (m + 1 - m) = 2 * m + 2 by ring] at h2
  have hs : Real.sqrt (2 * m + 1) ^ 2 = 2 * (m : ℝ) + 1 := Real.sq_sqrt (by positivity)
  unfold S
  rw [h3, ← h1]
  rw [← h2]
  linear_combination (-1) * (q (m + 1) (m + 1) * Real.sqrt (2 * m + 2) * kf (m + 1) * kf m * s ^ (m + 1) *
    eval c (dl m m)) * hs

theorem S_sub (m : ℕ) : S c s (m + 1) m = c * (Real.sqrt (2 * m + 1) * S c s m m) := by
  have h1 := q_step_n m m (le_refl m)
  have h3 := congrArg (eval c) (dl_sub m)
  simp only [eval_mul, eval_C, eval_X] at h3
  push_cast at h1
  rw [show ((m : ℝ) + 1 + m) * (m + 1 - m) = 2 * m + 1 by ring,
    show ((m : ℝ) + 1 - m) = 1 by ring, mul_one] at h1
  have hs : Real.sqrt (2 * m + 1) ^ 2 = 2 * (m : ℝ) + 1 := Real.sq_sqrt (by positivity)
  unfold S
  rw [h3, ← h1]
  linear_combination (-1) * (q (m + 1) m * kf m * s ^ m * c * eval c (dl m m)) * hs

theorem fin_val_diag (m : ℕ) (hm : m ≤ nmax) (h1 : 1 ≤ nmax) : fin nmax c s (m, m) = S c s m m := by
  induction m with
  | zero => rw [fin_00]; simp [S, kf, q_zero, dl_zero_zero]
  | succ m ih =>
    have ih := ih (by omega)
    by_cases h0 : m = 0
    · subst h0
      rw [fin_11]
      have := S_diag c s 0
      simp [S, kf, q_zero, dl_zero_zero] at this
      simp [S, kf]
      have h2 : (0 : ℝ) < Real.sqrt 2 := by positivity
      have h3 := this
      apply mul_left_cancel₀ h2.ne'
      linarith
    · rw [fin_diag nmax c s m (by omega) (by omega), ih]
      have := S_diag c s m
      have k1 : kf m = Real.sqrt 2 := by simp [kf, h0]
      have k2 : kf (m + 1) = Real.sqrt 2 := by simp [kf]
      rw [k1, k2] at this
      have h2 : (0 : ℝ) < Real.sqrt 2 := by positivity
      have h3 := mul_right_cancel₀ h2.ne' this
      have h4 : (0 : ℝ) < Real.sqrt (2 * m + 2) := by positivity
      rw [div_eq_iff h4.ne', ← h3]
      ring

theorem fin_val_pair (m : ℕ) (h1 : 1 ≤ nmax) (k : ℕ) : 
    (m + k ≤ nmax → fin nmax c s (m + k, m) = S c s (m + k) m) ∧
    (m + k + 1 ≤ nmax → fin nmax c s (m + k + 1, m) = S c s (m + k + 1) m) := by
  induction k with
  | zero =>
    refine ⟨fun h => fin_val_diag nmax c s m h h1, fun h => ?_⟩
    simp only [add_zero]
    rw [fin_sub nmax c s m (by omega), fin_val_diag nmax c s m (by omega) h1, S_sub]
  | succ k ih =>
    refine ⟨fun h => ih.2 (by omega), fun h => ?_⟩
    have e := fin_rec nmax c s m k (by omega)
    rw [ih.2 (by omega), ih.1 (by omega)] at e
    have r := S_rec c s (m + k) m (by omega)
    have i1 : m + (k + 1) + 1 = m + k + 2 := by ring
    rw [i1, e]
    push_cast at r
    rw [← r]
    have : (0 : ℝ) < Real.sqrt ((m + k + 2 + m) * (m + k + 2 - m)) := by
      apply Real.sqrt_pos.2
      have : (m : ℝ) + k + 2 - m = k + 2 := by ring
      rw [this]; positivity
    field_simp

/-- Value entries. -/
theorem fin_val (n m : ℕ) (h1 : 1 ≤ nmax) (hm : m ≤ n) (hn : n ≤ nmax) :
    fin nmax c s (n, m) = S c s n m := by
  have := (fin_val_pair nmax c s m h1 (n - m)).1
  rw [show m + (n - m) = n by omega] at this
  exact this hn

/-- Derivative with respect to the angle, closed form. -/
noncomputable def dS (c s : ℝ) (n m : ℕ) : ℝ :=
  kf m * q n m * (m * s ^ (m - 1) * c * (dl n m).eval c - s ^ (m + 1) * (dl n (m + 1)).eval c)

theorem hasDerivAt_schmidt (n m : ℕ) (x : ℝ) :
    HasDerivAt (fun y => schmidt n m y) (dS (Real.cos x) (Real.sin x) n m) x := by
  have h1 := (Real.hasDerivAt_sin x).pow m
  have h2 : HasDerivAt (fun y => (dl n m).eval (Real.cos y))
      ((derivative (dl n m)).eval (Real.cos x) * (-Real.sin x)) x :=
    HasDerivAt.comp x ((dl n m).hasDerivAt (Real.cos x)) (Real.hasDerivAt_cos x)
  have h3 := ((h1.mul h2).const_mul (kf m * q n m))
  refine (h3.congr_deriv ?_).congr_of_eventuallyEq (Filter.Eventually.of_forall fun y => ?_)
  · rw [← dl_succ]
    unfold dS
    simp only [Pi.pow_apply]
    ring
  · simp only [schmidt_eq, S, Pi.mul_apply, Pi.pow_apply]
    ring

theorem eval_ode_m (n m : ℕ) (x : ℝ) :
    (x ^ 2 - 1) * (dl n (m + 2)).eval x + (2 * (m + 1)) * (x * (dl n (m + 1)).eval x) =
      ((n + m + 1 : ℝ) * (n - m)) * (dl n m).eval x := by
  have := congrArg (eval x) (ode_m n m)
  simpa using this

theorem S_eq_zero (n m : ℕ) (h : n < m) : S c s n m = 0 := by
  unfold S
  rw [dl_zero_of_lt h]
  simp

/-- The recursion for the derivative (orders above one). -/
theorem dS_rec (hcs : s ^ 2 = 1 - c ^ 2) (n m : ℕ) (h : m + 1 ≤ n) :
    kf m * dS c s n (m + 1) = kf (m + 1) * (1 / 2) * Real.sqrt ((n + m + 1) * (n - m)) * S c s n m
      - kf m * (1 / 2) * Real.sqrt ((n + (m + 1) + 1) * (n - (m + 1))) * kf (m + 1) / kf (m + 2) * S c s n (m + 2) := by
  have h1 := q_step_m' n m h
  have h3 := eval_ode_m n m c
  have k2 : kf (m + 2) ≠ 0 := (kf_pos _).ne'
  by_cases hn : m + 2 ≤ n
  · have h2 := q_step_m n (m + 1) hn
    push_cast at h2
    unfold dS S
    simp only [Nat.add_sub_cancel, Nat.cast_add, Nat.cast_one]
    field_simp
    rw [show m + 1 + 1 = m + 2 by ring] at *
    linear_combination (-kf m * kf (m + 1) * s ^ m * eval c (dl n m)) * h1
      + kf m * kf (m + 1) * s ^ (m + 2) * eval c (dl n (m + 2)) * h2
      + kf m * kf (m + 1) * q n (m + 1) * s ^ m * h3
      + kf m * kf (m + 1) * q n (m + 1) * s ^ m * (eval c (dl n (m + 2))) * (-1) * hcs
  · have hz : dl n (m + 2) = 0 := dl_zero_of_lt (by omega)
    rw [hz] at h3
    unfold dS S
    rw [show m + 1 + 1 = m + 2 by ring, hz]
    simp only [Nat.add_sub_cancel, Nat.cast_add, Nat.cast_one, eval_zero, mul_zero, sub_zero, zero_add] at h3 ⊢
    linear_combination (-1 / 2 * kf m * kf (m + 1) * s ^ m * eval c (dl n m)) * h1
      + (1 / 2) * kf m * kf (m + 1) * q n (m + 1) * s ^ m * h3

/-- Derivative entries. -/
theorem fin_deriv (hcs : s ^ 2 = 1 - c ^ 2) (n m : ℕ) (h1 : 1 ≤ nmax) (hm : m ≤ n) (hn : n ≤ nmax) :
    fin nmax c s (m, n + 1) = dS c s n m := by
  by_cases hn0 : n = 0
  · subst hn0
    obtain rfl : m = 0 := by omega
    have e : fin nmax c s (0, 0 + 1) = 0 := by
      apply runAll_not_tgt
      apply forall_mem_program
      · simp
      · simp
      · intro m _ a ha e
        have := valueBlock_tgt a ha
        rw [e] at this
        simp at this
      · simp
      · simp
      · intro n hn2 _ a ha e
        have := derivBlock_tgt a ha hn2
        rw [e] at this
        simp at this
        omega
    rw [e]
    unfold dS
    rw [dl_zero_of_lt (by omega : 0 < 0 + 1)]
    simp
  by_cases hn1 : n = 1
  · subst hn1
    have hd : dl 1 1 = 1 := by rw [dl_diag 0, dl_zero_zero]; simp
    have hq : Real.sqrt 2 * q 1 1 = 1 := by
      have := q_step_m 1 0 (by omega)
      rw [q_zero] at this
      norm_num at this
      linarith
    have e1 := fin_eq nmax c s ⟨(0, 2), .neg (.read 1 1)⟩ (by simp [program])
    have e2 := fin_eq nmax c s ⟨(1, 2), .read 1 0⟩ (by simp [program])
    simp only [Expr.eval] at e1 e2
    rcases (by omega : m = 0 ∨ m = 1) with rfl | rfl
    · rw [show (0, 1 + 1) = (0, 2) from rfl, e1, fin_11]
      unfold dS
      simp [kf, q_zero, hd]
    · rw [show (1, 1 + 1) = (1, 2) from rfl, e2, fin_val nmax c s 1 0 h1 (by omega) hn]
      unfold dS S
      rw [dl_zero_of_lt (by omega : 1 < 1 + 1)]
      have hX : dl 1 0 = X := by simp [dl, legendre_one]
      simp [kf, q_zero, hd, hX, hq]
  have hn2 : 2 ≤ n := by omega
  have d0 := fin_eq nmax c s _ (mem_deriv nmax c s hn2 hn (a := ⟨(0, n + 1), .mul (.neg (.const
    (Real.sqrt (((n : ℝ) * n + n) / 2)))) (.read n 1)⟩) (by simp [derivBlock]))
  have d1 := fin_eq nmax c s _ (mem_deriv nmax c s hn2 hn (a := ⟨(1, n + 1), .div (.sub (.mul (.const (Real.sqrt
    (2 * ((n : ℝ) * n + n)))) (.read n 0)) (.mul (.const (Real.sqrt ((n : ℝ) * n + n - 2))) (.read n 2)))
    (.const 2)⟩) (by simp [derivBlock]))
  have dn := fin_eq nmax c s _ (mem_deriv nmax c s hn2 hn (a := ⟨(n, n + 1), .div (.mul (.const
    (Real.sqrt (2 * n))) (.read n (n - 1))) (.const 2)⟩) (by simp [derivBlock]))
  simp only [Expr.eval] at d0 d1 dn
  rcases Nat.eq_zero_or_pos m with rfl | hmp
  · rw [d0, fin_val nmax c s n 1 h1 (by omega) hn]
    have hq := q_step_m n 0 (by omega)
    rw [q_zero] at hq
    simp only [Nat.cast_zero, add_zero, sub_zero, zero_add] at hq
    have hs : Real.sqrt (((n : ℝ) * n + n) / 2) * Real.sqrt 2 = Real.sqrt ((n + 1) * n) := by
      rw [← Real.sqrt_mul (by positivity)]
      congr 1
      ring
    generalize Real.sqrt (((n : ℝ) * n + n) / 2) = A at hs ⊢
    unfold dS S
    simp only [kf, Nat.cast_zero, q_zero]
    simp
    linear_combination (q n 1 * s * eval c (dl n 1)) * hs + s * eval c (dl n 1) * hq
  · obtain ⟨k, rfl⟩ : ∃ k, m = k + 1 := ⟨m - 1, by omega⟩
    have hr := dS_rec c s hcs n k hm
    by_cases hk0 : k = 0
    · subst hk0
      rw [d1, fin_val nmax c s n 0 h1 (by omega) hn, fin_val nmax c s n 2 h1 (by omega) hn]
      have k1 : kf 1 = Real.sqrt 2 := by simp [kf]
      have k2 : kf 2 = Real.sqrt 2 := by simp [kf]
      have k0 : kf 0 = 1 := by simp [kf]
      simp only [Nat.cast_zero, add_zero, sub_zero, zero_add, k0, k1, k2, one_mul] at hr
      rw [hr]
      have hs : Real.sqrt (2 * ((n : ℝ) * n + n)) = Real.sqrt 2 * Real.sqrt ((n + 1) * n) := by
        rw [← Real.sqrt_mul (by positivity)]
        congr 1
        ring
      have hs2 : Real.sqrt ((n : ℝ) * n + n - 2) = Real.sqrt ((n + 1 + 1) * (n - 1)) := by
        congr 1
        ring
      rw [hs, hs2]
      have h2 : (0 : ℝ) < Real.sqrt 2 := by positivity
      field_simp
    · have k1 : kf k = Real.sqrt 2 := by simp [kf, hk0]
      have k2 : kf (k + 1) = Real.sqrt 2 := by simp [kf]
      have k3 : kf (k + 2) = Real.sqrt 2 := by simp [kf]
      rw [k1, k2, k3] at hr
      have h2 : (0 : ℝ) < Real.sqrt 2 := by positivity
      have hr2 : dS c s n (k + 1) = 1 / 2 * (Real.sqrt ((n + k + 1) * (n - k)) * S c s n k
          - Real.sqrt ((n + (k + 1) + 1) * (n - (k + 1))) * S c s n (k + 2)) := by
        apply mul_left_cancel₀ h2.ne'
        rw [hr]
        field_simp
      rw [hr2]
      by_cases hkn : k + 1 = n
      · subst hkn
        rw [dn, show k + 1 - 1 = k by omega, fin_val nmax c s (k + 1) k h1 (by omega) hn]
        have : (((k + 1 : ℕ) : ℝ) - (k + 1)) = 0 := by push_cast; ring
        rw [this]
        rw [S_eq_zero c s (k + 1) (k + 2) (by omega)]
        have hs : Real.sqrt (2 * ((k + 1 : ℕ) : ℝ)) = Real.sqrt ((((k + 1 : ℕ) : ℝ) + k + 1) * (((k + 1 : ℕ) : ℝ) - k)) := by
          congr 1
          push_cast
          ring
        rw [hs]
        ring
      · have dm := fin_eq nmax c s _ (mem_deriv nmax c s hn2 hn (a := derivStep n (k + 1)) (by
          simp only [derivBlock, List.mem_append, List.mem_map, mem_pyRange]
          exact Or.inl (Or.inr ⟨k + 1, ⟨by omega, by omega⟩, rfl⟩)))
        simp only [derivStep, Expr.eval] at dm
        rw [dm, show k + 1 - 1 = k by omega, show k + 1 + 1 = k + 2 by ring,
          fin_val nmax c s n k h1 (by omega) hn, fin_val nmax c s n (k + 2) h1 (by omega) hn]
        have hs : Real.sqrt (((n : ℝ) + ((k + 1 : ℕ) : ℝ)) * ((n : ℝ) - ((k + 1 : ℕ) : ℝ) + 1)) =
            Real.sqrt ((n + k + 1) * (n - k)) := by
          congr 1
          push_cast
          ring
        rw [hs]
        push_cast
        norm_num

end table

end ChaosMagPy.Legendre
