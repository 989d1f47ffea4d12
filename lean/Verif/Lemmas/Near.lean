import Verif.Lemmas.Float
import Mathlib.Algebra.BigOperators.Intervals
/-!
# Running error bounds for computations in double precision
-/
namespace ChaosMagPy.Float
open ChaosMagPy.Spec

/-- Unit roundoff. -/
noncomputable def uu : ℝ := (2 : ℝ) ^ (-53 : ℤ)
/-- Bound of the error by underflow. -/
noncomputable def tiny : ℝ := (2 : ℝ) ^ (-1054 : ℤ)

theorem uu_pos : 0 < uu := by unfold uu; positivity
theorem tiny_pos : 0 < tiny := by unfold tiny; positivity

variable (R : Rounding)

/-- Relative error of a rounding, with the absolute error for very small numbers. -/
theorem rnd_rel {x : ℝ} (h : |x| ≤ 2 ^ 1000) : |R x - x| ≤ uu * |x| + tiny := by
  by_cases hs : |x| ≤ (2 : ℝ) ^ (-1000 : ℤ)
  · have := rnd_err R hs (by norm_num) (by norm_num)
    have hu : 0 ≤ uu * |x| := mul_nonneg uu_pos.le (abs_nonneg _)
    calc |R x - x| ≤ (2 : ℝ) ^ (-1000 - 54 : ℤ) := this
      _ = tiny := by unfold tiny; norm_num
      _ ≤ uu * |x| + tiny := by linarith
  · rw [not_le] at hs
    obtain ⟨k, hk1, hk2⟩ := exists_mem_Ioc_zpow (y := (2 : ℝ)) (lt_trans (by positivity) hs) (by norm_num)
    have h1 : -1000 ≤ k + 1 := by
      by_contra hc
      have : (2 : ℝ) ^ (k + 1) ≤ (2 : ℝ) ^ (-1000 : ℤ) := zpow_le_zpow_right₀ (by norm_num) (by omega)
      linarith
    have h2 : k + 1 ≤ 1000 := by
      by_contra hc
      have : (2 : ℝ) ^ (1000 : ℤ) ≤ (2 : ℝ) ^ k := zpow_le_zpow_right₀ (by norm_num) (by omega)
      rw [show (2 : ℝ) ^ (1000 : ℤ) = 2 ^ 1000 from rfl] at this
      linarith
    have := rnd_err R hk2 (by omega) h2
    have ht := tiny_pos
    calc |R x - x| ≤ (2 : ℝ) ^ (k + 1 - 54) := this
      _ = uu * (2 : ℝ) ^ k := by unfold uu; rw [← zpow_add₀ (by norm_num)]; congr 1; ring
      _ ≤ uu * |x| := mul_le_mul_of_nonneg_left hk1.le uu_pos.le
      _ ≤ uu * |x| + tiny := by linarith

/-- `x` is computed for the exact value `y`; `A` bounds the sum of the absolute values of the terms of `y`, `P - A` the error. -/
structure Near (x y A P : ℝ) : Prop where
  err : |x - y| ≤ P - A
  bound : |y| ≤ A

theorem Near.abs_le {x y A P : ℝ} (h : Near x y A P) : |x| ≤ P := by
  have := abs_add_le (x - y) y
  rw [sub_add_cancel] at this
  linarith [h.err, h.bound]

theorem Near.nonneg {x y A P : ℝ} (h : Near x y A P) : 0 ≤ A ∧ A ≤ P :=
  ⟨(abs_nonneg y).trans h.bound, by linarith [h.err, abs_nonneg (x - y)]⟩

theorem Near.exact (x : ℝ) : Near x x |x| |x| := ⟨by simp, le_rfl⟩

theorem Near.mono {x y A P P' : ℝ} (h : Near x y A P) (hP : P ≤ P') : Near x y A P' := ⟨by linarith [h.err], h.bound⟩

theorem Near.mul {x y A P x' y' A' P' : ℝ} (h : Near x y A P) (h' : Near x' y' A' P') : Near (x * x') (y * y') (A * A') (P * P') := by
  constructor
  · have e : x * x' - y * y' = (x - y) * x' + y * (x' - y') := by ring
    rw [e]
    refine (abs_add_le _ _).trans ?_
    rw [abs_mul, abs_mul]
    have h1 : |x - y| * |x'| ≤ (P - A) * P' := mul_le_mul h.err h'.abs_le (abs_nonneg _) (by linarith [h.nonneg.2])
    have h2 : |y| * |x' - y'| ≤ A * (P' - A') := mul_le_mul h.bound h'.err (abs_nonneg _) h.nonneg.1
    linarith
  · rw [abs_mul]
    exact mul_le_mul h.bound h'.bound (abs_nonneg _) h.nonneg.1

theorem Near.add {x y A P x' y' A' P' : ℝ} (h : Near x y A P) (h' : Near x' y' A' P') : Near (x + x') (y + y') (A + A') (P + P') := by
  constructor
  · rw [add_sub_add_comm]
    refine (abs_add_le _ _).trans ?_
    linarith [h.err, h'.err]
  · exact (abs_add_le _ _).trans (add_le_add h.bound h'.bound)

theorem Near.rnd {x y A P : ℝ} (h : Near x y A P) (hP : P ≤ 2 ^ 1000) : Near (R x) y A ((1 + uu) * P + tiny) := by
  constructor
  · have h1 := rnd_rel R (h.abs_le.trans hP)
    have h2 : uu * |x| ≤ uu * P := mul_le_mul_of_nonneg_left h.abs_le uu_pos.le
    have := abs_sub_le (R x) x y
    have e : (1 + uu) * P + tiny - A = (uu * P + tiny) + (P - A) := by ring
    rw [e]
    linarith [h.err]
  · exact h.bound

end ChaosMagPy.Float
