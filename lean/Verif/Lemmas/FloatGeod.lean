import Verif.Model.FloatGeod
import Verif.Spec.FloatTies
import Verif.Lemmas.Float
/-!
# Exact evaluation of single operations in double precision
-/
namespace ChaosMagPy.FloatGeod
open ChaosMagPy.Spec ChaosMagPy.Float

variable (R : Rounding)

/-- The double nearest to `x` is `t = m 2^e`, if `x` is within half a unit in the last place. -/
theorem rnd_val {x t : ℝ} (m e k : ℤ) (ht : t = m * (2 : ℝ) ^ e) (hm : |m| ≤ 2 ^ 53) (h1 : -1074 ≤ e) (h2 : e < 971) (hk : (2 : ℝ) ^ k < |t|)
    (hb : |x| ≤ 2 ^ 200) (hx : |x - t| < (2 : ℝ) ^ (k - 53)) : R x = t :=
  rnd_eq R (ht ▸ double_of hm h1 h2) hk (hb.trans (pow_le_pow_right₀ (by norm_num) (by norm_num))) hx

/-- The same for square roots. -/
theorem rnd_root {q t : ℝ} (m e k : ℤ) (ht : t = m * (2 : ℝ) ^ e) (hm : |m| ≤ 2 ^ 53) (h1 : -1074 ≤ e) (h2 : e < 971) (hk : (2 : ℝ) ^ k < t)
    (hb : t ≤ 2 ^ 100) (hk2 : (2 : ℝ) ^ (k - 53) < t) (hk3 : (2 : ℝ) ^ (k - 53) ≤ 1) (hx1 : (t - (2 : ℝ) ^ (k - 53)) ^ 2 < q) (hx2 : q < (t + (2 : ℝ) ^ (k - 53)) ^ 2) :
    R (Real.sqrt q) = t := by
  have hp : (0 : ℝ) < (2 : ℝ) ^ (k - 53) := by positivity
  have hk0 : (0 : ℝ) < (2 : ℝ) ^ k := by positivity
  have ht0 : 0 < t := hk0.trans hk
  have a1 : t - (2 : ℝ) ^ (k - 53) < Real.sqrt q := Real.lt_sqrt_of_sq_lt hx1
  have a2 : Real.sqrt q < t + (2 : ℝ) ^ (k - 53) := (Real.sqrt_lt' (by linarith)).2 hx2
  refine rnd_eq R (ht ▸ double_of hm h1 h2) (by rw [abs_of_pos ht0]; exact hk) ?_ (by rw [abs_lt]; constructor <;> linarith)
  rw [abs_of_nonneg (Real.sqrt_nonneg q)]
  calc Real.sqrt q ≤ 2 ^ 100 + 1 := by linarith
    _ ≤ 2 ^ 101 := by norm_num
    _ ≤ 2 ^ 1000 := pow_le_pow_right₀ (by norm_num) (by norm_num)

end ChaosMagPy.FloatGeod
