import Verif.Lemmas.FloatTable
import Mathlib.Data.Nat.Choose.Central
import Mathlib.Data.Nat.Choose.Sum
/-!
# A majorant of the recursion of the Legendre functions
-/
namespace ChaosMagPy.FloatLegendre
open Real

/-- Majorant of the function of degree `m + k` and order `m` for arguments in `[-1, 1]` and of all sums in its recursion. -/
noncomputable def maj (m : ℕ) : ℕ → ℝ
  | 0 => 1
  | k + 1 => maj m k * (5 / 2 * (m + k + 1) / √((m + k + 1 + m) * (m + k + 1 - m)))

theorem rad_pos (m k : ℕ) : (0 : ℝ) < (m + k + 1 + m) * (m + k + 1 - m) := by
  rw [show (m + k + 1 + m : ℝ) * (m + k + 1 - m) = (m + k + 1 + m) * (k + 1) by ring]
  positivity

theorem root_le (m k : ℕ) : √((m + k + 1 + m : ℝ) * (m + k + 1 - m)) ≤ m + k + 1 := by
  rw [Real.sqrt_le_left (by positivity)]
  nlinarith [sq_nonneg (m : ℝ)]

theorem maj_one_le (m k : ℕ) : 1 ≤ maj m k := by
  induction k with
  | zero => exact le_rfl
  | succ k ih =>
    unfold maj
    have h1 := root_le m k
    have h0 := Real.sqrt_pos.2 (rad_pos m k)
    have : 1 ≤ 5 / 2 * (m + k + 1 : ℝ) / √((m + k + 1 + m) * (m + k + 1 - m)) := by
      rw [le_div_iff₀ h0]
      nlinarith
    nlinarith

theorem maj_pos (m k : ℕ) : 0 < maj m k := lt_of_lt_of_le one_pos (maj_one_le m k)

/-- The recursion. -/
theorem maj_rec (m k : ℕ) :
    ((2 * (m + k : ℝ) + 3) * maj m (k + 1) + √((m + k + 1 + m) * (m + k + 1 - m)) * maj m k) * (√((m + k + 2 + m) * (m + k + 2 - m)))⁻¹
      ≤ maj m (k + 2) := by
  have h1 := Real.sqrt_pos.2 (rad_pos m k)
  have hs := Real.mul_self_sqrt (rad_pos m k).le
  have e2 : maj m (k + 2) = maj m (k + 1) * (5 / 2 * (m + k + 2)) * (√((m + k + 2 + m) * (m + k + 2 - m)))⁻¹ := by
    show maj m (k + 1) * _ = _
    push_cast
    rw [show (m + (k + 1) + 1 : ℝ) = m + k + 2 by ring, div_eq_mul_inv]
    ring
  rw [e2]
  refine mul_le_mul_of_nonneg_right ?_ (by positivity)
  have e1 : maj m (k + 1) = maj m k * (5 / 2 * (m + k + 1) / √((m + k + 1 + m) * (m + k + 1 - m))) := rfl
  set A := maj m k
  have hA : 0 < A := maj_pos m k
  set q := √((m + k + 1 + m : ℝ) * (m + k + 1 - m))
  have h3 : q * A ≤ maj m (k + 1) * (2 / 5 * (m + k + 1)) := by
    rw [e1]
    have : A * (5 / 2 * (m + k + 1 : ℝ) / q) * (2 / 5 * (m + k + 1)) = A * ((m + k + 1) ^ 2 / q) := by
      field_simp
    rw [this, mul_comm]
    refine mul_le_mul_of_nonneg_left ?_ hA.le
    rw [le_div_iff₀ h1]
    nlinarith [sq_nonneg (m : ℝ)]
  have h4 := maj_pos m (k + 1)
  have : (0 : ℝ) ≤ m + k := by positivity
  nlinarith

/-- The first step. -/
theorem maj_sub (m : ℕ) : √(2 * (m : ℝ) + 1) ≤ maj m 1 := by
  show _ ≤ 1 * _
  rw [one_mul]
  have e : ((m : ℝ) + (0 : ℕ) + 1 + m) * (m + (0 : ℕ) + 1 - m) = 2 * m + 1 := by push_cast; ring
  rw [e]
  have h0 : 0 < √(2 * (m : ℝ) + 1) := Real.sqrt_pos.2 (by positivity)
  rw [le_div_iff₀ h0, Real.mul_self_sqrt (by positivity)]
  push_cast
  nlinarith [(by positivity : (0 : ℝ) ≤ m)]

theorem maj_sq (m k : ℕ) : maj m k ^ 2 * ((k.factorial : ℝ) * (2 * m + k).factorial * (m.factorial : ℝ) ^ 2) =
    (25 / 4) ^ k * ((m + k).factorial : ℝ) ^ 2 * (2 * m).factorial := by
  induction k with
  | zero => simp [maj]; ring
  | succ k ih =>
    have hs := Real.sq_sqrt (rad_pos m k).le
    have h1 := Real.sqrt_pos.2 (rad_pos m k)
    have e1 : maj m (k + 1) = maj m k * (5 / 2 * (m + k + 1) / √((m + k + 1 + m) * (m + k + 1 - m))) := rfl
    rw [e1, mul_pow, div_pow, hs, show 2 * m + (k + 1) = (2 * m + k) + 1 by ring, show m + (k + 1) = (m + k) + 1 by ring, Nat.factorial_succ k,
      Nat.factorial_succ (2 * m + k), Nat.factorial_succ (m + k)]
    push_cast
    have h2 := rad_pos m k
    rw [show (m + k + 1 + m : ℝ) * (m + k + 1 - m) = (2 * m + k + 1) * (k + 1) by ring] at h2 ⊢
    field_simp
    rw [pow_succ]
    linear_combination 25 * ih

theorem maj_le (m k : ℕ) : maj m k ≤ (5 / 2) ^ (m + k) := by
  have h := maj_sq m k
  have h1 : ((m + k).factorial : ℝ) ^ 2 ≤ k.factorial * (2 * m + k).factorial := by
    have hc := Nat.choose_le_centralBinom k (m + k)
    rw [Nat.centralBinom] at hc
    have a1 := Nat.choose_mul_factorial_mul_factorial (n := 2 * (m + k)) (k := k) (by omega)
    have a2 := Nat.choose_mul_factorial_mul_factorial (n := 2 * (m + k)) (k := m + k) (by omega)
    rw [show 2 * (m + k) - k = 2 * m + k by omega] at a1
    rw [show 2 * (m + k) - (m + k) = m + k by omega] at a2
    have hpos : 0 < (2 * (m + k)).choose k := Nat.choose_pos (by omega)
    have : (m + k).factorial ^ 2 ≤ k.factorial * (2 * m + k).factorial := by
      by_contra hcon
      push Not at hcon
      have b1 : (2 * (m + k)).choose k * (k.factorial * (2 * m + k).factorial) < (2 * (m + k)).choose k * (m + k).factorial ^ 2 :=
        Nat.mul_lt_mul_of_pos_left hcon hpos
      have b2 : (2 * (m + k)).choose k * (m + k).factorial ^ 2 ≤ (2 * (m + k)).choose (m + k) * (m + k).factorial ^ 2 :=
        Nat.mul_le_mul_right _ hc
      rw [← mul_assoc, a1] at b1
      rw [show (2 * (m + k)).choose (m + k) * (m + k).factorial ^ 2 = (2 * (m + k)).choose (m + k) * (m + k).factorial * (m + k).factorial by ring, a2] at b2
      omega
    exact_mod_cast this
  have h2 : ((2 * m).factorial : ℝ) ≤ 4 ^ m * (m.factorial : ℝ) ^ 2 := by
    have a2 := Nat.choose_mul_factorial_mul_factorial (n := 2 * m) (k := m) (by omega)
    rw [show 2 * m - m = m by omega] at a2
    have a3 := Nat.choose_le_two_pow (2 * m) m
    have : (2 * m).factorial ≤ 2 ^ (2 * m) * m.factorial ^ 2 := by
      rw [← a2]
      nlinarith [Nat.mul_le_mul_right (m.factorial * m.factorial) a3]
    rw [pow_mul] at this
    norm_num at this
    exact_mod_cast this
  have h3 : maj m k ^ 2 ≤ ((5 / 2) ^ (m + k)) ^ 2 := by
    have hp : (0 : ℝ) < k.factorial * (2 * m + k).factorial * (m.factorial : ℝ) ^ 2 := by positivity
    have h4 : maj m k ^ 2 * ((k.factorial : ℝ) * (2 * m + k).factorial * (m.factorial : ℝ) ^ 2) ≤
        ((25 / 4) ^ k * 4 ^ m) * ((k.factorial : ℝ) * (2 * m + k).factorial * (m.factorial : ℝ) ^ 2) := by
      rw [h]
      calc (25 / 4) ^ k * ((m + k).factorial : ℝ) ^ 2 * (2 * m).factorial
          ≤ (25 / 4) ^ k * (k.factorial * (2 * m + k).factorial) * (4 ^ m * (m.factorial : ℝ) ^ 2) := by gcongr
        _ = _ := by ring
    have h5 := le_of_mul_le_mul_right h4 hp
    refine h5.trans ?_
    rw [← pow_mul, mul_comm (m + k) 2, pow_mul, pow_add, mul_comm]
    norm_num
    gcongr
    norm_num
  exact (abs_le_of_sq_le_sq' h3 (by positivity)).2

end ChaosMagPy.FloatLegendre
