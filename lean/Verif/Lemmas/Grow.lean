import Verif.Lemmas.Near
import Verif.Lemmas.FloatSine
/-!
# Error bounds that grow by a constant factor with every operation
-/
namespace ChaosMagPy.Float
open ChaosMagPy.Spec ChaosMagPy.FloatLegendre

/-- Factor `w` per operation, at most `K` operations. -/
structure Grow (w : ℝ) (K : ℕ) : Prop where
  ge : 1 + 2⁻¹ ^ 51 ≤ w
  le : w ^ K ≤ 2

/-- `x` is computed for `y`; `A` bounds the sum of the absolute values of the terms, and there were `k` operations. -/
def Nr (w : ℝ) (k : ℕ) (x y A : ℝ) : Prop := Near x y A (w ^ k * A)

section
variable {w : ℝ} {K : ℕ} (g : Grow w K)
include g

theorem Grow.one_le : 1 ≤ w := le_trans (by norm_num) g.ge
theorem Grow.pos : 0 < w := lt_of_lt_of_le one_pos g.one_le
theorem Grow.pow_one_le (k : ℕ) : 1 ≤ w ^ k := one_le_pow₀ g.one_le
theorem Grow.pow_le {k : ℕ} (h : k ≤ K) : w ^ k ≤ 2 := (pow_le_pow_right₀ g.one_le h).trans g.le

theorem Grow.exact {x : ℝ} (k : ℕ) : Nr w k x x |x| :=
  ⟨by
    rw [sub_self, abs_zero]
    nlinarith [g.pow_one_le k, abs_nonneg x], le_rfl⟩

theorem Grow.mono {j k : ℕ} {x y A : ℝ} (h : Nr w j x y A) (hk : j ≤ k) : Nr w k x y A :=
  Near.mono h (mul_le_mul_of_nonneg_right (pow_le_pow_right₀ g.one_le hk) h.nonneg.1)

theorem Grow.enlarge {k : ℕ} {x y A B : ℝ} (h : Nr w k x y A) (hB : A ≤ B) : Nr w k x y B :=
  ⟨by
    have := h.err
    have h1 := g.pow_one_le k
    nlinarith, h.bound.trans hB⟩

theorem Grow.mul {j k : ℕ} {x y A x' y' A' : ℝ} (h : Nr w j x y A) (h' : Nr w k x' y' A') : Nr w (j + k) (x * x') (y * y') (A * A') := by
  have := Near.mul h h'
  unfold Nr
  rwa [pow_add, show w ^ j * w ^ k * (A * A') = w ^ j * A * (w ^ k * A') by ring]

theorem Grow.add {k : ℕ} {x y A x' y' A' : ℝ} (h : Nr w k x y A) (h' : Nr w k x' y' A') : Nr w k (x + x') (y + y') (A + A') := by
  have := Near.add h h'
  unfold Nr
  rwa [mul_add]

theorem Grow.neg {k : ℕ} {x y A : ℝ} (h : Nr w k x y A) : Nr w k (-x) (-y) A :=
  ⟨by
    have := h.err
    rwa [neg_sub_neg, abs_sub_comm], by rw [abs_neg]; exact h.bound⟩

theorem Grow.sub {k : ℕ} {x y A x' y' A' : ℝ} (h : Nr w k x y A) (h' : Nr w k x' y' A') : Nr w k (x - x') (y - y') (A + A') := by
  rw [sub_eq_add_neg, sub_eq_add_neg]
  exact g.add h (g.neg h')

/-- A relative error of at most `w - 1`. -/
theorem Grow.of_rel {x y : ℝ} (h : |x - y| ≤ (w - 1) * |y|) : Nr w 1 x y |y| :=
  ⟨by rw [pow_one]; linarith, le_rfl⟩

theorem Grow.of_err {x y A : ℝ} (h : |x - y| ≤ (w - 1) * A) (hy : |y| ≤ A) : Nr w 1 x y A :=
  ⟨by rw [pow_one]; linarith, hy⟩

theorem Grow.rnd (R : Rounding) {k : ℕ} {x y A : ℝ} (h : Nr w k x y A) (hk : k ≤ K) (h1 : (2 : ℝ)⁻¹ ^ 900 ≤ A) (h2 : A ≤ 2 ^ 990) :
    Nr w (k + 1) (R x) y A := by
  have hp : w ^ k * A ≤ 2 ^ 1000 := by
    have h3 : w ^ k * A ≤ 2 * 2 ^ 990 := mul_le_mul (g.pow_le hk) h2 h.nonneg.1 (by norm_num)
    refine h3.trans ?_
    rw [← pow_succ']
    exact pow_le_pow_right₀ (by norm_num) (by norm_num)
  refine Near.mono (Near.rnd R h hp) ?_
  have ht : tiny ≤ 2⁻¹ ^ 154 * A := by
    refine le_trans ?_ (mul_le_mul_of_nonneg_left h1 (by positivity))
    unfold tiny
    rw [← pow_add, inv_pow, show (-1054 : ℤ) = -((1054 : ℕ) : ℤ) by norm_num, zpow_neg, zpow_natCast]
  have h3 : A ≤ w ^ k * A := by
    have := mul_le_mul_of_nonneg_right (g.pow_one_le k) h.nonneg.1
    linarith
  have h4 : 0 ≤ w ^ k * A := h.nonneg.1.trans h3
  have h5 : uu + 2⁻¹ ^ 154 ≤ w - 1 := by
    have := g.ge
    have e : uu = 2⁻¹ ^ 53 := by unfold uu; norm_num
    rw [e]
    refine le_trans ?_ (le_sub_iff_add_le'.2 this)
    norm_num
  have h6 : (2 : ℝ)⁻¹ ^ 154 * A ≤ 2⁻¹ ^ 154 * (w ^ k * A) := mul_le_mul_of_nonneg_left h3 (by positivity)
  have h7 := mul_le_mul_of_nonneg_right h5 h4
  rw [show w ^ (k + 1) * A = w * (w ^ k * A) by rw [pow_succ]; ring]
  generalize w ^ k * A = P at *
  generalize (2 : ℝ)⁻¹ ^ 154 = e at *
  linarith

/-- The reciprocal of a positive number with a relative error. -/
theorem Grow.inv {k : ℕ} {x y : ℝ} (hy : 0 < y) (h : Nr w k x y y) (hk : k ≤ K) (hs : w ^ k ≤ 3 / 2) : 0 < x ∧ Nr w (3 * k) x⁻¹ y⁻¹ y⁻¹ := by
  have he := h.err
  have h1 := g.pow_one_le k
  have hx : (2 - w ^ k) * y ≤ x := by
    have := (abs_le.1 he).1
    linarith
  have hx0 : 0 < x := lt_of_lt_of_le (mul_pos (by linarith) hy) hx
  refine ⟨hx0, ?_, ?_⟩
  · have e : x⁻¹ - y⁻¹ = (y - x) * (x⁻¹ * y⁻¹) := by field_simp
    rw [e, abs_mul, abs_of_pos (mul_pos (inv_pos.2 hx0) (inv_pos.2 hy)), abs_sub_comm]
    have h2 : |x - y| * (x⁻¹ * y⁻¹) ≤ (w ^ k * y - y) * (x⁻¹ * y⁻¹) := mul_le_mul_of_nonneg_right he (by positivity)
    refine h2.trans ?_
    have e2 : (w ^ k * y - y) * (x⁻¹ * y⁻¹) = (w ^ k - 1) * x⁻¹ := by field_simp
    rw [e2, pow_mul']
    set p := w ^ k
    have h3 : x⁻¹ ≤ ((2 - p) * y)⁻¹ := inv_anti₀ (mul_pos (by linarith) hy) hx
    have h4 : (p - 1) * x⁻¹ ≤ (p - 1) * ((2 - p) * y)⁻¹ := mul_le_mul_of_nonneg_left h3 (by linarith)
    refine h4.trans ?_
    rw [mul_inv, ← mul_assoc, show p ^ 3 * y⁻¹ - y⁻¹ = (p ^ 3 - 1) * y⁻¹ by ring]
    refine mul_le_mul_of_nonneg_right ?_ (inv_pos.2 hy).le
    rw [mul_inv_le_iff₀ (by linarith)]
    nlinarith [mul_nonneg (sub_nonneg.2 h1) (sub_nonneg.2 hs), mul_nonneg (mul_nonneg (sub_nonneg.2 h1) (sub_nonneg.2 h1)) (sub_nonneg.2 hs)]
  · rw [abs_of_pos (inv_pos.2 hy)]

theorem Grow.err {k : ℕ} {x y A : ℝ} (h : Nr w k x y A) : |x - y| ≤ (w ^ k - 1) * A := by
  have := Near.err h
  linarith

end

/-- `(1+ε)^k - 1 ≤ 2kε` if the right-hand side is at most 1. -/
theorem pow_growth {ε : ℝ} (h0 : 0 ≤ ε) (k : ℕ) (hk : 2 * (k * ε) ≤ 1) : (1 + ε) ^ k ≤ 1 + 2 * (k * ε) := by
  induction k with
  | zero => simp
  | succ k ih =>
    push_cast at hk ⊢
    have hk0 : (0 : ℝ) ≤ k := by positivity
    have := ih (by nlinarith)
    rw [pow_succ]
    have h2 := mul_le_mul_of_nonneg_right this (by linarith : 0 ≤ 1 + ε)
    nlinarith [mul_nonneg hk0 h0, mul_nonneg (mul_nonneg hk0 h0) h0]

end ChaosMagPy.Float
