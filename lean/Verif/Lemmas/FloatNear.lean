import Verif.Lemmas.Float
import Mathlib.Analysis.SpecialFunctions.Pow.Real
/-!
# Relative errors of positive numbers, with ranges that exclude underflow and overflow
-/
namespace ChaosMagPy.FloatNear
open ChaosMagPy.Spec ChaosMagPy.Float

variable (R : Rounding)

/-- `x'` approximates `x` in `[2^l, 2^h]` with a relative error of at most `n` times `2^-52`. -/
structure Near (n : ℝ) (l h : ℤ) (x' x : ℝ) : Prop where
  lo : (2 : ℝ) ^ l ≤ x
  hi : x ≤ (2 : ℝ) ^ h
  err : |x' - x| ≤ n / 2 ^ 52 * x

variable {R} {n n1 n2 m : ℝ} {l l1 l2 h h1 h2 : ℤ} {x' x y' y : ℝ}

theorem Near.pos (hx : Near n l h x' x) : 0 < x := lt_of_lt_of_le (by positivity) hx.lo

theorem Near.n0 (hx : Near n l h x' x) : 0 ≤ n := by
  have h1 := (abs_nonneg _).trans hx.err
  have h2 := hx.pos
  by_contra hn
  rw [not_le] at hn
  have : n / 2 ^ 52 * x < 0 := mul_neg_of_neg_of_pos (by linarith) h2
  linarith

theorem Near.bounds (hx : Near n l h x' x) : (1 - n / 2 ^ 52) * x ≤ x' ∧ x' ≤ (1 + n / 2 ^ 52) * x := by
  have := abs_le.1 hx.err
  constructor <;> linarith [this.1, this.2]

theorem Near.pos' (hx : Near n l h x' x) (hn : n ≤ 2 ^ 20) : x / 2 ≤ x' ∧ x' ≤ 2 * x := by
  have h0 := hx.pos
  obtain ⟨a, b⟩ := hx.bounds
  have hn' : n / 2 ^ 52 ≤ 1 / 2 := by
    rw [div_le_iff₀ (by norm_num)]
    exact hn.trans (by norm_num)
  constructor
  · refine le_trans ?_ a
    rw [div_eq_inv_mul]
    exact mul_le_mul_of_nonneg_right (by linarith) h0.le
  · exact b.trans (mul_le_mul_of_nonneg_right (by linarith) h0.le)

theorem near_mk (h1 : (2 : ℝ) ^ l ≤ x) (h2 : x ≤ (2 : ℝ) ^ h) (h3 : |x' - x| ≤ n / 2 ^ 52 * x) : Near n l h x' x := ⟨h1, h2, h3⟩

/-- The relative error of one rounding. -/
theorem rnd_rel {t : ℝ} (h1 : (2 : ℝ) ^ (-950 : ℤ) ≤ t) (h2 : t ≤ (2 : ℝ) ^ (950 : ℤ)) : |R t - t| ≤ 1 / 2 / 2 ^ 52 * t := by
  have h0 : 0 < t := lt_of_lt_of_le (by positivity) h1
  obtain ⟨k, ha, hb⟩ := exists_mem_Ico_zpow h0 (by norm_num : (1 : ℝ) < 2)
  have hk1 : -951 < k := by
    by_contra hk
    have : (2 : ℝ) ^ (k + 1) ≤ (2 : ℝ) ^ (-950 : ℤ) := zpow_le_zpow_right₀ (by norm_num) (by omega)
    linarith
  have hk2 : k ≤ 950 := by
    by_contra hk
    have : (2 : ℝ) ^ (951 : ℤ) ≤ (2 : ℝ) ^ k := zpow_le_zpow_right₀ (by norm_num) (by omega)
    have h' : (2 : ℝ) ^ (950 : ℤ) < (2 : ℝ) ^ (951 : ℤ) := zpow_lt_zpow_right₀ (by norm_num) (by norm_num)
    exact absurd ((h'.trans_le this).trans_le (ha.trans h2)) (lt_irrefl _)
  have h3 := rnd_err R (x := t) (k := k + 1) (by rw [abs_of_pos h0]; exact hb.le) (by omega) (by omega)
  refine h3.trans ?_
  rw [show k + 1 - 54 = -53 + k by ring, zpow_add₀ (by norm_num)]
  have e : (2 : ℝ) ^ (-53 : ℤ) = 1 / 2 / 2 ^ 52 := by norm_num
  rw [e]
  exact mul_le_mul_of_nonneg_left ha (by norm_num)

theorem near_round {t : ℝ} (ht : |t - x| ≤ m / 2 ^ 52 * x) (hl : (2 : ℝ) ^ l ≤ x) (hh : x ≤ (2 : ℝ) ^ h) (c : m + 3 / 4 ≤ n ∧ n ≤ 2 ^ 20 ∧ -900 ≤ l ∧ h ≤ 900) :
    Near n l h (R t) x := by
  obtain ⟨c1, c2, c3, c4⟩ := c
  have h0 : 0 < x := lt_of_lt_of_le (by positivity) hl
  have hm : m / 2 ^ 52 ≤ 1 / 2 ^ 32 := by
    rw [div_le_div_iff₀ (by norm_num) (by norm_num)]
    have : m ≤ 2 ^ 20 := by linarith
    calc m * 2 ^ 32 ≤ 2 ^ 20 * 2 ^ 32 := mul_le_mul_of_nonneg_right this (by norm_num)
      _ = 1 * 2 ^ 52 := by norm_num
  have ht' := abs_le.1 (ht.trans (mul_le_mul_of_nonneg_right hm h0.le))
  have t1 : x / 2 ≤ t := by linarith [ht'.1]
  have t2 : t ≤ 5 / 4 * x := by linarith [ht'.2]
  have r1 : (2 : ℝ) ^ (-950 : ℤ) ≤ t := by
    refine le_trans ?_ t1
    have e : (2 : ℝ) ^ (-950 : ℤ) ≤ (2 : ℝ) ^ (l - 1) := zpow_le_zpow_right₀ (by norm_num) (by omega)
    rw [zpow_sub_one₀ (by norm_num)] at e
    linarith
  have r2 : t ≤ (2 : ℝ) ^ (950 : ℤ) := by
    have e : (2 : ℝ) ^ (h + 1) ≤ (2 : ℝ) ^ (950 : ℤ) := zpow_le_zpow_right₀ (by norm_num) (by omega)
    refine le_trans ?_ e
    rw [zpow_add_one₀ (by norm_num)]
    linarith
  refine ⟨hl, hh, ?_⟩
  have hr := rnd_rel (R := R) r1 r2
  calc |R t - x| = |(R t - t) + (t - x)| := by ring_nf
    _ ≤ |R t - t| + |t - x| := abs_add_le _ _
    _ ≤ 1 / 2 / 2 ^ 52 * (5 / 4 * x) + m / 2 ^ 52 * x := add_le_add (hr.trans (mul_le_mul_of_nonneg_left t2 (by norm_num))) ht
    _ ≤ (m + 3 / 4) / 2 ^ 52 * x := by
        have : 1 / 2 / 2 ^ 52 * (5 / 4 * x) ≤ 3 / 4 / 2 ^ 52 * x := by linarith
        calc _ ≤ 3 / 4 / 2 ^ 52 * x + m / 2 ^ 52 * x := by linarith
          _ = _ := by ring
    _ ≤ n / 2 ^ 52 * x := mul_le_mul_of_nonneg_right (div_le_div_of_nonneg_right c1 (by norm_num)) h0.le

theorem near_mul (hx : Near n1 l1 h1 x' x) (hy : Near n2 l2 h2 y' y)
    (c : n1 + n2 + 1 ≤ n ∧ n ≤ 2 ^ 20 ∧ -900 ≤ l ∧ h ≤ 900 ∧ l ≤ l1 + l2 ∧ h1 + h2 ≤ h) : Near n l h (R (x' * y')) (x * y) := by
  obtain ⟨c1, c2, c3, c4, c5, c6⟩ := c
  have hx0 := hx.pos; have hy0 := hy.pos; have n10 := hx.n0; have n20 := hy.n0
  refine near_round (m := n1 + n2 + 1 / 4) ?_ ?_ ?_ ⟨by linarith, c2, c3, c4⟩
  · have e : x' * y' - x * y = (x' - x) * y + x * (y' - y) + (x' - x) * (y' - y) := by ring
    have a1 : |(x' - x) * y| ≤ n1 / 2 ^ 52 * (x * y) := by
      rw [abs_mul, abs_of_pos hy0, ← mul_assoc]
      exact mul_le_mul_of_nonneg_right hx.err hy0.le
    have a2 : |x * (y' - y)| ≤ n2 / 2 ^ 52 * (x * y) := by
      rw [abs_mul, abs_of_pos hx0]
      calc x * |y' - y| ≤ x * (n2 / 2 ^ 52 * y) := mul_le_mul_of_nonneg_left hy.err hx0.le
        _ = _ := by ring
    have a3 : |(x' - x) * (y' - y)| ≤ 1 / 4 / 2 ^ 52 * (x * y) := by
      rw [abs_mul]
      calc |x' - x| * |y' - y| ≤ (n1 / 2 ^ 52 * x) * (n2 / 2 ^ 52 * y) := mul_le_mul hx.err hy.err (abs_nonneg _) (by positivity)
        _ = (n1 * n2) / 2 ^ 52 / 2 ^ 52 * (x * y) := by ring
        _ ≤ (2 ^ 20 * 2 ^ 20) / 2 ^ 52 / 2 ^ 52 * (x * y) := by
            gcongr <;> linarith
        _ ≤ _ := mul_le_mul_of_nonneg_right (by norm_num) (by positivity)
    rw [e]
    calc _ ≤ |(x' - x) * y + x * (y' - y)| + |(x' - x) * (y' - y)| := abs_add_le _ _
      _ ≤ |(x' - x) * y| + |x * (y' - y)| + |(x' - x) * (y' - y)| := by linarith [abs_add_le ((x' - x) * y) (x * (y' - y))]
      _ ≤ n1 / 2 ^ 52 * (x * y) + n2 / 2 ^ 52 * (x * y) + 1 / 4 / 2 ^ 52 * (x * y) := by linarith
      _ = _ := by ring
  · calc (2 : ℝ) ^ l ≤ (2 : ℝ) ^ (l1 + l2) := zpow_le_zpow_right₀ (by norm_num) c5
      _ = (2 : ℝ) ^ l1 * (2 : ℝ) ^ l2 := zpow_add₀ (by norm_num) _ _
      _ ≤ x * y := mul_le_mul hx.lo hy.lo (by positivity) hx0.le
  · calc x * y ≤ (2 : ℝ) ^ h1 * (2 : ℝ) ^ h2 := mul_le_mul hx.hi hy.hi hy0.le (by positivity)
      _ = (2 : ℝ) ^ (h1 + h2) := (zpow_add₀ (by norm_num) _ _).symm
      _ ≤ (2 : ℝ) ^ h := zpow_le_zpow_right₀ (by norm_num) c6

theorem near_inv_aux (hy : Near n2 l2 h2 y' y) (hn : n2 ≤ 2 ^ 20) : |1 / y' - 1 / y| ≤ (n2 + 1 / 8) / 2 ^ 52 * (1 / y) ∧ 0 < y' := by
  have hy0 := hy.pos; have n20 := hy.n0
  have hp := hy.pos' hn
  have hy'0 : 0 < y' := by linarith [hp.1]
  refine ⟨?_, hy'0⟩
  rw [div_sub_div _ _ hy'0.ne' hy0.ne', abs_div, abs_of_pos (mul_pos hy'0 hy0), div_le_iff₀ (mul_pos hy'0 hy0)]
  have e : (n2 + 1 / 8) / 2 ^ 52 * (1 / y) * (y' * y) = (n2 + 1 / 8) / 2 ^ 52 * y' := by field_simp
  rw [e, one_mul, mul_one, abs_sub_comm]
  refine hy.err.trans ?_
  have hb := hy.bounds.1
  have h3 : n2 / 2 ^ 52 * y ≤ (n2 + 1 / 8) / 2 ^ 52 * ((1 - n2 / 2 ^ 52) * y) := by
    have : n2 ≤ (n2 + 1 / 8) * (1 - n2 / 2 ^ 52) := by
      have q : n2 / 2 ^ 52 ≤ 2 ^ 20 / 2 ^ 52 := div_le_div_of_nonneg_right hn (by norm_num)
      have q0 : 0 ≤ n2 / 2 ^ 52 := by positivity
      have q2 : (n2 + 1 / 8) * (n2 / 2 ^ 52) ≤ (2 ^ 20 + 1 / 8) * (2 ^ 20 / 2 ^ 52) := mul_le_mul (by linarith) q q0 (by norm_num)
      have q3 : ((2 : ℝ) ^ 20 + 1 / 8) * (2 ^ 20 / 2 ^ 52) ≤ 1 / 8 := by norm_num
      linarith
    calc n2 / 2 ^ 52 * y = n2 * (y / 2 ^ 52) := by ring
      _ ≤ (n2 + 1 / 8) * (1 - n2 / 2 ^ 52) * (y / 2 ^ 52) := mul_le_mul_of_nonneg_right this (by positivity)
      _ = _ := by ring
  exact h3.trans (mul_le_mul_of_nonneg_left hb (by positivity))

theorem near_div (hx : Near n1 l1 h1 x' x) (hy : Near n2 l2 h2 y' y)
    (c : n1 + n2 + 2 ≤ n ∧ n ≤ 2 ^ 20 ∧ -900 ≤ l ∧ h ≤ 900 ∧ l ≤ l1 - h2 ∧ h1 - l2 ≤ h) : y' ≠ 0 ∧ Near n l h (R (x' / y')) (x / y) := by
  obtain ⟨c1, c2, c3, c4, c5, c6⟩ := c
  have hx0 := hx.pos; have hy0 := hy.pos; have n10 := hx.n0; have n20 := hy.n0
  obtain ⟨hi, hy'0⟩ := near_inv_aux hy (by linarith)
  refine ⟨hy'0.ne', near_round (m := n1 + n2 + 1 / 2) ?_ ?_ ?_ ⟨by linarith, c2, c3, c4⟩⟩
  · set v := 1 / y with hv
    set v' := 1 / y' with hv'
    have hv0 : 0 < v := by positivity
    have e : x' / y' - x / y = (x' - x) * v + x * (v' - v) + (x' - x) * (v' - v) := by rw [hv, hv']; ring
    have a1 : |(x' - x) * v| ≤ n1 / 2 ^ 52 * (x * v) := by
      rw [abs_mul, abs_of_pos hv0, ← mul_assoc]
      exact mul_le_mul_of_nonneg_right hx.err hv0.le
    have a2 : |x * (v' - v)| ≤ (n2 + 1 / 8) / 2 ^ 52 * (x * v) := by
      rw [abs_mul, abs_of_pos hx0]
      calc x * |v' - v| ≤ x * ((n2 + 1 / 8) / 2 ^ 52 * v) := mul_le_mul_of_nonneg_left hi hx0.le
        _ = _ := by ring
    have a3 : |(x' - x) * (v' - v)| ≤ 1 / 4 / 2 ^ 52 * (x * v) := by
      rw [abs_mul]
      calc |x' - x| * |v' - v| ≤ (n1 / 2 ^ 52 * x) * ((n2 + 1 / 8) / 2 ^ 52 * v) := mul_le_mul hx.err hi (abs_nonneg _) (by positivity)
        _ = (n1 * (n2 + 1 / 8)) / 2 ^ 52 / 2 ^ 52 * (x * v) := by ring
        _ ≤ (2 ^ 20 * 2 ^ 20) / 2 ^ 52 / 2 ^ 52 * (x * v) := by
            gcongr <;> linarith
        _ ≤ _ := mul_le_mul_of_nonneg_right (by norm_num) (by positivity)
    rw [e]
    calc _ ≤ |(x' - x) * v + x * (v' - v)| + |(x' - x) * (v' - v)| := abs_add_le _ _
      _ ≤ |(x' - x) * v| + |x * (v' - v)| + |(x' - x) * (v' - v)| := by linarith [abs_add_le ((x' - x) * v) (x * (v' - v))]
      _ ≤ n1 / 2 ^ 52 * (x * v) + (n2 + 1 / 8) / 2 ^ 52 * (x * v) + 1 / 4 / 2 ^ 52 * (x * v) := by linarith
      _ ≤ (n1 + n2 + 1 / 2) / 2 ^ 52 * (x * v) := by
          have : 0 ≤ x * v := by positivity
          linarith
      _ = _ := by rw [hv]; ring
  · calc (2 : ℝ) ^ l ≤ (2 : ℝ) ^ (l1 - h2) := zpow_le_zpow_right₀ (by norm_num) c5
      _ = (2 : ℝ) ^ l1 / (2 : ℝ) ^ h2 := zpow_sub₀ (by norm_num) _ _
      _ ≤ x / y := div_le_div₀ hx0.le hx.lo hy0 hy.hi
  · calc x / y ≤ (2 : ℝ) ^ h1 / (2 : ℝ) ^ l2 := div_le_div₀ (by positivity) hx.hi (by positivity) hy.lo
      _ = (2 : ℝ) ^ (h1 - l2) := (zpow_sub₀ (by norm_num) _ _).symm
      _ ≤ (2 : ℝ) ^ h := zpow_le_zpow_right₀ (by norm_num) c6

theorem near_add (hx : Near n1 l1 h1 x' x) (hy : Near n2 l2 h2 y' y)
    (c : n1 + 1 ≤ n ∧ n2 + 1 ≤ n ∧ n ≤ 2 ^ 20 ∧ -900 ≤ l ∧ h ≤ 900 ∧ (l ≤ l1 ∨ l ≤ l2) ∧ h1 + 1 ≤ h ∧ h2 + 1 ≤ h) : Near n l h (R (x' + y')) (x + y) := by
  obtain ⟨c1, c2, c3, c4, c5, c6, c7, c8⟩ := c
  have hx0 := hx.pos; have hy0 := hy.pos
  refine near_round (m := n - 1) ?_ ?_ ?_ ⟨by linarith, c3, c4, c5⟩
  · have e : x' + y' - (x + y) = (x' - x) + (y' - y) := by ring
    rw [e]
    refine (abs_add_le _ _).trans ?_
    have a1 : n1 / 2 ^ 52 * x ≤ (n - 1) / 2 ^ 52 * x := mul_le_mul_of_nonneg_right (div_le_div_of_nonneg_right (by linarith) (by norm_num)) hx0.le
    have a2 : n2 / 2 ^ 52 * y ≤ (n - 1) / 2 ^ 52 * y := mul_le_mul_of_nonneg_right (div_le_div_of_nonneg_right (by linarith) (by norm_num)) hy0.le
    have := hx.err; have := hy.err
    rw [mul_add]
    linarith
  · rcases c6 with c6 | c6
    · have := zpow_le_zpow_right₀ (by norm_num : (1 : ℝ) ≤ 2) c6
      linarith [hx.lo]
    · have := zpow_le_zpow_right₀ (by norm_num : (1 : ℝ) ≤ 2) c6
      linarith [hy.lo]
  · have b1 := zpow_le_zpow_right₀ (by norm_num : (1 : ℝ) ≤ 2) c7
    have b2 := zpow_le_zpow_right₀ (by norm_num : (1 : ℝ) ≤ 2) c8
    rw [zpow_add_one₀ (by norm_num)] at b1 b2
    linarith [hx.hi, hy.hi]

theorem near_sub (hx : Near n1 l1 h1 x' x) (hy : Near n2 l2 h2 y' y) (hxy : y ≤ x / 2)
    (c : 2 * n1 + n2 + 1 ≤ n ∧ n ≤ 2 ^ 20 ∧ -900 ≤ l ∧ h ≤ 900 ∧ l ≤ l1 - 1 ∧ h1 ≤ h) : Near n l h (R (x' - y')) (x - y) := by
  obtain ⟨c1, c2, c3, c4, c5, c6⟩ := c
  have hx0 := hx.pos; have hy0 := hy.pos; have n10 := hx.n0; have n20 := hy.n0
  refine near_round (m := n - 1) ?_ ?_ ?_ ⟨by linarith, c2, c3, c4⟩
  · have e : x' - y' - (x - y) = (x' - x) - (y' - y) := by ring
    rw [e]
    refine (abs_sub _ _).trans ?_
    have a1 : n1 / 2 ^ 52 * x ≤ n1 / 2 ^ 52 * (2 * (x - y)) := mul_le_mul_of_nonneg_left (by linarith) (by positivity)
    have a2 : n2 / 2 ^ 52 * y ≤ n2 / 2 ^ 52 * (x - y) := mul_le_mul_of_nonneg_left (by linarith) (by positivity)
    have a3 : (2 * n1 + n2) / 2 ^ 52 * (x - y) ≤ (n - 1) / 2 ^ 52 * (x - y) := mul_le_mul_of_nonneg_right (div_le_div_of_nonneg_right (by linarith) (by norm_num)) (by linarith)
    have a4 : n1 / 2 ^ 52 * (2 * (x - y)) + n2 / 2 ^ 52 * (x - y) = (2 * n1 + n2) / 2 ^ 52 * (x - y) := by ring
    have := hx.err; have := hy.err
    linarith
  · have b1 := zpow_le_zpow_right₀ (by norm_num : (1 : ℝ) ≤ 2) c5
    rw [zpow_sub_one₀ (by norm_num)] at b1
    linarith [hx.lo]
  · have b1 := zpow_le_zpow_right₀ (by norm_num : (1 : ℝ) ≤ 2) c6
    linarith [hx.hi]

theorem near_sqrt (hx : Near n1 l1 h1 x' x) (c : n1 + 1 ≤ n ∧ n ≤ 2 ^ 20 ∧ -900 ≤ l ∧ h ≤ 900 ∧ 2 * l ≤ l1 ∧ h1 ≤ 2 * h) :
    ¬ x' < 0 ∧ Near n l h (R (Real.sqrt x')) (Real.sqrt x) := by
  obtain ⟨c1, c2, c3, c4, c5, c6⟩ := c
  have hx0 := hx.pos; have n10 := hx.n0
  have hx' : 0 ≤ x' := by linarith [(hx.pos' (by linarith)).1]
  have hs := Real.sqrt_pos.2 hx0
  have hsq := Real.sq_sqrt hx0.le
  refine ⟨not_lt.2 hx', near_round (m := n1) ?_ ?_ ?_ ⟨by linarith, c2, c3, c4⟩⟩
  · have hs' := Real.sqrt_nonneg x'
    have e : (Real.sqrt x' - Real.sqrt x) * (Real.sqrt x' + Real.sqrt x) = x' - x := by
      ring_nf
      rw [Real.sq_sqrt hx', hsq]
    have e2 : |Real.sqrt x' - Real.sqrt x| * (Real.sqrt x' + Real.sqrt x) = |x' - x| := by
      rw [← e, abs_mul, abs_of_pos (a := Real.sqrt x' + Real.sqrt x) (by linarith)]
    have e3 : |Real.sqrt x' - Real.sqrt x| * Real.sqrt x ≤ n1 / 2 ^ 52 * Real.sqrt x * Real.sqrt x := by
      calc _ ≤ |Real.sqrt x' - Real.sqrt x| * (Real.sqrt x' + Real.sqrt x) := mul_le_mul_of_nonneg_left (by linarith) (abs_nonneg _)
        _ ≤ n1 / 2 ^ 52 * x := e2 ▸ hx.err
        _ = _ := by rw [mul_assoc, ← sq, hsq]
    exact le_of_mul_le_mul_right e3 hs
  · apply Real.le_sqrt_of_sq_le
    calc ((2 : ℝ) ^ l) ^ 2 = (2 : ℝ) ^ (2 * l) := by rw [mul_comm, zpow_mul]; norm_cast
      _ ≤ (2 : ℝ) ^ l1 := zpow_le_zpow_right₀ (by norm_num) c5
      _ ≤ x := hx.lo
  · rw [Real.sqrt_le_left (by positivity)]
    calc x ≤ (2 : ℝ) ^ h1 := hx.hi
      _ ≤ (2 : ℝ) ^ (2 * h) := zpow_le_zpow_right₀ (by norm_num) c6
      _ = ((2 : ℝ) ^ h) ^ 2 := by rw [mul_comm, zpow_mul]; norm_cast

theorem Near.congr {y : ℝ} (hx : Near n l h x' x) (e : x = y) : Near n l h x' y := e ▸ hx

theorem near_exact (hl : (2 : ℝ) ^ l ≤ x) (hh : x ≤ (2 : ℝ) ^ h) : Near 0 l h x x := ⟨hl, hh, by simp⟩

theorem near_cube {f : ℝ → ℝ} (hf : ∀ x, (2 : ℝ) ^ (-300 : ℤ) ≤ x → x ≤ (2 : ℝ) ^ (300 : ℤ) → |f x - x ^ 3| ≤ 4 / 2 ^ 52 * x ^ 3) (hx : Near n1 l1 h1 x' x)
    (c : 3 * n1 + 5 ≤ n ∧ n ≤ 2 ^ 20 ∧ -299 ≤ l1 ∧ h1 ≤ 299 ∧ l = 3 * l1 ∧ h = 3 * h1) : Near n l h (f x') (x ^ 3) := by
  obtain ⟨c1, c2, c3, c4, rfl, rfl⟩ := c
  have hx0 := hx.pos; have n10 := hx.n0
  have hp := hx.pos' (by linarith)
  have hx'0 : 0 < x' := by linarith [hp.1]
  have g1 : (2 : ℝ) ^ (-300 : ℤ) ≤ x' := by
    refine le_trans ?_ hp.1
    have e : (2 : ℝ) ^ (-300 : ℤ) ≤ (2 : ℝ) ^ (l1 - 1) := zpow_le_zpow_right₀ (by norm_num) (by omega)
    rw [zpow_sub_one₀ (by norm_num)] at e
    linarith [hx.lo]
  have g2 : x' ≤ (2 : ℝ) ^ (300 : ℤ) := by
    refine hp.2.trans ?_
    have e : (2 : ℝ) ^ (h1 + 1) ≤ (2 : ℝ) ^ (300 : ℤ) := zpow_le_zpow_right₀ (by norm_num) (by omega)
    rw [zpow_add_one₀ (by norm_num)] at e
    linarith [hx.hi]
  have hf' := hf x' g1 g2
  have hd : n1 / 2 ^ 52 ≤ 1 / 2 ^ 32 := by
    rw [div_le_div_iff₀ (by norm_num) (by norm_num)]
    have : n1 ≤ 2 ^ 20 := by linarith
    calc n1 * 2 ^ 32 ≤ 2 ^ 20 * 2 ^ 32 := mul_le_mul_of_nonneg_right this (by norm_num)
      _ = 1 * 2 ^ 52 := by norm_num
  have hb : x' ≤ (1 + 1 / 2 ^ 32) * x := hx.bounds.2.trans (mul_le_mul_of_nonneg_right (by linarith) hx0.le)
  have q1 : x' ^ 2 ≤ ((1 + 1 / 2 ^ 32) * x) ^ 2 := pow_le_pow_left₀ hx'0.le hb 2
  have q2 : x' ^ 3 ≤ ((1 + 1 / 2 ^ 32) * x) ^ 3 := pow_le_pow_left₀ hx'0.le hb 3
  have q3 : x' ^ 2 + x' * x + x ^ 2 ≤ (3 + 1 / 2 ^ 30) * x ^ 2 := by
    have : x' * x ≤ (1 + 1 / 2 ^ 32) * x * x := mul_le_mul_of_nonneg_right hb hx0.le
    have e : ((1 + 1 / 2 ^ 32 : ℝ) * x) ^ 2 = (1 + 1 / 2 ^ 32) ^ 2 * x ^ 2 := by ring
    have e2 : (1 + 1 / 2 ^ 32 : ℝ) * x * x = (1 + 1 / 2 ^ 32) * x ^ 2 := by ring
    have hx2 : 0 ≤ x ^ 2 := by positivity
    rw [e] at q1
    rw [e2] at this
    calc x' ^ 2 + x' * x + x ^ 2 ≤ ((1 + 1 / 2 ^ 32) ^ 2 + (1 + 1 / 2 ^ 32) + 1) * x ^ 2 := by linarith
      _ ≤ _ := mul_le_mul_of_nonneg_right (by norm_num) hx2
  refine ⟨?_, ?_, ?_⟩
  · calc (2 : ℝ) ^ (3 * l1) = ((2 : ℝ) ^ l1) ^ 3 := by rw [mul_comm, zpow_mul]; norm_cast
      _ ≤ x ^ 3 := pow_le_pow_left₀ (by positivity) hx.lo 3
  · calc x ^ 3 ≤ ((2 : ℝ) ^ h1) ^ 3 := pow_le_pow_left₀ hx0.le hx.hi 3
      _ = (2 : ℝ) ^ (3 * h1) := by rw [mul_comm, zpow_mul]; norm_cast
  · have hx3 : 0 < x ^ 3 := by positivity
    have s1 : |x' ^ 3 - x ^ 3| ≤ (3 * n1 + 1 / 2) / 2 ^ 52 * x ^ 3 := by
      rw [show x' ^ 3 - x ^ 3 = (x' - x) * (x' ^ 2 + x' * x + x ^ 2) by ring, abs_mul, abs_of_pos (a := x' ^ 2 + x' * x + x ^ 2) (by positivity)]
      calc _ ≤ (n1 / 2 ^ 52 * x) * ((3 + 1 / 2 ^ 30) * x ^ 2) := mul_le_mul hx.err q3 (by positivity) (by positivity)
        _ = (3 * n1 + n1 / 2 ^ 30) / 2 ^ 52 * x ^ 3 := by ring
        _ ≤ _ := by
          refine mul_le_mul_of_nonneg_right (div_le_div_of_nonneg_right ?_ (by norm_num)) hx3.le
          have : n1 / 2 ^ 30 ≤ 1 / 2 := by
            rw [div_le_iff₀ (by norm_num)]
            refine le_trans (by linarith : n1 ≤ 2 ^ 20) (by norm_num)
          linarith
    have s2 : |f x' - x' ^ 3| ≤ (9 / 2) / 2 ^ 52 * x ^ 3 := by
      refine hf'.trans ?_
      calc 4 / 2 ^ 52 * x' ^ 3 ≤ 4 / 2 ^ 52 * ((1 + 1 / 2 ^ 32) * x) ^ 3 := mul_le_mul_of_nonneg_left q2 (by norm_num)
        _ = (4 * (1 + 1 / 2 ^ 32) ^ 3) / 2 ^ 52 * x ^ 3 := by ring
        _ ≤ _ := mul_le_mul_of_nonneg_right (div_le_div_of_nonneg_right (by norm_num) (by norm_num)) hx3.le
    calc |f x' - x ^ 3| = |(f x' - x' ^ 3) + (x' ^ 3 - x ^ 3)| := by ring_nf
      _ ≤ |f x' - x' ^ 3| + |x' ^ 3 - x ^ 3| := abs_add_le _ _
      _ ≤ (9 / 2) / 2 ^ 52 * x ^ 3 + (3 * n1 + 1 / 2) / 2 ^ 52 * x ^ 3 := add_le_add s2 s1
      _ = (3 * n1 + 5) / 2 ^ 52 * x ^ 3 := by ring
      _ ≤ _ := mul_le_mul_of_nonneg_right (div_le_div_of_nonneg_right c1 (by norm_num)) hx3.le

theorem near_cbrt {f : ℝ → ℝ} (hf : ∀ x, (2 : ℝ) ^ (-300 : ℤ) ≤ x → x ≤ (2 : ℝ) ^ (300 : ℤ) → |f x - x ^ ((1 : ℝ) / 3)| ≤ 256 / 2 ^ 52 * x ^ ((1 : ℝ) / 3))
    (hx : Near n1 l1 h1 x' x) (c : n1 + 257 ≤ n ∧ n ≤ 2 ^ 20 ∧ -299 ≤ l1 ∧ h1 ≤ 299 ∧ 3 * l ≤ l1 ∧ h1 ≤ 3 * h) : Near n l h (f x') (x ^ ((1 : ℝ) / 3)) := by
  obtain ⟨c1, c2, c3, c4, c5, c6⟩ := c
  have hx0 := hx.pos; have n10 := hx.n0
  have hp := hx.pos' (by linarith)
  have hx'0 : 0 < x' := by linarith [hp.1]
  have g1 : (2 : ℝ) ^ (-300 : ℤ) ≤ x' := by
    refine le_trans ?_ hp.1
    have e : (2 : ℝ) ^ (-300 : ℤ) ≤ (2 : ℝ) ^ (l1 - 1) := zpow_le_zpow_right₀ (by norm_num) (by omega)
    rw [zpow_sub_one₀ (by norm_num)] at e
    linarith [hx.lo]
  have g2 : x' ≤ (2 : ℝ) ^ (300 : ℤ) := by
    refine hp.2.trans ?_
    have e : (2 : ℝ) ^ (h1 + 1) ≤ (2 : ℝ) ^ (300 : ℤ) := zpow_le_zpow_right₀ (by norm_num) (by omega)
    rw [zpow_add_one₀ (by norm_num)] at e
    linarith [hx.hi]
  have hf' := hf x' g1 g2
  have cube : ∀ y : ℝ, 0 < y → 0 < y ^ ((1 : ℝ) / 3) ∧ (y ^ ((1 : ℝ) / 3)) ^ 3 = y := by
    intro y hy
    refine ⟨Real.rpow_pos_of_pos hy _, ?_⟩
    rw [← Real.rpow_natCast, ← Real.rpow_mul hy.le]
    norm_num
  obtain ⟨t0, t3⟩ := cube x hx0
  obtain ⟨t0', t3'⟩ := cube x' hx'0
  generalize x ^ ((1 : ℝ) / 3) = t at *
  generalize x' ^ ((1 : ℝ) / 3) = t' at *
  have s1 : |t' - t| ≤ n1 / 2 ^ 52 * t := by
    have e : |t' - t| * (t' ^ 2 + t' * t + t ^ 2) = |x' - x| := by
      rw [← t3, ← t3', show t' ^ 3 - t ^ 3 = (t' - t) * (t' ^ 2 + t' * t + t ^ 2) by ring, abs_mul, abs_of_pos (a := t' ^ 2 + t' * t + t ^ 2) (by positivity)]
    have e2 : |t' - t| * t ^ 2 ≤ n1 / 2 ^ 52 * t * t ^ 2 := by
      calc _ ≤ |t' - t| * (t' ^ 2 + t' * t + t ^ 2) := mul_le_mul_of_nonneg_left (by nlinarith [mul_pos t0' t0]) (abs_nonneg _)
        _ ≤ n1 / 2 ^ 52 * x := e ▸ hx.err
        _ = _ := by rw [← t3]; ring
    exact le_of_mul_le_mul_right e2 (by positivity)
  have hd : n1 / 2 ^ 52 ≤ 1 / 2 ^ 32 := by
    rw [div_le_div_iff₀ (by norm_num) (by norm_num)]
    have : n1 ≤ 2 ^ 20 := by linarith
    calc n1 * 2 ^ 32 ≤ 2 ^ 20 * 2 ^ 32 := mul_le_mul_of_nonneg_right this (by norm_num)
      _ = 1 * 2 ^ 52 := by norm_num
  have s2 : t' ≤ (1 + 1 / 2 ^ 32) * t := by
    have := (abs_le.1 (s1.trans (mul_le_mul_of_nonneg_right hd t0.le))).2
    linarith
  refine ⟨?_, ?_, ?_⟩
  · refine le_of_pow_le_pow_left₀ (n := 3) (by norm_num) t0.le ?_
    rw [t3]
    calc ((2 : ℝ) ^ l) ^ 3 = (2 : ℝ) ^ (3 * l) := by rw [mul_comm, zpow_mul]; norm_cast
      _ ≤ (2 : ℝ) ^ l1 := zpow_le_zpow_right₀ (by norm_num) c5
      _ ≤ x := hx.lo
  · refine le_of_pow_le_pow_left₀ (n := 3) (by norm_num) (by positivity) ?_
    rw [t3]
    calc x ≤ (2 : ℝ) ^ h1 := hx.hi
      _ ≤ (2 : ℝ) ^ (3 * h) := zpow_le_zpow_right₀ (by norm_num) c6
      _ = ((2 : ℝ) ^ h) ^ 3 := by rw [mul_comm, zpow_mul]; norm_cast
  · calc |f x' - t| = |(f x' - t') + (t' - t)| := by ring_nf
      _ ≤ |f x' - t'| + |t' - t| := abs_add_le _ _
      _ ≤ 256 / 2 ^ 52 * ((1 + 1 / 2 ^ 32) * t) + n1 / 2 ^ 52 * t := add_le_add (hf'.trans (mul_le_mul_of_nonneg_left s2 (by norm_num))) s1
      _ = (256 * (1 + 1 / 2 ^ 32) + n1) / 2 ^ 52 * t := by ring
      _ ≤ n / 2 ^ 52 * t := mul_le_mul_of_nonneg_right (div_le_div_of_nonneg_right (by linarith [(by norm_num : 256 * (1 + 1 / 2 ^ 32 : ℝ) ≤ 257)]) (by norm_num)) t0.le

/-- Rounding keeps bounds that are powers of two. -/
theorem rnd_bound {t : ℝ} {j : ℕ} (ht : |t| ≤ 2 ^ j) (hj : j ≤ 900) : |R t| ≤ 2 ^ j := by
  have hb : (2 : ℝ) ^ j ≤ 2 ^ 1000 := pow_le_pow_right₀ (by norm_num) (by omega)
  have hd : IsDouble ((2 : ℝ) ^ j) := by
    have := double_of (m := 1) (e := j) (by norm_num) (by omega) (by omega)
    simpa using this
  have e1 : R ((2 : ℝ) ^ j) = 2 ^ j := rnd_double R hd (by rw [abs_of_pos (by positivity)]; exact hb)
  have e2 : R (-(2 : ℝ) ^ j) = -2 ^ j := rnd_double R (double_neg hd) (by rw [abs_neg, abs_of_pos (by positivity)]; exact hb)
  have a := abs_le.1 ht
  rw [abs_le]
  constructor
  · rw [← e2]
    exact rnd_mono R (by rw [abs_neg, abs_of_pos (by positivity)]; exact hb) (ht.trans hb) a.1
  · have := rnd_mono R (ht.trans hb) (by rw [abs_of_pos (by positivity)]; exact hb) a.2
    rwa [e1] at this

theorem rnd_ge {t : ℝ} {j : ℤ} (h1 : (2 : ℝ) ^ j ≤ t) (h2 : t ≤ 2 ^ 900) (hj : -1000 ≤ j) (hj' : j ≤ 900) : (2 : ℝ) ^ j ≤ R t := by
  have hb : (2 : ℝ) ^ 900 ≤ (2 : ℝ) ^ 1000 := pow_le_pow_right₀ (by norm_num) (by norm_num)
  have hp : (0 : ℝ) < (2 : ℝ) ^ j := by positivity
  have hd : IsDouble ((2 : ℝ) ^ j) := by
    have := double_of (m := 1) (e := j) (by norm_num) (by omega) (by omega)
    simpa using this
  have hle : |(2 : ℝ) ^ j| ≤ 2 ^ 1000 := by rw [abs_of_pos hp]; exact (h1.trans h2).trans hb
  rw [← rnd_double R hd hle]
  exact rnd_mono R hle (by rw [abs_of_pos (hp.trans_le h1)]; exact h2.trans hb) h1

theorem rnd_nonneg {t : ℝ} (h1 : 0 ≤ t) (h2 : t ≤ 2 ^ 900) : 0 ≤ R t := by
  have hb : (2 : ℝ) ^ 900 ≤ (2 : ℝ) ^ 1000 := pow_le_pow_right₀ (by norm_num) (by norm_num)
  have e : R 0 = 0 := rnd_double R double_zero (by norm_num)
  rw [← e]
  exact rnd_mono R (by norm_num) (by rw [abs_of_nonneg h1]; exact h2.trans hb) h1

end ChaosMagPy.FloatNear
