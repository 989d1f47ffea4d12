import Verif.Lemmas.FloatCoord
import Verif.Lemmas.Near
/-!
# Rounding errors of spherical and cartesian coordinates
-/
namespace ChaosMagPy.FloatCoord
open ChaosMagPy.Spec ChaosMagPy.Float ChaosMagPy.FloatLegendre

variable (R : Rounding)

theorem uu_eq : uu = 2⁻¹ ^ 53 := by unfold uu; norm_num

theorem tiny_le {r : ℝ} (hr : 2⁻¹ ^ 100 ≤ r) : tiny ≤ r * 2⁻¹ ^ 900 := by
  have : tiny ≤ 2⁻¹ ^ 100 * 2⁻¹ ^ 900 := by
    unfold tiny
    rw [← pow_add, inv_pow, ← zpow_natCast, ← zpow_neg]
    exact zpow_le_zpow_right₀ (by norm_num) (by norm_num)
  exact this.trans (mul_le_mul_of_nonneg_right hr (by positivity))

theorem small900 : (2 : ℝ)⁻¹ ^ 900 ≤ 2⁻¹ ^ 60 := pow_le_pow_of_le_one (by norm_num) (by norm_num) (by norm_num)

/-- Rounding of a number that is not much larger than `r`. -/
theorem rnd_scale {r u : ℝ} (h1 : 2⁻¹ ^ 100 ≤ r) (h2 : r ≤ 2 ^ 100) (hu : |u| ≤ 2 * r) : |R u - u| ≤ r * 2⁻¹ ^ 51 := by
  have hb : |u| ≤ 2 ^ 1000 := by
    calc |u| ≤ 2 * 2 ^ 100 := by linarith
      _ = 2 ^ 101 := by norm_num
      _ ≤ 2 ^ 1000 := pow_le_pow_right₀ (by norm_num) (by norm_num)
  have h := rnd_rel R hb
  rw [uu_eq] at h
  have ht := tiny_le h1
  have hr : 0 ≤ r := le_trans (by positivity) h1
  have hs := mul_le_mul_of_nonneg_left small900 hr
  generalize (2 : ℝ)⁻¹ ^ 900 = v at *
  norm_num at h hs ⊢
  linarith

theorem rnd_nonneg {x : ℝ} (h0 : 0 ≤ x) (h : |x| ≤ 2 ^ 1000) : 0 ≤ R x := by
  have e : R 0 = 0 := by simpa using rnd_int R (m := 0) (by norm_num)
  rw [← e]
  exact rnd_mono R (by rw [abs_zero]; positivity) h h0

/-- The square root of a computed sum of squares. -/
theorem root_err {q m : ℝ} (hm : 0 ≤ m) (hm' : m ≤ 2 ^ 500) (hq0 : 0 ≤ q) (hq : |q - m| ≤ 6 * uu * m + 8 * tiny) :
    0 ≤ R (Real.sqrt q) ∧ |R (Real.sqrt q) - Real.sqrt m| ≤ 2⁻¹ ^ 49 * Real.sqrt m + 2⁻¹ ^ 510 := by
  set a := Real.sqrt q with ha
  set b := Real.sqrt m with hb
  have ha0 : 0 ≤ a := Real.sqrt_nonneg _
  have hb0 : 0 ≤ b := Real.sqrt_nonneg _
  have ea : a ^ 2 = q := Real.sq_sqrt hq0
  have eb : b ^ 2 = m := Real.sq_sqrt hm
  have hd : |a - b| * (a + b) = |q - m| := by
    rw [← abs_of_nonneg (by linarith : 0 ≤ a + b), ← abs_mul]
    congr 1
    rw [← ea, ← eb]
    ring
  have hu := uu_pos
  have ht := tiny_pos
  have hd0 := abs_nonneg (a - b)
  -- distance of the roots
  have h1 : |a - b| ≤ 8 * uu * b + 2⁻¹ ^ 511 := by
    rcases le_total (8 * tiny) (2 * uu * m) with hc | hc
    · have h2 : |a - b| * b ≤ (8 * uu * b) * b := by
        have : |a - b| * b ≤ |a - b| * (a + b) := mul_le_mul_of_nonneg_left (by linarith) hd0
        nlinarith
      rcases hb0.eq_or_lt with h0 | h0
      · have hm0 : m = 0 := by rw [← eb, ← h0]; norm_num
        rw [hm0] at hc
        linarith
      · have := le_of_mul_le_mul_right h2 h0
        linarith [(by positivity : (0 : ℝ) ≤ 2⁻¹ ^ 511)]
    · have h2 : |a - b| ^ 2 ≤ 32 * tiny := by
        have h3 : |a - b| ≤ a + b := by
          rw [abs_le]
          constructor <;> linarith
        have : |a - b| * |a - b| ≤ |a - b| * (a + b) := mul_le_mul_of_nonneg_left h3 hd0
        nlinarith
      have h3 : (32 : ℝ) * tiny ≤ (2⁻¹ ^ 511) ^ 2 := by
        unfold tiny
        rw [← pow_mul, inv_pow, ← zpow_natCast, ← zpow_neg, show (32 : ℝ) = 2 ^ (5 : ℤ) by norm_num, ← zpow_add₀ (by norm_num)]
        exact zpow_le_zpow_right₀ (by norm_num) (by norm_num)
      have := (sq_le_sq₀ hd0 (by positivity)).1 (h2.trans h3)
      have h4 : 0 ≤ 8 * uu * b := by positivity
      linarith
  have hb2 : b ≤ 2 ^ 250 := by
    refine (sq_le_sq₀ hb0 (by positivity)).1 ?_
    rw [eb, ← pow_mul]
    exact hm'
  have ha2 : a ≤ 2 * b + 2⁻¹ ^ 511 := by
    have := (abs_le.1 h1).2
    have e : 8 * uu * b ≤ b := by
      rw [uu_eq]
      norm_num
      linarith
    linarith
  have hsm : (2 : ℝ)⁻¹ ^ 511 ≤ 1 := pow_le_one₀ (by norm_num) (by norm_num)
  have hbig : |a| ≤ 2 ^ 1000 := by
    rw [abs_of_nonneg ha0]
    calc a ≤ 2 * 2 ^ 250 + 1 := by linarith
      _ ≤ 2 ^ 252 := by norm_num
      _ ≤ 2 ^ 1000 := pow_le_pow_right₀ (by norm_num) (by norm_num)
  refine ⟨rnd_nonneg R ha0 hbig, ?_⟩
  have hr := rnd_rel R hbig
  rw [abs_of_nonneg ha0] at hr
  have htt : tiny ≤ 2⁻¹ ^ 100 * 2⁻¹ ^ 511 := by
    unfold tiny
    rw [← pow_add, inv_pow, ← zpow_natCast, ← zpow_neg]
    exact zpow_le_zpow_right₀ (by norm_num) (by norm_num)
  have h5 := abs_add_le (R a - a) (a - b)
  rw [sub_add_sub_cancel] at h5
  have e510 : (2 : ℝ)⁻¹ ^ 510 = 2 * 2⁻¹ ^ 511 := by rw [pow_succ _ 510]; ring
  rw [e510]
  have hpos : (0 : ℝ) ≤ 2⁻¹ ^ 511 := by positivity
  rw [uu_eq] at *
  generalize (2 : ℝ)⁻¹ ^ 511 = v at *
  norm_num at *
  linarith

theorem sq_big {x : ℝ} (hx : |x| ≤ 2 ^ 200) : x * x ≤ 2 ^ 400 ∧ |x * x| ≤ 2 ^ 1000 := by
  have h : x * x ≤ 2 ^ 400 := by
    rw [← abs_mul_abs_self x]
    calc |x| * |x| ≤ 2 ^ 200 * 2 ^ 200 := mul_le_mul hx hx (abs_nonneg _) (by positivity)
      _ = 2 ^ 400 := by rw [← pow_add]
  refine ⟨h, ?_⟩
  rw [abs_of_nonneg (mul_self_nonneg x)]
  exact h.trans (pow_le_pow_right₀ (by norm_num) (by norm_num))

theorem tiny_one : tiny ≤ 1 := by
  unfold tiny
  exact zpow_le_one_of_nonpos₀ (by norm_num) (by norm_num)

theorem big16 : (16 : ℝ) * 2 ^ 400 ≤ 2 ^ 1000 := by
  rw [show (16 : ℝ) = 2 ^ 4 by norm_num, ← pow_add]
  exact pow_le_pow_right₀ (by norm_num) (by norm_num)

theorem three_sq {a b c : ℝ} (ha : a ≤ 2 ^ 400) (hb : b ≤ 2 ^ 400) (hc : c ≤ 2 ^ 400) : a + b + c ≤ 2 ^ 500 := by
  have h : (4 : ℝ) * 2 ^ 400 ≤ 2 ^ 500 := by
    rw [show (4 : ℝ) = 2 ^ 2 by norm_num, ← pow_add]
    exact pow_le_pow_right₀ (by norm_num) (by norm_num)
  have h0 : (0 : ℝ) ≤ 2 ^ 400 := by positivity
  generalize (2 : ℝ) ^ 400 = M at *
  generalize (2 : ℝ) ^ 500 = M' at *
  linarith

/-- A rounded sum of two numbers that are known with errors. -/
theorem sum_err {q v u0 v0 : ℝ} (q0 : 0 ≤ q) (v0' : 0 ≤ v) (p1 : 0 ≤ u0) (p2 : 0 ≤ v0) (hu0 : u0 ≤ 2 * 2 ^ 400) (hv0 : v0 ≤ 2 ^ 400)
    {a b : ℝ} (ha : 0 ≤ a) (ha' : a ≤ 3) (hb : 0 ≤ b) (hb' : b ≤ 4) (h1 : |q - u0| ≤ a * uu * u0 + b * tiny) (h2 : |v - v0| ≤ uu * v0 + tiny) :
    0 ≤ R (q + v) ∧ |R (q + v) - (u0 + v0)| ≤ (max a 1 + 2) * uu * (u0 + v0) + (b + 2 + 1) * tiny := by
  have hu := uu_pos
  have hu1 : uu ≤ 1 / 2 ^ 20 := by rw [uu_eq]; norm_num
  have ht := tiny_pos
  have ht1 := tiny_one
  obtain ⟨a1, a2⟩ := abs_le.1 h1
  obtain ⟨b1, b2⟩ := abs_le.1 h2
  have U0 : 0 ≤ uu * u0 := by positivity
  have V0 : 0 ≤ uu * v0 := by positivity
  have T0 : 0 ≤ uu * tiny := by positivity
  have k1 : uu * u0 ≤ 1 / 2 ^ 20 * u0 := mul_le_mul_of_nonneg_right hu1 p1
  have k2 : uu * v0 ≤ 1 / 2 ^ 20 * v0 := mul_le_mul_of_nonneg_right hu1 p2
  have k3 : uu * tiny ≤ 1 / 2 ^ 20 * tiny := mul_le_mul_of_nonneg_right hu1 ht.le
  have k4 : a * (uu * u0) ≤ 3 * (uu * u0) := mul_le_mul_of_nonneg_right ha' U0
  have k5 : b * tiny ≤ 4 * tiny := mul_le_mul_of_nonneg_right hb' ht.le
  have k6 : a * (uu * u0) ≤ max a 1 * (uu * u0) := mul_le_mul_of_nonneg_right (le_max_left _ _) U0
  have k7 : 1 * (uu * v0) ≤ max a 1 * (uu * v0) := mul_le_mul_of_nonneg_right (le_max_right _ _) V0
  have a3 : q ≤ u0 + a * (uu * u0) + b * tiny := by linarith
  have hq : q + v ≤ 2 * (u0 + v0) + 5 * tiny := by
    norm_num at k1 k2
    linarith
  have hs : |q + v| ≤ 2 ^ 1000 := by
    rw [abs_of_nonneg (by linarith)]
    have hM : (1 : ℝ) ≤ 2 ^ 400 := one_le_pow₀ (by norm_num)
    have := big16
    generalize (2 : ℝ) ^ 400 = M at *
    generalize (2 : ℝ) ^ 1000 = M' at *
    linarith
  refine ⟨rnd_nonneg R (by linarith) hs, ?_⟩
  have h := rnd_rel R hs
  rw [abs_of_nonneg (by linarith : 0 ≤ q + v)] at h
  obtain ⟨c1, c2⟩ := abs_le.1 h
  have e1 : uu * (q + v) ≤ 2 * (uu * u0) + 2 * (uu * v0) + tiny := by
    have h3 := mul_le_mul_of_nonneg_left hq hu.le
    have h4 : uu * (2 * (u0 + v0) + 5 * tiny) = 2 * (uu * u0) + 2 * (uu * v0) + 5 * (uu * tiny) := by ring
    rw [h4] at h3
    norm_num at k3
    linarith
  have e2 : (max a 1 + 2) * uu * (u0 + v0) = max a 1 * (uu * u0) + max a 1 * (uu * v0) + 2 * (uu * u0) + 2 * (uu * v0) := by ring
  have e3 : a * uu * u0 = a * (uu * u0) := by ring
  have e4 : (b + 2 + 1) * tiny = b * tiny + 3 * tiny := by ring
  rw [e3] at a1 a2
  rw [e2, e4, abs_le]
  generalize a * (uu * u0) = w1 at *
  generalize max a 1 * (uu * u0) = w2 at *
  generalize max a 1 * (uu * v0) = w3 at *
  generalize b * tiny = w4 at *
  constructor <;> linarith

/-- The sum of two squares. -/
theorem sum2 {x y : ℝ} (hx : |x| ≤ 2 ^ 200) (hy : |y| ≤ 2 ^ 200) :
    0 ≤ R (R (x * x) + R (y * y)) ∧ |R (R (x * x) + R (y * y)) - (x ^ 2 + y ^ 2)| ≤ 3 * uu * (x ^ 2 + y ^ 2) + 4 * tiny := by
  obtain ⟨x1, x2⟩ := sq_big hx
  obtain ⟨y1, y2⟩ := sq_big hy
  have hx' := rnd_rel R x2
  have hy' := rnd_rel R y2
  have n1 := rnd_nonneg R (mul_self_nonneg x) x2
  have n2 := rnd_nonneg R (mul_self_nonneg y) y2
  have p1 := mul_self_nonneg x
  have p2 := mul_self_nonneg y
  rw [abs_of_nonneg p1] at hx'
  rw [abs_of_nonneg p2] at hy'
  rw [sq, sq]
  have hM : (0 : ℝ) ≤ 2 ^ 400 := by positivity
  have := sum_err R n1 n2 p1 p2 (x1.trans (le_mul_of_one_le_left hM (by norm_num))) y1 (a := 1) (b := 1) (by norm_num) (by norm_num) (by norm_num) (by norm_num) (by linarith) hy'
  refine ⟨this.1, this.2.trans (le_of_eq ?_)⟩
  rw [max_self]
  norm_num

/-- The sum of three squares. -/
theorem sum3 {x y z : ℝ} (hx : |x| ≤ 2 ^ 200) (hy : |y| ≤ 2 ^ 200) (hz : |z| ≤ 2 ^ 200) :
    0 ≤ R (R (R (x * x) + R (y * y)) + R (z * z)) ∧
      |R (R (R (x * x) + R (y * y)) + R (z * z)) - (x ^ 2 + y ^ 2 + z ^ 2)| ≤ 6 * uu * (x ^ 2 + y ^ 2 + z ^ 2) + 8 * tiny := by
  obtain ⟨s0, s1⟩ := sum2 R hx hy
  obtain ⟨x1, -⟩ := sq_big hx
  obtain ⟨y1, -⟩ := sq_big hy
  obtain ⟨z1, z2⟩ := sq_big hz
  have hz' := rnd_rel R z2
  have n1 := rnd_nonneg R (mul_self_nonneg z) z2
  have p1 := mul_self_nonneg z
  rw [abs_of_nonneg p1] at hz'
  rw [← sq] at x1 y1
  have p2 : 0 ≤ x ^ 2 + y ^ 2 := by positivity
  rw [sq z]
  have := sum_err R s0 n1 p2 p1 (by linarith) z1 (a := 3) (b := 4) (by norm_num) (by norm_num) (by norm_num) (by norm_num) s1 hz'
  refine ⟨this.1, this.2.trans ?_⟩
  have hu := uu_pos
  have ht := tiny_pos
  rw [max_eq_left (by norm_num : (1 : ℝ) ≤ 3)]
  have e1 : (3 + 2 : ℝ) * uu * (x ^ 2 + y ^ 2 + z * z) = 5 * (uu * (x ^ 2 + y ^ 2 + z * z)) := by ring
  have e2 : (6 : ℝ) * uu * (x ^ 2 + y ^ 2 + z * z) = 6 * (uu * (x ^ 2 + y ^ 2 + z * z)) := by ring
  have : 0 ≤ uu * (x ^ 2 + y ^ 2 + z * z) := by positivity
  rw [e1, e2]
  linarith

/-- The direction of a vector near a given direction. -/
theorem angle_close {x y L ε α : ℝ} (hL : 0 < L) (hε : ε ≤ 1 / 8) (hx : |x - L * Real.cos α| ≤ ε * L) (hy : |y - L * Real.sin α| ≤ ε * L)
    {δ : ℝ} (hδ : |δ| ≤ Real.pi) (hs : Real.sin δ = Real.sin (Complex.arg ⟨x, y⟩ - α)) (hc : Real.cos δ = Real.cos (Complex.arg ⟨x, y⟩ - α)) :
    |δ| ≤ 5 * ε := by
  have hp := Real.pi_gt_d4
  have hp' := Real.pi_lt_d4
  set w : ℂ := ⟨x, y⟩ with hw
  set N := ‖w‖
  have hN : 0 ≤ N := norm_nonneg _
  have ex : N * Real.cos (Complex.arg w) = x := Complex.norm_mul_cos_arg w
  have ey : N * Real.sin (Complex.arg w) = y := Complex.norm_mul_sin_arg w
  rw [Real.sin_sub] at hs
  rw [Real.cos_sub] at hc
  have c1 := Real.abs_cos_le_one α
  have s1 := Real.abs_sin_le_one α
  have sc := Real.sin_sq_add_cos_sq α
  have es : N * Real.sin δ = (y - L * Real.sin α) * Real.cos α - (x - L * Real.cos α) * Real.sin α := by
    rw [hs, ← ex, ← ey]
    ring
  have ec : N * Real.cos δ = L + ((x - L * Real.cos α) * Real.cos α + (y - L * Real.sin α) * Real.sin α) := by
    rw [hc, ← ex, ← ey]
    linear_combination L * sc
  have m : ∀ {a b : ℝ}, |a| ≤ ε * L → |b| ≤ 1 → |a * b| ≤ ε * L := by
    intro a b h1 h2
    rw [abs_mul]
    exact (mul_le_of_le_one_right (abs_nonneg _) h2).trans h1
  have m1 := m hy c1
  have m2 := m hx s1
  have m3 := m hx c1
  have m4 := m hy s1
  have hεL : ε * L ≤ L / 8 := by nlinarith
  have hcos : 3 / 4 * L ≤ N * Real.cos δ := by
    rw [ec]
    rw [abs_le] at m3 m4
    linarith [m3.1, m4.1]
  have hNL : 3 / 4 * L ≤ N := hcos.trans (mul_le_of_le_one_right hN (Real.cos_le_one δ))
  have hN0 : 0 < N := lt_of_lt_of_le (by positivity) hNL
  have hcpos : 0 < Real.cos δ := by
    by_contra h
    rw [not_lt] at h
    nlinarith
  have hhalf : |δ| ≤ Real.pi / 2 := by
    by_contra h
    rw [not_le] at h
    have : Real.cos |δ| ≤ 0 := Real.cos_nonpos_of_pi_div_two_le_of_le h.le (by linarith)
    rw [Real.cos_abs] at this
    linarith
  have hsin : N * |Real.sin δ| ≤ 2 * (ε * L) := by
    rw [show N * |Real.sin δ| = |N * Real.sin δ| by rw [abs_mul, abs_of_pos hN0], es]
    exact (abs_sub _ _).trans (by linarith)
  have hlow : 2 / Real.pi * |δ| ≤ |Real.sin δ| := Real.mul_abs_le_abs_sin hhalf
  have h1 : 3 / 4 * L * |Real.sin δ| ≤ 2 * (ε * L) := (mul_le_mul_of_nonneg_right hNL (abs_nonneg _)).trans hsin
  have h2 : |Real.sin δ| ≤ 8 / 3 * ε := by
    have : L * |Real.sin δ| ≤ L * (8 / 3 * ε) := by linarith
    exact le_of_mul_le_mul_left this hL
  have hpp := Real.pi_pos
  have h3 : |δ| ≤ Real.pi / 2 * |Real.sin δ| := by
    have := mul_le_mul_of_nonneg_left hlow (by positivity : 0 ≤ Real.pi / 2)
    rw [show Real.pi / 2 * (2 / Real.pi * |δ|) = |δ| by field_simp] at this
    exact this
  nlinarith [abs_nonneg (Real.sin δ)]

end ChaosMagPy.FloatCoord
