import Verif.Lemmas.FloatGeodAcc
import Verif.Lemmas.Near
import Verif.Model.FloatGgToGeo
import Mathlib.Analysis.Real.Pi.Bounds
/-!
# Rounding errors of `gg_to_geo`
-/
namespace ChaosMagPy.FloatGeod
open ChaosMagPy.Spec ChaosMagPy.Float ChaosMagPy.FloatLegendre ChaosMagPy.FloatNear

variable (R : Rounding)

theorem rnd_pi : R Real.pi = 884279719003555 / 281474976710656 := by
  have h1 := Real.pi_gt_d20
  have h2 := Real.pi_lt_d20
  refine rnd_val R 884279719003555 (-48) 1 (by norm_num) (by norm_num) (by norm_num) (by norm_num) (by norm_num [abs_of_pos]) ?_ ?_
  · rw [abs_of_pos Real.pi_pos]
    refine le_trans (by linarith : Real.pi ≤ 4) ?_
    exact (by norm_num : (4 : ℝ) ≤ 2 ^ 200)
  · rw [abs_lt]
    norm_num at h1 h2 ⊢
    constructor <;> linarith

theorem rnd_deg : R (R Real.pi / 180) = 5030569068109113 / 288230376151711744 := by
  rw [rnd_pi]
  exact rnd_val R 5030569068109113 (-58) (-6) (by norm_num) (by norm_num) (by norm_num) (by norm_num) (by norm_num [abs_of_pos]) (by norm_num [abs_of_pos]) (by norm_num [abs_lt])

/-- The computed latitude is less than 90 degrees. -/
theorem radians_half_pi {x : ℝ} (h : |x| ≤ 90) : |radians R x| ≤ 884279719003555 / 562949953421312 := by
  have e1 : R (90 * (5030569068109113 / 288230376151711744)) = 884279719003555 / 562949953421312 :=
    rnd_val R 884279719003555 (-49) 0 (by norm_num) (by norm_num) (by norm_num) (by norm_num) (by norm_num [abs_of_pos]) (by norm_num [abs_of_pos]) (by norm_num [abs_lt])
  have e2 : R (-90 * (5030569068109113 / 288230376151711744)) = -(884279719003555 / 562949953421312) :=
    rnd_val R (-884279719003555) (-49) 0 (by norm_num) (by norm_num) (by norm_num) (by norm_num) (by norm_num [abs_of_neg, abs_of_pos]) (by norm_num [abs_le]) (by norm_num [abs_lt])
  rw [radians, rnd_deg]
  rw [abs_le] at h
  have big : ∀ y : ℝ, |y| ≤ 90 → |y * (5030569068109113 / 288230376151711744)| ≤ 2 ^ 1000 := by
    intro y hy
    refine le_trans ?_ (pow_le_pow_right₀ (by norm_num) (by norm_num) : (2 : ℝ) ^ 7 ≤ 2 ^ 1000)
    rw [abs_mul, abs_of_pos (by norm_num : (0 : ℝ) < 5030569068109113 / 288230376151711744)]
    norm_num
    linarith
  have m1 := rnd_mono R (big x (abs_le.2 h)) (big 90 (by norm_num [abs_le])) (mul_le_mul_of_nonneg_right h.2 (by norm_num))
  have m2 := rnd_mono R (big (-90) (by norm_num [abs_le])) (big x (abs_le.2 h)) (mul_le_mul_of_nonneg_right h.1 (by norm_num))
  rw [e1] at m1
  rw [e2] at m2
  rw [abs_le]
  exact ⟨m2, m1⟩

theorem tan_bound {x : ℝ} (h : |x| ≤ 884279719003555 / 562949953421312) : |x| < Real.pi / 2 ∧ 3 / 10 ^ 17 ≤ Real.cos x ∧ |Real.tan x| ≤ 10 ^ 17 := by
  have h1 := Real.pi_gt_d20
  norm_num at h1 h
  have h2 : 6 / 10 ^ 17 ≤ Real.pi / 2 - |x| := by norm_num; linarith
  have h0 : (0 : ℝ) < 6 / 10 ^ 17 := by norm_num
  have h3 := Real.mul_le_sin (x := Real.pi / 2 - |x|) (by linarith) (by linarith [abs_nonneg x])
  rw [Real.sin_pi_div_two_sub, Real.cos_abs] at h3
  have h4 : 3 / 10 ^ 17 ≤ Real.cos x := by
    refine le_trans ?_ h3
    have h5 : 1 / 2 ≤ 2 / Real.pi := by rw [div_le_div_iff₀ (by norm_num) Real.pi_pos]; linarith [Real.pi_le_four]
    calc (3 / 10 ^ 17 : ℝ) = 1 / 2 * (6 / 10 ^ 17) := by norm_num
      _ ≤ _ := mul_le_mul h5 h2 h0.le (by positivity)
  refine ⟨by linarith, h4, ?_⟩
  have hc : 0 < Real.cos x := lt_of_lt_of_le (by norm_num) h4
  rw [Real.tan_eq_sin_div_cos, abs_div, abs_of_pos hc, div_le_iff₀ hc]
  have := Real.abs_sin_le_one x
  have := mul_le_mul_of_nonneg_left h4 (by norm_num : (0 : ℝ) ≤ 10 ^ 17)
  norm_num at this ⊢
  linarith

/-- `factor`. -/
theorem factor_err {a b s c s' c' h a2 b2 : ℝ} (hb : 6356 ≤ b) (hba : b ≤ a) (ha : a ≤ 6379) (haa : a ^ 2 ≤ 40680632) (hsc : s ^ 2 + c ^ 2 = 1)
    (hs : |s' - s| ≤ 3 / 10 ^ 15) (hc : |c' - c| ≤ 3 / 10 ^ 15) (ha2 : |a2 - a ^ 2| ≤ 1 / 10 ^ 8) (hb2 : |b2 - b ^ 2| ≤ 1 / 10 ^ 8) (hh : |h| ≤ 45000) :
    |R (s' * s') - s ^ 2| ≤ 7 / 10 ^ 15 ∧ 0 ≤ R (R (a2 * R (c' * c')) + R (b2 * R (s' * s'))) ∧
      |R (h * R (Real.sqrt (R (R (a2 * R (c' * c')) + R (b2 * R (s' * s')))))) - h * Real.sqrt (a ^ 2 * c ^ 2 + b ^ 2 * s ^ 2)| ≤ 47 / 10 ^ 7 ∧
      6356 ≤ Real.sqrt (a ^ 2 * c ^ 2 + b ^ 2 * s ^ 2) ∧ Real.sqrt (a ^ 2 * c ^ 2 + b ^ 2 * s ^ 2) ≤ a := by
  have s1 : |s| ≤ 1 := abs_le_of_sq_le_sq (by nlinarith [sq_nonneg c]) (by norm_num)
  have c1 : |c| ≤ 1 := abs_le_of_sq_le_sq (by nlinarith [sq_nonneg s]) (by norm_num)
  have s2 : |s ^ 2| ≤ 1 := by rw [abs_of_nonneg (sq_nonneg _)]; nlinarith [sq_nonneg c]
  have c2 : |c ^ 2| ≤ 1 := by rw [abs_of_nonneg (sq_nonneg _)]; nlinarith [sq_nonneg s]
  have hb0 : b ^ 2 ≤ a ^ 2 := pow_le_pow_left₀ (by linarith) hba 2
  have ds := mul_err hs hs s1 s1
  have dc := mul_err hc hc c1 c1
  rw [← sq s] at ds
  rw [← sq c] at dc
  have ds' : |R (s' * s') - s ^ 2| ≤ 7 / 10 ^ 15 := rstep R (k := 1) ds s2 (by norm_num) (by norm_num) (by norm_num) (by norm_num)
  have dc' : |R (c' * c') - c ^ 2| ≤ 7 / 10 ^ 15 := rstep R (k := 1) dc c2 (by norm_num) (by norm_num) (by norm_num) (by norm_num)
  have ma := mul_err ha2 dc' (X := 40680632) (by rw [abs_of_nonneg (sq_nonneg _)]; exact haa) c2
  have mb := mul_err hb2 ds' (X := 40680632) (by rw [abs_of_nonneg (sq_nonneg _)]; linarith) s2
  have bma : |a ^ 2 * c ^ 2| ≤ 40680632 := by
    rw [abs_mul, abs_of_nonneg (sq_nonneg a)]
    have := mul_le_mul haa c2 (abs_nonneg _) (by norm_num)
    linarith
  have bmb : |b ^ 2 * s ^ 2| ≤ 40680632 := by
    rw [abs_mul, abs_of_nonneg (sq_nonneg b)]
    have := mul_le_mul (hb0.trans haa) s2 (abs_nonneg _) (by norm_num)
    linarith
  have ma' : |R (a2 * R (c' * c')) - a ^ 2 * c ^ 2| ≤ 31 / 10 ^ 8 := rstep R (k := 26) ma bma (by norm_num) (by norm_num) (by norm_num) (by norm_num)
  have mb' : |R (b2 * R (s' * s')) - b ^ 2 * s ^ 2| ≤ 31 / 10 ^ 8 := rstep R (k := 26) mb bmb (by norm_num) (by norm_num) (by norm_num) (by norm_num)
  have hD : |R (a2 * R (c' * c')) + R (b2 * R (s' * s')) - (a ^ 2 * c ^ 2 + b ^ 2 * s ^ 2)| ≤ 62 / 10 ^ 8 := by
    rw [add_sub_add_comm]
    exact (abs_add_le _ _).trans ((add_le_add ma' mb').trans (by norm_num))
  have D1 : b ^ 2 ≤ a ^ 2 * c ^ 2 + b ^ 2 * s ^ 2 := by nlinarith [mul_nonneg (sub_nonneg.2 hb0) (sq_nonneg c)]
  have D2 : a ^ 2 * c ^ 2 + b ^ 2 * s ^ 2 ≤ a ^ 2 := by nlinarith [mul_nonneg (sub_nonneg.2 hb0) (sq_nonneg s)]
  have hb2' : (6356 : ℝ) ^ 2 ≤ b ^ 2 := pow_le_pow_left₀ (by norm_num) hb 2
  set D := a ^ 2 * c ^ 2 + b ^ 2 * s ^ 2 with hDdef
  have hD' : |R (R (a2 * R (c' * c')) + R (b2 * R (s' * s'))) - D| ≤ 63 / 10 ^ 8 :=
    rstep R (k := 26) hD (M := 40680632) (by rw [abs_of_nonneg (le_trans (sq_nonneg _) D1)]; linarith) (by norm_num) (by norm_num) (by norm_num) (by norm_num)
  have hD0 : 0 ≤ R (R (a2 * R (c' * c')) + R (b2 * R (s' * s'))) := by
    rw [abs_le] at hD'
    norm_num at hD' hb2'
    linarith [hD'.1]
  have W1 : 6356 ≤ Real.sqrt D := Real.le_sqrt_of_sq_le (hb2'.trans D1)
  have W2 : Real.sqrt D ≤ a := (Real.sqrt_le_left (by linarith)).2 D2
  have w1 := sqrt_err hD' hD0 (m := 6356) (by norm_num) W1
  have bW : |Real.sqrt D| ≤ 6379 := by rw [abs_of_nonneg (Real.sqrt_nonneg _)]; linarith
  have w2 : |R (Real.sqrt (R (R (a2 * R (c' * c')) + R (b2 * R (s' * s'))))) - Real.sqrt D| ≤ 102 / 10 ^ 12 :=
    rstep R (k := 13) w1 bW (by norm_num) (by norm_num) (by norm_num) (by norm_num)
  have f1 := mul_err (x' := h) (x := h) (εx := 0) (by simp) w2 hh bW
  have f2 : |R (h * R (Real.sqrt (R (R (a2 * R (c' * c')) + R (b2 * R (s' * s')))))) - h * Real.sqrt D| ≤ 47 / 10 ^ 7 := by
    refine rstep R (k := 29) f1 (M := 45000 * 6379) ?_ (by norm_num) (by norm_num) (by norm_num) (by norm_num)
    rw [abs_mul]
    exact mul_le_mul hh bW (abs_nonneg _) (by norm_num)
  exact ⟨ds', hD0, f2, W1, W2⟩

/-- The exact radius. -/
theorem radius_exact {a k s c h W N : ℝ} (hW : W ^ 2 = a ^ 2 * (c ^ 2 + k * s ^ 2)) (hW0 : 0 < W) (ha : 0 < a) (hN : N = a ^ 2 / W) (hsc : s ^ 2 + c ^ 2 = 1) :
    ((N + h) * c) ^ 2 + ((N * k + h) * s) ^ 2 = h ^ 2 + 2 * (h * W) + a ^ 2 * (1 - (1 - k ^ 2) * s ^ 2) / (1 - (1 - k) * s ^ 2) := by
  have e1 : 1 - (1 - k) * s ^ 2 = W ^ 2 / a ^ 2 := by
    rw [hW]
    field_simp
    linear_combination -hsc
  have e2 : 1 - (1 - k ^ 2) * s ^ 2 = c ^ 2 + k ^ 2 * s ^ 2 := by linear_combination -hsc
  rw [e1, e2, hN]
  have e3 : W ^ 2 / a ^ 2 = c ^ 2 + k * s ^ 2 := by rw [hW]; field_simp
  have e4 : a ^ 2 / W * (c ^ 2 + k * s ^ 2) = W := by rw [← e3]; field_simp
  have e5 : a ^ 2 * (c ^ 2 + k ^ 2 * s ^ 2) / (W ^ 2 / a ^ 2) = (a ^ 2 / W) ^ 2 * (c ^ 2 + k ^ 2 * s ^ 2) := by field_simp
  rw [e5]
  linear_combination 2 * h * e4 + h ^ 2 * hsc

/-- The radius. -/
theorem radius_err {a k s h W f s2 a2 q4 q2 : ℝ} (haa : a ^ 2 ≤ 40680632) (hk1 : 99 / 100 ≤ k) (hk2 : k ≤ 1) (hs0 : s ^ 2 ≤ 1)
    (ha2 : |a2 - a ^ 2| ≤ 1 / 10 ^ 8) (hs2 : |s2 - s ^ 2| ≤ 7 / 10 ^ 15) (hf : |f - h * W| ≤ 47 / 10 ^ 7) (hW : |W| ≤ 6379) (hh : |h| ≤ 45000)
    (h4 : |q4 - k ^ 2| ≤ 2 / 10 ^ 15) (h2 : |q2 - k| ≤ 2 / 10 ^ 15)
    (hr : 5800 ^ 2 ≤ h ^ 2 + 2 * (h * W) + a ^ 2 * (1 - (1 - k ^ 2) * s ^ 2) / (1 - (1 - k) * s ^ 2)) (hr' : h ^ 2 + 2 * (h * W) + a ^ 2 * (1 - (1 - k ^ 2) * s ^ 2) / (1 - (1 - k) * s ^ 2) ≤ 51500 ^ 2) :
    let n1 := R (1 - R (R (1 - q4) * s2))
    let d1 := R (1 - R (R (1 - q2) * s2))
    let q := R (R (R (h * h) + R (2 * f)) + R (R (a2 * n1) / d1))
    d1 ≠ 0 ∧ 0 ≤ q ∧ |R (Real.sqrt q) - Real.sqrt (h ^ 2 + 2 * (h * W) + a ^ 2 * (1 - (1 - k ^ 2) * s ^ 2) / (1 - (1 - k) * s ^ 2))| ≤ 2 / 10 ^ 9 := by
  have hs00 := sq_nonneg s
  have part : ∀ {q κ : ℝ}, |q - κ| ≤ 2 / 10 ^ 15 → 98 / 100 ≤ κ → κ ≤ 1 → |R (1 - R (R (1 - q) * s2)) - (1 - (1 - κ) * s ^ 2)| ≤ 24 / 10 ^ 16 := by
    intro q κ g1 g2 g3
    have p1 : |1 - q - (1 - κ)| ≤ 2 / 10 ^ 15 := by rw [show 1 - q - (1 - κ) = -(q - κ) by ring, abs_neg]; exact g1
    have b1 : |1 - κ| ≤ 2 / 100 := by rw [abs_of_nonneg (by linarith)]; linarith
    have p2 : |R (1 - q) - (1 - κ)| ≤ 201 / 10 ^ 17 := rstep R (k := -5) p1 b1 (by norm_num) (by norm_num) (by norm_num) (by norm_num)
    have p3 := mul_err p2 hs2 b1 (Y := 1) (by rw [abs_of_nonneg hs00]; exact hs0)
    have b2 : |(1 - κ) * s ^ 2| ≤ 2 / 100 := by
      rw [abs_mul, abs_of_nonneg hs00]
      have := mul_le_mul b1 hs0 hs00 (by norm_num)
      linarith
    have p4 : |R (R (1 - q) * s2) - (1 - κ) * s ^ 2| ≤ 22 / 10 ^ 16 := rstep R (k := -5) p3 b2 (by norm_num) (by norm_num) (by norm_num) (by norm_num)
    have p5 : |1 - R (R (1 - q) * s2) - (1 - (1 - κ) * s ^ 2)| ≤ 22 / 10 ^ 16 := by
      rw [show 1 - R (R (1 - q) * s2) - (1 - (1 - κ) * s ^ 2) = -(R (R (1 - q) * s2) - (1 - κ) * s ^ 2) by ring, abs_neg]
      exact p4
    refine rstep R (k := 1) p5 (M := 1) ?_ (by norm_num) (by norm_num) (by norm_num) (by norm_num)
    have := mul_nonneg (by linarith : 0 ≤ 1 - κ) hs00
    rw [abs_le] at b2 ⊢
    constructor <;> linarith [b2.2]
  have hkk : 98 / 100 ≤ k ^ 2 ∧ k ^ 2 ≤ 1 := ⟨by nlinarith, by nlinarith⟩
  intro n1 d1 q
  have hn : |n1 - (1 - (1 - k ^ 2) * s ^ 2)| ≤ 24 / 10 ^ 16 := part h4 hkk.1 hkk.2
  have hd : |d1 - (1 - (1 - k) * s ^ 2)| ≤ 24 / 10 ^ 16 := part h2 (by linarith) hk2
  clear_value n1 d1
  have ks : (1 - k) * s ^ 2 ≤ 1 / 100 := by
    have := mul_le_mul (by linarith : 1 - k ≤ 1 / 100) hs0 hs00 (by norm_num)
    linarith
  have ks2 : (1 - k ^ 2) * s ^ 2 ≤ 2 / 100 := by
    have := mul_le_mul (by linarith [hkk.1] : 1 - k ^ 2 ≤ 2 / 100) hs0 hs00 (by norm_num)
    linarith
  have ks0 : 0 ≤ (1 - k) * s ^ 2 := mul_nonneg (by linarith) hs00
  have ks20 : 0 ≤ (1 - k ^ 2) * s ^ 2 := mul_nonneg (by linarith [hkk.2]) hs00
  have kss : (1 - k) * s ^ 2 ≤ (1 - k ^ 2) * s ^ 2 := mul_le_mul_of_nonneg_right (by nlinarith) hs00
  have hd1 : 98 / 100 ≤ d1 := by rw [abs_le] at hd; norm_num at hd; linarith [hd.1]
  have hn1 : |1 - (1 - k ^ 2) * s ^ 2| ≤ 1 := by rw [abs_le]; constructor <;> linarith
  have ha0 : |a ^ 2| ≤ 40680632 := by rw [abs_of_nonneg (sq_nonneg _)]; exact haa
  have u1 := mul_err ha2 hn ha0 hn1
  have bu : |a ^ 2 * (1 - (1 - k ^ 2) * s ^ 2)| ≤ 40680632 := by
    rw [abs_mul]
    have := mul_le_mul ha0 hn1 (abs_nonneg _) (by norm_num)
    linarith
  have u2 : |R (a2 * n1) - a ^ 2 * (1 - (1 - k ^ 2) * s ^ 2)| ≤ 115 / 10 ^ 9 := rstep R (k := 26) u1 bu (by norm_num) (by norm_num) (by norm_num) (by norm_num)
  have hd0 : 0 < 1 - (1 - k) * s ^ 2 := by linarith
  have bq : |a ^ 2 * (1 - (1 - k ^ 2) * s ^ 2) / (1 - (1 - k) * s ^ 2)| ≤ 40680632 := by
    rw [mul_div_assoc, abs_mul]
    have : |(1 - (1 - k ^ 2) * s ^ 2) / (1 - (1 - k) * s ^ 2)| ≤ 1 := by
      rw [abs_of_nonneg (div_nonneg (by linarith) hd0.le)]
      exact (div_le_one hd0).2 (by linarith)
    have := mul_le_mul ha0 this (abs_nonneg _) (by norm_num)
    linarith
  have u3 := div_err u2 hd bq (m := 98 / 100) (by norm_num) hd1 hd0.ne'
  have u4 : |R (R (a2 * n1) / d1) - a ^ 2 * (1 - (1 - k ^ 2) * s ^ 2) / (1 - (1 - k) * s ^ 2)| ≤ 25 / 10 ^ 8 :=
    rstep R (k := 26) u3 bq (by norm_num) (by norm_num) (by norm_num) (by norm_num)
  have v1 : |R (h * h) - h ^ 2| ≤ 2 / 10 ^ 7 := by
    refine rstep R (k := 31) (ε := 0) (M := 45000 ^ 2) (by rw [sq]; simp) ?_ (by norm_num) (by norm_num) (by norm_num) (by norm_num)
    rw [abs_of_nonneg (sq_nonneg _), ← sq_abs]
    exact pow_le_pow_left₀ (abs_nonneg _) hh 2
  have bf : |h * W| ≤ 45000 * 6379 := by rw [abs_mul]; exact mul_le_mul hh hW (abs_nonneg _) (by norm_num)
  have v2 : |2 * f - 2 * (h * W)| ≤ 94 / 10 ^ 7 := by
    rw [← mul_sub, abs_mul, abs_two]
    have := mul_le_mul_of_nonneg_left hf (by norm_num : (0 : ℝ) ≤ 2)
    exact this.trans (by norm_num)
  have v3 : |R (2 * f) - 2 * (h * W)| ≤ 95 / 10 ^ 7 := by
    refine rstep R (k := 30) v2 (M := 2 * (45000 * 6379)) ?_ (by norm_num) (by norm_num) (by norm_num) (by norm_num)
    rw [abs_mul, abs_two]
    exact mul_le_mul_of_nonneg_left bf (by norm_num)
  have v4 : |R (h * h) + R (2 * f) - (h ^ 2 + 2 * (h * W))| ≤ 97 / 10 ^ 7 := by
    rw [add_sub_add_comm]
    exact (abs_add_le _ _).trans ((add_le_add v1 v3).trans (by norm_num))
  have bv : |h ^ 2 + 2 * (h * W)| ≤ 2600000000 := by
    refine (abs_add_le _ _).trans ?_
    rw [abs_of_nonneg (sq_nonneg _), ← sq_abs, abs_mul 2, abs_two]
    have := pow_le_pow_left₀ (abs_nonneg _) hh 2
    linarith
  have v5 : |R (R (h * h) + R (2 * f)) - (h ^ 2 + 2 * (h * W))| ≤ 100 / 10 ^ 7 := rstep R (k := 32) v4 bv (by norm_num) (by norm_num) (by norm_num) (by norm_num)
  have v6 : |R (R (h * h) + R (2 * f)) + R (R (a2 * n1) / d1) - (h ^ 2 + 2 * (h * W) + a ^ 2 * (1 - (1 - k ^ 2) * s ^ 2) / (1 - (1 - k) * s ^ 2))| ≤ 103 / 10 ^ 7 := by
    rw [add_sub_add_comm]
    exact (abs_add_le _ _).trans ((add_le_add v5 u4).trans (by norm_num))
  generalize h ^ 2 + 2 * (h * W) + a ^ 2 * (1 - (1 - k ^ 2) * s ^ 2) / (1 - (1 - k) * s ^ 2) = r2 at *
  have v7 : |q - r2| ≤ 11 / 10 ^ 6 := by
    refine rstep R (k := 32) v6 (M := 51500 ^ 2) ?_ (by norm_num) (by norm_num) (by norm_num) (by norm_num)
    rw [abs_of_nonneg (le_trans (by norm_num) hr)]
    exact hr'
  clear_value q
  have hq0 : 0 ≤ q := by
    rw [abs_le] at v7
    norm_num at v7 hr
    linarith [v7.1]
  refine ⟨by linarith, hq0, ?_⟩
  have w1 := sqrt_err v7 hq0 (m := 5800) (by norm_num) (Real.le_sqrt_of_sq_le hr)
  refine rstep R (k := 16) w1 (M := 51500) ?_ (by norm_num) (by norm_num) (by norm_num) (by norm_num)
  rw [abs_of_nonneg (Real.sqrt_nonneg _)]
  exact (Real.sqrt_le_left (by norm_num)).2 hr'

/-- The two arguments of `arctan2`, scaled by the cosine of the computed latitude. -/
theorem direction_err {a2 b2 A B f f₀ s c αc t : ℝ} (hA : |A| ≤ 40680632) (hB : |B| ≤ 40680632) (hf0 : |f₀| ≤ 45000 * 6379)
    (ha2 : |a2 - A| ≤ 1 / 10 ^ 8) (hb2 : |b2 - B| ≤ 1 / 10 ^ 8) (hf : |f - f₀| ≤ 47 / 10 ^ 7) (hs1 : |s| ≤ 1) (hc1 : |c| ≤ 1)
    (hs : |Real.sin αc - s| ≤ 3 / 10 ^ 15) (hc : |Real.cos αc - c| ≤ 3 / 10 ^ 15) (hcos : 0 < Real.cos αc) (ht : |t - Real.tan αc| ≤ 4 / 2 ^ 52 * |Real.tan αc|)
    (hbig : |t| ≤ 2 ^ 100) :
    |R (f + a2) - (f₀ + A)| ≤ 48 / 10 ^ 7 ∧
    |Real.cos αc * R (f + a2) - (f₀ + A) * c| ≤ 64 / 10 ^ 7 ∧ |Real.cos αc * R (R (f + b2) * t) - (f₀ + B) * s| ≤ 64 / 10 ^ 7 := by
  have key : ∀ {x X : ℝ}, |X| ≤ 40680632 → |x - X| ≤ 1 / 10 ^ 8 → |R (f + x) - (f₀ + X)| ≤ 48 / 10 ^ 7 ∧ |f₀ + X| ≤ 45000 * 6379 + 40680632 := by
    intro x X h1 h2
    have h3 : |f + x - (f₀ + X)| ≤ 472 / 10 ^ 8 := by
      rw [add_sub_add_comm]
      exact (abs_add_le _ _).trans ((add_le_add hf h2).trans (by norm_num))
    have h4 : |f₀ + X| ≤ 45000 * 6379 + 40680632 := (abs_add_le _ _).trans (by linarith)
    exact ⟨rstep R (k := 29) h3 h4 (by norm_num) (by norm_num) (by norm_num) (by norm_num), h4⟩
  obtain ⟨x1, x2⟩ := key hA ha2
  obtain ⟨y1, y2⟩ := key hB hb2
  refine ⟨x1, ?_, ?_⟩
  · rw [mul_comm]
    exact (mul_err x1 hc x2 hc1).trans (by norm_num)
  · have t1 : |t * Real.cos αc - s| ≤ 39 / 10 ^ 16 := by
      have e1 : Real.tan αc * Real.cos αc = Real.sin αc := Real.tan_mul_cos hcos.ne'
      have e2 : |t * Real.cos αc - Real.sin αc| ≤ 4 / 2 ^ 52 * |Real.sin αc| := by
        rw [← e1, ← sub_mul, abs_mul, abs_mul, ← mul_assoc]
        exact mul_le_mul_of_nonneg_right ht (abs_nonneg _)
      have e3 := mul_le_mul_of_nonneg_left (Real.abs_sin_le_one αc) (by norm_num : (0 : ℝ) ≤ 4 / 2 ^ 52)
      have e4 := abs_add_le (t * Real.cos αc - Real.sin αc) (Real.sin αc - s)
      rw [sub_add_sub_cancel] at e4
      norm_num at e2 e3 hs ⊢
      linarith
    have m1 := mul_err y1 t1 y2 hs1
    set Y := R (f + b2) with hY
    have hYb : |Y| ≤ 2 ^ 30 := by
      have := abs_add_le (Y - (f₀ + B)) (f₀ + B)
      rw [sub_add_cancel] at this
      norm_num at this y1 y2 ⊢
      linarith
    have hYt : |Y * t| ≤ 2 ^ 1000 := by
      rw [abs_mul]
      refine (mul_le_mul hYb hbig (abs_nonneg _) (by norm_num)).trans ?_
      rw [← pow_add]
      exact pow_le_pow_right₀ (by norm_num) (by norm_num)
    have r1 := Float.rnd_rel R hYt
    have hcl : Real.cos αc ≤ 1 := Real.cos_le_one _
    have r2 : |Real.cos αc * (R (Y * t) - Y * t)| ≤ Float.uu * |Y * (t * Real.cos αc)| + Float.tiny := by
      rw [abs_mul, abs_of_pos hcos]
      calc _ ≤ Real.cos αc * (Float.uu * |Y * t| + Float.tiny) := mul_le_mul_of_nonneg_left r1 hcos.le
        _ = Float.uu * |Y * (t * Real.cos αc)| + Real.cos αc * Float.tiny := by
          rw [← mul_assoc Y, abs_mul (Y * t), abs_of_pos hcos]; ring
        _ ≤ _ := by
          have : Real.cos αc * Float.tiny ≤ 1 * Float.tiny := mul_le_mul_of_nonneg_right hcl (by unfold Float.tiny; positivity)
          linarith
    have tt : Float.tiny ≤ 1 / 10 ^ 10 := by
      unfold Float.tiny
      calc (2 : ℝ) ^ (-1054 : ℤ) ≤ (2 : ℝ) ^ (-40 : ℤ) := zpow_le_zpow_right₀ (by norm_num) (by norm_num)
        _ ≤ _ := by norm_num
    have uu' : Float.uu ≤ 12 / 10 ^ 17 := by unfold Float.uu; norm_num
    have hYtc : |Y * (t * Real.cos αc)| ≤ 2 ^ 31 := by
      rw [abs_mul]
      have : |t * Real.cos αc| ≤ 2 := by
        have := abs_add_le (t * Real.cos αc - s) s
        rw [sub_add_cancel] at this
        norm_num at this t1 ⊢
        linarith
      have := mul_le_mul hYb this (abs_nonneg _) (by norm_num)
      norm_num at this ⊢
      linarith
    have r3 : Float.uu * |Y * (t * Real.cos αc)| ≤ 12 / 10 ^ 17 * 2 ^ 31 := mul_le_mul uu' hYtc (abs_nonneg _) (by norm_num)
    have e : Real.cos αc * R (Y * t) - (f₀ + B) * s = Real.cos αc * (R (Y * t) - Y * t) + (Y * (t * Real.cos αc) - (f₀ + B) * s) := by ring
    rw [e]
    refine (abs_add_le _ _).trans ?_
    norm_num at r2 r3 m1 tt ⊢
    linarith

end ChaosMagPy.FloatGeod
