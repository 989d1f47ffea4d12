import Verif.Lemmas.FloatGgToGeo
import Verif.Props.FloatGeodAccuracy
/-!
# C100: accuracy of `gg_to_geo` in double precision, and the round trip with `geo_to_gg`
-/
namespace ChaosMagPy.FloatGeod
open ChaosMagPy.Spec ChaosMagPy.Float ChaosMagPy.FloatLegendre ChaosMagPy.FloatNear

variable (R : Rounding)

theorem ratio_err {pow4 : ℝ → ℝ} (h4 : ∀ x, 1 / 2 ≤ x → x ≤ 1 → |pow4 x - x ^ 4| ≤ 4 / 2 ^ 52) :
    fdiv R (some b₀) (some a₀) = some (R (b₀ / a₀)) ∧ |pow4 (R (b₀ / a₀)) - (1 - e₀) ^ 2| ≤ 2 / 10 ^ 15 ∧ |R (R (b₀ / a₀) * R (b₀ / a₀)) - (1 - e₀)| ≤ 2 / 10 ^ 15 := by
  have a0 : a₀ ≠ 0 := by norm_num [a₀]
  have hk : 1 - e₀ = (b₀ / a₀) ^ 2 := by
    rw [e₀]
    field_simp
    ring
  have q1 : 99 / 100 ≤ b₀ / a₀ ∧ b₀ / a₀ ≤ 999 / 1000 := by constructor <;> norm_num [a₀, b₀]
  have e1 : |R (b₀ / a₀) - b₀ / a₀| ≤ 6 / 10 ^ 17 := by
    refine rstep R (k := 0) (ε := 0) (M := 1) (by simp) ?_ (by norm_num) (by norm_num) (by norm_num) (by norm_num)
    rw [abs_of_pos (by linarith)]; linarith
  refine ⟨fdiv_val R a0, ?_⟩
  rw [hk]
  generalize b₀ / a₀ = q at *
  generalize R q = q' at *
  have bq : |q| ≤ 1 := by rw [abs_of_pos (by linarith)]; linarith
  have m2 := mul_err e1 e1 bq bq
  rw [← sq q] at m2
  have bq2 : |q ^ 2| ≤ 1 := by rw [abs_of_nonneg (sq_nonneg _)]; nlinarith
  have m4 := mul_err m2 m2 bq2 bq2
  have hq' : 1 / 2 ≤ q' ∧ q' ≤ 1 := by
    rw [abs_le] at e1
    norm_num at e1
    constructor <;> linarith
  constructor
  · have h := h4 q' hq'.1 hq'.2
    have t := abs_add_le (pow4 q' - q' ^ 4) (q' ^ 4 - (q ^ 2) ^ 2)
    rw [sub_add_sub_cancel] at t
    have e : q' * q' * (q' * q') - q ^ 2 * q ^ 2 = q' ^ 4 - (q ^ 2) ^ 2 := by ring
    rw [e] at m4
    norm_num at h m4 t ⊢
    linarith
  · exact rstep R (k := 1) m2 bq2 (by norm_num) (by norm_num) (by norm_num) (by norm_num)

/-- The computed numbers, if the radicands are not negative and the denominator is not zero. -/
theorem ggToGeo_eval (p : GgPlatform) {a b height beta a2' b2' αc s' c' t' f q : ℝ} (hα : radians R (R (90 - beta)) = αc) (hs : p.sin αc = s') (hc : p.cos αc = c')
    (ht : p.tan αc = t') (ha2 : fsq R (some a) = some a2') (hb2 : fsq R (some b) = some b2') (hq : fdiv R (some b) (some a) = some q)
    (hD0 : 0 ≤ R (R (a2' * R (c' * c')) + R (b2' * R (s' * s')))) (hf : R (height * R (Real.sqrt (R (R (a2' * R (c' * c')) + R (b2' * R (s' * s')))))) = f)
    (hd1 : R (1 - R (R (1 - R (q * q)) * R (s' * s'))) ≠ 0)
    (hq0 : 0 ≤ R (R (R (height * height) + R (2 * f)) + R (R (a2' * R (1 - R (R (1 - p.pow4 q) * R (s' * s')))) / R (1 - R (R (1 - R (q * q)) * R (s' * s')))))) :
    ggToGeo R p a b height beta = (some (R (Real.sqrt (R (R (R (height * height) + R (2 * f)) + R (R (a2' * R (1 - R (R (1 - p.pow4 q) * R (s' * s')))) /
        R (1 - R (R (1 - R (q * q)) * R (s' * s')))))))),
      some (R (90 - FloatCoord.degrees R (p.arctan2 (R (R (f + b2') * t')) (R (f + a2')))))) := by
  unfold ggToGeo
  extract_lets c1 a2 b2 alpha sin2 cos2 factor theta ba radius
  have h_a2 : a2 = some a2' := ha2
  have h_b2 : b2 = some b2' := hb2
  have h_ba : ba = some q := hq
  have h_al : alpha = αc := hα
  have h_factor : factor = some f := by
    simp only [factor, sin2, cos2]
    rw [h_a2, h_b2, h_al, hs, hc, ← hf]
    simp only [fsq, fmul, fadd, fsqrt, if_neg (not_lt.2 hD0)]
  have h_radius : radius = some (R (Real.sqrt (R (R (R (height * height) + R (2 * f)) + R (R (a2' * R (1 - R (R (1 - p.pow4 q) * R (s' * s')))) /
      R (1 - R (R (1 - R (q * q)) * R (s' * s')))))))) := by
    simp only [radius, sin2]
    rw [h_a2, h_ba, h_factor, h_al, hs]
    simp only [c1, fsq, fmul, fsub, Option.map]
    rw [fdiv_val R hd1]
    exact fsqrt_val R (not_lt.2 hq0)
  have h_theta : theta = some (R (90 - FloatCoord.degrees R (p.arctan2 (R (R (f + b2') * t')) (R (f + a2'))))) := by
    simp only [theta]
    rw [h_factor, h_a2, h_b2, h_al, ht]
    rfl
  rw [h_radius, h_theta]

set_option maxHeartbeats 1000000 in
theorem gg_core (p : GgPlatform) (hS : IsSine p.sin) (hC : IsCosine p.cos) (hT : ∀ x, |x| < Real.pi / 2 → |p.tan x - Real.tan x| ≤ 4 / 2 ^ 52 * |Real.tan x|)
    (hA : IsArctan2 p.arctan2) (h4 : ∀ x, 1 / 2 ≤ x → x ≤ 1 → |p.pow4 x - x ^ 4| ≤ 4 / 2 ^ 52)
    {height beta : ℝ} (h1 : -500 ≤ height) (h2 : height ≤ 45000) (h3 : 0 ≤ beta) (h3' : beta ≤ 180) :
    ∃ radius theta, ggToGeo R p (R 6378.137) (R 6356.752) height beta = (some radius, some theta) ∧ 0 < radius ∧ -1 / 100 ≤ theta ∧ theta ≤ 18001 / 100 ∧
      |(geocentricPoint radius theta).1 - (geodeticPoint (R 6378.137) (R 6356.752) height ((90 - beta) * Real.pi / 180)).1| ≤ 1 / 10 ^ 8 ∧
      |(geocentricPoint radius theta).2 - (geodeticPoint (R 6378.137) (R 6356.752) height ((90 - beta) * Real.pi / 180)).2| ≤ 1 / 10 ^ 8 := by
  have erad : ∀ t : ℝ, t * Real.pi / 180 = rad t := fun t => by rw [rad]; ring
  simp only [geocentricPoint, erad]
  rw [show (6378.137 : ℝ) = 6378137 / 1000 by norm_num, show (6356.752 : ℝ) = 6356752 / 1000 by norm_num, v_a, v_b,
    show (7012835795048333 / 1099511627776 : ℝ) = a₀ from rfl, show (873665342361043 / 137438953472 : ℝ) = b₀ from rfl]
  have hp := Real.pi_gt_d4
  have hp' := Real.pi_lt_d4
  have hh : |height| ≤ 45000 := abs_le.2 ⟨by linarith, h2⟩
  -- the latitude
  have hx : |90 - beta| ≤ 90 := abs_le.2 ⟨by linarith, by linarith⟩
  have hx' : |R (90 - beta)| ≤ 90 := by
    have d90 : IsDouble 90 := by
      have := double_of (m := 90) (e := 0) (by norm_num) (by norm_num) (by norm_num)
      simpa using this
    have hb : (90 : ℝ) ≤ 2 ^ 1000 := (by norm_num : (90 : ℝ) ≤ 2 ^ 7).trans (pow_le_pow_right₀ (by norm_num) (by norm_num))
    have hb1 : |(90 : ℝ)| ≤ 2 ^ 1000 := by rwa [abs_of_pos (by norm_num)]
    have hb2 : |(-90 : ℝ)| ≤ 2 ^ 1000 := by rw [abs_neg]; exact hb1
    have m1 := rnd_mono R (hx.trans hb) hb1 (abs_le.1 hx).2
    have m2 := rnd_mono R hb2 (hx.trans hb) (abs_le.1 hx).1
    rw [rnd_double R d90 hb1] at m1
    rw [rnd_double R (double_neg d90) hb2] at m2
    exact abs_le.2 ⟨m2, m1⟩
  have ex : |R (90 - beta) - (90 - beta)| ≤ 8 / 10 ^ 15 :=
    rstep R (k := 7) (ε := 0) (by simp) hx (by norm_num) (by norm_num) (by norm_num) (by norm_num)
  set αc := radians R (R (90 - beta)) with hαc
  set α := rad (90 - beta) with hα
  obtain ⟨hαb, hcos, htan⟩ := tan_bound (radians_half_pi R hx')
  have hαα : |αc - α| ≤ 21 / 10 ^ 16 := by
    have r1 := (radians_err_wide R (x := R (90 - beta)) (by linarith)).1
    have r2 : |rad (R (90 - beta)) - α| ≤ 2 / 10 ^ 16 := by
      rw [hα, rad, rad, ← sub_mul, abs_mul, abs_of_pos (by positivity : 0 < Real.pi / 180)]
      have := mul_le_mul ex (by linarith : Real.pi / 180 ≤ 1 / 50) (by positivity) (by norm_num)
      exact this.trans (by norm_num)
    have t := abs_add_le (αc - rad (R (90 - beta))) (rad (R (90 - beta)) - α)
    rw [sub_add_sub_cancel] at t
    norm_num at r1 r2 t ⊢
    linarith
  have dsin := (sub_sin_le αc α).trans hαα
  have dcos := (sub_cos_le αc α).trans hαα
  have psin : |p.sin αc - Real.sin α| ≤ 3 / 10 ^ 15 := by
    have t := abs_add_le (p.sin αc - Real.sin αc) (Real.sin αc - Real.sin α)
    rw [sub_add_sub_cancel] at t
    have := hS.err αc
    norm_num at this dsin t ⊢
    linarith
  have pcos : |p.cos αc - Real.cos α| ≤ 3 / 10 ^ 15 := by
    have t := abs_add_le (p.cos αc - Real.cos αc) (Real.cos αc - Real.cos α)
    rw [sub_add_sub_cancel] at t
    have := hC.err αc
    norm_num at this dcos t ⊢
    linarith
  have ptan := hT αc hαb
  have hcos0 : 0 < Real.cos αc := lt_of_lt_of_le (by norm_num) hcos
  have tbig : |p.tan αc| ≤ 2 ^ 100 := by
    have t := abs_add_le (p.tan αc - Real.tan αc) (Real.tan αc)
    rw [sub_add_cancel] at t
    have := mul_le_mul_of_nonneg_left htan (by norm_num : (0 : ℝ) ≤ 4 / 2 ^ 52)
    norm_num at this htan ptan t ⊢
    linarith
  obtain ⟨s', hs'⟩ : ∃ v, p.sin αc = v := ⟨_, rfl⟩
  rw [hs'] at psin
  obtain ⟨c', hc'⟩ : ∃ v, p.cos αc = v := ⟨_, rfl⟩
  rw [hc'] at pcos
  obtain ⟨t', ht'⟩ : ∃ v, p.tan αc = v := ⟨_, rfl⟩
  rw [ht'] at ptan tbig
  -- constants
  obtain ⟨a2', ha2', na2⟩ := const_a2 (R := R)
  obtain ⟨b2', hb2', nb2⟩ := const_b2 (R := R)
  obtain ⟨e0, e1, aa, aa', -⟩ := e₀_bounds
  norm_num at e1
  have a0 : 0 < a₀ := by rw [a₀]; norm_num
  have hb0 := b₀_sq
  have b0 : 6356 ≤ b₀ := by rw [b₀]; norm_num
  have ha1 : a₀ ≤ 6379 := by rw [a₀]; norm_num
  have hba : b₀ ≤ a₀ := by rw [a₀, b₀]; norm_num
  have ea2 : |a2' - a₀ ^ 2| ≤ 1 / 10 ^ 8 := na2.err.trans ((mul_le_mul_of_nonneg_left aa.le (by norm_num)).trans (by norm_num))
  have hbb : (1 - e₀) * a₀ ^ 2 ≤ 40680632 := by linarith [mul_nonneg e0.le (sq_nonneg a₀)]
  have eb2 : |b2' - b₀ ^ 2| ≤ 1 / 10 ^ 8 := by
    rw [hb0]
    exact nb2.err.trans ((mul_le_mul_of_nonneg_left hbb (by norm_num)).trans (by norm_num))
  obtain ⟨hq, q4, q2⟩ := ratio_err R h4
  have hsc := Real.sin_sq_add_cos_sq α
  obtain ⟨es2, hD0, ef, W1, W2⟩ := factor_err R b0 hba ha1 aa.le hsc psin pcos ea2 eb2 hh
  have hWW : Real.sqrt (a₀ ^ 2 * Real.cos α ^ 2 + b₀ ^ 2 * Real.sin α ^ 2) ^ 2 = a₀ ^ 2 * (Real.cos α ^ 2 + (1 - e₀) * Real.sin α ^ 2) := by
    rw [Real.sq_sqrt (by positivity), hb0]
    ring
  have hprime : primeVertical a₀ b₀ α = a₀ ^ 2 / Real.sqrt (a₀ ^ 2 * Real.cos α ^ 2 + b₀ ^ 2 * Real.sin α ^ 2) := rfl
  have hbaq : b₀ ^ 2 / a₀ ^ 2 = 1 - e₀ := by rw [hb0]; field_simp
  simp only [geodeticPoint, hprime, hbaq]
  set W := Real.sqrt (a₀ ^ 2 * Real.cos α ^ 2 + b₀ ^ 2 * Real.sin α ^ 2) with hW
  set f := R (height * R (Real.sqrt (R (R (a2' * R (c' * c')) + R (b2' * R (s' * s')))))) with hf
  have hW0 : 0 < W := by linarith
  set N := a₀ ^ 2 / W with hN
  have hNW : N * W = a₀ ^ 2 := by rw [hN]; field_simp
  have hN1 : a₀ ≤ N := by rw [hN, le_div_iff₀ hW0, sq]; exact mul_le_mul_of_nonneg_left W2 a0.le
  have hN2 : N ≤ 6401 := by rw [hN, div_le_iff₀ hW0]; linarith
  have ha6 : 6378 ≤ a₀ := by rw [a₀]; norm_num
  have hNe : 0 ≤ N * e₀ ∧ N * e₀ ≤ 43 := by
    have h0 : 0 ≤ N := by linarith
    refine ⟨mul_nonneg h0 e0.le, ?_⟩
    have := mul_le_mul hN2 e1.le e0.le (by norm_num)
    linarith
  have hex := radius_exact (h := height) hWW hW0 a0 hN hsc
  have hlow : (5800 : ℝ) ^ 2 ≤ ((N + height) * Real.cos α) ^ 2 + ((N * (1 - e₀) + height) * Real.sin α) ^ 2 := by
    have l1 : 5800 ≤ N * (1 - e₀) + height := by linarith [hNe.1, hNe.2]
    have l2 : N * (1 - e₀) + height ≤ N + height := by linarith [hNe.1, hNe.2]
    have l3 : (5800 : ℝ) ^ 2 ≤ (N * (1 - e₀) + height) ^ 2 := pow_le_pow_left₀ (by norm_num) l1 2
    have l4 : (5800 : ℝ) ^ 2 ≤ (N + height) ^ 2 := pow_le_pow_left₀ (by norm_num) (by linarith) 2
    rw [mul_pow, mul_pow]
    calc (5800 : ℝ) ^ 2 = 5800 ^ 2 * Real.cos α ^ 2 + 5800 ^ 2 * Real.sin α ^ 2 := by linear_combination (-5800 ^ 2) * hsc
      _ ≤ _ := add_le_add (mul_le_mul_of_nonneg_right l4 (sq_nonneg _)) (mul_le_mul_of_nonneg_right l3 (sq_nonneg _))
  have hhigh : ((N + height) * Real.cos α) ^ 2 + ((N * (1 - e₀) + height) * Real.sin α) ^ 2 ≤ 51500 ^ 2 := by
    have l1 : 0 ≤ N * (1 - e₀) + height := by linarith [hNe.1, hNe.2]
    have l2 : N * (1 - e₀) + height ≤ N + height := by linarith [hNe.1, hNe.2]
    have l3 : (N * (1 - e₀) + height) ^ 2 ≤ 51500 ^ 2 := pow_le_pow_left₀ l1 (by linarith) 2
    have l4 : (N + height) ^ 2 ≤ (51500 : ℝ) ^ 2 := pow_le_pow_left₀ (by linarith) (by linarith) 2
    rw [mul_pow, mul_pow]
    calc _ ≤ (51500 : ℝ) ^ 2 * Real.cos α ^ 2 + 51500 ^ 2 * Real.sin α ^ 2 :=
          add_le_add (mul_le_mul_of_nonneg_right l4 (sq_nonneg _)) (mul_le_mul_of_nonneg_right l3 (sq_nonneg _))
      _ = _ := by linear_combination (51500 ^ 2) * hsc
  have hs1 : Real.sin α ^ 2 ≤ 1 := by linarith [sq_nonneg (Real.cos α)]
  obtain ⟨hd1, hq0, hrad⟩ := radius_err R (a := a₀) (k := 1 - e₀) (s := Real.sin α) (h := height) (W := W) (f := f) (s2 := R (s' * s')) (a2 := a2')
    aa.le (by linarith) (by linarith) hs1 ea2 es2 ef (by rw [abs_of_pos hW0]; linarith) hh q4 q2 (by rw [← hex]; exact hlow) (by rw [← hex]; exact hhigh)
  rw [← hex] at hrad
  have hfb : |height * W| ≤ 45000 * 6379 := by
    rw [abs_mul, abs_of_pos hW0]
    exact mul_le_mul hh (by linarith) hW0.le (by norm_num)
  obtain ⟨dX, dx, dy⟩ := direction_err R (A := a₀ ^ 2) (B := b₀ ^ 2) (f := f) (f₀ := height * W) (s := Real.sin α) (c := Real.cos α) (αc := αc) (t := t')
    (by rw [abs_of_pos (by positivity)]; exact aa.le) (by rw [hb0, abs_of_nonneg (mul_nonneg (by linarith) (sq_nonneg _))]; exact hbb) hfb ea2 eb2 ef (Real.abs_sin_le_one _) (Real.abs_cos_le_one _)
    (dsin.trans (by norm_num)) (dcos.trans (by norm_num)) hcos0 ptan tbig
  rw [ggToGeo_eval R p hαc.symm hs' hc' ht' ha2' hb2' hq hD0 hf.symm hd1 hq0]
  refine ⟨_, _, rfl, ?_⟩
  generalize R (Real.sqrt (R (R (R (height * height) + R (2 * f)) + R (R (a2' * R (1 - R (R (1 - p.pow4 (R (b₀ / a₀))) * R (s' * s')))) /
      R (1 - R (R (1 - R (R (b₀ / a₀) * R (b₀ / a₀))) * R (s' * s'))))))) = radius at *
  generalize R (R (f + b2') * t') = Y at *
  generalize R (f + a2') = X at *
  -- the direction
  have hx0 : (height * W + a₀ ^ 2) * Real.cos α = W * ((N + height) * Real.cos α) := by rw [← hNW]; ring
  have hy0 : (height * W + b₀ ^ 2) * Real.sin α = W * ((N * (1 - e₀) + height) * Real.sin α) := by rw [hb0, ← hNW]; ring
  rw [hx0] at dx
  rw [hy0] at dy
  have hX0 : 0 < X := by
    have dX' := (abs_le.1 dX).1
    have l1 : -500 * 6379 ≤ height * W := by linarith [mul_nonneg (by linarith : 0 ≤ height + 500) hW0.le]
    norm_num at dX' l1
    linarith
  have hcα : 0 ≤ Real.cos α := Real.cos_nonneg_of_mem_Icc ⟨by rw [hα, rad]; linarith [mul_nonneg (by linarith : 0 ≤ 90 - beta + 90) Real.pi_pos.le],
    by rw [hα, rad]; linarith [mul_nonneg h3 Real.pi_pos.le]⟩
  have hx00 : 0 ≤ (N + height) * Real.cos α := mul_nonneg (by linarith) hcα
  generalize (N + height) * Real.cos α = x₀ at *
  generalize (N * (1 - e₀) + height) * Real.sin α = y₀ at *
  clear hex hd1 hq0
  have hnorm : ‖(⟨x₀, y₀⟩ : ℂ)‖ = Real.sqrt (x₀ ^ 2 + y₀ ^ 2) := Complex.norm_eq_sqrt_sq_add_sq _
  have rlow : 5800 ≤ Real.sqrt (x₀ ^ 2 + y₀ ^ 2) := Real.le_sqrt_of_sq_le hlow
  have rhigh : Real.sqrt (x₀ ^ 2 + y₀ ^ 2) ≤ 51500 := (Real.sqrt_le_left (by norm_num)).2 hhigh
  set r := Real.sqrt (x₀ ^ 2 + y₀ ^ 2) with hr
  set γ := Complex.arg ⟨x₀, y₀⟩ with hγ
  have ec : r * Real.cos γ = x₀ := by have := Complex.norm_mul_cos_arg (⟨x₀, y₀⟩ : ℂ); rwa [hnorm] at this
  have es : r * Real.sin γ = y₀ := by have := Complex.norm_mul_sin_arg (⟨x₀, y₀⟩ : ℂ); rwa [hnorm] at this
  have bγ : |γ| ≤ Real.pi / 2 := Complex.abs_arg_le_pi_div_two_iff.2 hx00
  have earg : Complex.arg ⟨Real.cos αc * X, Real.cos αc * Y⟩ = Complex.arg ⟨X, Y⟩ := by
    have e : (⟨Real.cos αc * X, Real.cos αc * Y⟩ : ℂ) = ((Real.cos αc : ℝ) : ℂ) * ⟨X, Y⟩ := by
      apply Complex.ext
      · rw [Complex.re_ofReal_mul]
      · rw [Complex.im_ofReal_mul]
    rw [e, Complex.arg_real_mul _ hcos0]
  have bY : |Complex.arg ⟨X, Y⟩| < Real.pi / 2 := Complex.abs_arg_lt_pi_div_two_iff.2 (Or.inl hX0)
  have hδ := abs_le.1 bγ
  have hδ' := abs_le.1 bY.le
  have hr0 : 0 < r := by linarith
  have hWr : 0 < W * r := mul_pos hW0 hr0
  have ang : |Complex.arg ⟨X, Y⟩ - γ| ≤ 5 * (64 / 10 ^ 7 / (W * r)) := by
    refine FloatCoord.angle_close (L := W * r) (x := Real.cos αc * X) (y := Real.cos αc * Y) (α := γ) hWr ?_ ?_ ?_ ?_ (by rw [earg]) (by rw [earg])
    · rw [div_le_div_iff₀ hWr (by norm_num)]
      have := mul_le_mul W1 rlow (by norm_num) hW0.le
      norm_num at this ⊢
      linarith
    · rw [mul_assoc W, ec, div_mul_cancel₀ _ hWr.ne']
      exact dx
    · rw [mul_assoc W, es, div_mul_cancel₀ _ hWr.ne']
      exact dy
    · rw [abs_le]
      constructor <;> linarith [hδ.1, hδ.2, hδ'.1, hδ'.2]
  have ang' : |Complex.arg ⟨X, Y⟩ - γ| ≤ 6 / 10 ^ 9 / r := by
    refine ang.trans ?_
    rw [← mul_div_assoc, div_le_div_iff₀ hWr hr0]
    have := mul_le_mul_of_nonneg_right W1 hr0.le
    norm_num at this ⊢
    linarith
  have arct := hA.err Y X
  set A := p.arctan2 Y X with hAdef
  have q5 : 6 / 10 ^ 9 / r ≤ 2 / 10 ^ 12 := by rw [div_le_div_iff₀ hr0 (by norm_num)]; norm_num; linarith
  have dA : |A - γ| ≤ 6 / 10 ^ 9 / r + 5 / 10 ^ 16 := by
    have h := abs_add_le (A - Complex.arg ⟨X, Y⟩) (Complex.arg ⟨X, Y⟩ - γ)
    rw [sub_add_sub_cancel] at h
    norm_num at arct ang' h ⊢
    linarith
  have bA : |A| ≤ 4 := by
    have h := abs_add_le (A - γ) γ
    rw [sub_add_cancel] at h
    norm_num at q5 dA h ⊢
    linarith
  have dd := FloatCoord.degrees_err R bA
  set D := FloatCoord.degrees R A with hD
  have hdeg : |γ * (180 / Real.pi)| ≤ 90 := by
    have e : γ * (180 / Real.pi) = γ / (Real.pi / 2) * 90 := by field_simp; ring
    have h1 : |γ / (Real.pi / 2)| ≤ 1 := by
      rw [abs_div, abs_of_pos (by positivity : 0 < Real.pi / 2)]
      exact (div_le_one (by positivity)).2 bγ
    rw [e, abs_mul, abs_of_pos (by norm_num : (0 : ℝ) < 90)]
    linarith
  have d1 : |90 - D - (90 - γ * (180 / Real.pi))| ≤ (6 / 10 ^ 9 / r + 5 / 10 ^ 16) * (180 / Real.pi) + 6 / 10 ^ 14 := by
    have e : 90 - D - (90 - γ * (180 / Real.pi)) = -((D - A * (180 / Real.pi)) + (A - γ) * (180 / Real.pi)) := by ring
    rw [e, abs_neg]
    refine (abs_add_le _ _).trans ?_
    rw [abs_mul, abs_of_pos (by positivity : 0 < 180 / Real.pi)]
    have h := mul_le_mul_of_nonneg_right dA (by positivity : 0 ≤ 180 / Real.pi)
    have : (2⁻¹ ^ 44 : ℝ) ≤ 6 / 10 ^ 14 := by norm_num
    linarith
  have h180 : 180 / Real.pi ≤ 58 := by rw [div_le_iff₀ Real.pi_pos]; linarith
  have small : (6 / 10 ^ 9 / r + 5 / 10 ^ 16) * (180 / Real.pi) ≤ 1 := by
    have := mul_le_mul (add_le_add q5 (le_refl (5 / 10 ^ 16 : ℝ))) h180 (by positivity) (by norm_num)
    exact this.trans (by norm_num)
  have d2 : |R (90 - D) - (90 - γ * (180 / Real.pi))| ≤ (6 / 10 ^ 9 / r + 5 / 10 ^ 16) * (180 / Real.pi) + 8 / 10 ^ 14 := by
    refine rstep R (k := 8) d1 (M := 180) ?_ ?_ (by norm_num) (by norm_num) ?_
    · rw [abs_le] at hdeg ⊢
      constructor <;> linarith [hdeg.1, hdeg.2]
    · have : (180 + (1 + 6 / 10 ^ 14) : ℝ) ≤ 2 ^ (8 : ℤ) := by norm_num
      linarith
    · have : (6 / 10 ^ 14 + (2 : ℝ) ^ (8 - 54 : ℤ)) ≤ 8 / 10 ^ 14 := by norm_num
      linarith
  generalize R (90 - D) = θ at *
  have dφ : |rad (90 - θ) - γ| ≤ 6 / 10 ^ 9 / r + 21 / 10 ^ 16 := by
    have e : rad (90 - θ) - γ = -(θ - (90 - γ * (180 / Real.pi))) * (Real.pi / 180) := by
      rw [rad]
      have := Real.pi_pos.ne'
      field_simp
      ring
    rw [e, abs_mul, abs_neg, abs_of_pos (by positivity : 0 < Real.pi / 180)]
    have h := mul_le_mul_of_nonneg_right d2 (by positivity : 0 ≤ Real.pi / 180)
    refine h.trans ?_
    rw [add_mul, mul_assoc, show 180 / Real.pi * (Real.pi / 180) = 1 by field_simp, mul_one]
    have h5 : (8 / 10 ^ 14 : ℝ) * (Real.pi / 180) ≤ 8 / 10 ^ 14 * (1 / 50) := mul_le_mul_of_nonneg_left (by linarith) (by norm_num)
    norm_num at h5 ⊢
    linarith
  have esin : Real.sin (rad θ) = Real.cos (rad (90 - θ)) := by
    rw [← Real.cos_pi_div_two_sub]
    congr 1
    rw [rad, rad]
    ring
  have ecos : Real.cos (rad θ) = Real.sin (rad (90 - θ)) := by
    rw [← Real.sin_pi_div_two_sub]
    congr 1
    rw [rad, rad]
    ring
  rw [esin, ecos]
  have fin : ∀ {u v : ℝ}, |u - v| ≤ 6 / 10 ^ 9 / r + 21 / 10 ^ 16 → |v| ≤ 1 → |radius * u - r * v| ≤ 1 / 10 ^ 8 := by
    intro u v g1 g2
    refine (mul_err hrad g1 (X := r) (Y := 1) (by rw [abs_of_pos hr0]) g2).trans ?_
    rw [mul_add, mul_div_cancel₀ _ hr0.ne']
    have := mul_le_mul_of_nonneg_right rhigh (by norm_num : (0 : ℝ) ≤ 21 / 10 ^ 16)
    norm_num at this q5 ⊢
    linarith
  have hθ := abs_le.1 d2
  have hdeg' := abs_le.1 hdeg
  have small' : (6 / 10 ^ 9 / r + 5 / 10 ^ 16) * (180 / Real.pi) ≤ 1 / 1000 := by
    have := mul_le_mul (add_le_add q5 (le_refl (5 / 10 ^ 16 : ℝ))) h180 (by positivity) (by norm_num)
    exact this.trans (by norm_num)
  have hrad' := (abs_le.1 hrad).1
  refine ⟨?_, ?_, ?_, ?_, ?_⟩
  · norm_num at hrad'
    linarith
  · norm_num at hθ small' ⊢
    linarith [hθ.1, hdeg'.2]
  · norm_num at hθ small' ⊢
    linarith [hθ.2, hdeg'.1]
  · rw [← ec]
    exact fin ((sub_cos_le _ _).trans dφ) (Real.abs_cos_le_one _)
  · rw [← es]
    exact fin ((sub_sin_le _ _).trans dφ) (Real.abs_sin_le_one _)

/-- **C100.** For the default ellipsoid and every point at heights from -500 to 45000 km, the poles included: radius and colatitude are numbers, and they are
those of a point within 0.00000001 km (a hundredth of a millimetre) of the given one, in the direction of the axis and away from it. -/
theorem C100_accuracy (p : GgPlatform) (hS : IsSine p.sin) (hC : IsCosine p.cos) (hT : ∀ x, |x| < Real.pi / 2 → |p.tan x - Real.tan x| ≤ 4 / 2 ^ 52 * |Real.tan x|)
    (hA : IsArctan2 p.arctan2) (h4 : ∀ x, 1 / 2 ≤ x → x ≤ 1 → |p.pow4 x - x ^ 4| ≤ 4 / 2 ^ 52)
    {height beta : ℝ} (h1 : -500 ≤ height) (h2 : height ≤ 45000) (h3 : 0 ≤ beta) (h3' : beta ≤ 180) :
    ∃ radius theta, ggToGeo R p (R 6378.137) (R 6356.752) height beta = (some radius, some theta) ∧
      |(geocentricPoint radius theta).1 - (geodeticPoint (R 6378.137) (R 6356.752) height ((90 - beta) * Real.pi / 180)).1| ≤ 1 / 10 ^ 8 ∧
      |(geocentricPoint radius theta).2 - (geodeticPoint (R 6378.137) (R 6356.752) height ((90 - beta) * Real.pi / 180)).2| ≤ 1 / 10 ^ 8 := by
  obtain ⟨radius, theta, e, -, -, -, g⟩ := gg_core R p hS hC hT hA h4 h1 h2 h3 h3'
  exact ⟨radius, theta, e, g⟩

/-- Two positions that are close have nearly equal radii and colatitudes. -/
theorem polar_close {r r' θ θ' : ℝ} (h1 : 6000 ≤ r) (h2 : r ≤ 50000) (hθ : 0 ≤ θ) (hθ2 : θ ≤ 180) (hsin : 50 ≤ r * Real.sin (rad θ)) (hr' : 0 < r')
    (ht : -1 / 100 ≤ θ') (ht' : θ' ≤ 18001 / 100) (e1 : |r' * Real.sin (rad θ') - r * Real.sin (rad θ)| ≤ 11 / 10 ^ 8)
    (e2 : |r' * Real.cos (rad θ') - r * Real.cos (rad θ)| ≤ 11 / 10 ^ 8) : |r' - r| ≤ 3 / 10 ^ 7 ∧ |θ' - θ| ≤ 1 / 10 ^ 8 := by
  have hp := Real.pi_gt_d4
  have hp' := Real.pi_lt_d4
  have hr : 0 < r := by linarith
  have nrm : ∀ {a t : ℝ}, 0 < a → ‖(⟨a * Real.cos t, a * Real.sin t⟩ : ℂ)‖ = a := by
    intro a t ha
    rw [Complex.norm_eq_sqrt_sq_add_sq, show (a * Real.cos t) ^ 2 + (a * Real.sin t) ^ 2 = a ^ 2 by linear_combination a ^ 2 * Real.sin_sq_add_cos_sq t,
      Real.sqrt_sq ha.le]
  constructor
  · have h := abs_norm_sub_norm_le (⟨r' * Real.cos (rad θ'), r' * Real.sin (rad θ')⟩ : ℂ) ⟨r * Real.cos (rad θ), r * Real.sin (rad θ)⟩
    rw [nrm hr', nrm hr] at h
    refine h.trans ((Complex.norm_le_abs_re_add_abs_im _).trans ?_)
    rw [Complex.sub_re, Complex.sub_im]
    refine (add_le_add e2 e1).trans (by norm_num)
  · have low : 1 / 1000 ≤ Real.sin (rad θ) := by
      by_contra hc
      have h5 := mul_lt_mul_of_pos_left (not_le.1 hc) hr
      linarith
    have hrad0 : 0 ≤ rad θ := by rw [rad]; positivity
    have hradp : rad θ ≤ Real.pi := by rw [rad]; linarith [mul_le_mul_of_nonneg_right hθ2 Real.pi_pos.le]
    have b1 : 1 / 1000 ≤ rad θ := low.trans (Real.sin_le hrad0)
    have b2 : 1 / 1000 ≤ Real.pi - rad θ := by
      have h5 := Real.sin_le (x := Real.pi - rad θ) (by linarith)
      rw [Real.sin_pi_sub] at h5
      linarith
    have hδ : |rad θ' - rad θ| ≤ Real.pi := by
      have c1 : rad θ' ≤ Real.pi + 1 / 5000 := by
        rw [rad]
        linarith [mul_le_mul_of_nonneg_right ht' Real.pi_pos.le]
      have c2 : -(1 / 5000) ≤ rad θ' := by
        rw [rad]
        linarith [mul_le_mul_of_nonneg_right ht Real.pi_pos.le]
      rw [abs_le]
      constructor <;> linarith
    have hn := nrm (t := rad θ') hr'
    have ec : Real.cos (Complex.arg ⟨r' * Real.cos (rad θ'), r' * Real.sin (rad θ')⟩) = Real.cos (rad θ') := by
      have := Complex.norm_mul_cos_arg (⟨r' * Real.cos (rad θ'), r' * Real.sin (rad θ')⟩ : ℂ)
      rw [hn] at this
      exact mul_left_cancel₀ hr'.ne' this
    have es : Real.sin (Complex.arg ⟨r' * Real.cos (rad θ'), r' * Real.sin (rad θ')⟩) = Real.sin (rad θ') := by
      have := Complex.norm_mul_sin_arg (⟨r' * Real.cos (rad θ'), r' * Real.sin (rad θ')⟩ : ℂ)
      rw [hn] at this
      exact mul_left_cancel₀ hr'.ne' this
    have ang : |rad θ' - rad θ| ≤ 5 * (11 / 10 ^ 8 / r) := by
      refine FloatCoord.angle_close (L := r) (x := r' * Real.cos (rad θ')) (y := r' * Real.sin (rad θ')) (α := rad θ) hr ?_ ?_ ?_ hδ ?_ ?_
      · rw [div_le_div_iff₀ hr (by norm_num)]
        norm_num
        linarith
      · rwa [div_mul_cancel₀ _ hr.ne']
      · rwa [div_mul_cancel₀ _ hr.ne']
      · rw [Real.sin_sub, Real.sin_sub, ec, es]
      · rw [Real.cos_sub, Real.cos_sub, ec, es]
    have q : 5 * (11 / 10 ^ 8 / r) ≤ 1 / 10 ^ 10 := by
      rw [← mul_div_assoc, div_le_div_iff₀ hr (by norm_num)]
      norm_num
      linarith
    have e : rad θ' - rad θ = (θ' - θ) * (Real.pi / 180) := by rw [rad, rad]; ring
    rw [e, abs_mul, abs_of_pos (by positivity : 0 < Real.pi / 180)] at ang
    have h6 := mul_le_mul_of_nonneg_left (by linarith : 1 / 60 ≤ Real.pi / 180) (abs_nonneg (θ' - θ))
    norm_num at ang q h6 ⊢
    linarith

/-- **C100.** Going to geodetic coordinates and back in double precision: radius and colatitude are numbers again, the radius is that of the given point to
0.0000003 km, the colatitude to 0.00000001 degrees, for every point at radii from 6000 to 50000 km that is at least 50.001 km away from the axis. -/
theorem C100_round_trip (p : Platform) (hS : IsSine p.sin) (hC : IsCosine p.cos) (hA : IsArctan2 p.arctan2)
    (hcube : ∀ x, (2 : ℝ) ^ (-300 : ℤ) ≤ x → x ≤ (2 : ℝ) ^ (300 : ℤ) → |p.cube x - x ^ 3| ≤ 4 / 2 ^ 52 * x ^ 3)
    (hcbrt : ∀ x, (2 : ℝ) ^ (-300 : ℤ) ≤ x → x ≤ (2 : ℝ) ^ (300 : ℤ) → |p.cbrt x - x ^ ((1 : ℝ) / 3)| ≤ 256 / 2 ^ 52 * x ^ ((1 : ℝ) / 3))
    (q : GgPlatform) (hS' : IsSine q.sin) (hC' : IsCosine q.cos) (hT : ∀ x, |x| < Real.pi / 2 → |q.tan x - Real.tan x| ≤ 4 / 2 ^ 52 * |Real.tan x|)
    (hA' : IsArctan2 q.arctan2) (h4 : ∀ x, 1 / 2 ≤ x → x ≤ 1 → |q.pow4 x - x ^ 4| ≤ 4 / 2 ^ 52)
    {radius theta : ℝ} (h1 : 6000 ≤ radius) (h2 : radius ≤ 50000) (h3 : 0 ≤ theta) (h3' : theta ≤ 180)
    (hdist : 50.001 ≤ (geocentricPoint radius theta).1) (hcos : (2 : ℝ) ^ (-100 : ℤ) ≤ |p.cos (radians R theta)|) :
    ∃ h β radius' theta', geoToGg R p (R 6378.137) (R 6356.752) radius theta = (some h, some β) ∧
      ggToGeo R q (R 6378.137) (R 6356.752) h β = (some radius', some theta') ∧ |radius' - radius| ≤ 3 / 10 ^ 7 ∧ |theta' - theta| ≤ 1 / 10 ^ 8 := by
  obtain ⟨h, β, eg, b1, b2, b3, b4, g1, g2⟩ := C99_accuracy R p hS hC hA hcube hcbrt h1 h2 h3 h3' hdist hcos
  obtain ⟨r', θ', er, hr', t1, t2, f1, f2⟩ := gg_core R q hS' hC' hT hA' h4 b1 b2 b3 b4
  refine ⟨h, β, r', θ', eg, er, ?_⟩
  have erad : ∀ t : ℝ, t * Real.pi / 180 = rad t := fun t => by rw [rad]; ring
  generalize geodeticPoint (R 6378.137) (R 6356.752) h ((90 - β) * Real.pi / 180) = P at *
  simp only [geocentricPoint, erad] at *
  have tri : ∀ {a b c : ℝ}, |a - b| ≤ 1 / 10 ^ 8 → |b - c| ≤ 1 / 10 ^ 7 → |a - c| ≤ 11 / 10 ^ 8 := by
    intro a b c ha hb
    have t := abs_add_le (a - b) (b - c)
    rw [sub_add_sub_cancel] at t
    norm_num at ha hb t ⊢
    linarith
  exact polar_close h1 h2 h3 h3' (by norm_num at hdist; linarith) hr' t1 t2 (tri f1 g1) (tri f2 g2)

end ChaosMagPy.FloatGeod
