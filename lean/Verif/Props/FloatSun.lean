import Verif.Lemmas.FloatSun
import Verif.Lemmas.FloatCoord
import Mathlib.Analysis.SpecialFunctions.Trigonometric.ArctanDeriv
/-!
# C102: accuracy of `sun_position` in double precision
-/
namespace ChaosMagPy.FloatSun
open ChaosMagPy.Spec ChaosMagPy.Float ChaosMagPy.FloatLegendre ChaosMagPy.FloatGeod ChaosMagPy.FloatAzimuth

variable (R : Rounding)

theorem arctan_lip (x y : ℝ) : |Real.arctan x - Real.arctan y| ≤ |x - y| := by
  have h := Convex.norm_image_sub_le_of_norm_deriv_le (f := Real.arctan) (C := 1) (s := Set.univ) (x := y) (y := x)
    (fun z _ => Real.differentiableAt_arctan z) (fun z _ => ?_) convex_univ (Set.mem_univ _) (Set.mem_univ _)
  · simpa using h
  · rw [Real.deriv_arctan, Real.norm_eq_abs, abs_of_pos (by positivity), div_le_one (by positivity)]
    nlinarith [sq_nonneg z]

/-- `np.degrees` of angles up to 16 radians. -/
theorem degrees_big {x : ℝ} (h : |x| ≤ 16) : |FloatCoord.degrees R x - x * (180 / Real.pi)| ≤ 1 / 10 ^ 12 ∧ IsDouble (FloatCoord.degrees R x) := by
  have hp := Real.pi_gt_d4
  have h1 := FloatCoord.degrees_err R (x := 1) (by norm_num)
  have hp1 : |R Real.pi - Real.pi| ≤ 1 / 1000 := by
    have hp' := Real.pi_lt_d4
    exact rstep R (k := 2) (ε := 0) (M := 4) (by simp) (by rw [abs_of_pos Real.pi_pos]; linarith) (by norm_num) (by norm_num) (by norm_num) (by norm_num)
  have hc : |180 / R Real.pi| ≤ 10 ^ 9 := by
    have := (abs_le.1 hp1).1
    have h3 : 3 ≤ R Real.pi := by norm_num at hp; linarith
    rw [abs_of_pos (by positivity), div_le_iff₀ (by linarith)]
    linarith
  have hid : R (R (180 / R Real.pi)) = R (180 / R Real.pi) := by
    have e := const_err R hc (k := 30) (by norm_num) (by norm_num) (by norm_num)
    refine rnd_double R (double_rnd R hc) (((abs_of_close e hc).trans (by norm_num : (10 ^ 9 + (2 : ℝ) ^ (30 - 54 : ℤ)) ≤ 2 ^ 31)).trans ?_)
    exact pow_le_pow_right₀ (by norm_num) (by norm_num)
  unfold FloatCoord.degrees at h1 ⊢
  rw [one_mul, one_mul, hid] at h1
  have m := mul_err (x' := x) (x := x) (εx := 0) (by simp) h1 h (Y := 58) (by rw [abs_of_pos (by positivity), div_le_iff₀ Real.pi_pos]; linarith)
  have b : |x * (180 / Real.pi)| ≤ 928 := by
    rw [abs_mul, abs_of_pos (by positivity : 0 < 180 / Real.pi)]
    have := mul_le_mul h (by rw [div_le_iff₀ Real.pi_pos]; linarith : 180 / Real.pi ≤ 58) (by positivity) (by norm_num)
    linarith
  exact ⟨rstep R (k := 10) m b (by norm_num) (by norm_num) (by norm_num) (by norm_num), double_rnd R ((abs_of_close m b).trans (by norm_num))⟩

/-- The quotients in the formulas for declination and right ascension. -/
theorem quotients {se ce sl cl so sl' cl' tn : ℝ} (h1 : 38 / 100 ≤ se) (h2 : se ≤ 42 / 100) (h3 : 9 / 10 ≤ ce) (hec : se ^ 2 + ce ^ 2 = 1) (hsc : sl ^ 2 + cl ^ 2 = 1)
    (eo : |so - se| ≤ 1 / 10 ^ 14) (es : |sl' - sl| ≤ 11 / 10 ^ 13) (ec : |cl' - cl| ≤ 11 / 10 ^ 13) (et : |tn - se / ce| ≤ 1 / 10 ^ 13) :
    ∃ sd q cd D, R (so * sl') = sd ∧ R (1 - R (sd * sd)) = q ∧ 0 ≤ q ∧ R (Real.sqrt q) = cd ∧ cd ≠ 0 ∧ R (cd * tn) = D ∧ D ≠ 0 ∧
      9 / 10 ≤ Real.sqrt (1 - (se * sl) ^ 2) ∧ |R (sd / cd) - se * sl / Real.sqrt (1 - (se * sl) ^ 2)| ≤ 1 / 10 ^ 12 ∧
      |R (sd / D) - ce * sl / Real.sqrt (1 - (se * sl) ^ 2)| ≤ 3 / 10 ^ 12 ∧ |R (-cl' / cd) - -cl / Real.sqrt (1 - (se * sl) ^ 2)| ≤ 3 / 10 ^ 12 := by
  have bsl : |sl| ≤ 1 := abs_le_one_iff_mul_self_le_one.2 (by nlinarith [sq_nonneg cl])
  have bcl : |cl| ≤ 1 := abs_le_one_iff_mul_self_le_one.2 (by nlinarith [sq_nonneg sl])
  have bce : ce ≤ 1 := by nlinarith [sq_nonneg se]
  have bse : |se| ≤ 42 / 100 := by rw [abs_of_pos (by linarith)]; exact h2
  have m1 := mul_err eo es bse bsl
  have b1 : |se * sl| ≤ 42 / 100 := by
    rw [abs_mul]
    have := mul_le_mul bse bsl (abs_nonneg _) (by norm_num)
    linarith
  have r1 := rstep R (k := 0) (ε' := 5 / 10 ^ 13) m1 b1 (by norm_num) (by norm_num) (by norm_num) (by norm_num)
  have hunit : (ce * sl) ^ 2 + cl ^ 2 = 1 - (se * sl) ^ 2 := by linear_combination sl ^ 2 * hec + hsc
  have hcl2 : cl ^ 2 ≤ 1 - (se * sl) ^ 2 := by linarith [sq_nonneg (ce * sl)]
  have hcs2 : (ce * sl) ^ 2 ≤ 1 - (se * sl) ^ 2 := by linarith [sq_nonneg cl]
  have hsd : se * sl / (1 : ℝ) = se * sl := div_one _
  have hy : ce * sl = se * sl / (se / ce) := by
    have : ce ≠ 0 := by linarith
    have : se ≠ 0 := by linarith
    field_simp
  rw [hy] at hcs2 ⊢
  generalize se * sl = s at *
  generalize R (so * sl') = sd at *
  have m2 := mul_err r1 r1 b1 b1
  rw [← sq s] at m2
  have b2 : |s ^ 2| ≤ 18 / 100 := by
    rw [abs_of_nonneg (sq_nonneg _), ← sq_abs]
    exact (pow_le_pow_left₀ (abs_nonneg _) b1 2).trans (by norm_num)
  have r2 := rstep R (k := 0) (ε' := 43 / 10 ^ 14) m2 b2 (by norm_num) (by norm_num) (by norm_num) (by norm_num)
  have m3 := sub_err (x := 1) (x' := 1) (e := 0) (by simp) r2
  rw [abs_of_nonneg (sq_nonneg _)] at b2
  have b3 : |1 - s ^ 2| ≤ 1 := by rw [abs_of_nonneg (by linarith)]; linarith [sq_nonneg s]
  have r3 := rstep R (k := 1) (ε' := 44 / 10 ^ 14) m3 b3 (by norm_num) (by norm_num) (by norm_num) (by norm_num)
  have q0 : 0 ≤ R (1 - R (sd * sd)) := by
    have := (abs_le.1 r3).1
    norm_num at this
    linarith
  have c1 : 9 / 10 ≤ Real.sqrt (1 - s ^ 2) := Real.le_sqrt_of_sq_le (by norm_num; linarith)
  have c2 : Real.sqrt (1 - s ^ 2) ≤ 1 := Real.sqrt_le_one.2 (by linarith [sq_nonneg s])
  have m4 := sqrt_err r3 q0 (m := 9 / 10) (by norm_num) c1
  have hq2 : Real.sqrt (1 - s ^ 2) ^ 2 = 1 - s ^ 2 := Real.sq_sqrt (by linarith)
  have r4 := rstep R (k := 1) (ε' := 5 / 10 ^ 13) (M := 1) m4 (by rw [abs_of_pos (by linarith)]; exact c2) (by norm_num) (by norm_num) (by norm_num) (by norm_num)
  refine ⟨sd, _, _, _, rfl, rfl, q0, rfl, ?_, rfl, ?_⟩
  · have := (abs_le.1 r4).1
    norm_num at this
    intro h0
    rw [h0] at this
    linarith
  generalize R (Real.sqrt (R (1 - R (sd * sd)))) = cd at *
  rw [← hq2] at hcl2 hcs2
  generalize Real.sqrt (1 - s ^ 2) = c at *
  have c0 : 0 < c := by linarith
  have lcd : 89 / 100 ≤ cd := by
    have := (abs_le.1 r4).1
    norm_num at this
    linarith
  have bt : |se / ce| ≤ 47 / 100 := by
    rw [abs_of_pos (by positivity), div_le_iff₀ (by linarith)]
    linarith
  have lt : 38 / 100 ≤ se / ce := by
    rw [le_div_iff₀ (by linarith)]
    linarith
  generalize se / ce = T at *
  have m5 := mul_err r4 et (X := 1) (by rw [abs_of_pos c0]; exact c2) bt
  have b5 : |c * T| ≤ 47 / 100 := by
    rw [abs_mul, abs_of_pos c0]
    have := mul_le_mul c2 bt (abs_nonneg _) (by norm_num)
    linarith
  have r5 := rstep R (k := 0) (ε' := 4 / 10 ^ 13) m5 b5 (by norm_num) (by norm_num) (by norm_num) (by norm_num)
  have l5 : 342 / 1000 ≤ c * T := by
    have := mul_le_mul c1 lt (by norm_num) c0.le
    linarith
  generalize R (cd * tn) = D at *
  have lD : 34 / 100 ≤ D := by
    have := (abs_le.1 r5).1
    norm_num at this
    linarith
  have d1b : |s / c| ≤ 47 / 100 := by
    rw [abs_div, abs_of_pos c0, div_le_iff₀ c0]
    linarith
  have d1 := div_err r1 r4 d1b (by norm_num) lcd c0.ne'
  have e : s / T / c = s / (c * T) := by rw [div_div, mul_comm]
  have unit : ∀ {a b : ℝ}, a ^ 2 ≤ b ^ 2 → 0 < b → |a / b| ≤ 1 := by
    intro a b hab hb
    rw [abs_div, abs_of_pos hb, div_le_one hb]
    exact abs_le_of_sq_le_sq hab hb.le
  have d2b : |s / (c * T)| ≤ 1 := by
    rw [← e]
    exact unit hcs2 c0
  have d2 := div_err r1 r5 d2b (by norm_num) lD (by linarith)
  have d3b : |-cl / c| ≤ 1 := unit (by rw [neg_sq]; exact hcl2) c0
  have ec' : |-cl' - -cl| ≤ 11 / 10 ^ 13 := by rwa [← abs_neg, show -(-cl' - -cl) = cl' - cl by ring]
  have d3 := div_err ec' r4 d3b (by norm_num) lcd c0.ne'
  refine ⟨by linarith, c1, ?_, ?_, ?_⟩
  · exact rstep R (k := 0) d1 d1b (by norm_num) (by norm_num) (by norm_num) (by norm_num)
  · rw [e]
    exact rstep R (k := 1) d2 d2b (by norm_num) (by norm_num) (by norm_num) (by norm_num)
  · exact rstep R (k := 1) d3 d3b (by norm_num) (by norm_num) (by norm_num) (by norm_num)

/-- The computed numbers, if the radicand is not negative and the denominators are not zero. -/
theorem eval (p : SunPlatform) {t ob sl sd q cd D : ℝ} (hob : timesRad R (obliquity R t) = ob) (hsl : timesRad R (longitude R p.sin t) = sl)
    (h1 : R (p.sin ob * p.sin sl) = sd) (h2 : R (1 - R (sd * sd)) = q) (h3 : 0 ≤ q) (h4 : R (Real.sqrt q) = cd) (h5 : cd ≠ 0) (h6 : R (cd * p.tan ob) = D) (h7 : D ≠ 0) :
    sunPosition R p t = (some (FloatCoord.degrees R (R (R (R Real.pi / 2) - p.arctan (R (sd / cd))))),
      some (FloatAzimuth.centerAzimuth R (FloatCoord.degrees R (R (R (R Real.pi - p.arctan2 (R (sd / D)) (R (-p.cos sl / cd))) - siderealTime R t))))) := by
  unfold sunPosition
  extract_lets obliq slp sind cosd declination rightAscension
  have h_sind : sind = some sd := by
    simp only [sind, obliq, slp]
    rw [hob, hsl, fmul, h1]
  have h_cosd : cosd = some cd := by
    simp only [cosd]
    rw [h_sind, fsq, fmul, fsub, h2, fsqrt_val R (not_lt.2 h3), h4]
  have h_d : declination = some (p.arctan (R (sd / cd))) := by
    simp only [declination]
    rw [h_sind, h_cosd, fdiv_val R h5]
    rfl
  have h_ra : rightAscension = some (R (R Real.pi - p.arctan2 (R (sd / D)) (R (-p.cos sl / cd)))) := by
    simp only [rightAscension]
    rw [h_sind, h_cosd]
    simp only [obliq, slp]
    rw [hob, hsl, fmul, h6, fdiv_val R h7, fdiv_val R h5]
  rw [h_d, h_ra]
  rfl

/-- The angle of a vector next to a unit vector. -/
theorem unit_angle {x y x' y' e : ℝ} (h : x ^ 2 + y ^ 2 = 1) (hx : |x' - x| ≤ e) (hy : |y' - y| ≤ e) :
    |Real.cos (Complex.arg ⟨x', y'⟩) - x| ≤ 3 * e ∧ |Real.sin (Complex.arg ⟨x', y'⟩) - y| ≤ 3 * e := by
  have n1 : ‖(⟨x, y⟩ : ℂ)‖ = 1 := by rw [Complex.norm_eq_sqrt_sq_add_sq]; simp only [h, Real.sqrt_one]
  have n2 : |‖(⟨x', y'⟩ : ℂ)‖ - 1| ≤ 2 * e := by
    rw [← n1]
    refine (abs_norm_sub_norm_le _ _).trans ((Complex.norm_le_abs_re_add_abs_im _).trans ?_)
    rw [Complex.sub_re, Complex.sub_im]
    simp only
    linarith
  have ec := Complex.norm_mul_cos_arg (⟨x', y'⟩ : ℂ)
  have es := Complex.norm_mul_sin_arg (⟨x', y'⟩ : ℂ)
  simp only at ec es
  have bc := Real.abs_cos_le_one (Complex.arg ⟨x', y'⟩)
  have bs := Real.abs_sin_le_one (Complex.arg ⟨x', y'⟩)
  generalize ‖(⟨x', y'⟩ : ℂ)‖ = N at *
  have key : ∀ {u v w : ℝ}, N * u = w → |u| ≤ 1 → |w - v| ≤ e → |u - v| ≤ 3 * e := by
    intro u v w h1 h2 h3
    rw [show u - v = -((N - 1) * u) + (w - v) by rw [← h1]; ring]
    refine (abs_add_le _ _).trans ?_
    rw [abs_neg, abs_mul]
    have := mul_le_mul n2 h2 (abs_nonneg _) ((abs_nonneg _).trans n2)
    linarith
  exact ⟨key ec bc hx, key es bs hy⟩

/-- Sine, cosine and tangent of the obliquity. -/
theorem obliquity_trig (p : SunPlatform) (hS : IsSine p.sin) (hT : ∀ x, |x| < Real.pi / 2 → |p.tan x - Real.tan x| ≤ 4 / 2 ^ 52 * |Real.tan x|) {t : ℝ} (h : |t| ≤ 36525) :
    38 / 100 ≤ Real.sin (rad (sunObliquity t)) ∧ Real.sin (rad (sunObliquity t)) ≤ 42 / 100 ∧ 9 / 10 ≤ Real.cos (rad (sunObliquity t)) ∧
    |p.sin (timesRad R (obliquity R t)) - Real.sin (rad (sunObliquity t))| ≤ 1 / 10 ^ 14 ∧
    |p.tan (timesRad R (obliquity R t)) - Real.sin (rad (sunObliquity t)) / Real.cos (rad (sunObliquity t))| ≤ 1 / 10 ^ 13 := by
  obtain ⟨o1, o2⟩ := obliquity_err R h
  generalize sunObliquity t = ε at *
  generalize obliquity R t = ε' at *
  have hp := Real.pi_gt_d4
  have hp' := Real.pi_lt_d4
  norm_num at hp hp'
  have oo := abs_le.1 o2
  have x1 : 405 / 1000 ≤ rad ε := by
    rw [rad]
    have := mul_le_mul (by linarith [oo.1] : (233 / 10 : ℝ) ≤ ε) (by linarith : (1745 / 100000 : ℝ) ≤ Real.pi / 180) (by norm_num) (by linarith [oo.1])
    linarith
  have x2 : rad ε ≤ 42 / 100 := by
    rw [rad]
    have := mul_le_mul (by linarith [oo.2] : ε ≤ (235 / 10 : ℝ)) (by linarith : Real.pi / 180 ≤ (1746 / 100000 : ℝ)) (by positivity) (by norm_num)
    linarith
  have bε : |ε'| ≤ 1000 := (abs_of_close o1 (b := 24) (abs_le.2 ⟨by linarith [oo.1], by linarith [oo.2]⟩)).trans (by norm_num)
  have o1' : |ε' - (ε + 360 * ((0 : ℤ) : ℝ))| ≤ 1 / 10 ^ 14 := by simpa using o1
  have e1 := sin_phase R hS o1' bε
  have e2 : |timesRad R ε' - rad ε| ≤ 7 / 10 ^ 15 := by
    have t1 := abs_add_le (timesRad R ε' - rad ε') (rad ε' - rad ε)
    rw [sub_add_sub_cancel] at t1
    exact t1.trans ((add_le_add (timesRad_err R bε) (rad_close o1)).trans (by norm_num))
  generalize timesRad R ε' = y at *
  generalize rad ε = x at *
  have s1 : 38 / 100 ≤ Real.sin x := by
    have := Real.sin_gt_sub_cube (by linarith : 0 < x)
    have h3 : x ^ 3 ≤ (42 / 100) ^ 3 := pow_le_pow_left₀ (by linarith) x2 3
    norm_num at h3
    linarith
  have s2 : Real.sin x ≤ 42 / 100 := (Real.sin_le (by linarith)).trans x2
  have c1 : 91 / 100 ≤ Real.cos x := by
    have := Real.one_sub_sq_div_two_le_cos (x := x)
    have h3 : x ^ 2 ≤ (42 / 100) ^ 2 := pow_le_pow_left₀ (by linarith) x2 2
    norm_num at h3
    linarith
  have ds := (sub_sin_le y x).trans e2
  have dc := (sub_cos_le y x).trans e2
  have cy : 9 / 10 ≤ Real.cos y := by
    have := (abs_le.1 dc).1
    norm_num at this
    linarith
  have e2' := abs_le.1 e2
  norm_num at e2'
  have tb : |Real.sin x / Real.cos x| ≤ 1 / 2 := by
    rw [abs_of_pos (div_pos (by linarith) (by linarith)), div_le_iff₀ (by linarith)]
    linarith
  have d := div_err ds dc tb (by norm_num) cy (by linarith)
  have ht := hT y (by rw [abs_lt]; constructor <;> linarith [e2'.1, e2'.2])
  rw [Real.tan_eq_sin_div_cos] at ht
  have tb' := abs_of_close d tb
  refine ⟨s1, s2, by linarith, e1.trans (by norm_num), ?_⟩
  have t1 := abs_add_le (p.tan y - Real.sin y / Real.cos y) (Real.sin y / Real.cos y - Real.sin x / Real.cos x)
  rw [sub_add_sub_cancel] at t1
  norm_num at ht d tb' t1 ⊢
  linarith

/-- The colatitude. -/
theorem colatitude_err {δ d : ℝ} (hδ : |δ| ≤ 1 / 2) (hd : |d - δ| ≤ 2 / 10 ^ 12) :
    |rad (FloatCoord.degrees R (R (R (R Real.pi / 2) - d))) - (Real.pi / 2 - δ)| ≤ 3 / 10 ^ 12 ∧
    |FloatCoord.degrees R (R (R (R Real.pi / 2) - d)) - 90| ≤ 60 := by
  have hp := Real.pi_gt_d4
  have hp' := Real.pi_lt_d4
  norm_num at hp hp'
  have h1 : |R Real.pi - Real.pi| ≤ 3 / 10 ^ 16 :=
    rstep R (k := 2) (ε := 0) (M := 32 / 10) (by simp) (by rw [abs_of_pos Real.pi_pos]; linarith) (by norm_num) (by norm_num) (by norm_num) (by norm_num)
  have h2 : |R (R Real.pi / 2) - Real.pi / 2| ≤ 3 / 10 ^ 16 := by
    refine rstep R (k := 1) (ε := 15 / 10 ^ 17) (M := 16 / 10) ?_ (by rw [abs_of_pos (by positivity)]; linarith) (by norm_num) (by norm_num) (by norm_num) (by norm_num)
    rw [← sub_div, abs_div, abs_of_pos (by norm_num : (0 : ℝ) < 2)]
    norm_num at h1 ⊢
    linarith
  have h3 := sub_err h2 hd
  have hδ' := abs_le.1 hδ
  have b3 : |Real.pi / 2 - δ| ≤ 22 / 10 := abs_le.2 ⟨by linarith [hδ'.1, hδ'.2], by linarith [hδ'.1, hδ'.2]⟩
  have h4 := rstep R (k := 2) (ε' := 21 / 10 ^ 13) h3 b3 (by norm_num) (by norm_num) (by norm_num) (by norm_num)
  have b4 := abs_of_close h4 b3
  obtain ⟨h5, -⟩ := degrees_big R (b4.trans (by norm_num))
  generalize R (R (R Real.pi / 2) - d) = X at *
  generalize FloatCoord.degrees R X = θ at *
  have h6 := rad_close h5
  rw [show rad (X * (180 / Real.pi)) = X by rw [rad]; field_simp] at h6
  constructor
  · have t1 := abs_add_le (rad θ - X) (X - (Real.pi / 2 - δ))
    rw [sub_add_sub_cancel] at t1
    exact t1.trans ((add_le_add h6 h4).trans (by norm_num))
  · have h7 : |X - Real.pi / 2| ≤ 51 / 100 := by
      have e : X - Real.pi / 2 = (X - (Real.pi / 2 - δ)) + -δ := by ring
      rw [e]
      refine (abs_add_le _ _).trans ?_
      rw [abs_neg]
      norm_num at h4 ⊢
      linarith
    have h8 : |X * (180 / Real.pi) - 90| ≤ 51 / 100 * 58 := by
      have e : X * (180 / Real.pi) - 90 = (X - Real.pi / 2) * (180 / Real.pi) := by field_simp; ring
      rw [e, abs_mul, abs_of_pos (by positivity : 0 < 180 / Real.pi)]
      exact mul_le_mul h7 (by rw [div_le_iff₀ Real.pi_pos]; linarith) (by positivity) (by norm_num)
    have t1 := abs_add_le (θ - X * (180 / Real.pi)) (X * (180 / Real.pi) - 90)
    rw [sub_add_sub_cancel] at t1
    exact t1.trans ((add_le_add h5 h8).trans (by norm_num))

/-- The longitude, up to full turns. -/
theorem azimuth_err {A a σ γ : ℝ} (hA : |A - a| ≤ 2⁻¹ ^ 51) (ha : |a| ≤ Real.pi) {k : ℤ} (hσ : |σ - (γ + k * (2 * Real.pi))| ≤ 2 / 10 ^ 12) (bσ : |σ| ≤ 7) :
    (∃ j : ℤ, |rad (FloatAzimuth.centerAzimuth R (FloatCoord.degrees R (R (R (R Real.pi - A) - σ)))) - (Real.pi - a - γ + j * (2 * Real.pi))| ≤ 3 / 10 ^ 12) ∧
    -180 < FloatAzimuth.centerAzimuth R (FloatCoord.degrees R (R (R (R Real.pi - A) - σ))) ∧
    FloatAzimuth.centerAzimuth R (FloatCoord.degrees R (R (R (R Real.pi - A) - σ))) ≤ 180 := by
  have hp := Real.pi_gt_d4
  have hp' := Real.pi_lt_d4
  norm_num at hp hp'
  have h1 : |R Real.pi - Real.pi| ≤ 3 / 10 ^ 16 :=
    rstep R (k := 2) (ε := 0) (M := 32 / 10) (by simp) (by rw [abs_of_pos Real.pi_pos]; linarith) (by norm_num) (by norm_num) (by norm_num) (by norm_num)
  have h2 := sub_err h1 hA
  have ha' := abs_le.1 ha
  have b2 : |Real.pi - a| ≤ 63 / 10 := abs_le.2 ⟨by linarith [ha'.1, ha'.2], by linarith [ha'.1, ha'.2]⟩
  have h3 := rstep R (k := 3) (ε' := 3 / 10 ^ 15) h2 b2 (by norm_num) (by norm_num) (by norm_num) (by norm_num)
  have h4 := sub_err h3 (x := Real.pi - a) (y := γ + k * (2 * Real.pi)) hσ
  have bγ : |γ + k * (2 * Real.pi)| ≤ 71 / 10 := by
    rw [abs_sub_comm] at hσ
    exact (abs_of_close hσ bσ).trans (by norm_num)
  have b4 : |Real.pi - a - (γ + k * (2 * Real.pi))| ≤ 14 := (abs_sub _ _).trans (by linarith)
  have h5 := rstep R (k := 4) (ε' := 21 / 10 ^ 13) h4 b4 (by norm_num) (by norm_num) (by norm_num) (by norm_num)
  have b5 := abs_of_close h5 b4
  obtain ⟨h6, d6⟩ := degrees_big R (b5.trans (by norm_num))
  obtain ⟨c1, c2, ⟨m, c3⟩, -⟩ := C97_center_azimuth R d6
  refine ⟨⟨m - k, ?_⟩, c1, c2⟩
  generalize R (R (R Real.pi - A) - σ) = X at *
  generalize FloatCoord.degrees R X = Φ at *
  generalize FloatAzimuth.centerAzimuth R Φ = φ at *
  have h7 := rad_close c3
  rw [rad_turn] at h7
  have h8 := rad_close h6
  rw [show rad (X * (180 / Real.pi)) = X by rw [rad]; field_simp] at h8
  rw [show rad φ - (Real.pi - a - γ + ((m - k : ℤ) : ℝ) * (2 * Real.pi)) = (rad φ - (rad Φ + m * (2 * Real.pi))) + ((rad Φ - X) + (X - (Real.pi - a - (γ + k * (2 * Real.pi))))) by
    push_cast; ring]
  refine (abs_add_le _ _).trans ((add_le_add h7 ((abs_add_le _ _).trans (add_le_add h8 h5))).trans ?_)
  norm_num

/-- **C102.** For every double within 36525 days (a century) of 2000-01-01, `sun_position` returns numbers; the colatitude is between 30 and 150 degrees, the longitude in
`(-180, 180]`, and the unit vector with these coordinates is the direction of the sun of the formulas, evaluated exactly, to `1e-10` in each component. -/
theorem C102_accuracy (p : SunPlatform) (hS : IsSine p.sin) (hC : IsCosine p.cos) (hT : ∀ x, |x| < Real.pi / 2 → |p.tan x - Real.tan x| ≤ 4 / 2 ^ 52 * |Real.tan x|)
    (hat : ∀ x, |p.arctan x - Real.arctan x| ≤ 2⁻¹ ^ 51) (hA : IsArctan2 p.arctan2) {t : ℝ} (hd : IsDouble t) (h : |t| ≤ 36525) :
    ∃ θ φ, sunPosition R p t = (some θ, some φ) ∧ 30 ≤ θ ∧ θ ≤ 150 ∧ -180 < φ ∧ φ ≤ 180 ∧ ∀ i, |direction θ φ i - sunDir t i| ≤ 1 / 10 ^ 10 := by
  obtain ⟨s1, s2, c1, e1, e2⟩ := obliquity_trig R p hS hT h
  obtain ⟨⟨k, l1⟩, l2⟩ := longitude_err R hS h
  obtain ⟨⟨j, g1⟩, g2⟩ := sidereal_err R hd h
  have es := (sin_phase R hS l1 (l2.trans (by norm_num))).trans (by norm_num : _ ≤ (11 / 10 ^ 13 : ℝ))
  have ec := (cos_phase R hC l1 (l2.trans (by norm_num))).trans (by norm_num : _ ≤ (11 / 10 ^ 13 : ℝ))
  obtain ⟨sd, q, cd, D, q1, q2, q3, q4, q5, q6, q7, q8, q9, q10, q11⟩ := quotients R s1 s2 c1 (Real.sin_sq_add_cos_sq _) (Real.sin_sq_add_cos_sq (rad (sunLongitude t))) e1 es ec e2
  refine ⟨_, _, eval R p rfl rfl q1 q2 q3 q4 q5 q6 q7, ?_⟩
  have hvec : ∀ i, sunDir t i = ![Real.cos (rad (greenwich t)) * Real.cos (rad (sunLongitude t)) + Real.sin (rad (greenwich t)) * (Real.sin (rad (sunLongitude t)) * Real.cos (rad (sunObliquity t))),
      -Real.sin (rad (greenwich t)) * Real.cos (rad (sunLongitude t)) + Real.cos (rad (greenwich t)) * (Real.sin (rad (sunLongitude t)) * Real.cos (rad (sunObliquity t))),
      Real.sin (rad (sunLongitude t)) * Real.sin (rad (sunObliquity t))] i := by
    intro i
    simp only [sunDir, rotateAxis, eclipticToEquatorial, erad]
    fin_cases i <;> rfl
  simp only [hvec]
  have hec := Real.sin_sq_add_cos_sq (rad (sunObliquity t))
  have hsc := Real.sin_sq_add_cos_sq (rad (sunLongitude t))
  have bg := Real.abs_sin_le_one (rad (greenwich t))
  have bg' := Real.abs_cos_le_one (rad (greenwich t))
  have hA' := hA.err (R (sd / D)) (R (-p.cos (timesRad R (longitude R p.sin t)) / cd))
  have hat' := hat (R (sd / cd))
  generalize p.cos (timesRad R (longitude R p.sin t)) = cl' at *
  generalize R (sd / D) = y' at *
  generalize R (-cl' / cd) = x' at *
  generalize R (sd / cd) = u' at *
  generalize Real.sin (rad (sunObliquity t)) = se at *
  generalize Real.cos (rad (sunObliquity t)) = ce at *
  generalize Real.sin (rad (sunLongitude t)) = sl at *
  generalize Real.cos (rad (sunLongitude t)) = cl at *
  set γ := rad (greenwich t)
  -- declination
  set c := Real.sqrt (1 - (se * sl) ^ 2) with hc
  have hlt : (se * sl) ^ 2 < 1 := by
    by_contra hcon
    rw [hc, Real.sqrt_eq_zero_of_nonpos (by linarith)] at q8
    linarith
  have hI : se * sl ∈ Set.Ioo (-1 : ℝ) 1 := by
    have := abs_lt_of_sq_lt_sq (a := se * sl) (b := 1) (by linarith) (by norm_num)
    exact abs_lt.1 this
  have harc := Real.arcsin_eq_arctan hI
  rw [← hc] at harc
  have hδs : Real.sin (Real.arcsin (se * sl)) = se * sl := Real.sin_arcsin hI.1.le hI.2.le
  have hδc : Real.cos (Real.arcsin (se * sl)) = c := Real.cos_arcsin _
  have hq2 : c ^ 2 = 1 - (se * sl) ^ 2 := Real.sq_sqrt (by linarith)
  have c0 : 0 < c := by linarith
  have bs1 : |sl| ≤ 1 := abs_le_one_iff_mul_self_le_one.2 (by nlinarith [sq_nonneg cl])
  have hb : |Real.arcsin (se * sl)| ≤ 1 / 2 := by
    rw [harc]
    have h1 := arctan_lip (se * sl / c) 0
    rw [Real.arctan_zero, sub_zero, sub_zero] at h1
    refine h1.trans ?_
    rw [abs_div, abs_of_pos c0, div_le_iff₀ c0, abs_mul, abs_of_pos (by linarith : 0 < se)]
    have := mul_le_mul s2 bs1 (abs_nonneg _) (by norm_num)
    linarith
  have hdd : |p.arctan u' - Real.arcsin (se * sl)| ≤ 2 / 10 ^ 12 := by
    rw [harc]
    have h1 := (arctan_lip u' (se * sl / c)).trans q9
    have t1 := abs_add_le (p.arctan u' - Real.arctan u') (Real.arctan u' - Real.arctan (se * sl / c))
    rw [sub_add_sub_cancel] at t1
    norm_num at h1 hat' t1 ⊢
    linarith
  obtain ⟨T1, T2⟩ := colatitude_err R hb hdd
  generalize FloatCoord.degrees R (R (R (R Real.pi / 2) - p.arctan u')) = θ at *
  -- right ascension
  have hunit : (-cl / c) ^ 2 + (ce * sl / c) ^ 2 = 1 := by
    rw [div_pow, div_pow, ← add_div, div_eq_one_iff_eq (by positivity), hq2]
    linear_combination sl ^ 2 * hec + hsc
  obtain ⟨u1, u2⟩ := unit_angle hunit q11 q10
  obtain ⟨⟨m, A1⟩, A2, A3⟩ := azimuth_err R hA' (Complex.abs_arg_le_pi _) g1 g2
  generalize FloatAzimuth.centerAzimuth R (FloatCoord.degrees R (R (R (R Real.pi - p.arctan2 y' x') - siderealTime R t))) = φ at *
  generalize Complex.arg ⟨x', y'⟩ = a at *
  have T2' := abs_le.1 T2
  refine ⟨by linarith [T2'.1], by linarith [T2'.2], A2, A3, ?_⟩
  have sθ := (sub_sin_le _ _).trans T1
  have cθ := (sub_cos_le _ _).trans T1
  rw [Real.sin_pi_div_two_sub, hδc] at sθ
  rw [Real.cos_pi_div_two_sub, hδs] at cθ
  have sφ := (sub_sin_le _ _).trans A1
  have cφ := (sub_cos_le _ _).trans A1
  rw [Real.sin_add_int_mul_two_pi, sub_sub, Real.sin_pi_sub, Real.sin_add] at sφ
  rw [Real.cos_add_int_mul_two_pi, sub_sub, Real.cos_pi_sub, Real.cos_add] at cφ
  have c2 : c ≤ 1 := Real.sqrt_le_one.2 (by linarith [sq_nonneg (se * sl)])
  have bsφ := Real.abs_sin_le_one (rad φ)
  have bcφ := Real.abs_cos_le_one (rad φ)
  simp only [direction, erad]
  generalize Real.sin (rad θ) = Sθ at *
  generalize Real.cos (rad θ) = Cθ at *
  generalize Real.sin (rad φ) = Sφ at *
  generalize Real.cos (rad φ) = Cφ at *
  generalize Real.sin γ = sg at *
  generalize Real.cos γ = cg at *
  generalize Real.sin a = sa at *
  generalize Real.cos a = ca at *
  have small : ∀ {x e y : ℝ}, |x| ≤ e → |y| ≤ 1 → |x * y| ≤ e := by
    intro x e y hx hy
    rw [abs_mul]
    calc |x| * |y| ≤ e * 1 := mul_le_mul hx hy (abs_nonneg _) ((abs_nonneg _).trans hx)
      _ = e := mul_one _
  have bc : |c| ≤ 1 := by rw [abs_of_pos c0]; exact c2
  have u1' : |-(ca - -cl / c)| ≤ 3 * (3 / 10 ^ 12) := by rw [abs_neg]; exact u1
  have hx : -cl / c * c = -cl := div_mul_cancel₀ _ c0.ne'
  have hy : ce * sl / c * c = ce * sl := div_mul_cancel₀ _ c0.ne'
  generalize -cl / c = x at *
  generalize ce * sl / c = y at *
  intro i
  fin_cases i
  · show |Sθ * Cφ - (cg * cl + sg * (sl * ce))| ≤ _
    have e : Sθ * Cφ - (cg * cl + sg * (sl * ce)) = (Sθ - c) * Cφ + ((Cφ - -(ca * cg - sa * sg)) * c + ((-(ca - x) * cg) * c + ((sa - y) * sg) * c)) := by
      linear_combination (-cg) * hx + sg * hy
    rw [e]
    have f1 := small sθ bcφ
    have f2 := small cφ bc
    have f3 := small (small u1' bg') bc
    have f4 := small (small u2 bg) bc
    refine (abs_add_le _ _).trans ((add_le_add f1 ((abs_add_le _ _).trans (add_le_add f2 ((abs_add_le _ _).trans (add_le_add f3 f4))))).trans (by norm_num))
  · show |Sθ * Sφ - (-sg * cl + cg * (sl * ce))| ≤ _
    have e : Sθ * Sφ - (-sg * cl + cg * (sl * ce)) = (Sθ - c) * Sφ + ((Sφ - (sa * cg + ca * sg)) * c + (((ca - x) * sg) * c + ((sa - y) * cg) * c)) := by
      linear_combination sg * hx + cg * hy
    rw [e]
    have f1 := small sθ bsφ
    have f2 := small sφ bc
    have f3 := small (small u1 bg) bc
    have f4 := small (small u2 bg') bc
    refine (abs_add_le _ _).trans ((add_le_add f1 ((abs_add_le _ _).trans (add_le_add f2 ((abs_add_le _ _).trans (add_le_add f3 f4))))).trans (by norm_num))
  · show |Cθ - sl * se| ≤ _
    rw [mul_comm sl se]
    exact cθ.trans (by norm_num)

/-- The computed cosine of the zenith angle. -/
theorem zenith_cos (p : SunPlatform) (hS : IsSine p.sin) (hC : IsCosine p.cos) (hT : ∀ x, |x| < Real.pi / 2 → |p.tan x - Real.tan x| ≤ 4 / 2 ^ 52 * |Real.tan x|)
    (hat : ∀ x, |p.arctan x - Real.arctan x| ≤ 2⁻¹ ^ 51) (hA : IsArctan2 p.arctan2) (arccos : ℝ → ℝ) {t θ φ : ℝ} (hd : IsDouble t) (h : |t| ≤ 36525)
    (h3 : |θ| ≤ 360) (h4 : |φ| ≤ 360) :
    ∃ c, |c - dot (direction θ φ) (sunDir t)| ≤ 31 / 10 ^ 11 ∧ zenithAngle R p arccos t θ φ = if |c| ≤ 1 then some (FloatCoord.degrees R (arccos c)) else none := by
  obtain ⟨θs, φs, e, t1, t2, f1, f2, hi⟩ := C102_accuracy R p hS hC hT hat hA hd h
  refine ⟨FloatCoord.cosZeta R p.cos p.sin θs φs θ φ, ?_, ?_⟩
  · have h1 := FloatCoord.cosZeta_err R hC hS (θs := θs) (φs := φs) (abs_le.2 ⟨by linarith, by linarith⟩) (abs_le.2 ⟨by linarith, by linarith⟩) h3 h4
    have hb : ∀ i, |direction θ φ i| ≤ 1 := by
      intro i
      have key : ∀ a b : ℝ, |a| ≤ 1 → |b| ≤ 1 → |a * b| ≤ 1 := by
        intro a b ha hb
        rw [abs_mul]
        exact mul_le_one₀ ha (abs_nonneg _) hb
      fin_cases i
      · exact key _ _ (Real.abs_sin_le_one _) (Real.abs_cos_le_one _)
      · exact key _ _ (Real.abs_sin_le_one _) (Real.abs_sin_le_one _)
      · exact Real.abs_cos_le_one _
    have hm : ∀ i, |direction θ φ i * (direction θs φs i - sunDir t i)| ≤ 1 / 10 ^ 10 := by
      intro i
      rw [abs_mul]
      calc _ ≤ 1 * (1 / 10 ^ 10 : ℝ) := mul_le_mul (hb i) (hi i) (abs_nonneg _) (by norm_num)
        _ = _ := one_mul _
    have h2 : |dot (direction θ φ) (direction θs φs) - dot (direction θ φ) (sunDir t)| ≤ 3 * (1 / 10 ^ 10) := by
      have e : dot (direction θ φ) (direction θs φs) - dot (direction θ φ) (sunDir t) = direction θ φ 0 * (direction θs φs 0 - sunDir t 0) +
          direction θ φ 1 * (direction θs φs 1 - sunDir t 1) + direction θ φ 2 * (direction θs φs 2 - sunDir t 2) := by
        simp only [dot]
        ring
      rw [e]
      have a1 := abs_add_le (direction θ φ 0 * (direction θs φs 0 - sunDir t 0) + direction θ φ 1 * (direction θs φs 1 - sunDir t 1)) (direction θ φ 2 * (direction θs φs 2 - sunDir t 2))
      have a2 := abs_add_le (direction θ φ 0 * (direction θs φs 0 - sunDir t 0)) (direction θ φ 1 * (direction θs φs 1 - sunDir t 1))
      linarith [hm 0, hm 1, hm 2]
    have t3 := abs_add_le (FloatCoord.cosZeta R p.cos p.sin θs φs θ φ - dot (direction θ φ) (direction θs φs)) (dot (direction θ φ) (direction θs φs) - dot (direction θ φ) (sunDir t))
    rw [sub_add_sub_cancel] at t3
    exact t3.trans ((add_le_add h1 h2).trans (by norm_num))
  · rw [zenithAngle, e]
    rfl

/-- **C102.** The zenith angle, if it is a number, is from 0 to 180 degrees up to `1e-10`, and its cosine is the scalar product of the directions of the point and of the sun, to `4e-10`. -/
theorem C102_zenith (p : SunPlatform) (hS : IsSine p.sin) (hC : IsCosine p.cos) (hT : ∀ x, |x| < Real.pi / 2 → |p.tan x - Real.tan x| ≤ 4 / 2 ^ 52 * |Real.tan x|)
    (hat : ∀ x, |p.arctan x - Real.arctan x| ≤ 2⁻¹ ^ 51) (hA : IsArctan2 p.arctan2) {arccos : ℝ → ℝ} (hac : IsArccos arccos) {t θ φ z : ℝ} (hd : IsDouble t) (h : |t| ≤ 36525)
    (h3 : |θ| ≤ 360) (h4 : |φ| ≤ 360) (hz : zenithAngle R p arccos t θ φ = some z) :
    -1 / 10 ^ 10 ≤ z ∧ z ≤ 180 + 1 / 10 ^ 10 ∧ |Real.cos (z * Real.pi / 180) - dot (direction θ φ) (sunDir t)| ≤ 4 / 10 ^ 10 := by
  obtain ⟨c, h1, h2⟩ := zenith_cos R p hS hC hT hat hA arccos hd h h3 h4
  rw [h2] at hz
  split_ifs at hz with hc
  cases hz
  have hc' := abs_le.1 hc
  have e1 := hac.err c hc
  have hp := Real.pi_lt_d4
  have b1 := Real.arccos_nonneg c
  have b2 := Real.arccos_le_pi c
  have ba : |arccos c| ≤ 4 := (abs_of_close e1 (b := 32 / 10) (by rw [abs_of_nonneg b1]; linarith)).trans (by norm_num)
  obtain ⟨e2, -⟩ := degrees_big R (ba.trans (by norm_num))
  generalize FloatCoord.degrees R (arccos c) = z at *
  generalize arccos c = x at *
  have e3 := rad_close e2
  rw [show rad (x * (180 / Real.pi)) = x by rw [rad]; field_simp] at e3
  have e4 : |rad z - Real.arccos c| ≤ 3 / 10 ^ 14 := by
    have t1 := abs_add_le (rad z - x) (x - Real.arccos c)
    rw [sub_add_sub_cancel] at t1
    exact t1.trans ((add_le_add e3 e1).trans (by norm_num))
  have e5 := (sub_cos_le _ _).trans e4
  rw [Real.cos_arccos hc'.1 hc'.2] at e5
  have e6 : |z - Real.arccos c * (180 / Real.pi)| ≤ 2 / 10 ^ 12 := by
    have e : z - Real.arccos c * (180 / Real.pi) = (rad z - Real.arccos c) * (180 / Real.pi) := by rw [rad]; field_simp
    rw [e, abs_mul, abs_of_pos (by positivity : 0 < 180 / Real.pi)]
    have hp3 := Real.pi_gt_d4
    have := mul_le_mul e4 (by rw [div_le_iff₀ Real.pi_pos]; linarith : 180 / Real.pi ≤ 58) (by positivity) (by norm_num)
    exact this.trans (by norm_num)
  have e7 : Real.arccos c * (180 / Real.pi) ≤ 180 := by
    have := mul_le_mul_of_nonneg_right b2 (by positivity : 0 ≤ 180 / Real.pi)
    rwa [mul_div_cancel₀ _ Real.pi_pos.ne'] at this
  have e8 : 0 ≤ Real.arccos c * (180 / Real.pi) := by positivity
  have e6' := abs_le.1 e6
  norm_num at e6'
  refine ⟨by norm_num; linarith [e6'.1], by norm_num; linarith [e6'.2], ?_⟩
  rw [erad]
  have t1 := abs_add_le (Real.cos (rad z) - c) (c - dot (direction θ φ) (sunDir t))
  rw [sub_add_sub_cancel] at t1
  exact t1.trans ((add_le_add e5 h1).trans (by norm_num))

/-- **C102.** NaN is returned only next to the point below the sun and the point opposite to it. -/
theorem C102_zenith_nan (p : SunPlatform) (hS : IsSine p.sin) (hC : IsCosine p.cos) (hT : ∀ x, |x| < Real.pi / 2 → |p.tan x - Real.tan x| ≤ 4 / 2 ^ 52 * |Real.tan x|)
    (hat : ∀ x, |p.arctan x - Real.arctan x| ≤ 2⁻¹ ^ 51) (hA : IsArctan2 p.arctan2) (arccos : ℝ → ℝ) {t θ φ : ℝ} (hd : IsDouble t) (h : |t| ≤ 36525)
    (h3 : |θ| ≤ 360) (h4 : |φ| ≤ 360) (hz : zenithAngle R p arccos t θ φ = none) : 1 - 4 / 10 ^ 10 ≤ |dot (direction θ φ) (sunDir t)| := by
  obtain ⟨c, h1, h2⟩ := zenith_cos R p hS hC hT hat hA arccos hd h h3 h4
  rw [h2] at hz
  split_ifs at hz with hc
  have := abs_of_close (y := c) (x := dot (direction θ φ) (sunDir t)) h1 le_rfl
  norm_num at this hc ⊢
  linarith

end ChaosMagPy.FloatSun
