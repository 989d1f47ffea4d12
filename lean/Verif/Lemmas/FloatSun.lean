import Verif.Model.FloatSun
import Verif.Spec.Sun
import Verif.Props.FloatAzimuth
import Verif.Lemmas.FloatGeodAcc
import Verif.Props.FloatGeodAccuracy
/-!
# Rounding errors of the position of the sun
-/
namespace ChaosMagPy.FloatSun
open ChaosMagPy.Spec ChaosMagPy.Float ChaosMagPy.FloatLegendre ChaosMagPy.FloatGeod ChaosMagPy.FloatAzimuth

variable (R : Rounding)

theorem double_rnd {x : ℝ} (h : |x| ≤ 10 ^ 9) : IsDouble (R x) := by
  refine (R.nearest x (h.trans ?_)).1
  calc (10 : ℝ) ^ 9 ≤ 2 ^ 30 := by norm_num
    _ ≤ 2 ^ 1000 := pow_le_pow_right₀ (by norm_num) (by norm_num)

theorem add_err {x x' y y' e e' : ℝ} (h1 : |x' - x| ≤ e) (h2 : |y' - y| ≤ e') : |x' + y' - (x + y)| ≤ e + e' := by
  rw [add_sub_add_comm]
  exact (abs_add_le _ _).trans (add_le_add h1 h2)

theorem sub_err {x x' y y' e e' : ℝ} (h1 : |x' - x| ≤ e) (h2 : |y' - y| ≤ e') : |x' - y' - (x - y)| ≤ e + e' := by
  rw [sub_sub_sub_comm]
  exact (abs_sub _ _).trans (add_le_add h1 h2)

theorem abs_of_close {x y e b : ℝ} (h : |y - x| ≤ e) (hb : |x| ≤ b) : |y| ≤ b + e := by
  have := abs_add_le (y - x) x
  rw [sub_add_cancel] at this
  linarith

theorem jd_err {t : ℝ} (h : |t| ≤ 36525) : |julianDate R t - dj t| ≤ 15 / 10 ^ 12 ∧ |dj t| ≤ 73050 := by
  have h' := abs_le.1 h
  have e1 : |R (36524 + t) - (36524 + t)| ≤ 74 / 10 ^ 13 := by
    refine rstep R (k := 17) (ε := 0) (M := 73049) (by simp) ?_ (by norm_num) (by norm_num) (by norm_num) (by norm_num)
    rw [abs_le]; constructor <;> linarith
  have e2 : |dj t| ≤ 73050 := by
    rw [dj, abs_le]
    norm_num
    constructor <;> linarith
  refine ⟨?_, e2⟩
  refine rstep R (k := 17) (ε := 74 / 10 ^ 13) (M := 73050) ?_ e2 (by norm_num) (by norm_num) (by norm_num) (by norm_num)
  rw [show R (36524 + t) + 1 / 2 - dj t = R (36524 + t) - (36524 + t) by rw [dj]; norm_num; ring]
  exact e1

theorem phase_err {c₀ c₁ x x' : ℝ} (h0 : |c₀| ≤ 360) (h1 : |c₁| ≤ 1) (hx : |x' - x| ≤ 15 / 10 ^ 12) (hb : |x| ≤ 73050) :
    |R (R c₀ + R (R c₁ * x')) - (c₀ + c₁ * x)| ≤ 4 / 10 ^ 11 ∧ |c₀ + c₁ * x| ≤ 73410 ∧ IsDouble (R (R c₀ + R (R c₁ * x'))) := by
  have a := rstep R (k := 9) (t' := c₀) (t := c₀) (ε := 0) (ε' := 3 / 10 ^ 14) (by simp) h0 (by norm_num) (by norm_num) (by norm_num) (by norm_num)
  have b := rstep R (k := 0) (t' := c₁) (t := c₁) (ε := 0) (ε' := 6 / 10 ^ 17) (by simp) h1 (by norm_num) (by norm_num) (by norm_num) (by norm_num)
  have m := mul_err b hx h1 hb
  have bm : |c₁ * x| ≤ 73050 := by
    rw [abs_mul]
    have := mul_le_mul h1 hb (abs_nonneg _) (by norm_num)
    linarith
  have c := rstep R (k := 17) (ε' := 27 / 10 ^ 12) m bm (by norm_num) (by norm_num) (by norm_num) (by norm_num)
  have bs : |c₀ + c₁ * x| ≤ 73410 := (abs_add_le _ _).trans (by linarith)
  have key : |R c₀ + R (R c₁ * x') - (c₀ + c₁ * x)| ≤ 28 / 10 ^ 12 := by
    rw [show R c₀ + R (R c₁ * x') - (c₀ + c₁ * x) = (R c₀ - c₀) + (R (R c₁ * x') - c₁ * x) by ring]
    refine (abs_add_le _ _).trans ?_
    norm_num at a c ⊢
    linarith
  refine ⟨rstep R (k := 17) (ε := 28 / 10 ^ 12) key bs (by norm_num) (by norm_num) (by norm_num) (by norm_num), bs, double_rnd R ?_⟩
  exact (abs_of_close key bs).trans (by norm_num)

theorem reduce_err {x x' e : ℝ} (hd : IsDouble x') (h : |x' - x| ≤ e) :
    ∃ k : ℤ, |FloatAzimuth.remainder R x' 360 - (x + 360 * k)| ≤ e + 3 / 10 ^ 14 ∧ 0 ≤ FloatAzimuth.remainder R x' 360 ∧ FloatAzimuth.remainder R x' 360 ≤ 360 := by
  have hs := remainder_spec R hd (n := 360) (by norm_num) (by norm_num)
  push_cast at hs
  obtain ⟨-, h1, h2, ⟨k, hk⟩, -⟩ := hs
  refine ⟨k, ?_, h1, h2⟩
  rw [show FloatAzimuth.remainder R x' 360 - (x + 360 * k) = (FloatAzimuth.remainder R x' 360 - (x' + 360 * k)) + (x' - x) by ring]
  refine (abs_add_le _ _).trans ?_
  norm_num at hk ⊢
  linarith

theorem timesRad_err {x : ℝ} (h : |x| ≤ 1000) : |timesRad R x - rad x| ≤ 6 / 10 ^ 15 := by
  have hd := deg_err' R
  have hp' := Real.pi_lt_d4
  have h2 := mul_err (x' := x) (x := x) (εx := 0) (by simp) hd h (Y := 1 / 50) (by rw [abs_of_pos (by positivity)]; linarith)
  refine rstep R (k := 5) h2 (M := 20) ?_ (by norm_num) (by norm_num) (by norm_num) (by norm_num)
  rw [rad, abs_mul, abs_of_pos (by positivity : 0 < Real.pi / 180)]
  have := mul_le_mul h (by linarith : Real.pi / 180 ≤ 1 / 50) (by positivity) (by norm_num)
  linarith

theorem rad_turn (x : ℝ) (k : ℤ) : rad (x + 360 * k) = rad x + k * (2 * Real.pi) := by rw [rad, rad]; ring

theorem rad_close {x y e : ℝ} (h : |x - y| ≤ e) : |rad x - rad y| ≤ e / 50 := by
  rw [rad, rad, ← sub_mul, abs_mul, abs_of_pos (by positivity : 0 < Real.pi / 180)]
  have hp' := Real.pi_lt_d4
  have := mul_le_mul h (by linarith : Real.pi / 180 ≤ 1 / 50) (by positivity) ((abs_nonneg _).trans h)
  linarith

theorem sin_phase {S : ℝ → ℝ} (hS : IsSine S) {x x' e : ℝ} {k : ℤ} (h : |x' - (x + 360 * k)| ≤ e) (hb : |x'| ≤ 1000) :
    |S (timesRad R x') - Real.sin (rad x)| ≤ e / 50 + 7 / 10 ^ 15 := by
  have h1 := hS.err (timesRad R x')
  have h2 := (sub_sin_le (timesRad R x') (rad x')).trans (timesRad_err R hb)
  have h3 := (sub_sin_le (rad x') (rad (x + 360 * k))).trans (rad_close h)
  rw [rad_turn, Real.sin_add_int_mul_two_pi] at h3
  have t1 := abs_add_le (S (timesRad R x') - Real.sin (timesRad R x')) (Real.sin (timesRad R x') - Real.sin (rad x'))
  have t2 := abs_add_le (S (timesRad R x') - Real.sin (rad x')) (Real.sin (rad x') - Real.sin (rad x))
  rw [sub_add_sub_cancel] at t1 t2
  norm_num at h1 h2 h3 t1 t2 ⊢
  linarith

theorem cos_phase {C : ℝ → ℝ} (hC : IsCosine C) {x x' e : ℝ} {k : ℤ} (h : |x' - (x + 360 * k)| ≤ e) (hb : |x'| ≤ 1000) :
    |C (timesRad R x') - Real.cos (rad x)| ≤ e / 50 + 7 / 10 ^ 15 := by
  have h1 := hC.err (timesRad R x')
  have h2 := (sub_cos_le (timesRad R x') (rad x')).trans (timesRad_err R hb)
  have h3 := (sub_cos_le (rad x') (rad (x + 360 * k))).trans (rad_close h)
  rw [rad_turn, Real.cos_add_int_mul_two_pi] at h3
  have t1 := abs_add_le (C (timesRad R x') - Real.cos (timesRad R x')) (Real.cos (timesRad R x') - Real.cos (rad x'))
  have t2 := abs_add_le (C (timesRad R x') - Real.cos (rad x')) (Real.cos (rad x') - Real.cos (rad x))
  rw [sub_add_sub_cancel] at t1 t2
  norm_num at h1 h2 h3 t1 t2 ⊢
  linarith

theorem erad (t : ℝ) : t * Real.pi / 180 = rad t := by rw [rad]; ring

/-- Rounded constants. -/
theorem const_err {c M : ℝ} {k : ℤ} (h : |c| ≤ M) (hM : M ≤ (2 : ℝ) ^ k) (h1 : -1021 ≤ k) (h2 : k ≤ 1000) : |R c - c| ≤ (2 : ℝ) ^ (k - 54) :=
  rnd_err R (h.trans hM) h1 h2

theorem century_err {t : ℝ} (h : |t| ≤ 36525) : |R (julianDate R t / 36525) - dj t / 36525| ≤ 2 / 10 ^ 15 ∧ |dj t / 36525| ≤ 2 := by
  obtain ⟨h1, h2⟩ := jd_err R h
  have b : |dj t / 36525| ≤ 2 := by
    rw [abs_div, abs_of_pos (by norm_num : (0 : ℝ) < 36525), div_le_iff₀ (by norm_num)]
    linarith
  refine ⟨rstep R (k := 2) (ε := 15 / 10 ^ 12 / 36525) ?_ b (by norm_num) (by norm_num) (by norm_num) (by norm_num), b⟩
  rw [← sub_div, abs_div, abs_of_pos (by norm_num : (0 : ℝ) < 36525)]
  exact div_le_div_of_nonneg_right h1 (by norm_num)

theorem obliquity_err {t : ℝ} (h : |t| ≤ 36525) : |obliquity R t - sunObliquity t| ≤ 1 / 10 ^ 14 ∧ |sunObliquity t - 234 / 10| ≤ 1 / 10 := by
  obtain ⟨h1, h2⟩ := century_err R h
  unfold obliquity sunObliquity
  have a := const_err R (c := 23.45229) (M := 24) (k := 5) (by rw [abs_of_pos (by norm_num)]; norm_num) (by norm_num) (by norm_num) (by norm_num)
  have b := const_err R (c := 0.0130125) (M := 1 / 64) (k := -6) (by rw [abs_of_pos (by norm_num)]; norm_num) (by norm_num) (by norm_num) (by norm_num)
  have m := mul_err b h1 (X := 1 / 64) (by rw [abs_of_pos (by norm_num)]; norm_num) h2
  generalize dj t / 36525 = c at *
  generalize R (julianDate R t / 36525) = c' at *
  have bm : |0.0130125 * c| ≤ 1 / 30 := by
    rw [abs_mul, abs_of_pos (by norm_num)]
    norm_num
    linarith
  have r := rstep R (k := -4) (ε' := 1 / 10 ^ 16) m bm (by norm_num) (by norm_num) (by norm_num) (by norm_num)
  have bm' := abs_le.1 bm
  constructor
  · refine rstep R (k := 5) (ε := 3 / 10 ^ 15) (M := 24) ?_ ?_ (by norm_num) (by norm_num) (by norm_num) (by norm_num)
    · rw [sub_sub_sub_comm]
      refine (abs_sub _ _).trans ?_
      norm_num at a r ⊢
      linarith
    · rw [abs_le]
      norm_num at bm' ⊢
      constructor <;> linarith [bm'.1, bm'.2]
  · rw [abs_le]
    norm_num at bm' ⊢
    constructor <;> linarith [bm'.1, bm'.2]

/-- The factor of the equation of center. -/
theorem center_err {c c' : ℝ} (h1 : |c' - c| ≤ 2 / 10 ^ 15) (h2 : |c| ≤ 2) :
    |R (R 1.91946 - R (R 0.004789 * c')) - (1.91946 - 0.004789 * c)| ≤ 1 / 10 ^ 15 ∧ |1.91946 - 0.004789 * c| ≤ 1.95 := by
  have a := const_err R (c := 1.91946) (M := 2) (k := 1) (by rw [abs_of_pos (by norm_num)]; norm_num) (by norm_num) (by norm_num) (by norm_num)
  have b := const_err R (c := 0.004789) (M := 1 / 128) (k := -7) (by rw [abs_of_pos (by norm_num)]; norm_num) (by norm_num) (by norm_num) (by norm_num)
  have m := mul_err b h1 (X := 1 / 128) (by rw [abs_of_pos (by norm_num)]; norm_num) h2
  have bm : |0.004789 * c| ≤ 1 / 100 := by
    rw [abs_mul, abs_of_pos (by norm_num)]
    norm_num
    linarith
  have r := rstep R (k := -6) (ε' := 1 / 10 ^ 16) m bm (by norm_num) (by norm_num) (by norm_num) (by norm_num)
  have bm' := abs_le.1 bm
  have bb : |1.91946 - 0.004789 * c| ≤ 1.95 := by
    rw [abs_le]
    norm_num at bm' ⊢
    constructor <;> linarith [bm'.1, bm'.2]
  exact ⟨rstep R (k := 1) (sub_err a r) bb (by norm_num) (by norm_num) (by norm_num) (by norm_num), bb⟩

theorem longitude_err {S : ℝ → ℝ} (hS : IsSine S) {t : ℝ} (h : |t| ≤ 36525) :
    (∃ k : ℤ, |longitude R S t - (sunLongitude t + 360 * k)| ≤ 5 / 10 ^ 11) ∧ |longitude R S t| ≤ 400 := by
  obtain ⟨j1, j2⟩ := jd_err R h
  obtain ⟨c1, c2⟩ := century_err R h
  obtain ⟨v1, -, v3⟩ := phase_err R (c₀ := 279.696678) (c₁ := 0.9856473354) (by rw [abs_of_pos (by norm_num)]; norm_num) (by rw [abs_of_pos (by norm_num)]; norm_num) j1 j2
  obtain ⟨g1, -, g3⟩ := phase_err R (c₀ := 358.475845) (c₁ := 0.985600267) (by rw [abs_of_pos (by norm_num)]; norm_num) (by rw [abs_of_pos (by norm_num)]; norm_num) j1 j2
  obtain ⟨k, v4, v5, v6⟩ := reduce_err R v3 v1
  obtain ⟨l, g4, g5, g6⟩ := reduce_err R g3 g1
  obtain ⟨m1, m2⟩ := center_err R c1 c2
  have a := const_err R (c := 0.020094) (M := 1 / 32) (k := -5) (by rw [abs_of_pos (by norm_num)]; norm_num) (by norm_num) (by norm_num) (by norm_num)
  have b := const_err R (c := 0.005686) (M := 1 / 128) (k := -7) (by rw [abs_of_pos (by norm_num)]; norm_num) (by norm_num) (by norm_num) (by norm_num)
  unfold longitude sunLongitude
  simp only [erad]
  rw [show (358.475845 + 0.985600267 * dj t : ℝ) = sunAnomaly t from rfl] at g4
  generalize FloatAzimuth.remainder R (R (R 279.696678 + R (R 0.9856473354 * julianDate R t))) 360 = v at *
  generalize FloatAzimuth.remainder R (R (R 358.475845 + R (R 0.985600267 * julianDate R t))) 360 = g at *
  generalize R (R 1.91946 - R (R 0.004789 * R (julianDate R t / 36525))) = E' at *
  generalize 1.91946 - 0.004789 * (dj t / 36525) = E at *
  generalize 279.696678 + 0.9856473354 * dj t = V at *
  generalize sunAnomaly t = G at *
  have bv : |v| ≤ 360 := abs_le.2 ⟨by linarith, v6⟩
  have bg : |g| ≤ 360 := abs_le.2 ⟨by linarith, g6⟩
  have s1 := sin_phase R hS g4 (bg.trans (by norm_num))
  have e2 : |2 * g - (2 * G + 360 * ((2 * l : ℤ) : ℝ))| ≤ 81 / 10 ^ 12 := by
    rw [show 2 * g - (2 * G + 360 * ((2 * l : ℤ) : ℝ)) = 2 * (g - (G + 360 * l)) by push_cast; ring, abs_mul, abs_of_pos (by norm_num : (0 : ℝ) < 2)]
    norm_num at g4 ⊢
    linarith
  have b2 : |2 * g| ≤ 720 := by rw [abs_mul, abs_of_pos (by norm_num : (0 : ℝ) < 2)]; linarith
  have b2' : |2 * G + 360 * ((2 * l : ℤ) : ℝ)| ≤ 721 := by
    rw [abs_sub_comm] at e2
    exact (abs_of_close e2 b2).trans (by norm_num)
  have e3 := rstep R (k := 10) (ε' := 82 / 10 ^ 12) e2 b2' (by norm_num) (by norm_num) (by norm_num) (by norm_num)
  have b3 : |R (2 * g)| ≤ 1000 := (abs_of_close e3 b2').trans (by norm_num)
  have s2 := sin_phase R hS e3 b3
  have p1 := mul_err m1 s1 m2 (Real.abs_sin_le_one _)
  have p1b : |E * Real.sin (rad G)| ≤ 1.95 := by
    rw [abs_mul]
    have := mul_le_mul m2 (Real.abs_sin_le_one (rad G)) (abs_nonneg _) (by norm_num)
    linarith
  have p2 := rstep R (k := 1) (ε' := 2 / 10 ^ 12) p1 p1b (by norm_num) (by norm_num) (by norm_num) (by norm_num)
  have q1 := mul_err a s2 (X := 1 / 32) (by rw [abs_of_pos (by norm_num)]; norm_num) (Real.abs_sin_le_one _)
  have q1b : |0.020094 * Real.sin (rad (2 * G))| ≤ 1 / 32 := by
    rw [abs_mul, abs_of_pos (by norm_num)]
    have := Real.abs_sin_le_one (rad (2 * G))
    norm_num
    linarith
  have q2 := rstep R (k := -4) (ε' := 1 / 10 ^ 13) q1 q1b (by norm_num) (by norm_num) (by norm_num) (by norm_num)
  have V1 : |V + 360 * k| ≤ 361 := by
    rw [abs_sub_comm] at v4
    exact (abs_of_close v4 bv).trans (by norm_num)
  have u1 := add_err v4 p2
  have u1b : |V + 360 * k + E * Real.sin (rad G)| ≤ 363 := (abs_add_le _ _).trans (by norm_num at p1b ⊢; linarith)
  have u2 := rstep R (k := 9) (ε' := 43 / 10 ^ 12) u1 u1b (by norm_num) (by norm_num) (by norm_num) (by norm_num)
  have w1 := add_err u2 q2
  have w1b : |V + 360 * k + E * Real.sin (rad G) + 0.020094 * Real.sin (rad (2 * G))| ≤ 364 := (abs_add_le _ _).trans (by norm_num at q1b ⊢; linarith)
  have w2 := rstep R (k := 9) (ε' := 44 / 10 ^ 12) w1 w1b (by norm_num) (by norm_num) (by norm_num) (by norm_num)
  have z1 := sub_err w2 b
  have z1b : |V + 360 * k + E * Real.sin (rad G) + 0.020094 * Real.sin (rad (2 * G)) - 0.005686| ≤ 365 := by
    refine (abs_sub _ _).trans ?_
    rw [abs_of_pos (by norm_num : (0 : ℝ) < 0.005686)]
    norm_num at w1b ⊢
    linarith
  have z2 := rstep R (k := 9) (ε' := 5 / 10 ^ 11) z1 z1b (by norm_num) (by norm_num) (by norm_num) (by norm_num)
  refine ⟨⟨k, ?_⟩, (abs_of_close z2 z1b).trans (by norm_num)⟩
  refine le_trans (le_of_eq ?_) z2
  congr 1
  ring

theorem sidereal_err {t : ℝ} (hd : IsDouble t) (h : |t| ≤ 36525) : (∃ k : ℤ, |siderealTime R t - (rad (greenwich t) + k * (2 * Real.pi))| ≤ 2 / 10 ^ 12) ∧
    |siderealTime R t| ≤ 7 := by
  obtain ⟨j1, j2⟩ := jd_err R h
  obtain ⟨v1, v2, -⟩ := phase_err R (c₀ := 279.690983) (c₁ := 0.9856473354) (by rw [abs_of_pos (by norm_num)]; norm_num) (by rw [abs_of_pos (by norm_num)]; norm_num) j1 j2
  have hs := remainder_spec R hd (n := 1) (by norm_num) (by norm_num)
  push_cast at hs
  obtain ⟨-, f1, f2, ⟨m, f3⟩, -⟩ := hs
  unfold siderealTime greenwich
  generalize FloatAzimuth.remainder R t 1 = f at *
  generalize R (R 279.690983 + R (R 0.9856473354 * julianDate R t)) = v at *
  generalize 279.690983 + 0.9856473354 * dj t = V at *
  have d1 : |360 * f - 360 * (t + 1 * m)| ≤ 11 / 10 ^ 12 := by
    rw [← mul_sub, abs_mul, abs_of_pos (by norm_num : (0 : ℝ) < 360)]
    norm_num at f3 ⊢
    linarith
  have d1b : |360 * f| ≤ 360 := by rw [abs_of_nonneg (by linarith)]; linarith
  have d1c : |360 * (t + 1 * m)| ≤ 361 := by
    rw [abs_sub_comm] at d1
    exact (abs_of_close d1 d1b).trans (by norm_num)
  have d2 := rstep R (k := 9) (ε' := 12 / 10 ^ 12) d1 d1c (by norm_num) (by norm_num) (by norm_num) (by norm_num)
  have u1 := add_err v1 d2
  have u1b : |V + 360 * (t + 1 * m)| ≤ 74000 := (abs_add_le _ _).trans (by linarith)
  have u2 := rstep R (k := 17) (ε' := 60 / 10 ^ 12) u1 u1b (by norm_num) (by norm_num) (by norm_num) (by norm_num)
  have w1 := add_err u2 (y := 180) (y' := 180) (e' := 0) (by simp)
  have w1b : |V + 360 * (t + 1 * m) + 180| ≤ 75000 := by
    refine (abs_add_le _ _).trans ?_
    rw [abs_of_pos (by norm_num : (0 : ℝ) < 180)]
    linarith
  have w2 := rstep R (k := 17) (ε' := 70 / 10 ^ 12) w1 w1b (by norm_num) (by norm_num) (by norm_num) (by norm_num)
  have w3 : IsDouble (R (R (v + R (360 * f)) + 180)) := double_rnd R ((abs_of_close w1 w1b).trans (by norm_num))
  obtain ⟨k, g1, g2, g3⟩ := reduce_err R w3 w2
  generalize FloatAzimuth.remainder R (R (R (v + R (360 * f)) + 180)) 360 = g at *
  have bg : |g| ≤ 360 := abs_le.2 ⟨by linarith, g3⟩
  have r1 := timesRad_err R (bg.trans (by norm_num))
  have r2 := rad_close g1
  have e : rad (V + 360 * (t + 1 * m) + 180 + 360 * k) = rad (V + 360 * t + 180) + ((m + k : ℤ) : ℝ) * (2 * Real.pi) := by
    rw [← rad_turn]
    congr 1
    push_cast
    ring
  rw [e] at r2
  refine ⟨⟨m + k, ?_⟩, ?_⟩
  · have t1 := abs_add_le (timesRad R g - rad g) (rad g - (rad (V + 360 * t + 180) + ((m + k : ℤ) : ℝ) * (2 * Real.pi)))
    rw [sub_add_sub_cancel] at t1
    refine t1.trans ((add_le_add r1 r2).trans (by norm_num))
  · have hp' := Real.pi_lt_d4
    have : |rad g| ≤ 6.9 := by
      rw [rad, abs_mul, abs_of_pos (by positivity : 0 < Real.pi / 180)]
      have := mul_le_mul bg (by norm_num at hp' ⊢; linarith : Real.pi / 180 ≤ 19 / 1000) (by positivity) (by norm_num)
      norm_num at this ⊢
      linarith
    exact (abs_of_close r1 this).trans (by norm_num)

end ChaosMagPy.FloatSun
