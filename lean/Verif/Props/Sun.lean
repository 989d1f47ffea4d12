import Verif.Props.Coord
import Verif.Spec.Sun
/-!
# C42, C54: position of the sun and zenith angle
-/
namespace ChaosMagPy.Coord
open ChaosMagPy.Spec

/-- **C42** (window). The assertion accepts exactly the times before 36159.75 (the year 2099): the documented lower end, 1901,
is not enforced. -/
theorem C42_window (times : List ℝ) :
    (sunPosition times = .ok (times.map sunPoint) ↔ ∀ t ∈ times, t < 36159.75) ∧
    (sunPosition times = .error .assertionError ↔ ∃ t ∈ times, 36159.75 ≤ t) := by
  have hf : ∀ t : ℝ, floorDiv t 365.25 < 99 ↔ t < 36159.75 := by
    intro t
    unfold floorDiv
    have h1 : ((⌊t / 365.25⌋ : ℤ) : ℝ) < 99 ↔ ⌊t / (365.25 : ℝ)⌋ < 99 := by
      constructor
      · intro h; exact_mod_cast h
      · intro h; exact_mod_cast h
    rw [h1, Int.floor_lt, div_lt_iff₀ (by norm_num)]
    norm_num
  have hc : sunCheck times = true ↔ ∀ t ∈ times, t < 36159.75 := by
    unfold sunCheck
    rw [Bool.and_eq_true, List.all_eq_true, List.all_eq_true]
    constructor
    · rintro ⟨h, _⟩ t ht
      have := h t ht
      rw [decide_eq_true_eq] at this
      exact (hf t).1 (by linarith)
    · intro h
      constructor
      · intro t ht
        rw [decide_eq_true_eq]
        linarith [(hf t).2 (h t ht)]
      · intro t ht
        rw [decide_eq_true_eq]
        linarith [(hf t).2 (h t ht)]
  unfold sunPosition
  by_cases h : sunCheck times = true
  · rw [if_pos h]
    refine ⟨⟨fun _ => hc.1 h, fun _ => rfl⟩, ⟨fun hh => (by cases hh), ?_⟩⟩
    rintro ⟨t, ht, hl⟩
    exact absurd (hc.1 h t ht) (not_lt.2 hl)
  · rw [if_neg h]
    refine ⟨⟨fun hh => (by cases hh), fun hh => absurd (hc.2 hh) h⟩, ⟨fun _ => ?_, fun _ => rfl⟩⟩
    by_contra hcon
    push Not at hcon
    exact h (hc.2 hcon)

/-- The year 1000 (and any other year before 1901) is accepted. -/
example : sunPosition [-365243] = .ok [sunPoint (-365243)] := (C42_window [-365243]).1.2 (by simp; norm_num)

/-- **C42** (ranges). For every accepted time. -/
theorem C42_range (times : List ℝ) (out : List (ℝ × ℝ)) (h : sunPosition times = .ok out) :
    out.length = times.length ∧ ∀ p ∈ out, 0 < p.1 ∧ p.1 < 180 ∧ -180 < p.2 ∧ p.2 ≤ 180 := by
  unfold sunPosition at h
  by_cases hc : sunCheck times = true
  · rw [if_pos hc] at h
    cases h
    refine ⟨by simp, ?_⟩
    intro p hp
    obtain ⟨t, _, rfl⟩ := List.mem_map.1 hp
    simp only [sunPoint]
    obtain ⟨a1, a2, _, _⟩ := C40_center_azimuth (degrees (Real.pi - arctan2 (Real.sin (obliquity t * (Real.pi / 180)) * Real.sin (eclipticLongitude t * (Real.pi / 180)) / (Real.sqrt (1 - (Real.sin (obliquity t * (Real.pi / 180)) * Real.sin (eclipticLongitude t * (Real.pi / 180))) ^ 2) * Real.tan (obliquity t * (Real.pi / 180)))) (-Real.cos (eclipticLongitude t * (Real.pi / 180)) / Real.sqrt (1 - (Real.sin (obliquity t * (Real.pi / 180)) * Real.sin (eclipticLongitude t * (Real.pi / 180))) ^ 2)) - siderealTime t))
    refine ⟨?_, ?_, a1, a2⟩
    · rw [← radians_lt, radians_degrees, radians_0]
      linarith [Real.arctan_lt_pi_div_two (Real.sin (obliquity t * (Real.pi / 180)) * Real.sin (eclipticLongitude t * (Real.pi / 180)) / Real.sqrt (1 - (Real.sin (obliquity t * (Real.pi / 180)) * Real.sin (eclipticLongitude t * (Real.pi / 180))) ^ 2))]
    · rw [← radians_lt, radians_degrees, radians_180]
      linarith [Real.neg_pi_div_two_lt_arctan (Real.sin (obliquity t * (Real.pi / 180)) * Real.sin (eclipticLongitude t * (Real.pi / 180)) / Real.sqrt (1 - (Real.sin (obliquity t * (Real.pi / 180)) * Real.sin (eclipticLongitude t * (Real.pi / 180))) ^ 2))]
  · rw [if_neg hc] at h; cases h

/-! ### Meaning -/

theorem sin_turn (x : ℝ) (k : ℤ) : Real.sin ((x + k * 360) * (Real.pi / 180)) = Real.sin (x * Real.pi / 180) := by
  rw [show (x + k * 360) * (Real.pi / 180) = x * Real.pi / 180 + k * (2 * Real.pi) by ring, Real.sin_add_int_mul_two_pi]

theorem cos_turn (x : ℝ) (k : ℤ) : Real.cos ((x + k * 360) * (Real.pi / 180)) = Real.cos (x * Real.pi / 180) := by
  rw [show (x + k * 360) * (Real.pi / 180) = x * Real.pi / 180 + k * (2 * Real.pi) by ring, Real.cos_add_int_mul_two_pi]

theorem julian_eq (t : ℝ) : julianDate t = dj t := by
  have : floorDiv (2000 - 1901) 4 = 24 := by
    unfold floorDiv
    have : ⌊((2000 : ℝ) - 1901) / 4⌋ = 24 := by
      rw [Int.floor_eq_iff]
      norm_num
    rw [this]
    norm_num
  unfold julianDate dj
  rw [this]
  ring

theorem obliquity_eq (t : ℝ) : obliquity t = sunObliquity t := by
  unfold obliquity sunObliquity
  rw [julian_eq]

theorem longitude_eq (t : ℝ) : ∃ k : ℤ, eclipticLongitude t = sunLongitude t + k * 360 := by
  unfold eclipticLongitude
  simp only [julian_eq]
  obtain ⟨k, hk⟩ := remainder_eq (279.696678 + 0.9856473354 * dj t) 360
  obtain ⟨j, hj⟩ := remainder_eq (358.475845 + 0.985600267 * dj t) 360
  refine ⟨k, ?_⟩
  rw [hk, hj]
  have h1 := sin_turn (sunAnomaly t) j
  have h2 := sin_turn (2 * sunAnomaly t) (2 * j)
  rw [show (2 * sunAnomaly t + ((2 * j : ℤ) : ℝ) * 360) = 2 * (sunAnomaly t + j * 360) by push_cast; ring] at h2
  unfold sunAnomaly at h1 h2
  rw [h1, h2]
  unfold sunLongitude sunAnomaly
  ring

theorem sidereal_eq (t : ℝ) : ∃ k : ℤ, siderealTime t = (greenwich t + k * 360) * (Real.pi / 180) := by
  unfold siderealTime
  rw [julian_eq]
  obtain ⟨k, hk⟩ := remainder_eq (279.690983 + 0.9856473354 * dj t + 360 * remainder t 1 + 180) 360
  obtain ⟨j, hj⟩ := remainder_eq t 1
  refine ⟨j + k, ?_⟩
  rw [hk, hj]
  unfold greenwich
  push_cast
  ring

/-- **C42** (meaning). For all times within 10⁷ days (more than 27000 years) of 2000, the returned colatitude and longitude are
those of the direction of the sun according to the theory. -/
theorem C42_direction (t : ℝ) (h1 : -10000000 ≤ t) (h2 : t ≤ 10000000) : direction (sunPoint t).1 (sunPoint t).2 = sunDir t := by
  have hpi := Real.pi_pos
  -- the obliquity is an acute angle
  have ho1 : 0 < sunObliquity t := by unfold sunObliquity dj; linarith
  have ho2 : sunObliquity t < 90 := by unfold sunObliquity dj; linarith
  have he1 : 0 < sunObliquity t * (Real.pi / 180) := by positivity
  have he2 : sunObliquity t * (Real.pi / 180) < Real.pi / 2 := by nlinarith
  set e := sunObliquity t * (Real.pi / 180) with hedef
  have hse : 0 < Real.sin e := Real.sin_pos_of_pos_of_lt_pi he1 (by linarith)
  have hce : 0 < Real.cos e := Real.cos_pos_of_mem_Ioo ⟨by linarith, he2⟩
  obtain ⟨k, hk⟩ := longitude_eq t
  obtain ⟨j, hj⟩ := sidereal_eq t
  have hsl : Real.sin (eclipticLongitude t * (Real.pi / 180)) = Real.sin (sunLongitude t * Real.pi / 180) := by rw [hk, sin_turn]
  have hcl : Real.cos (eclipticLongitude t * (Real.pi / 180)) = Real.cos (sunLongitude t * Real.pi / 180) := by rw [hk, cos_turn]
  have hsc := Real.sin_sq_add_cos_sq (sunLongitude t * Real.pi / 180)
  have hec := Real.sin_sq_add_cos_sq e
  have hsub : sunPoint t = (degrees (Real.pi / 2 - Real.arctan (Real.sin e * Real.sin (sunLongitude t * Real.pi / 180) / Real.sqrt (1 - (Real.sin e * Real.sin (sunLongitude t * Real.pi / 180)) ^ 2))),
      centerAzimuth (degrees (Real.pi - arctan2 (Real.sin e * Real.sin (sunLongitude t * Real.pi / 180) / (Real.sqrt (1 - (Real.sin e * Real.sin (sunLongitude t * Real.pi / 180)) ^ 2) * Real.tan e))
        (-Real.cos (sunLongitude t * Real.pi / 180) / Real.sqrt (1 - (Real.sin e * Real.sin (sunLongitude t * Real.pi / 180)) ^ 2)) - siderealTime t))) := by
    unfold sunPoint
    simp only [obliquity_eq, hsl, hcl]
    rfl
  rw [hsub]
  unfold sunDir eclipticToEquatorial
  rw [show sunObliquity t * Real.pi / 180 = e by rw [hedef]; ring]
  generalize Real.sin (sunLongitude t * Real.pi / 180) = sl at hsc ⊢
  generalize Real.cos (sunLongitude t * Real.pi / 180) = cl at hsc ⊢
  have hpos : 0 < 1 - (Real.sin e * sl) ^ 2 := by nlinarith [sq_nonneg cl, sq_nonneg (Real.sin e * cl), sq_nonneg (Real.cos e * sl), mul_pos hce hce]
  set cd := Real.sqrt (1 - (Real.sin e * sl) ^ 2) with hcd
  have hcd0 : 0 < cd := Real.sqrt_pos.2 hpos
  have hcd2 : cd ^ 2 = 1 - (Real.sin e * sl) ^ 2 := Real.sq_sqrt hpos.le
  -- declination
  have hdecl : Real.arctan (Real.sin e * sl / cd) = Real.arcsin (Real.sin e * sl) := by
    rw [Real.arcsin_eq_arctan ⟨by nlinarith [sq_nonneg (Real.sin e * sl - 1), sq_nonneg (Real.sin e * sl + 1)], by nlinarith [sq_nonneg (Real.sin e * sl - 1), sq_nonneg (Real.sin e * sl + 1)]⟩]
  have hsd : Real.sin (Real.arctan (Real.sin e * sl / cd)) = Real.sin e * sl := by
    rw [hdecl, Real.sin_arcsin] <;> nlinarith [sq_nonneg (Real.sin e * sl - 1), sq_nonneg (Real.sin e * sl + 1)]
  have hcosd : Real.cos (Real.arctan (Real.sin e * sl / cd)) = cd := by rw [hdecl, Real.cos_arcsin]
  -- right ascension
  have hy : Real.sin e * sl / (cd * Real.tan e) = Real.cos e * sl / cd := by
    rw [Real.tan_eq_sin_div_cos]; field_simp
  rw [hy]
  have hunit : (-cl / cd) ^ 2 + (Real.cos e * sl / cd) ^ 2 = 1 := by
    rw [div_pow, div_pow, ← add_div, div_eq_one_iff_eq (by positivity), hcd2]
    linear_combination hsc + sl ^ 2 * hec
  have hA1 := arctan2_cos (Real.cos e * sl / cd) (-cl / cd)
  have hA2 := arctan2_sin (Real.cos e * sl / cd) (-cl / cd)
  rw [hunit, Real.sqrt_one, one_mul] at hA1 hA2
  set A := arctan2 (Real.cos e * sl / cd) (-cl / cd) with hAdef
  -- angles
  obtain ⟨_, _, ⟨i, hi⟩, _⟩ := C40_center_azimuth (degrees (Real.pi - A - siderealTime t))
  have hang : ∃ n : ℤ, centerAzimuth (degrees (Real.pi - A - siderealTime t)) * Real.pi / 180 = Real.pi - A - greenwich t * Real.pi / 180 + n * (2 * Real.pi) := by
    refine ⟨i - j, ?_⟩
    rw [hi, hj]
    unfold degrees
    push_cast
    field_simp
    ring
  obtain ⟨n, hn⟩ := hang
  have hth : degrees (Real.pi / 2 - Real.arctan (Real.sin e * sl / cd)) * Real.pi / 180 = Real.pi / 2 - Real.arctan (Real.sin e * sl / cd) := by
    unfold degrees; field_simp
  have hs := Real.sin_sub_pi
  have hcphi : Real.cos (Real.pi - A - greenwich t * Real.pi / 180) = Real.cos (greenwich t * Real.pi / 180) * (cl / cd) + Real.sin (greenwich t * Real.pi / 180) * (Real.cos e * sl / cd) := by
    rw [Real.cos_sub, Real.cos_pi_sub, Real.sin_pi_sub, hA1, hA2]; ring
  have hsphi : Real.sin (Real.pi - A - greenwich t * Real.pi / 180) = -Real.sin (greenwich t * Real.pi / 180) * (cl / cd) + Real.cos (greenwich t * Real.pi / 180) * (Real.cos e * sl / cd) := by
    rw [Real.sin_sub, Real.cos_pi_sub, Real.sin_pi_sub, hA1, hA2]; ring
  unfold direction rotateAxis
  simp only [hth, hn, Real.sin_add_int_mul_two_pi, Real.cos_add_int_mul_two_pi, Real.sin_pi_div_two_sub, Real.cos_pi_div_two_sub, hsd, hcosd, hcphi, hsphi]
  funext m
  fin_cases m <;> simp only [Fin.zero_eta, Fin.mk_one, Fin.reduceFinMk, Matrix.cons_val]
  · field_simp
  · field_simp
  · ring

/-- **C54.** For every accepted time (within 10⁷ days of 2000) and every point, the zenith angle lies in `[0, 180]` and its cosine
is the scalar product of the directions of the point and of the sun; times that `sun_position` does not accept raise
AssertionError. -/
theorem C54_zenith_angle (t theta phi : ℝ) (h1 : -10000000 ≤ t) :
    (t < 36159.75 → ∃ zeta : ℝ, zenithAngle t theta phi = .ok zeta ∧ 0 ≤ zeta ∧ zeta ≤ 180 ∧
      Real.cos (zeta * Real.pi / 180) = dot (direction theta phi) (sunDir t)) ∧
    (36159.75 ≤ t → zenithAngle t theta phi = .error .assertionError) := by
  constructor
  · intro h2
    have hs := (C42_window [t]).1.2 (by intro x hx; simp at hx; subst hx; exact h2)
    have hd := C42_direction t h1 (by linarith)
    have hdot : Real.cos (radians theta) * Real.cos (radians (sunPoint t).1) + Real.sin (radians theta) * Real.sin (radians (sunPoint t).1) * Real.cos (radians (sunPoint t).2 - radians phi) = dot (direction theta phi) (sunDir t) := by
      rw [← hd]
      simp only [dot, direction, Matrix.cons_val, ← radians_eq, Real.cos_sub]
      ring
    have hz : zenithAngle t theta phi = .ok (degrees (Real.arccos (dot (direction theta phi) (sunDir t)))) := by
      unfold zenithAngle
      rw [hs]
      simp only [bind, Except.bind, List.map_cons, List.map_nil, List.headD_cons, pure, Except.pure, hdot]
    have hle : dot (direction theta phi) (sunDir t) ^ 2 ≤ 1 := by
      have e1 := direction_unit theta phi
      have e2 := direction_unit (sunPoint t).1 (sunPoint t).2
      rw [hd] at e2
      unfold dot at e1 e2 ⊢
      generalize direction theta phi = u at e1 ⊢
      generalize sunDir t = v at e2 ⊢
      have key : (u 0 * v 0 + u 1 * v 1 + u 2 * v 2) ^ 2 = 1 - (u 0 * v 1 - u 1 * v 0) ^ 2 - (u 1 * v 2 - u 2 * v 1) ^ 2 - (u 2 * v 0 - u 0 * v 2) ^ 2 := by
        linear_combination (v 0 * v 0 + v 1 * v 1 + v 2 * v 2) * e1 + e2
      nlinarith [sq_nonneg (u 0 * v 1 - u 1 * v 0), sq_nonneg (u 1 * v 2 - u 2 * v 1), sq_nonneg (u 2 * v 0 - u 0 * v 2)]
    refine ⟨_, hz, ?_, ?_, ?_⟩
    · rw [← radians_le, radians_degrees, radians_0]; exact Real.arccos_nonneg _
    · rw [← radians_le, radians_degrees, radians_180]; exact Real.arccos_le_pi _
    · rw [← radians_eq, radians_degrees, Real.cos_arccos]
      · nlinarith [sq_nonneg (dot (direction theta phi) (sunDir t) - 1)]
      · nlinarith [sq_nonneg (dot (direction theta phi) (sunDir t) + 1)]
  · intro h2
    have hs := (C42_window [t]).2.2 ⟨t, by simp, h2⟩
    unfold zenithAngle
    rw [hs]
    rfl

end ChaosMagPy.Coord
