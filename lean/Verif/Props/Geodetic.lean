import Verif.Lemmas.Geodetic
import Verif.Spec.Geodetic
/-!
# C39: geodetic and geocentric coordinates
-/
namespace ChaosMagPy.Coord
open ChaosMagPy.Spec

/-- The specification itself: the point of height 0 is on the ellipse, and the height is measured along the normal. -/
theorem C39_meaning (a b h lat : ℝ) (ha : 0 < a) (hb : 0 < b) :
    let p := geodeticPoint a b 0 lat
    (p.1 / a) ^ 2 + (p.2 / b) ^ 2 = 1 ∧ (p.1 / a ^ 2) * Real.sin lat = (p.2 / b ^ 2) * Real.cos lat ∧
    geodeticPoint a b h lat = (p.1 + h * Real.cos lat, p.2 + h * Real.sin lat) := by
  have hsc := Real.sin_sq_add_cos_sq lat
  have hW : 0 < a ^ 2 * Real.cos lat ^ 2 + b ^ 2 * Real.sin lat ^ 2 := by
    rcases eq_or_ne (Real.cos lat) 0 with h0 | h0
    · rw [h0] at hsc ⊢
      have : Real.sin lat ^ 2 = 1 := by linarith
      rw [this]
      positivity
    · positivity
  have hN : primeVertical a b lat ^ 2 * (a ^ 2 * Real.cos lat ^ 2 + b ^ 2 * Real.sin lat ^ 2) = a ^ 4 := by
    unfold primeVertical
    rw [div_pow, Real.sq_sqrt hW.le, div_mul_cancel₀ _ hW.ne']
    ring
  refine ⟨?_, ?_, ?_⟩
  · simp only [geodeticPoint, add_zero]
    field_simp
    linear_combination hN
  · simp only [geodeticPoint, add_zero]
    field_simp
  · simp only [geodeticPoint, add_zero]
    apply Prod.ext <;> simp only <;> ring

/-! ### gg_to_geo -/

theorem radicand_pos (a b lat : ℝ) (ha : 0 < a) (hb : 0 < b) : 0 < a ^ 2 * Real.cos lat ^ 2 + b ^ 2 * Real.sin lat ^ 2 := by
  have hsc := Real.sin_sq_add_cos_sq lat
  rcases eq_or_ne (Real.cos lat) 0 with h0 | h0
  · rw [h0] at hsc ⊢
    have : Real.sin lat ^ 2 = 1 := by linarith
    rw [this]
    positivity
  · positivity

/-- **C39** (forward). For every ellipsoid, height and geodetic colatitude strictly between the poles, the radius and colatitude
that `gg_to_geo` returns describe the point with this height and latitude. For heights above `-b²/a` (the least radius of
curvature) the colatitude lies strictly between 0 and 180 degrees and the radius is positive. -/
theorem C39_gg_to_geo (a b h beta : ℝ) (ha : 0 < a) (hb : 0 < b) (h1 : 0 < beta) (h2 : beta < 180) :
    let p := ggToGeo a b h beta
    geocentricPoint p.1 p.2 = geodeticPoint a b h ((90 - beta) * Real.pi / 180) ∧ 0 ≤ p.1 ∧
    (b ≤ a → -(b ^ 2 / a) < h → 0 < p.1 ∧ 0 < p.2 ∧ p.2 < 180) := by
  have hpi := Real.pi_pos
  intro p
  set α := (90 - beta) * Real.pi / 180 with hα
  have hα1 : -(Real.pi / 2) < α := by rw [hα]; nlinarith
  have hα2 : α < Real.pi / 2 := by rw [hα]; nlinarith
  have hc : 0 < Real.cos α := Real.cos_pos_of_mem_Ioo ⟨hα1, hα2⟩
  have hsc := Real.sin_sq_add_cos_sq α
  have hW2 := radicand_pos a b α ha hb
  set W := Real.sqrt (a ^ 2 * Real.cos α ^ 2 + b ^ 2 * Real.sin α ^ 2) with hWdef
  have hW : 0 < W := Real.sqrt_pos.2 hW2
  have hWW : W ^ 2 = a ^ 2 * Real.cos α ^ 2 + b ^ 2 * Real.sin α ^ 2 := Real.sq_sqrt hW2.le
  -- the point of the specification
  have hpt : geodeticPoint a b h α = ((a ^ 2 / W + h) * Real.cos α, (b ^ 2 / W + h) * Real.sin α) := by
    unfold geodeticPoint primeVertical
    rw [← hWdef]
    apply Prod.ext <;> simp only
    field_simp
  set x := (a ^ 2 / W + h) * Real.cos α with hx
  set z := (b ^ 2 / W + h) * Real.sin α with hz
  -- what the function computes
  have hp : p = (Real.sqrt (x ^ 2 + z ^ 2), 90 - degrees (arctan2 (W / Real.cos α * z) (W / Real.cos α * x))) := by
    show ggToGeo a b h beta = _
    unfold ggToGeo
    simp only
    rw [show radians (90 - beta) = α by rw [radians_eq], ← hWdef]
    apply Prod.ext
    · simp only
      congr 1
      have e1 : a ^ 2 * (1 - (1 - (b / a) ^ 4) * Real.sin α ^ 2) / (1 - (1 - (b / a) ^ 2) * Real.sin α ^ 2) = (a ^ 4 * Real.cos α ^ 2 + b ^ 4 * Real.sin α ^ 2) / W ^ 2 := by
        have d1 : 1 - (1 - (b / a) ^ 2) * Real.sin α ^ 2 = W ^ 2 / a ^ 2 := by
          rw [hWW]; field_simp; linear_combination (a ^ 2) * (-hsc)
        have d2 : a ^ 2 * (1 - (1 - (b / a) ^ 4) * Real.sin α ^ 2) = (a ^ 4 * Real.cos α ^ 2 + b ^ 4 * Real.sin α ^ 2) / a ^ 2 := by
          field_simp; linear_combination (a ^ 4) * (-hsc)
        rw [d1, d2]
        field_simp
      rw [e1, hx, hz]
      have e2 : a ^ 2 * Real.cos α ^ 2 + b ^ 2 * Real.sin α ^ 2 = W ^ 2 := hWW.symm
      field_simp
      linear_combination (-2 * h * W) * e2 + (-h ^ 2 * W ^ 2) * hsc
    · simp only
      congr 2
      rw [hx, hz, Real.tan_eq_sin_div_cos]
      congr 1
      · field_simp; ring
      · field_simp; ring
  have hκ : 0 < W / Real.cos α := by positivity
  have hA1 := arctan2_cos (W / Real.cos α * z) (W / Real.cos α * x)
  have hA2 := arctan2_sin (W / Real.cos α * z) (W / Real.cos α * x)
  rw [show (W / Real.cos α * x) ^ 2 + (W / Real.cos α * z) ^ 2 = (W / Real.cos α) ^ 2 * (x ^ 2 + z ^ 2) by ring,
    Real.sqrt_mul (by positivity), Real.sqrt_sq hκ.le, mul_assoc] at hA1 hA2
  have hx' := mul_left_cancel₀ hκ.ne' hA1
  have hz' := mul_left_cancel₀ hκ.ne' hA2
  set γ := arctan2 (W / Real.cos α * z) (W / Real.cos α * x) with hγ
  have hang : (90 - degrees γ) * Real.pi / 180 = Real.pi / 2 - γ := by
    unfold degrees; field_simp; ring
  refine ⟨?_, ?_, ?_⟩
  · rw [hpt, hp]
    unfold geocentricPoint
    simp only
    rw [hang, Real.sin_pi_div_two_sub, Real.cos_pi_div_two_sub, hx', hz']
  · rw [hp]; exact Real.sqrt_nonneg _
  · intro hab hh
    have hWa : W ≤ a := by
      rw [hWdef, Real.sqrt_le_left ha.le]
      nlinarith [sq_nonneg (Real.sin α), mul_le_mul hab hab hb.le ha.le]
    have hxpos : 0 < x := by
      rw [hx]
      apply mul_pos _ hc
      have : b ^ 2 / a ≤ a ^ 2 / W := by
        apply div_le_div₀ (by positivity) (by nlinarith) hW hWa
      linarith
    have hr : 0 < x ^ 2 + z ^ 2 := by positivity
    have hγc : 0 < Real.cos γ := by
      have : 0 < Real.sqrt (x ^ 2 + z ^ 2) := Real.sqrt_pos.2 hr
      by_contra hcon
      push Not at hcon
      nlinarith
    have hγr := arctan2_range (W / Real.cos α * z) (W / Real.cos α * x)
    rw [← hγ] at hγr
    have hγ1 : -(Real.pi / 2) < γ := by
      by_contra hcon
      push Not at hcon
      have := Real.cos_nonpos_of_pi_div_two_le_of_le (x := -γ) (by linarith) (by linarith)
      rw [Real.cos_neg] at this
      linarith
    have hγ2 : γ < Real.pi / 2 := by
      by_contra hcon
      push Not at hcon
      have := Real.cos_nonpos_of_pi_div_two_le_of_le (x := γ) (by linarith) (by linarith)
      linarith
    have e90 : degrees γ < 90 := by
      rw [← radians_lt, radians_degrees]; unfold radians; linarith
    have e90' : -90 < degrees γ := by
      rw [← radians_lt, radians_degrees]; unfold radians; linarith
    rw [hp]
    simp only
    exact ⟨Real.sqrt_pos.2 hr, by linarith, by linarith⟩

/-! ### geo_to_gg -/

/-- Points further than `(a² - b²)/b` from the centre satisfy the condition of the algorithm. -/
theorem radius_condition (a b R r z e : ℝ) (ha : 0 < a) (hb : 0 < b) (hab : b ≤ a) (he0 : 0 ≤ e) (hb2 : b ^ 2 = (1 - e) * a ^ 2)
    (hR : a ^ 2 - b ^ 2 < b * R) (hRR : R ^ 2 = r ^ 2 + z ^ 2) : 0 < r ^ 2 + (1 - e) * z ^ 2 - e ^ 2 * a ^ 2 := by
  have hab2 : a ^ 2 - b ^ 2 = e * a ^ 2 := by rw [hb2]; ring
  have h0 : 0 ≤ a ^ 2 - b ^ 2 := by rw [hab2]; positivity
  have h1 : (a ^ 2 - b ^ 2) ^ 2 < (b * R) ^ 2 := pow_lt_pow_left₀ hR h0 two_ne_zero
  rw [hab2, mul_pow, mul_pow, hb2, hRR] at h1
  have h2 : 0 < a ^ 2 * (r ^ 2 + (1 - e) * z ^ 2 - e ^ 2 * a ^ 2) := by
    have h3 : 0 ≤ e * (a ^ 2 * r ^ 2) := by positivity
    linarith
  exact (mul_pos_iff_of_pos_left (by positivity)).1 h2

set_option maxHeartbeats 1000000 in
/-- Heikkinen's algorithm recovers height and latitude. -/
theorem geoToGg_eq (a b R theta h lat : ℝ) (ha : 0 < a) (hb : 0 < b) (hab : b ≤ a) (hl1 : -(Real.pi / 2) < lat) (hl2 : lat < Real.pi / 2)
    (hu : 0 < primeVertical a b lat * (b ^ 2 / a ^ 2) + h) (hpt : geocentricPoint R theta = geodeticPoint a b h lat)
    (hR : a ^ 2 - b ^ 2 < b * R) : geoToGg a b R theta = (h, 90 - degrees lat) := by
  have hc : 0 < Real.cos lat := Real.cos_pos_of_mem_Ioo ⟨hl1, hl2⟩
  have hW2 := radicand_pos a b lat ha hb
  set N := primeVertical a b lat with hN
  clear_value N
  have hN0 : 0 < N := by
    rw [hN]; unfold primeVertical
    have := Real.sqrt_pos.2 hW2
    positivity
  have hNN : N ^ 2 * (a ^ 2 * Real.cos lat ^ 2 + b ^ 2 * Real.sin lat ^ 2) = a ^ 4 := by
    rw [hN]; unfold primeVertical
    rw [div_pow, Real.sq_sqrt hW2.le, div_mul_cancel₀ _ hW2.ne']
    ring
  set e := (a ^ 2 - b ^ 2) / a ^ 2 with he
  clear_value e
  have he0 : 0 ≤ e := by rw [he]; apply div_nonneg _ (by positivity); nlinarith
  have hk : b ^ 2 / a ^ 2 = 1 - e := by rw [he]; field_simp; ring
  have hk0 : 0 < 1 - e := by rw [← hk]; positivity
  have hb2 : b ^ 2 = (1 - e) * a ^ 2 := by rw [← hk]; field_simp
  have hab2 : a ^ 2 - b ^ 2 = e * a ^ 2 := by rw [hb2]; ring
  set r := R * Real.sin (radians theta) with hr
  clear_value r
  set z := R * Real.cos (radians theta) with hz
  clear_value z
  unfold geocentricPoint geodeticPoint at hpt
  rw [← hN, ← radians_eq, ← hr, ← hz, hk] at hpt
  rw [hk] at hu
  have hr1 : r = (N + h) * Real.cos lat := congrArg Prod.fst hpt
  have hz1 : z = (N * (1 - e) + h) * Real.sin lat := congrArg Prod.snd hpt
  -- parameters
  set u := ((1 - e) * N + h) / N with hudef
  clear_value u
  have hu0 : 0 < u := by rw [hudef]; apply div_pos _ hN0; linarith
  set ρ := N * Real.cos lat with hρ
  clear_value ρ
  set σ := N * Real.sin lat with hσ
  clear_value σ
  have hρ0 : 0 < ρ := by rw [hρ]; positivity
  have hell : ρ ^ 2 + (1 - e) * σ ^ 2 = a ^ 2 := by
    have : a ^ 2 * (ρ ^ 2 + (1 - e) * σ ^ 2 - a ^ 2) = 0 := by
      rw [hρ, hσ]
      linear_combination hNN - N ^ 2 * Real.sin lat ^ 2 * hb2
    have := (mul_eq_zero.1 this).resolve_left (by positivity)
    linarith
  have hru : r = (u + e) * ρ := by rw [hr1, hudef, hρ]; field_simp; ring
  have hzu : z = u * σ := by rw [hz1, hudef, hσ]; field_simp
  have hr0 : 0 < r := by rw [hru]; positivity
  have hreρ : r - e * ρ = u * ρ := by rw [hru]; ring
  -- condition of the algorithm
  have hG0 : 0 < r ^ 2 + (1 - e) * z ^ 2 - e ^ 2 * a ^ 2 := by
    have hRR : R ^ 2 = r ^ 2 + z ^ 2 := by
      rw [hr, hz]; linear_combination (-R ^ 2) * Real.sin_sq_add_cos_sq (radians theta)
    exact radius_condition a b R r z e ha hb hab he0 hb2 hR hRR
  have hf : ρ ^ 2 * (r - e * ρ) ^ 2 + (1 - e) * z ^ 2 * ρ ^ 2 = a ^ 2 * (r - e * ρ) ^ 2 := by
    rw [hreρ, hzu]; linear_combination (u ^ 2 * ρ ^ 2) * hell
  have hPQ := heikkinen_PQ a (1 - e) e r z (r ^ 2 + (1 - e) * z ^ 2 - e * (e * a ^ 2)) hk0.le (by nlinarith)
  have hroot := fun P Q => heikkinen_root a (1 - e) e r z (r ^ 2 + (1 - e) * z ^ 2 - e * (e * a ^ 2)) P Q ρ he0 rfl hk0.le hr0 (by ring) (by nlinarith)
  simp only at hPQ
  unfold geoToGg
  simp only [← he]
  rw [← hr, ← hz, hab2, hb2]
  have hr0eq := hroot _ _ hPQ hρ0 (by nlinarith [mul_pos hu0 hρ0]) hf
  rw [hr0eq, hreρ, hzu]
  have hsc := Real.sin_sq_add_cos_sq lat
  have hU : Real.sqrt ((u * ρ) ^ 2 + (u * σ) ^ 2) = u * N := by
    rw [show (u * ρ) ^ 2 + (u * σ) ^ 2 = (u * N) ^ 2 by rw [hρ, hσ]; linear_combination (u * N) ^ 2 * hsc, Real.sqrt_sq (by positivity)]
  have hV : Real.sqrt ((u * ρ) ^ 2 + (1 - e) * (u * σ) ^ 2) = u * a := by
    rw [show (u * ρ) ^ 2 + (1 - e) * (u * σ) ^ 2 = (u * a) ^ 2 by linear_combination u ^ 2 * hell, Real.sqrt_sq (by positivity)]
  rw [hU, hV, hru]
  have hang : arctan2 (u * σ + e * a ^ 2 / ((1 - e) * a ^ 2) * ((1 - e) * a ^ 2 * (u * σ) / (a * (u * a)))) ((u + e) * ρ) = lat := by
    rw [show u * σ + e * a ^ 2 / ((1 - e) * a ^ 2) * ((1 - e) * a ^ 2 * (u * σ) / (a * (u * a))) = (u + e) * N * Real.sin lat by
      rw [hσ]; field_simp, hρ, ← mul_assoc, arctan2_polar _ _ (by positivity) (by linarith [Real.pi_pos]) (by linarith [Real.pi_pos])]
  rw [hang]
  apply Prod.ext
  · simp only
    have huN : u * N = (1 - e) * N + h := by rw [hudef]; field_simp
    have : u * N * (1 - (1 - e) * a ^ 2 / (a * (u * a))) = u * N - (1 - e) * N := by field_simp
    rw [this, huN]
    ring
  · rfl

theorem angle_of_beta (beta : ℝ) : 90 - degrees ((90 - beta) * Real.pi / 180) = beta := by
  rw [← radians_eq, degrees_radians]; ring

/-- **C39** (there and back). For every ellipsoid with `0 < b ≤ a`, geodetic colatitude strictly between the poles and height above
`-b²/a` such that the point is further than `(a² - b²)/b` (43 km for the Earth) from the centre: `geo_to_gg` applied to the
result of `gg_to_geo` returns height and colatitude. -/
theorem C39_gg_geo_gg (a b h beta : ℝ) (hb : 0 < b) (hab : b ≤ a) (h1 : 0 < beta) (h2 : beta < 180) (hh : -(b ^ 2 / a) < h)
    (hR : a ^ 2 - b ^ 2 < b * (ggToGeo a b h beta).1) :
    geoToGg a b (ggToGeo a b h beta).1 (ggToGeo a b h beta).2 = (h, beta) := by
  have ha : 0 < a := by linarith
  have hpi := Real.pi_pos
  obtain ⟨hpt, _, _⟩ := C39_gg_to_geo a b h beta ha hb h1 h2
  have hW2 := radicand_pos a b ((90 - beta) * Real.pi / 180) ha hb
  have hW := Real.sqrt_pos.2 hW2
  have hu : 0 < primeVertical a b ((90 - beta) * Real.pi / 180) * (b ^ 2 / a ^ 2) + h := by
    unfold primeVertical
    set W := Real.sqrt (a ^ 2 * Real.cos ((90 - beta) * Real.pi / 180) ^ 2 + b ^ 2 * Real.sin ((90 - beta) * Real.pi / 180) ^ 2) with hWdef
    have hWa : W ≤ a := by
      rw [hWdef, Real.sqrt_le_left ha.le]
      nlinarith [Real.sin_sq_add_cos_sq ((90 - beta) * Real.pi / 180), sq_nonneg (Real.sin ((90 - beta) * Real.pi / 180)), mul_le_mul hab hab hb.le ha.le]
    have e1 : a ^ 2 / W * (b ^ 2 / a ^ 2) = b ^ 2 / W := by field_simp
    rw [e1]
    have : b ^ 2 / a ≤ b ^ 2 / W := div_le_div_of_nonneg_left (by positivity) hW hWa
    linarith
  rw [geoToGg_eq a b _ _ h ((90 - beta) * Real.pi / 180) ha hb hab (by nlinarith) (by nlinarith) hu hpt hR, angle_of_beta]

/-- **C39** (heights above the surface). If the flattening is moderate (`a² < 2 b²`), all heights `h ≥ 0` satisfy the conditions. -/
theorem C39_above_surface (a b h beta : ℝ) (hb : 0 < b) (hab : b ≤ a) (hf : a ^ 2 < 2 * b ^ 2) (h1 : 0 < beta) (h2 : beta < 180) (hh : 0 ≤ h) :
    geoToGg a b (ggToGeo a b h beta).1 (ggToGeo a b h beta).2 = (h, beta) := by
  have ha : 0 < a := by linarith
  apply C39_gg_geo_gg a b h beta hb hab h1 h2 (by have : 0 < b ^ 2 / a := by positivity
                                                  linarith)
  obtain ⟨hpt, h0, _⟩ := C39_gg_to_geo a b h beta ha hb h1 h2
  set lat := (90 - beta) * Real.pi / 180
  obtain ⟨hm1, hm2, hm3⟩ := C39_meaning a b h lat ha hb
  -- the radius is at least b
  have hN0 : 0 < primeVertical a b lat := by
    unfold primeVertical
    have := Real.sqrt_pos.2 (radicand_pos a b lat ha hb)
    positivity
  set R := (ggToGeo a b h beta).1
  have hR2 : R ^ 2 = ((primeVertical a b lat + h) * Real.cos lat) ^ 2 + ((primeVertical a b lat * (b ^ 2 / a ^ 2) + h) * Real.sin lat) ^ 2 := by
    have e1 := congrArg Prod.fst hpt
    have e2 := congrArg Prod.snd hpt
    simp only [geocentricPoint, geodeticPoint] at e1 e2
    rw [← e1, ← e2]
    linear_combination (-R ^ 2) * Real.sin_sq_add_cos_sq ((ggToGeo a b h beta).2 * Real.pi / 180)
  have hb2 : b ^ 2 ≤ R ^ 2 := by
    rw [hR2]
    simp only [geodeticPoint, add_zero] at hm1
    set x := primeVertical a b lat * Real.cos lat with hx
    set y := primeVertical a b lat * (b ^ 2 / a ^ 2) * Real.sin lat with hy
    have hxy : b ^ 2 ≤ x ^ 2 + y ^ 2 := by
      have : b ^ 2 * x ^ 2 + a ^ 2 * y ^ 2 = a ^ 2 * b ^ 2 := by
        rw [div_pow, div_pow] at hm1
        field_simp at hm1
        linear_combination hm1
      have hab2 : b ^ 2 ≤ a ^ 2 := by nlinarith
      have : a ^ 2 * b ^ 2 ≤ a ^ 2 * (x ^ 2 + y ^ 2) := by nlinarith [sq_nonneg x]
      exact le_of_mul_le_mul_left this (by positivity)
    have e1 : (primeVertical a b lat + h) * Real.cos lat = x + h * Real.cos lat := by rw [hx]; ring
    have e2 : (primeVertical a b lat * (b ^ 2 / a ^ 2) + h) * Real.sin lat = y + h * Real.sin lat := by rw [hy]; ring
    rw [e1, e2]
    have c1 : 0 ≤ x * Real.cos lat := by
      rw [hx, mul_assoc]
      exact mul_nonneg hN0.le (mul_self_nonneg _)
    have c2 : 0 ≤ y * Real.sin lat := by
      rw [hy, mul_assoc _ (Real.sin lat)]
      exact mul_nonneg (by positivity) (mul_self_nonneg _)
    nlinarith [mul_nonneg hh c1, mul_nonneg hh c2, sq_nonneg (h * Real.cos lat), sq_nonneg (h * Real.sin lat)]
  have hbR : b ≤ R := by
    by_contra hcon
    push Not at hcon
    nlinarith
  nlinarith

/-- The default ellipsoid (WGS84). -/
example (h beta : ℝ) (hh : 0 ≤ h) (h1 : 0 < beta) (h2 : beta < 180) :
    geoToGg 6378.137 6356.752 (ggToGeo 6378.137 6356.752 h beta).1 (ggToGeo 6378.137 6356.752 h beta).2 = (h, beta) :=
  C39_above_surface _ _ _ _ (by norm_num) (by norm_num) (by norm_num) h1 h2 hh

theorem geocentric_inj (R theta R' theta' : ℝ) (hR : 0 < R) (hR' : 0 ≤ R') (h1 : 0 < theta) (h2 : theta < 180) (h3 : -90 ≤ theta') (h4 : theta' ≤ 270)
    (h : geocentricPoint R' theta' = geocentricPoint R theta) : (R', theta') = (R, theta) := by
  have hpi := Real.pi_pos
  have e1 := congrArg Prod.fst h
  have e2 := congrArg Prod.snd h
  simp only [geocentricPoint] at e1 e2
  have hsq : R' ^ 2 = R ^ 2 := by
    have a1 := Real.sin_sq_add_cos_sq (theta' * Real.pi / 180)
    have a2 := Real.sin_sq_add_cos_sq (theta * Real.pi / 180)
    calc R' ^ 2 = (R' * Real.sin (theta' * Real.pi / 180)) ^ 2 + (R' * Real.cos (theta' * Real.pi / 180)) ^ 2 := by linear_combination (-R' ^ 2) * a1
      _ = (R * Real.sin (theta * Real.pi / 180)) ^ 2 + (R * Real.cos (theta * Real.pi / 180)) ^ 2 := by rw [e1, e2]
      _ = R ^ 2 := by linear_combination R ^ 2 * a2
  have hRR : R' = R := by
    have := (sq_eq_sq₀ hR' hR.le).1 hsq
    exact this
  subst hRR
  have s1 := mul_left_cancel₀ hR.ne' e1
  have s2 := mul_left_cancel₀ hR.ne' e2
  have hs : 0 < Real.sin (theta * Real.pi / 180) := Real.sin_pos_of_pos_of_lt_pi (by positivity) (by nlinarith)
  have h5 : 0 < theta' := by
    by_contra hcon
    push Not at hcon
    have := Real.sin_nonpos_of_nonpos_of_neg_pi_le (x := theta' * Real.pi / 180) (by nlinarith) (by nlinarith)
    linarith
  have h6 : theta' < 180 := by
    by_contra hcon
    push Not at hcon
    have : Real.sin (theta' * Real.pi / 180 - Real.pi) ≥ 0 := Real.sin_nonneg_of_nonneg_of_le_pi (by nlinarith) (by nlinarith)
    rw [Real.sin_sub_pi] at this
    linarith
  have := Real.injOn_cos ⟨by positivity, by nlinarith⟩ ⟨by positivity, by nlinarith⟩ s2
  have : theta' = theta := by
    field_simp at this
    exact this
  rw [this]

/-- **C39** (back and there). For every ellipsoid with `0 < b ≤ a` and every point strictly between the poles and further than
`(a² - b²)/b` from the centre: `geo_to_gg` returns the geodetic height and colatitude of the point, and `gg_to_geo` applied to
them returns its radius and colatitude. -/
theorem C39_geo_to_gg (a b R theta : ℝ) (hb : 0 < b) (hab : b ≤ a) (h1 : 0 < theta) (h2 : theta < 180) (hR : a ^ 2 - b ^ 2 < b * R) :
    let p := geoToGg a b R theta
    0 < p.2 ∧ p.2 < 180 ∧ geodeticPoint a b p.1 ((90 - p.2) * Real.pi / 180) = geocentricPoint R theta ∧
    ggToGeo a b p.1 p.2 = (R, theta) := by
  have ha : 0 < a := by linarith
  have hpi := Real.pi_pos
  intro p
  have hR0 : 0 < R := by
    have : 0 < b * R := by nlinarith
    exact (mul_pos_iff_of_pos_left hb).1 this
  set e := (a ^ 2 - b ^ 2) / a ^ 2 with he
  clear_value e
  have he0 : 0 ≤ e := by rw [he]; apply div_nonneg _ (by positivity); nlinarith
  have hk : b ^ 2 / a ^ 2 = 1 - e := by rw [he]; field_simp; ring
  have hk0 : 0 < 1 - e := by rw [← hk]; positivity
  have hb2 : b ^ 2 = (1 - e) * a ^ 2 := by rw [← hk]; field_simp
  have hab2 : a ^ 2 - b ^ 2 = e * a ^ 2 := by rw [hb2]; ring
  set r := R * Real.sin (theta * Real.pi / 180) with hr
  clear_value r
  set z := R * Real.cos (theta * Real.pi / 180) with hz
  clear_value z
  have hr0 : 0 < r := by rw [hr]; exact mul_pos hR0 (Real.sin_pos_of_pos_of_lt_pi (by positivity) (by nlinarith))
  have hG0 : 0 < r ^ 2 + (1 - e) * z ^ 2 - e ^ 2 * a ^ 2 := by
    have hRR : R ^ 2 = r ^ 2 + z ^ 2 := by
      rw [hr, hz]; linear_combination (-R ^ 2) * Real.sin_sq_add_cos_sq (theta * Real.pi / 180)
    exact radius_condition a b R r z e ha hb hab he0 hb2 hR hRR
  obtain ⟨ρ, σ, u, hρ, hu, hell, hru, hzu⟩ := geodetic_exists a (1 - e) e r z ha he0 rfl hk0 hr0 hG0
  -- height and latitude
  set N := Real.sqrt (ρ ^ 2 + σ ^ 2) with hN
  clear_value N
  have hN2 : N ^ 2 = ρ ^ 2 + σ ^ 2 := by rw [hN]; exact Real.sq_sqrt (by positivity)
  have hN0 : 0 < N := by rw [hN]; exact Real.sqrt_pos.2 (by positivity)
  set lat := arctan2 σ ρ with hlat
  have hc := arctan2_cos σ ρ
  have hs := arctan2_sin σ ρ
  rw [← hN, ← hlat] at hc hs
  have hcos : 0 < Real.cos lat := by
    by_contra hcon
    push Not at hcon
    nlinarith
  have hrange := arctan2_range σ ρ
  rw [← hlat] at hrange
  have hl1 : -(Real.pi / 2) < lat := by
    by_contra hcon
    push Not at hcon
    have := Real.cos_nonpos_of_pi_div_two_le_of_le (x := -lat) (by linarith) (by linarith)
    rw [Real.cos_neg] at this
    linarith
  have hl2 : lat < Real.pi / 2 := by
    by_contra hcon
    push Not at hcon
    have := Real.cos_nonpos_of_pi_div_two_le_of_le (x := lat) (by linarith) (by linarith)
    linarith
  have hpv : primeVertical a b lat = N := by
    unfold primeVertical
    have : a ^ 2 * Real.cos lat ^ 2 + b ^ 2 * Real.sin lat ^ 2 = (a ^ 2 / N) ^ 2 := by
      rw [hb2, div_pow, eq_div_iff (by positivity)]
      have e1 : N ^ 2 * Real.cos lat ^ 2 = ρ ^ 2 := by rw [← hc]; ring
      have e2 : N ^ 2 * Real.sin lat ^ 2 = σ ^ 2 := by rw [← hs]; ring
      linear_combination a ^ 2 * e1 + (1 - e) * a ^ 2 * e2 + a ^ 2 * hell
    rw [this, Real.sqrt_sq (by positivity)]
    field_simp
  have hpt : geocentricPoint R theta = geodeticPoint a b (N * (u - (1 - e))) lat := by
    unfold geocentricPoint geodeticPoint
    rw [← hr, ← hz, hpv, hk, hru, hzu]
    apply Prod.ext
    · simp only
      linear_combination (-(u + e)) * hc
    · simp only
      linear_combination (-u) * hs
  have hp : p = (N * (u - (1 - e)), 90 - degrees lat) := by
    apply geoToGg_eq a b R theta _ lat ha hb hab hl1 hl2 _ hpt hR
    rw [hpv, hk]
    have : N * (1 - e) + N * (u - (1 - e)) = N * u := by ring
    rw [this]
    positivity
  have e90 : degrees lat < 90 := by rw [← radians_lt, radians_degrees]; unfold radians; linarith
  have e90' : -90 < degrees lat := by rw [← radians_lt, radians_degrees]; unfold radians; linarith
  have hback : (90 - (90 - degrees lat)) * Real.pi / 180 = lat := by
    rw [← radians_eq, show 90 - (90 - degrees lat) = degrees lat by ring, radians_degrees]
  have h5 : 0 < p.2 := by rw [hp]; simp only; linarith
  have h6 : p.2 < 180 := by rw [hp]; simp only; linarith
  have h7 : geodeticPoint a b p.1 ((90 - p.2) * Real.pi / 180) = geocentricPoint R theta := by
    rw [hp, hpt]; simp only [hback]
  refine ⟨h5, h6, h7, ?_⟩
  obtain ⟨g1, g2, _⟩ := C39_gg_to_geo a b p.1 p.2 ha hb h5 h6
  have hgr : -90 ≤ (ggToGeo a b p.1 p.2).2 ∧ (ggToGeo a b p.1 p.2).2 ≤ 270 := by
    have hh := fun y x => arctan2_range y x
    constructor
    · unfold ggToGeo
      simp only
      have : ∀ y x, degrees (arctan2 y x) ≤ 180 := by
        intro y x
        rw [← radians_le, radians_degrees, radians_180]
        exact (hh y x).2
      linarith [this ((p.1 * Real.sqrt (a ^ 2 * Real.cos (radians (90 - p.2)) ^ 2 + b ^ 2 * Real.sin (radians (90 - p.2)) ^ 2) + b ^ 2) * Real.tan (radians (90 - p.2))) (p.1 * Real.sqrt (a ^ 2 * Real.cos (radians (90 - p.2)) ^ 2 + b ^ 2 * Real.sin (radians (90 - p.2)) ^ 2) + a ^ 2)]
    · unfold ggToGeo
      simp only
      have : ∀ y x, -180 ≤ degrees (arctan2 y x) := by
        intro y x
        rw [← radians_le, radians_degrees, radians_neg, radians_180]
        exact (hh y x).1.le
      linarith [this ((p.1 * Real.sqrt (a ^ 2 * Real.cos (radians (90 - p.2)) ^ 2 + b ^ 2 * Real.sin (radians (90 - p.2)) ^ 2) + b ^ 2) * Real.tan (radians (90 - p.2))) (p.1 * Real.sqrt (a ^ 2 * Real.cos (radians (90 - p.2)) ^ 2 + b ^ 2 * Real.sin (radians (90 - p.2)) ^ 2) + a ^ 2)]
  exact geocentric_inj R theta _ _ hR0 g2 h1 h2 hgr.1 hgr.2 (g1.trans h7)

/-! ### Poles -/

theorem geoToGg_axis (a b R theta : ℝ) (hb : 0 < b) (hab : b ≤ a) (hs : R * Real.sin (radians theta) = 0) (s : ℝ) (hs2 : s ^ 2 = 1)
    (hc : R * Real.cos (radians theta) = s * R) (hR : a ^ 2 - b ^ 2 < b * R) :
    geoToGg a b R theta = (R - b, 90 - s * 90) := by
  have ha : 0 < a := by linarith
  have hpi := Real.pi_pos
  have hR0 : 0 < R := by
    have : 0 < b * R := by nlinarith
    exact (mul_pos_iff_of_pos_left hb).1 this
  set e := (a ^ 2 - b ^ 2) / a ^ 2 with he
  clear_value e
  have he0 : 0 ≤ e := by rw [he]; apply div_nonneg _ (by positivity); nlinarith
  have hk : b ^ 2 / a ^ 2 = 1 - e := by rw [he]; field_simp; ring
  have hk0 : 0 < 1 - e := by rw [← hk]; positivity
  have hb2 : b ^ 2 = (1 - e) * a ^ 2 := by rw [← hk]; field_simp
  have hab2 : a ^ 2 - b ^ 2 = e * a ^ 2 := by rw [hb2]; ring
  have hz2 : (s * R) ^ 2 = R ^ 2 := by rw [mul_pow, hs2, one_mul]
  set G := 0 ^ 2 + (1 - e) * R ^ 2 - e * (e * a ^ 2) with hG
  clear_value G
  have hG0 : 0 < G := by
    have := radius_condition a b R 0 R e ha hb hab he0 hb2 hR (by ring)
    rw [hG]
    linarith
  unfold geoToGg
  simp only [← he]
  rw [hs, hc, hz2, hab2, hb2, ← hG]
  have hc0 : e * e * (54 * ((1 - e) * a ^ 2) * R ^ 2) * 0 ^ 2 / G ^ 3 = 0 := by simp
  rw [hc0]
  have hs1 : ((1 : ℝ) + 0 + Real.sqrt (0 ^ 2 + 2 * 0)) ^ ((1 : ℝ) / 3) = 1 := by simp
  rw [hs1]
  set P := 54 * ((1 - e) * a ^ 2) * R ^ 2 / (3 * (1 + 1 / 1 + 1) ^ 2 * G ^ 2) with hP
  clear_value P
  have hP' : P * G ^ 2 = 2 * (1 - e) * a ^ 2 * R ^ 2 := by rw [hP]; field_simp; norm_num
  have hQ : Real.sqrt (1 + 2 * (e * e) * P) = ((1 - e) * R ^ 2 + e ^ 2 * a ^ 2) / G := by
    have : 1 + 2 * (e * e) * P = (((1 - e) * R ^ 2 + e ^ 2 * a ^ 2) / G) ^ 2 := by
      rw [div_pow, eq_div_iff (by positivity)]
      linear_combination 2 * e ^ 2 * hP' + (G + ((1 - e) * R ^ 2 - e * (e * a ^ 2))) * hG
    rw [this, Real.sqrt_sq]
    have : 0 ≤ (1 - e) * R ^ 2 + e ^ 2 * a ^ 2 := by positivity
    positivity
  rw [hQ]
  set Q := ((1 - e) * R ^ 2 + e ^ 2 * a ^ 2) / G with hQd
  clear_value Q
  have hQ0 : 0 < Q := by rw [hQd]; positivity
  have hQG : Q * G = (1 - e) * R ^ 2 + e ^ 2 * a ^ 2 := by rw [hQd]; field_simp
  have hD : 0.5 * a ^ 2 * (1 + 1 / Q) - P * (1 - e) * R ^ 2 / (Q * (1 + Q)) - 0.5 * P * 0 ^ 2 = 0 := by
    have h2 : a ^ 2 * (1 + Q) ^ 2 = 2 * (P * (1 - e) * R ^ 2) := by
      have h3 : (1 + Q) * G = 2 * (1 - e) * R ^ 2 := by linear_combination hQG + hG
      have : G ^ 2 * (a ^ 2 * (1 + Q) ^ 2 - 2 * (P * (1 - e) * R ^ 2)) = 0 := by
        linear_combination a ^ 2 * ((1 + Q) * G + 2 * (1 - e) * R ^ 2) * h3 - 2 * (1 - e) * R ^ 2 * hP'
      have := (mul_eq_zero.1 this).resolve_left (by positivity)
      linarith
    field_simp
    linear_combination h2 / 2
  rw [hD, Real.sqrt_zero]
  have hzero : -P * e * 0 / (1 + Q) + 0 = 0 := by simp
  rw [hzero]
  have hU : Real.sqrt ((0 - e * 0) ^ 2 + R ^ 2) = R := by
    rw [show ((0 : ℝ) - e * 0) ^ 2 + R ^ 2 = R ^ 2 by ring, Real.sqrt_sq hR0.le]
  have hV : Real.sqrt ((0 - e * 0) ^ 2 + (1 - e) * R ^ 2) = b * R / a := by
    rw [show ((0 : ℝ) - e * 0) ^ 2 + (1 - e) * R ^ 2 = (b * R / a) ^ 2 by rw [div_pow, mul_pow, hb2]; field_simp; ring, Real.sqrt_sq (by positivity)]
  rw [hU, hV, ← hb2]
  have hang : arctan2 (s * R + e * a ^ 2 / b ^ 2 * (b ^ 2 * (s * R) / (a * (b * R / a)))) 0 = s * (Real.pi / 2) := by
    have hpos : 0 < R + e * a ^ 2 / b := by positivity
    have h0 : s * R + e * a ^ 2 / b ^ 2 * (b ^ 2 * (s * R) / (a * (b * R / a))) = s * (R + e * a ^ 2 / b) := by field_simp
    rw [h0]
    have h5 : (s - 1) * (s + 1) = 0 := by linear_combination hs2
    have h6 : s = 1 ∨ s = -1 := by
      rcases mul_eq_zero.1 h5 with h | h
      · left; linarith
      · right; linarith
    rcases h6 with rfl | rfl
    · have := arctan2_polar (R + e * a ^ 2 / b) (Real.pi / 2) hpos (by linarith) (by linarith)
      rw [Real.sin_pi_div_two, Real.cos_pi_div_two, mul_one, mul_zero] at this
      rw [one_mul, one_mul, this]
    · have := arctan2_polar (R + e * a ^ 2 / b) (-(Real.pi / 2)) hpos (by linarith) (by linarith)
      rw [Real.sin_neg, Real.cos_neg, Real.sin_pi_div_two, Real.cos_pi_div_two, mul_zero] at this
      rw [show (-1 : ℝ) * (R + e * a ^ 2 / b) = (R + e * a ^ 2 / b) * -1 by ring, this]
      ring
  rw [hang]
  apply Prod.ext
  · simp only
    field_simp
  · simp only
    unfold degrees
    field_simp
    ring

/-- **C39** (poles). Points on the axis further than `(a² - b²)/b` from the centre: the geodetic colatitude is that of the pole and
the height is the distance from the pole of the ellipsoid. -/
theorem C39_poles (a b R : ℝ) (hb : 0 < b) (hab : b ≤ a) (hR : a ^ 2 - b ^ 2 < b * R) :
    geoToGg a b R 0 = (R - b, 0) ∧ geoToGg a b R 180 = (R - b, 180) := by
  constructor
  · have := geoToGg_axis a b R 0 hb hab (by rw [radians_0]; simp) 1 (by norm_num) (by rw [radians_0]; simp) hR
    rw [this]
    norm_num
  · have := geoToGg_axis a b R 180 hb hab (by rw [radians_180]; simp) (-1) (by norm_num) (by rw [radians_180]; simp) hR
    rw [this]
    norm_num

/-! ### Components -/

/-- **C39** (base vectors). North, east and down, in components along up, south and east, are right-handed. -/
theorem C39_basevectors (theta beta : ℝ) : RightHanded (baseGg theta beta).e1 (baseGg theta beta).e2 (baseGg theta beta).e3 := by
  have h := Real.sin_sq_add_cos_sq (radians (theta - beta))
  unfold baseGg
  refine ⟨?_, ?_, ?_, ?_, ?_, ?_, ?_⟩ <;> simp only [dot, vecProd, Matrix.cons_val]
  · linear_combination h
  · ring
  · linear_combination h
  · ring
  · ring
  · ring
  · funext i
    fin_cases i <;> simp

/-- **C39** (components, forward). The components that `gg_to_geo` returns are those of the same vector. -/
theorem C39_components (a b h beta X Z : ℝ) :
    (ggToGeoVec a b h beta X Z).1 = ggToGeo a b h beta ∧
    upSouth (ggToGeo a b h beta).2 (ggToGeoVec a b h beta X Z).2.1 (ggToGeoVec a b h beta X Z).2.2 = northDown ((90 - beta) * Real.pi / 180) X Z := by
  refine ⟨rfl, ?_⟩
  unfold ggToGeoVec baseGg upSouth northDown
  simp only [Matrix.cons_val, ← radians_eq]
  have e1 : radians ((ggToGeo a b h beta).2 - beta) = radians (ggToGeo a b h beta).2 - radians beta := by unfold radians; ring
  have e2 : radians (90 - beta) = Real.pi / 2 - radians beta := by unfold radians; ring
  rw [e1, e2, Real.sin_pi_div_two_sub, Real.cos_pi_div_two_sub, Real.sin_sub, Real.cos_sub]
  have hs := Real.sin_sq_add_cos_sq (radians (ggToGeo a b h beta).2)
  generalize Real.sin (radians (ggToGeo a b h beta).2) = st at hs ⊢
  generalize Real.cos (radians (ggToGeo a b h beta).2) = ct at hs ⊢
  apply Prod.ext <;> simp only
  · linear_combination (-(X * Real.cos (radians beta)) - Z * Real.sin (radians beta)) * hs
  · linear_combination (X * Real.sin (radians beta) - Z * Real.cos (radians beta)) * hs

/-- **C39** (components, backward). The components that `geo_to_gg` returns are those of the same vector. -/
theorem C39_components_back (a b R theta Br Bt : ℝ) :
    (geoToGgVec a b R theta Br Bt).1 = geoToGg a b R theta ∧
    northDown ((90 - (geoToGg a b R theta).2) * Real.pi / 180) (geoToGgVec a b R theta Br Bt).2.1 (geoToGgVec a b R theta Br Bt).2.2 = upSouth theta Br Bt := by
  refine ⟨rfl, ?_⟩
  unfold geoToGgVec baseGg upSouth northDown
  simp only [Matrix.cons_val, ← radians_eq]
  have e1 : radians (theta - (geoToGg a b R theta).2) = radians theta - radians (geoToGg a b R theta).2 := by unfold radians; ring
  have e2 : radians (90 - (geoToGg a b R theta).2) = Real.pi / 2 - radians (geoToGg a b R theta).2 := by unfold radians; ring
  rw [e1, e2, Real.sin_pi_div_two_sub, Real.cos_pi_div_two_sub, Real.sin_sub, Real.cos_sub]
  have hs := Real.sin_sq_add_cos_sq (radians (geoToGg a b R theta).2)
  generalize Real.sin (radians (geoToGg a b R theta).2) = st at hs ⊢
  generalize Real.cos (radians (geoToGg a b R theta).2) = ct at hs ⊢
  apply Prod.ext <;> simp only
  · linear_combination (Br * Real.sin (radians theta) + Bt * Real.cos (radians theta)) * hs
  · linear_combination (Br * Real.cos (radians theta) - Bt * Real.sin (radians theta)) * hs

/-- **C39** (components, there and back, both ways), whenever the coordinates are recovered. -/
theorem C39_components_inverse (a b : ℝ) :
    (∀ h beta X Z : ℝ, geoToGg a b (ggToGeo a b h beta).1 (ggToGeo a b h beta).2 = (h, beta) →
      let q := ggToGeoVec a b h beta X Z
      geoToGgVec a b q.1.1 q.1.2 q.2.1 q.2.2 = ((h, beta), (X, Z))) ∧
    (∀ R theta Br Bt : ℝ, ggToGeo a b (geoToGg a b R theta).1 (geoToGg a b R theta).2 = (R, theta) →
      let q := geoToGgVec a b R theta Br Bt
      ggToGeoVec a b q.1.1 q.1.2 q.2.1 q.2.2 = ((R, theta), (Br, Bt))) := by
  constructor
  · intro h beta X Z hc
    simp only [ggToGeoVec, geoToGgVec, hc, baseGg, Matrix.cons_val]
    have hs := Real.sin_sq_add_cos_sq (radians ((ggToGeo a b h beta).2 - beta))
    apply Prod.ext
    · rfl
    · apply Prod.ext <;> simp only
      · linear_combination X * hs
      · linear_combination Z * hs
  · intro R theta Br Bt hc
    simp only [ggToGeoVec, geoToGgVec, hc, baseGg, Matrix.cons_val]
    have hs := Real.sin_sq_add_cos_sq (radians (theta - (geoToGg a b R theta).2))
    apply Prod.ext
    · rfl
    · apply Prod.ext <;> simp only
      · linear_combination Br * hs
      · linear_combination Bt * hs

end ChaosMagPy.Coord
