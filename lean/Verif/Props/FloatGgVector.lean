import Verif.Model.FloatGgVector
import Verif.Props.FloatGgToGeo
/-!
# C101: vector components of `geo_to_gg` and `gg_to_geo` in double precision
-/
namespace ChaosMagPy.FloatGeod
open ChaosMagPy.Spec ChaosMagPy.Float ChaosMagPy.FloatLegendre ChaosMagPy.FloatNear

variable (R : Rounding)

/-- The rounded sum of two rounded products. -/
theorem comb_err {M s c s' c' x y : ℝ} (h1 : 2⁻¹ ^ 90 ≤ M) (h2 : M ≤ 2 ^ 90) (hx : |x| ≤ M) (hy : |y| ≤ M) (hs' : |s'| ≤ 1) (hc' : |c'| ≤ 1)
    (hs : |s' - s| ≤ 3 / 10 ^ 15) (hc : |c' - c| ≤ 3 / 10 ^ 15) : |R (R (s' * x) + R (c' * y)) - (s * x + c * y)| ≤ 8 / 10 ^ 15 * M := by
  have hM : 0 < M := lt_of_lt_of_le (by positivity) h1
  have k1 : 2⁻¹ ^ 100 ≤ M := le_trans (by norm_num) h1
  have k2 : M ≤ 2 ^ 100 := h2.trans (by norm_num)
  have k3 : 2⁻¹ ^ 100 ≤ 2 * M := by linarith
  have k4 : 2 * M ≤ 2 ^ 100 := by
    have : (2 : ℝ) * 2 ^ 90 ≤ 2 ^ 100 := by norm_num
    linarith
  have p1 : |s' * x| ≤ M := by rw [abs_mul]; calc _ ≤ 1 * M := mul_le_mul hs' hx (abs_nonneg _) (by norm_num)
                                              _ = M := one_mul _
  have p2 : |c' * y| ≤ M := by rw [abs_mul]; calc _ ≤ 1 * M := mul_le_mul hc' hy (abs_nonneg _) (by norm_num)
                                              _ = M := one_mul _
  have r1 := FloatCoord.rnd_scale R k1 k2 (p1.trans (by linarith))
  have r2 := FloatCoord.rnd_scale R k1 k2 (p2.trans (by linarith))
  have q1 : |s' * x - s * x| ≤ 3 / 10 ^ 15 * M := by
    rw [← sub_mul, abs_mul]
    exact mul_le_mul hs hx (abs_nonneg _) (by norm_num)
  have q2 : |c' * y - c * y| ≤ 3 / 10 ^ 15 * M := by
    rw [← sub_mul, abs_mul]
    exact mul_le_mul hc hy (abs_nonneg _) (by norm_num)
  generalize R (s' * x) = u at *
  generalize R (c' * y) = v at *
  generalize s' * x = u₀ at *
  generalize c' * y = v₀ at *
  have r3 : |R (u + v) - (u + v)| ≤ 2 * M * 2⁻¹ ^ 51 := by
    refine FloatCoord.rnd_scale R k3 k4 ?_
    rw [abs_le] at p1 p2 r1 r2 ⊢
    norm_num at r1 r2 ⊢
    constructor <;> linarith [p1.1, p1.2, p2.1, p2.2, r1.1, r1.2, r2.1, r2.2]
  rw [abs_le] at *
  norm_num at *
  constructor <;> linarith [r1.1, r1.2, r2.1, r2.2, r3.1, r3.2, q1.1, q1.2, q2.1, q2.2]

/-- The computed sine and cosine of the difference of the colatitudes. -/
theorem base_err {S C : ℝ → ℝ} (hS : IsSine S) (hC : IsCosine C) {theta beta : ℝ} (h : |theta - beta| ≤ 181) :
    |S (radians R (R (theta - beta))) - Real.sin (rad theta - rad beta)| ≤ 3 / 10 ^ 15 ∧
    |C (radians R (R (theta - beta))) - Real.cos (rad theta - rad beta)| ≤ 3 / 10 ^ 15 := by
  have e : rad theta - rad beta = rad (theta - beta) := by rw [rad, rad, rad]; ring
  rw [e]
  generalize theta - beta = d at *
  have e1 : |R d - d| ≤ 2 / 10 ^ 14 := rstep R (k := 8) (ε := 0) (by simp) h (by norm_num) (by norm_num) (by norm_num) (by norm_num)
  have hb : |R d| ≤ 360 := by
    rw [abs_le] at h e1 ⊢
    norm_num at e1
    constructor <;> linarith [h.1, h.2, e1.1, e1.2]
  have e2 : |rad (R d) - rad d| ≤ 4 / 10 ^ 16 := by
    rw [rad, rad, ← sub_mul, abs_mul, abs_of_pos (by positivity : 0 < Real.pi / 180)]
    have hp' := Real.pi_lt_d4
    have := mul_le_mul e1 (by linarith : Real.pi / 180 ≤ 1 / 50) (by positivity) (by norm_num)
    exact this.trans (by norm_num)
  constructor
  · have t := abs_add_le (S (radians R (R d)) - Real.sin (rad (R d))) (Real.sin (rad (R d)) - Real.sin (rad d))
    rw [sub_add_sub_cancel] at t
    have g1 := FloatCoord.sin_wide R hS hb
    have g2 := (sub_sin_le (rad (R d)) (rad d)).trans e2
    norm_num at g1 g2 ⊢
    linarith
  · have t := abs_add_le (C (radians R (R d)) - Real.cos (rad (R d))) (Real.cos (rad (R d)) - Real.cos (rad d))
    rw [sub_add_sub_cancel] at t
    have g1 := FloatCoord.cos_wide R hC hb
    have g2 := (sub_cos_le (rad (R d)) (rad d)).trans e2
    norm_num at g1 g2 ⊢
    linarith

theorem neg_err {x y ε : ℝ} (h : |x - y| ≤ ε) : |-x - -y| ≤ ε := by
  rwa [← abs_neg, show -(-x - -y) = x - y by ring]

/-- Errors of two components, seen along two other orthogonal directions. -/
theorem turn_err {dx dz s c ε : ℝ} (h1 : |dx| ≤ ε) (h2 : |dz| ≤ ε) (hs : |s| ≤ 1) (hc : |c| ≤ 1) : |dx * s + dz * c| ≤ 2 * ε := by
  have m1 := mul_le_mul h1 hs (abs_nonneg _) ((abs_nonneg _).trans h1)
  have m2 := mul_le_mul h2 hc (abs_nonneg _) ((abs_nonneg _).trans h2)
  rw [← abs_mul] at m1 m2
  have := abs_add_le (dx * s) (dz * c)
  linarith

/-- **C101.** The geodetic components are numbers whenever the geodetic colatitude is one, and they are those of the same vector, to 2e-14 times the largest
component `M` of the vector. -/
theorem C101_geodetic (p : Platform) (hS : IsSine p.sin) (hC : IsCosine p.cos) {a b radius theta h β Br Bt M : ℝ} (hg : geoToGg R p a b radius theta = (some h, some β))
    (hd : |theta - β| ≤ 181) (h1 : 2⁻¹ ^ 90 ≤ M) (h2 : M ≤ 2 ^ 90) (hr : |Br| ≤ M) (ht : |Bt| ≤ M) :
    ∃ X Z, geoToGgVector R p a b radius theta Br Bt = (some h, some β, some X, some Z) ∧
      |(northDown ((90 - β) * Real.pi / 180) X Z).1 - (upSouth theta Br Bt).1| ≤ 2 / 10 ^ 14 * M ∧
      |(northDown ((90 - β) * Real.pi / 180) X Z).2 - (upSouth theta Br Bt).2| ≤ 2 / 10 ^ 14 * M := by
  obtain ⟨es, ec⟩ := base_err R hS hC hd
  unfold geoToGgVector
  rw [hg]
  refine ⟨_, _, rfl, ?_⟩
  simp only [baseGg]
  have ls := hS.le_one (radians R (R (theta - β)))
  have lc := hC.le_one (radians R (R (theta - β)))
  have eX := comb_err R h1 h2 hr ht (by rwa [abs_neg]) (by rwa [abs_neg]) (neg_err es) (neg_err ec)
  have eZ := comb_err R h1 h2 hr ht (by rwa [abs_neg]) ls (neg_err ec) es
  generalize R (R (-p.sin (radians R (R (theta - β))) * Br) + R (-p.cos (radians R (R (theta - β))) * Bt)) = X at *
  generalize R (R (-p.cos (radians R (R (theta - β))) * Br) + R (p.sin (radians R (R (theta - β))) * Bt)) = Z at *
  have erad : ∀ t : ℝ, t * Real.pi / 180 = rad t := fun t => by rw [rad]; ring
  have e90 : rad (90 - β) = Real.pi / 2 - rad β := by rw [rad, rad]; ring
  simp only [northDown, upSouth, erad, e90, Real.sin_pi_div_two_sub, Real.cos_pi_div_two_sub]
  rw [Real.sin_sub, Real.cos_sub] at eX eZ
  have hsc := Real.sin_sq_add_cos_sq (rad β)
  have hM : 0 < M := lt_of_lt_of_le (by positivity) h1
  have bs := Real.abs_sin_le_one (rad β)
  have bc := Real.abs_cos_le_one (rad β)
  generalize Real.sin (rad β) = sb at *
  generalize Real.cos (rad β) = cb at *
  generalize Real.sin (rad theta) = st at *
  generalize Real.cos (rad theta) = ct at *
  constructor
  · refine le_trans (le_of_eq ?_) ((turn_err eX eZ (s := -cb) (c := -sb) (by rwa [abs_neg]) (by rwa [abs_neg])).trans (by norm_num; linarith))
    congr 1
    linear_combination (Br * st + Bt * ct) * hsc
  · refine le_trans (le_of_eq ?_) ((turn_err eX eZ (s := sb) (c := -cb) bs (by rwa [abs_neg])).trans (by norm_num; linarith))
    congr 1
    linear_combination (Br * ct - Bt * st) * hsc

/-- **C101.** The spherical components are numbers whenever the geocentric colatitude is one, and they are those of the same vector, to 2e-14 times the largest
component `M` of the vector. -/
theorem C101_geocentric (p : GgPlatform) (hS : IsSine p.sin) (hC : IsCosine p.cos) {a b height beta r θ X Z M : ℝ} (hg : ggToGeo R p a b height beta = (some r, some θ))
    (hd : |θ - beta| ≤ 181) (h1 : 2⁻¹ ^ 90 ≤ M) (h2 : M ≤ 2 ^ 90) (hx : |X| ≤ M) (hz : |Z| ≤ M) :
    ∃ Br Bt, ggToGeoVector R p a b height beta X Z = (some r, some θ, some Br, some Bt) ∧
      |(upSouth θ Br Bt).1 - (northDown ((90 - beta) * Real.pi / 180) X Z).1| ≤ 2 / 10 ^ 14 * M ∧
      |(upSouth θ Br Bt).2 - (northDown ((90 - beta) * Real.pi / 180) X Z).2| ≤ 2 / 10 ^ 14 * M := by
  obtain ⟨es, ec⟩ := base_err R hS hC hd
  unfold ggToGeoVector
  rw [hg]
  refine ⟨_, _, rfl, ?_⟩
  simp only [baseGg]
  have ls := hS.le_one (radians R (R (θ - beta)))
  have lc := hC.le_one (radians R (R (θ - beta)))
  have eR := comb_err R h1 h2 hx hz (by rwa [abs_neg]) (by rwa [abs_neg]) (neg_err es) (neg_err ec)
  have eT := comb_err R h1 h2 hx hz (by rwa [abs_neg]) ls (neg_err ec) es
  generalize R (R (-p.sin (radians R (R (θ - beta))) * X) + R (-p.cos (radians R (R (θ - beta))) * Z)) = Br at *
  generalize R (R (-p.cos (radians R (R (θ - beta))) * X) + R (p.sin (radians R (R (θ - beta))) * Z)) = Bt at *
  have erad : ∀ t : ℝ, t * Real.pi / 180 = rad t := fun t => by rw [rad]; ring
  have e90 : rad (90 - beta) = Real.pi / 2 - rad beta := by rw [rad, rad]; ring
  simp only [northDown, upSouth, erad, e90, Real.sin_pi_div_two_sub, Real.cos_pi_div_two_sub]
  rw [Real.sin_sub, Real.cos_sub] at eR eT
  have hsc := Real.sin_sq_add_cos_sq (rad θ)
  have hM : 0 < M := lt_of_lt_of_le (by positivity) h1
  have bs := Real.abs_sin_le_one (rad θ)
  have bc := Real.abs_cos_le_one (rad θ)
  generalize Real.sin (rad beta) = sb at *
  generalize Real.cos (rad beta) = cb at *
  generalize Real.sin (rad θ) = st at *
  generalize Real.cos (rad θ) = ct at *
  constructor
  · refine le_trans (le_of_eq ?_) ((turn_err eR eT (s := st) (c := ct) bs bc).trans (by norm_num; linarith))
    congr 1
    linear_combination (-X * cb - Z * sb) * hsc
  · refine le_trans (le_of_eq ?_) ((turn_err eR eT (s := ct) (c := -st) bc (by rwa [abs_neg])).trans (by norm_num; linarith))
    congr 1
    linear_combination (X * sb - Z * cb) * hsc

/-- **C101.** There and back in double precision, with vector components: they are those of the given vector to 1e-9 times its largest component. -/
theorem C101_round_trip (p : Platform) (hS : IsSine p.sin) (hC : IsCosine p.cos) (hA : IsArctan2 p.arctan2)
    (hcube : ∀ x, (2 : ℝ) ^ (-300 : ℤ) ≤ x → x ≤ (2 : ℝ) ^ (300 : ℤ) → |p.cube x - x ^ 3| ≤ 4 / 2 ^ 52 * x ^ 3)
    (hcbrt : ∀ x, (2 : ℝ) ^ (-300 : ℤ) ≤ x → x ≤ (2 : ℝ) ^ (300 : ℤ) → |p.cbrt x - x ^ ((1 : ℝ) / 3)| ≤ 256 / 2 ^ 52 * x ^ ((1 : ℝ) / 3))
    (q : GgPlatform) (hS' : IsSine q.sin) (hC' : IsCosine q.cos) (hT : ∀ x, |x| < Real.pi / 2 → |q.tan x - Real.tan x| ≤ 4 / 2 ^ 52 * |Real.tan x|)
    (hA' : IsArctan2 q.arctan2) (h4 : ∀ x, 1 / 2 ≤ x → x ≤ 1 → |q.pow4 x - x ^ 4| ≤ 4 / 2 ^ 52)
    {radius theta Br Bt M : ℝ} (h1 : 6000 ≤ radius) (h2 : radius ≤ 50000) (h3 : 0 ≤ theta) (h3' : theta ≤ 180)
    (hdist : 50.001 ≤ (geocentricPoint radius theta).1) (hcos : (2 : ℝ) ^ (-100 : ℤ) ≤ |p.cos (radians R theta)|)
    (m1 : 2⁻¹ ^ 90 ≤ M) (m2 : M ≤ 2 ^ 80) (hr : |Br| ≤ M) (ht : |Bt| ≤ M) :
    ∃ h β X Z radius' theta' Br' Bt', geoToGgVector R p (R 6378.137) (R 6356.752) radius theta Br Bt = (some h, some β, some X, some Z) ∧
      ggToGeoVector R q (R 6378.137) (R 6356.752) h β X Z = (some radius', some theta', some Br', some Bt') ∧
      |radius' - radius| ≤ 3 / 10 ^ 7 ∧ |theta' - theta| ≤ 1 / 10 ^ 8 ∧ |Br' - Br| ≤ 1 / 10 ^ 9 * M ∧ |Bt' - Bt| ≤ 1 / 10 ^ 9 * M := by
  obtain ⟨h, β, eg, b1, b2, b3, b4, -⟩ := C99_accuracy R p hS hC hA hcube hcbrt h1 h2 h3 h3' hdist hcos
  obtain ⟨r', θ', er, -, t1, t2, -⟩ := gg_core R q hS' hC' hT hA' h4 b1 b2 b3 b4
  obtain ⟨h', β', r'', θ'', eg', er', g1, g2⟩ := C100_round_trip R p hS hC hA hcube hcbrt q hS' hC' hT hA' h4 h1 h2 h3 h3' hdist hcos
  have i1 := eg.symm.trans eg'
  simp only [Prod.mk.injEq, Option.some.injEq] at i1
  obtain ⟨rfl, rfl⟩ := i1
  have i2 := er.symm.trans er'
  simp only [Prod.mk.injEq, Option.some.injEq] at i2
  obtain ⟨rfl, rfl⟩ := i2
  have hM : 0 < M := lt_of_lt_of_le (by positivity) m1
  obtain ⟨X, Z, eX, n1, n2⟩ := C101_geodetic R p hS hC eg (by rw [abs_le]; constructor <;> linarith) m1 (m2.trans (by norm_num)) hr ht
  have erad : ∀ t : ℝ, t * Real.pi / 180 = rad t := fun t => by rw [rad]; ring
  have u1 : |(upSouth theta Br Bt).1| ≤ 2 * M := by
    simp only [upSouth, erad]
    exact turn_err hr ht (Real.abs_sin_le_one _) (Real.abs_cos_le_one _)
  have u2 : |(upSouth theta Br Bt).2| ≤ 2 * M := by
    simp only [upSouth, erad]
    have := turn_err hr ht (Real.abs_cos_le_one (rad theta)) (c := -Real.sin (rad theta)) (by rw [abs_neg]; exact Real.abs_sin_le_one _)
    rwa [mul_neg, ← sub_eq_add_neg] at this
  have w1 : |(northDown ((90 - β) * Real.pi / 180) X Z).1| ≤ 5 / 2 * M := by
    have t := abs_add_le ((northDown ((90 - β) * Real.pi / 180) X Z).1 - (upSouth theta Br Bt).1) (upSouth theta Br Bt).1
    rw [sub_add_cancel] at t
    norm_num at n1 t ⊢
    linarith
  have w2 : |(northDown ((90 - β) * Real.pi / 180) X Z).2| ≤ 5 / 2 * M := by
    have t := abs_add_le ((northDown ((90 - β) * Real.pi / 180) X Z).2 - (upSouth theta Br Bt).2) (upSouth theta Br Bt).2
    rw [sub_add_cancel] at t
    norm_num at n2 t ⊢
    linarith
  have bX : |X| ≤ 5 * M := by
    have t := turn_err w1 w2 (s := -Real.sin ((90 - β) * Real.pi / 180)) (c := Real.cos ((90 - β) * Real.pi / 180)) (by rw [abs_neg]; exact Real.abs_sin_le_one _) (Real.abs_cos_le_one _)
    have e : X = (northDown ((90 - β) * Real.pi / 180) X Z).1 * -Real.sin ((90 - β) * Real.pi / 180) + (northDown ((90 - β) * Real.pi / 180) X Z).2 * Real.cos ((90 - β) * Real.pi / 180) := by
      simp only [northDown]
      linear_combination (-X) * Real.sin_sq_add_cos_sq ((90 - β) * Real.pi / 180)
    rw [e]
    linarith
  have bZ : |Z| ≤ 5 * M := by
    have t := turn_err w1 w2 (s := -Real.cos ((90 - β) * Real.pi / 180)) (c := -Real.sin ((90 - β) * Real.pi / 180)) (by rw [abs_neg]; exact Real.abs_cos_le_one _)
      (by rw [abs_neg]; exact Real.abs_sin_le_one _)
    have e : Z = (northDown ((90 - β) * Real.pi / 180) X Z).1 * -Real.cos ((90 - β) * Real.pi / 180) + (northDown ((90 - β) * Real.pi / 180) X Z).2 * -Real.sin ((90 - β) * Real.pi / 180) := by
      simp only [northDown]
      linear_combination (-Z) * Real.sin_sq_add_cos_sq ((90 - β) * Real.pi / 180)
    rw [e]
    linarith
  have m3 : 5 * M ≤ 2 ^ 90 := by
    have : (5 : ℝ) * 2 ^ 80 ≤ 2 ^ 90 := by norm_num
    linarith
  obtain ⟨Br', Bt', eB, n3, n4⟩ := C101_geocentric R q hS' hC' er (by rw [abs_le]; constructor <;> linarith) (M := 5 * M) (by linarith) m3 bX bZ
  refine ⟨h, β, X, Z, r', θ', Br', Bt', eX, eB, g1, g2, ?_⟩
  have d1 : |(upSouth θ' Br' Bt').1 - (upSouth theta Br Bt).1| ≤ 2 / 10 ^ 13 * M := by
    have t := abs_add_le ((upSouth θ' Br' Bt').1 - (northDown ((90 - β) * Real.pi / 180) X Z).1) ((northDown ((90 - β) * Real.pi / 180) X Z).1 - (upSouth theta Br Bt).1)
    rw [sub_add_sub_cancel] at t
    norm_num at n1 n3 t ⊢
    linarith
  have d2 : |(upSouth θ' Br' Bt').2 - (upSouth theta Br Bt).2| ≤ 2 / 10 ^ 13 * M := by
    have t := abs_add_le ((upSouth θ' Br' Bt').2 - (northDown ((90 - β) * Real.pi / 180) X Z).2) ((northDown ((90 - β) * Real.pi / 180) X Z).2 - (upSouth theta Br Bt).2)
    rw [sub_add_sub_cancel] at t
    norm_num at n2 n4 t ⊢
    linarith
  have hang : |rad θ' - rad theta| ≤ 2 / 10 ^ 10 := by
    have e : rad θ' - rad theta = (θ' - theta) * (Real.pi / 180) := by rw [rad, rad]; ring
    rw [e, abs_mul, abs_of_pos (by positivity : 0 < Real.pi / 180)]
    have hp' := Real.pi_lt_d4
    have := mul_le_mul g2 (by linarith : Real.pi / 180 ≤ 1 / 50) (by positivity) (by norm_num)
    exact this.trans (by norm_num)
  have ks := (sub_sin_le (rad θ') (rad theta)).trans hang
  have kc := (sub_cos_le (rad θ') (rad theta)).trans hang
  -- the components from the vector along the axis and away from it
  have cr : ∀ t b c : ℝ, b = (upSouth t b c).1 * Real.sin (rad t) + (upSouth t b c).2 * Real.cos (rad t) := by
    intro t b c
    simp only [upSouth, erad]
    linear_combination (-b) * Real.sin_sq_add_cos_sq (rad t)
  have ct : ∀ t b c : ℝ, c = (upSouth t b c).1 * Real.cos (rad t) + (upSouth t b c).2 * -Real.sin (rad t) := by
    intro t b c
    simp only [upSouth, erad]
    linear_combination (-c) * Real.sin_sq_add_cos_sq (rad t)
  have key : ∀ {x x' y y' s s' c c' : ℝ}, |x' - x| ≤ 2 / 10 ^ 13 * M → |y' - y| ≤ 2 / 10 ^ 13 * M → |x| ≤ 2 * M → |y| ≤ 2 * M → |s' - s| ≤ 2 / 10 ^ 10 → |c' - c| ≤ 2 / 10 ^ 10 →
      |s'| ≤ 1 → |c'| ≤ 1 → |x' * s' + y' * c' - (x * s + y * c)| ≤ 1 / 10 ^ 9 * M := by
    intro x x' y y' s s' c c' a1 a2 a3 a4 a5 a6 a7 a8
    have e : x' * s' + y' * c' - (x * s + y * c) = ((x' - x) * s' + (y' - y) * c') + (x * (s' - s) + y * (c' - c)) := by ring
    rw [e]
    have f1 := turn_err a1 a2 a7 a8
    have f2 := abs_add_le (x * (s' - s)) (y * (c' - c))
    have f3 := mul_le_mul a3 a5 (abs_nonneg _) (by linarith)
    have f4 := mul_le_mul a4 a6 (abs_nonneg _) (by linarith)
    rw [← abs_mul] at f3 f4
    have f5 := abs_add_le ((x' - x) * s' + (y' - y) * c') (x * (s' - s) + y * (c' - c))
    have f6 : 2 * (2 / 10 ^ 13 * M) + (2 * M * (2 / 10 ^ 10) + 2 * M * (2 / 10 ^ 10)) ≤ 1 / 10 ^ 9 * M := by norm_num; linarith
    linarith
  constructor
  · have := key d1 d2 u1 u2 ks kc (Real.abs_sin_le_one _) (Real.abs_cos_le_one _)
    rwa [← cr, ← cr] at this
  · have := key d1 d2 u1 u2 kc (neg_err ks) (Real.abs_cos_le_one _) (by rw [abs_neg]; exact Real.abs_sin_le_one _)
    rwa [← ct, ← ct] at this

/-- **C101.** At the north pole at radius 6371.2 km the components are NaN, as the coordinates are. -/
theorem C101_pole (p : Platform) (h0 : p.sin 0 = 0) (h1 : p.cos 0 = 1) (hcube : ∀ x, 0 < x → p.cube x ≠ 0) (hcb : p.cbrt 1 = 1) (hT : TiesToEven R)
    (Br Bt : ℝ) :
    geoToGgVector R p (R 6378.137) (R 6356.752) (R 6371.2) 0 Br Bt = (none, none, none, none) := by
  simp only [geoToGgVector]
  rw [C98_pole R p h0 h1 hcube hcb hT]
  rfl

end ChaosMagPy.FloatGeod
