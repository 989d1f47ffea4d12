import Verif.Lemmas.FloatGeodAcc
/-!
# Rounding errors of `geo_to_gg`: the height and the direction
-/
namespace ChaosMagPy.FloatGeod
open ChaosMagPy.Spec ChaosMagPy.Float ChaosMagPy.FloatLegendre ChaosMagPy.FloatNear

variable (R : Rounding)

/-- Bounds of the exact quantities. -/
theorem exact_bounds {a e r z ρ σ u : ℝ} (e0 : 0 < e) (e1 : e < 67 / 10000) (aa : a ^ 2 < 40680632) (aa' : 40680631 < a ^ 2) (a0 : 0 < a)
    (hρ : 0 < ρ) (hell : ρ ^ 2 + (1 - e) * σ ^ 2 = a ^ 2) (u1 : 93 / 100 ≤ u) (u2 : u ≤ 785 / 100) :
    6378 ≤ a ∧ a ≤ 6379 ∧ ρ ≤ 6379 ∧ |σ| ≤ 6400 ∧ 6378 ≤ Real.sqrt (ρ ^ 2 + σ ^ 2) ∧ Real.sqrt (ρ ^ 2 + σ ^ 2) ≤ 6400 := by
  have g1 : 6378 ≤ a := le_of_sq_le_sq (by linarith) a0.le
  have g2 : a ≤ 6379 := le_of_sq_le_sq (by linarith) (by norm_num)
  have g3 : 0 ≤ (1 - e) * σ ^ 2 := mul_nonneg (by linarith) (sq_nonneg _)
  have g4 : (9933 / 10000) * (ρ ^ 2 + σ ^ 2) ≤ a ^ 2 := by nlinarith [sq_nonneg ρ, sq_nonneg σ]
  refine ⟨g1, g2, le_of_sq_le_sq (by linarith) (by norm_num), ?_, ?_, ?_⟩
  · exact abs_le_of_sq_le_sq (by nlinarith [sq_nonneg ρ]) (by norm_num)
  · apply Real.le_sqrt_of_sq_le
    nlinarith [sq_nonneg σ]
  · exact (Real.sqrt_le_left (by norm_num)).2 (by linarith)

set_option maxHeartbeats 1000000 in
theorem out_err {a e r z ρ σ u v e2 z2 kz b2 ep : ℝ} (e0 : 0 < e) (e1 : e < 67 / 10000) (aa : a ^ 2 < 40680632) (aa' : 40680631 < a ^ 2) (a0 : 0 < a)
    (hρ : 0 < ρ) (hell : ρ ^ 2 + (1 - e) * σ ^ 2 = a ^ 2) (u1 : 93 / 100 ≤ u) (u2 : u ≤ 785 / 100) (hr : r = (u + e) * ρ) (hz : z = u * σ)
    (hr1 : 50 ≤ r) (hr2 : r ≤ 50001) (hz2 : |z| ≤ 50001)
    (hv : |v - ρ| * r ≤ 6 / 10 ^ 4) (he2 : |e2 - e| ≤ 1 / 10 ^ 17) (hz2' : |z2 - z ^ 2| ≤ 6 / 10 ^ 7) (hkz : |kz - (1 - e) * z ^ 2| ≤ 2 / 10 ^ 6)
    (hb2 : |b2 - (1 - e) * a ^ 2| ≤ 1 / 10 ^ 8) (hep : |ep - e / (1 - e)| ≤ 2 / 10 ^ 17) :
    let x := R (r - R (e2 * v))
    let x2 := R (x * x)
    let aV := R (a * R (Real.sqrt (R (x2 + kz))))
    0 ≤ R (x2 + z2) ∧ 0 ≤ R (x2 + kz) ∧ 0 < aV ∧
      |R (R (Real.sqrt (R (x2 + z2))) * R (1 - R (b2 / aV))) - Real.sqrt (ρ ^ 2 + σ ^ 2) * (u - (1 - e))| ≤ 4 / 10 ^ 8 ∧
      |R (z + R (ep * R (R (b2 * z) / aV))) - (u + e) * σ| ≤ 3 / 10 ^ 11 := by
  intro x x2 aV
  obtain ⟨ga1, ga2, gρ, gσ, gN1, gN2⟩ := exact_bounds (r := r) (z := z) e0 e1 aa aa' a0 hρ hell u1 u2
  have hr0 : 0 < r := by linarith
  have hx0 : r - e * ρ = u * ρ := by rw [hr]; ring
  have huρ : 0 < u * ρ := mul_pos (by linarith) hρ
  have huρr : u * ρ ≤ r := by rw [← hx0]; linarith [mul_pos e0 hρ]
  have hN2 : Real.sqrt (ρ ^ 2 + σ ^ 2) ^ 2 = ρ ^ 2 + σ ^ 2 := Real.sq_sqrt (by positivity)
  set N := Real.sqrt (ρ ^ 2 + σ ^ 2) with hN
  have hN0 : 0 < N := by linarith
  -- x
  have dv : |v - ρ| ≤ 6 / 10 ^ 4 / r := by rwa [le_div_iff₀ hr0]
  have dv' : 6 / 10 ^ 4 / r ≤ 2 / 10 ^ 5 := by rw [div_le_div_iff₀ hr0 (by norm_num)]; norm_num; linarith
  have x1 := mul_err he2 dv (X := 67 / 10000) (Y := 6379) (by rw [abs_of_pos e0]; exact e1.le) (by rw [abs_of_pos hρ]; exact gρ)
  have x1' : |e2 * v - e * ρ| ≤ 1 / 10 ^ 12 + 41 / 10 ^ 7 / r := by
    refine x1.trans ?_
    have e1 : (67 / 10000 * (6 / 10 ^ 4 / r) : ℝ) + 1 / 10 ^ 17 * (6 / 10 ^ 4 / r) ≤ 41 / 10 ^ 7 / r := by
      rw [show (67 / 10000 * (6 / 10 ^ 4 / r) : ℝ) + 1 / 10 ^ 17 * (6 / 10 ^ 4 / r) = (67 / 10000 * (6 / 10 ^ 4) + 1 / 10 ^ 17 * (6 / 10 ^ 4)) / r by ring]
      exact div_le_div_of_nonneg_right (by norm_num) hr0.le
    have e2 : (1 / 10 ^ 17 * 6379 : ℝ) ≤ 1 / 10 ^ 12 := by norm_num
    linarith
  have hq : 41 / 10 ^ 7 / r ≤ 1 / 10 ^ 7 := by rw [div_le_div_iff₀ hr0 (by norm_num)]; norm_num; linarith
  have heρ : |e * ρ| ≤ 43 := by
    rw [abs_of_pos (by positivity)]
    have := mul_le_mul e1.le gρ hρ.le (by norm_num)
    linarith
  have x2a : |R (e2 * v) - e * ρ| ≤ 2 / 10 ^ 12 + 41 / 10 ^ 7 / r := by
    refine rstep R (k := 6) x1' heρ ?_ (by norm_num) (by norm_num) ?_
    · have : (43 + (1 / 10 ^ 12 + 1 / 10 ^ 7) : ℝ) ≤ 2 ^ (6 : ℤ) := by norm_num
      linarith
    · have : (1 / 10 ^ 12 + (2 : ℝ) ^ (6 - 54 : ℤ)) ≤ 2 / 10 ^ 12 := by norm_num
      linarith
  have x3 : |r - R (e2 * v) - u * ρ| ≤ 2 / 10 ^ 12 + 41 / 10 ^ 7 / r := by
    rw [← hx0, show r - R (e2 * v) - (r - e * ρ) = -(R (e2 * v) - e * ρ) by ring, abs_neg]
    exact x2a
  have x4 : |x - u * ρ| ≤ 6 / 10 ^ 12 + 41 / 10 ^ 7 / r := by
    refine rstep R (k := 16) x3 (M := 50001) (by rw [abs_of_pos huρ]; linarith) ?_ (by norm_num) (by norm_num) ?_
    · have : (50001 + (2 / 10 ^ 12 + 1 / 10 ^ 7) : ℝ) ≤ 2 ^ (16 : ℤ) := by norm_num
      linarith
    · have : (2 / 10 ^ 12 + (2 : ℝ) ^ (16 - 54 : ℤ)) ≤ 6 / 10 ^ 12 := by norm_num
      linarith
  clear_value x
  have x5 := mul_err x4 x4 (X := r) (Y := r) (by rw [abs_of_pos huρ]; exact huρr) (by rw [abs_of_pos huρ]; exact huρr)
  have x6 : |x * x - (u * ρ) ^ 2| ≤ 1 / 10 ^ 5 := by
    rw [sq]
    refine x5.trans ?_
    have h1 : (6 / 10 ^ 12 + 41 / 10 ^ 7 / r) * r ≤ 45 / 10 ^ 7 := by
      rw [add_mul, div_mul_cancel₀ _ hr0.ne']
      have := mul_le_mul_of_nonneg_left hr2 (by norm_num : (0 : ℝ) ≤ 6 / 10 ^ 12)
      norm_num at this ⊢
      linarith
    have h2 : (6 / 10 ^ 12 + 41 / 10 ^ 7 / r) ≤ 2 / 10 ^ 7 := by linarith
    have h3 : (0 : ℝ) ≤ 6 / 10 ^ 12 + 41 / 10 ^ 7 / r := by positivity
    have h4 := mul_le_mul h2 h2 h3 (by norm_num)
    norm_num at h1 h4 ⊢
    linarith
  have huρ2 : (u * ρ) ^ 2 ≤ 50001 ^ 2 := pow_le_pow_left₀ huρ.le (huρr.trans hr2) 2
  have x7 : |x2 - (u * ρ) ^ 2| ≤ 11 / 10 ^ 6 :=
    rstep R (k := 32) x6 (M := 50001 ^ 2) (by rw [abs_of_nonneg (sq_nonneg _)]; exact huρ2) (by norm_num) (by norm_num) (by norm_num) (by norm_num)
  clear_value x2
  have hV0 : (u * ρ) ^ 2 + (1 - e) * z ^ 2 = (u * a) ^ 2 := by rw [hz]; linear_combination u ^ 2 * hell
  have hU0 : (u * ρ) ^ 2 + z ^ 2 = (u * N) ^ 2 := by rw [hz]; linear_combination (-u ^ 2) * hN2
  have huN : u * N ≤ 50240 := by have := mul_le_mul u2 gN2 hN0.le (by norm_num); linarith
  have hua : u * a ≤ 50240 := by have := mul_le_mul u2 ga2 a0.le (by norm_num); linarith
  have huN' : 5900 ≤ u * N := by have := mul_le_mul u1 gN1 (by norm_num) (by linarith); linarith
  have hua' : 5900 ≤ u * a := by have := mul_le_mul u1 ga1 (by norm_num) (by linarith); linarith
  have v1 : |x2 + kz - (u * a) ^ 2| ≤ 13 / 10 ^ 6 := by
    rw [← hV0, add_sub_add_comm]
    exact (abs_add_le _ _).trans ((add_le_add x7 hkz).trans (by norm_num))
  have w1 : |x2 + z2 - (u * N) ^ 2| ≤ 13 / 10 ^ 6 := by
    rw [← hU0, add_sub_add_comm]
    exact (abs_add_le _ _).trans ((add_le_add x7 hz2').trans (by norm_num))
  have v2 : |R (x2 + kz) - (u * a) ^ 2| ≤ 14 / 10 ^ 6 :=
    rstep R (k := 32) v1 (M := 50240 ^ 2) (by rw [abs_of_nonneg (sq_nonneg _)]; exact pow_le_pow_left₀ (by linarith) hua 2) (by norm_num) (by norm_num) (by norm_num) (by norm_num)
  have w2 : |R (x2 + z2) - (u * N) ^ 2| ≤ 14 / 10 ^ 6 :=
    rstep R (k := 32) w1 (M := 50240 ^ 2) (by rw [abs_of_nonneg (sq_nonneg _)]; exact pow_le_pow_left₀ (by linarith) huN 2) (by norm_num) (by norm_num) (by norm_num) (by norm_num)
  have v0 : 0 ≤ R (x2 + kz) := by
    have h := pow_le_pow_left₀ (by norm_num) hua' 2
    rw [abs_le] at v2
    norm_num at v2 h
    linarith [v2.1]
  have w0 : 0 ≤ R (x2 + z2) := by
    have h := pow_le_pow_left₀ (by norm_num) huN' 2
    rw [abs_le] at w2
    norm_num at w2 h
    linarith [w2.1]
  have v3 := sqrt_err v2 v0 (m := 5900) (by norm_num) (by rw [Real.sqrt_sq (by linarith)]; exact hua')
  have w3 := sqrt_err w2 w0 (m := 5900) (by norm_num) (by rw [Real.sqrt_sq (by linarith)]; exact huN')
  rw [Real.sqrt_sq (by linarith)] at v3 w3
  have v4 : |R (Real.sqrt (R (x2 + kz))) - u * a| ≤ 25 / 10 ^ 10 :=
    rstep R (k := 16) v3 (M := 50240) (by rw [abs_of_nonneg (by linarith)]; exact hua) (by norm_num) (by norm_num) (by norm_num) (by norm_num)
  have w4 : |R (Real.sqrt (R (x2 + z2))) - u * N| ≤ 25 / 10 ^ 10 :=
    rstep R (k := 16) w3 (M := 50240) (by rw [abs_of_nonneg (by linarith)]; exact huN) (by norm_num) (by norm_num) (by norm_num) (by norm_num)
  have hb0 : |(1 - e) * a ^ 2| ≤ 40680632 := by
    rw [abs_of_nonneg (mul_nonneg (by linarith) (sq_nonneg _))]
    have := mul_le_mul (by linarith : 1 - e ≤ 1) aa.le (sq_nonneg _) (by norm_num)
    linarith
  have hua2 : 37800000 ≤ u * a ^ 2 := by have := mul_le_mul u1 aa'.le (by norm_num) (by linarith); linarith
  have hua2' : u * a ^ 2 ≤ 320000000 := by have := mul_le_mul u2 aa.le (sq_nonneg _) (by norm_num); linarith
  have v5 := mul_err (x' := a) (x := a) (εx := 0) (X := 6379) (Y := 50240) (by simp) v4 (by rw [abs_of_pos a0]; exact ga2) (by rw [abs_of_nonneg (by linarith)]; exact hua)
  rw [show a * (u * a) = u * a ^ 2 by ring] at v5
  have v6 : |aV - u * a ^ 2| ≤ 17 / 10 ^ 6 :=
    rstep R (k := 29) v5 (M := 320000000) (by rw [abs_of_nonneg (by linarith)]; exact hua2') (by norm_num) (by norm_num) (by norm_num) (by norm_num)
  clear_value aV
  have aV1 : 37000000 ≤ aV := by rw [abs_le] at v6; norm_num at v6; linarith [v6.1]
  have hu0 : 0 < u := by linarith
  have ha20 : 0 < a ^ 2 := by positivity
  have hwq : (1 - e) * a ^ 2 / (u * a ^ 2) = (1 - e) / u := by field_simp
  have hzq : (1 - e) * a ^ 2 * z / (u * a ^ 2) = (1 - e) * σ := by rw [hz]; field_simp
  -- the height
  have hw1 : |(1 - e) / u| ≤ 11 / 10 := by
    rw [abs_of_pos (div_pos (by linarith) hu0), div_le_iff₀ hu0]
    linarith
  have h1 := div_err hb2 v6 (Z := 11 / 10) (m := 37000000) (by rw [hwq]; exact hw1) (by norm_num) aV1 (by positivity)
  rw [hwq] at h1
  have h2 : |R (b2 / aV) - (1 - e) / u| ≤ 55 / 10 ^ 14 := rstep R (k := 1) h1 hw1 (by norm_num) (by norm_num) (by norm_num) (by norm_num)
  have h3 : |1 - R (b2 / aV) - (1 - (1 - e) / u)| ≤ 55 / 10 ^ 14 := by
    rw [show 1 - R (b2 / aV) - (1 - (1 - e) / u) = -(R (b2 / aV) - (1 - e) / u) by ring, abs_neg]
    exact h2
  have hw2 : |1 - (1 - e) / u| ≤ 1 := by
    rw [abs_of_pos (div_pos (by linarith) hu0)] at hw1
    have := div_pos (by linarith : 0 < 1 - e) hu0
    rw [abs_le]
    constructor <;> linarith
  have h4 : |R (1 - R (b2 / aV)) - (1 - (1 - e) / u)| ≤ 56 / 10 ^ 14 := rstep R (k := 1) h3 hw2 (by norm_num) (by norm_num) (by norm_num) (by norm_num)
  have h5 := mul_err w4 h4 (X := 50240) (Y := 1) (by rw [abs_of_nonneg (by linarith)]; exact huN) hw2
  have h6 : |R (R (Real.sqrt (R (x2 + z2))) * R (1 - R (b2 / aV))) - u * N * (1 - (1 - e) / u)| ≤ 4 / 10 ^ 8 := by
    refine rstep R (k := 16) h5 (M := 50240) ?_ (by norm_num) (by norm_num) (by norm_num) (by norm_num)
    rw [abs_mul, abs_of_nonneg (by linarith : 0 ≤ u * N)]
    have := mul_le_mul huN hw2 (abs_nonneg _) (by norm_num)
    linarith
  rw [show u * N * (1 - (1 - e) / u) = N * (u - (1 - e)) by field_simp] at h6
  -- the direction
  have z1 := mul_err hb2 (y' := z) (y := z) (εy := 0) (X := 40680632) (Y := 50001) (by simp) hb0 hz2
  have z3 : |R (b2 * z) - (1 - e) * a ^ 2 * z| ≤ 7 / 10 ^ 4 := by
    refine rstep R (k := 41) z1 (M := 40680632 * 50001) ?_ (by norm_num) (by norm_num) (by norm_num) (by norm_num)
    rw [abs_mul]
    exact mul_le_mul hb0 hz2 (abs_nonneg _) (by norm_num)
  have hkσ : |(1 - e) * σ| ≤ 6400 := by
    rw [abs_mul, abs_of_nonneg (by linarith : 0 ≤ 1 - e)]
    have := mul_le_mul (by linarith : 1 - e ≤ 1) gσ (abs_nonneg _) (by norm_num)
    linarith
  have z4 := div_err z3 v6 (Z := 6400) (m := 37000000) (by rw [hzq]; exact hkσ) (by norm_num) aV1 (by positivity)
  rw [hzq] at z4
  have z5 : |R (R (b2 * z) / aV) - (1 - e) * σ| ≤ 31 / 10 ^ 10 := rstep R (k := 13) z4 hkσ (by norm_num) (by norm_num) (by norm_num) (by norm_num)
  have hep0 : |e / (1 - e)| ≤ 68 / 10000 := by
    rw [abs_of_pos (div_pos e0 (by linarith)), div_le_iff₀ (by linarith)]
    linarith
  have z6 := mul_err hep z5 hep0 hkσ
  have hk0 : 1 - e ≠ 0 := by linarith
  rw [show e / (1 - e) * ((1 - e) * σ) = e * σ by field_simp] at z6
  have heσ : |e * σ| ≤ 43 := by
    rw [abs_mul, abs_of_pos e0]
    have := mul_le_mul e1.le gσ (abs_nonneg _) (by norm_num)
    linarith
  have z7 : |R (ep * R (R (b2 * z) / aV)) - e * σ| ≤ 23 / 10 ^ 12 := rstep R (k := 6) z6 heσ (by norm_num) (by norm_num) (by norm_num) (by norm_num)
  have z8 : |z + R (ep * R (R (b2 * z) / aV)) - (u + e) * σ| ≤ 23 / 10 ^ 12 := by
    rw [show z + R (ep * R (R (b2 * z) / aV)) - (u + e) * σ = R (ep * R (R (b2 * z) / aV)) - e * σ by rw [hz]; ring]
    exact z7
  have z9 : |R (z + R (ep * R (R (b2 * z) / aV))) - (u + e) * σ| ≤ 3 / 10 ^ 11 := by
    refine rstep R (k := 16) z8 (M := 50300) ?_ (by norm_num) (by norm_num) (by norm_num) (by norm_num)
    rw [abs_mul, abs_of_pos (by linarith)]
    have := mul_le_mul (by linarith : u + e ≤ 7857 / 1000) gσ (abs_nonneg _) (by norm_num)
    linarith
  exact ⟨w0, v0, by linarith, h6, z9⟩

end ChaosMagPy.FloatGeod
