import Verif.Lemmas.FloatGeodNear
import Verif.Lemmas.FloatCoord
import Verif.Lemmas.FloatSphere
/-!
# Rounding errors of `geo_to_gg`: absolute errors of the steps after the radicand
-/
namespace ChaosMagPy.FloatGeod
open ChaosMagPy.Spec ChaosMagPy.Float ChaosMagPy.FloatLegendre ChaosMagPy.FloatNear

variable (R : Rounding)

theorem rstep {t' t ε M ε' : ℝ} {k : ℤ} (h : |t' - t| ≤ ε) (hM : |t| ≤ M) (hk : M + ε ≤ (2 : ℝ) ^ k) (h1 : -1021 ≤ k) (h2 : k ≤ 1000)
    (hε : ε + (2 : ℝ) ^ (k - 54) ≤ ε') : |R t' - t| ≤ ε' := by
  have h3 := abs_add_le (t' - t) t
  rw [sub_add_cancel] at h3
  have h4 := rnd_err R (x := t') (k := k) (by linarith) h1 h2
  have h5 := abs_add_le (R t' - t') (t' - t)
  rw [sub_add_sub_cancel] at h5
  linarith

theorem mul_err {x' x y' y εx εy X Y : ℝ} (hx : |x' - x| ≤ εx) (hy : |y' - y| ≤ εy) (hX : |x| ≤ X) (hY : |y| ≤ Y) :
    |x' * y' - x * y| ≤ εx * Y + X * εy + εx * εy := by
  have e : x' * y' - x * y = (x' - x) * y + x * (y' - y) + (x' - x) * (y' - y) := by ring
  rw [e]
  have h1 := abs_add_le ((x' - x) * y + x * (y' - y)) ((x' - x) * (y' - y))
  have h2 := abs_add_le ((x' - x) * y) (x * (y' - y))
  rw [abs_mul] at h1 h2
  rw [abs_mul x] at h2
  have hx0 := (abs_nonneg _).trans hx
  have hX0 := (abs_nonneg _).trans hX
  have h3 := mul_le_mul hx hY (abs_nonneg _) hx0
  have h4 := mul_le_mul hX hy (abs_nonneg _) hX0
  have h5 := mul_le_mul hx hy (abs_nonneg _) hx0
  linarith

theorem div_err {x' x y' y εx εy Z m : ℝ} (hx : |x' - x| ≤ εx) (hy : |y' - y| ≤ εy) (hZ : |x / y| ≤ Z) (hm : 0 < m) (hy' : m ≤ y') (hy0 : y ≠ 0) :
    |x' / y' - x / y| ≤ (εx + Z * εy) / m := by
  have hyp : 0 < y' := by linarith
  have e : x' / y' - x / y = (x' - x - x / y * (y' - y)) / y' := by
    field_simp
    ring
  rw [e, abs_div, abs_of_pos hyp]
  have hx0 := (abs_nonneg _).trans hx
  have hZ0 := (abs_nonneg _).trans hZ
  have h1 := abs_sub (x' - x) (x / y * (y' - y))
  rw [abs_mul] at h1
  have h2 := mul_le_mul hZ hy (abs_nonneg _) hZ0
  have h0 : 0 ≤ εx + Z * εy := add_nonneg hx0 (mul_nonneg hZ0 ((abs_nonneg _).trans hy))
  exact div_le_div₀ h0 (by linarith) hm hy'

theorem sqrt_err {q' q ε m : ℝ} (h : |q' - q| ≤ ε) (hq' : 0 ≤ q') (hm : 0 < m) (hmq : m ≤ Real.sqrt q) : |Real.sqrt q' - Real.sqrt q| ≤ ε / m := by
  have hq : 0 ≤ q := by
    by_contra hc
    rw [Real.sqrt_eq_zero_of_nonpos (by linarith)] at hmq
    linarith
  rw [le_div_iff₀ hm]
  have e : (Real.sqrt q' - Real.sqrt q) * (Real.sqrt q' + Real.sqrt q) = q' - q := by
    linear_combination Real.sq_sqrt hq' - Real.sq_sqrt hq
  have h1 : |Real.sqrt q' - Real.sqrt q| * (Real.sqrt q' + Real.sqrt q) = |q' - q| := by
    rw [← e, abs_mul, abs_of_nonneg (add_nonneg (Real.sqrt_nonneg _) (Real.sqrt_nonneg _))]
  have := Real.sqrt_nonneg q'
  have := mul_le_mul_of_nonneg_left (by linarith : m ≤ Real.sqrt q' + Real.sqrt q) (abs_nonneg (Real.sqrt q' - Real.sqrt q))
  linarith

/-- The exact geodetic quantities of the point `(r, z)`: its foot on the axis side `ρ`, `σ` and the ratio `u`. -/
structure ExactGeo (r z P₀ Q₀ ρ σ u : ℝ) : Prop where
  ρ0 : 0 < ρ
  ell : ρ ^ 2 + (1 - e₀) * σ ^ 2 = a₀ ^ 2
  hr : r = (u + e₀) * ρ
  hz : z = u * σ
  u1 : 93 / 100 ≤ u
  u2 : u ≤ 785 / 100
  root : -P₀ * e₀ * r / (1 + Q₀) + Real.sqrt (1 / 2 * a₀ ^ 2 * (1 + 1 / Q₀) - P₀ * (1 - e₀) * z ^ 2 / (Q₀ * (1 + Q₀)) - 1 / 2 * P₀ * r ^ 2) = ρ
  P1 : P₀ ≤ 5 / 2
  Q2 : Q₀ ≤ 1001 / 1000

set_option maxHeartbeats 1000000 in
theorem exact_geo_aux {a e r z P₀ Q₀ : ℝ} (e0 : 0 < e) (e1 : e < 67 / 10000) (aa : a ^ 2 < 40680632) (aa' : 40680631 < a ^ 2) (ed1 : e * (e * a ^ 2) < 1824)
    (a0 : 0 < a) (hr1 : 50 ≤ r) (h1 : 5999 ^ 2 ≤ r ^ 2 + z ^ 2) (h2 : r ^ 2 + z ^ 2 ≤ 50001 ^ 2)
    (hH : Coord.Heikkinen a (1 - e) e r z (r ^ 2 + (1 - e) * z ^ 2 - e * (e * a ^ 2)) P₀ Q₀) :
    ∃ ρ σ u, 0 < ρ ∧ ρ ^ 2 + (1 - e) * σ ^ 2 = a ^ 2 ∧ r = (u + e) * ρ ∧ z = u * σ ∧ 93 / 100 ≤ u ∧ u ≤ 785 / 100 ∧
      -P₀ * e * r / (1 + Q₀) + Real.sqrt (1 / 2 * a ^ 2 * (1 + 1 / Q₀) - P₀ * (1 - e) * z ^ 2 / (Q₀ * (1 + Q₀)) - 1 / 2 * P₀ * r ^ 2) = ρ ∧
      P₀ ≤ 5 / 2 ∧ Q₀ ≤ 1001 / 1000 := by
  have hk0 : 0 < 1 - e := by linarith
  have hr : 0 < r := by linarith
  have hGk : (1 - e) * (r ^ 2 + z ^ 2) ≤ r ^ 2 + (1 - e) * z ^ 2 := by nlinarith [sq_nonneg r]
  have hG1 : (35740000 : ℝ) ≤ r ^ 2 + (1 - e) * z ^ 2 - e * (e * a ^ 2) := by nlinarith
  have hG0 : 0 < r ^ 2 + (1 - e) * z ^ 2 - e * (e * a ^ 2) := by linarith
  obtain ⟨ρ, σ, u, hρ, hu, hell, hru, hzu⟩ := Coord.geodetic_exists a (1 - e) e r z a0 e0.le rfl hk0 hr (by linarith)
  have hreρ : r - e * ρ = u * ρ := by rw [hru]; ring
  have hlt : e * ρ < r := by nlinarith [mul_pos hu hρ]
  have hf : ρ ^ 2 * (r - e * ρ) ^ 2 + (1 - e) * z ^ 2 * ρ ^ 2 = a ^ 2 * (r - e * ρ) ^ 2 := by
    rw [hreρ, hzu]; linear_combination (u ^ 2 * ρ ^ 2) * hell
  have hroot := Coord.heikkinen_root a (1 - e) e r z _ P₀ Q₀ ρ e0.le rfl hk0.le hr (by ring) hG0 hH hρ hlt hf
  rw [show (0.5 : ℝ) = 1 / 2 by norm_num] at hroot
  have hP1 : P₀ ≤ 5 / 2 := by
    have h3 := hH.cubic
    have hP0 := hH.P0
    set G := r ^ 2 + (1 - e) * z ^ 2 - e * (e * a ^ 2) with hG
    have h4 : P₀ * G ^ 2 ≤ 2 * (1 - e) * a ^ 2 * z ^ 2 := by
      rw [← h3]
      refine mul_le_mul_of_nonneg_left (pow_le_pow_left₀ hG0.le ?_ 2) hP0
      have : 0 ≤ 2 * e ^ 2 * r ^ 2 * P₀ := by positivity
      linarith
    have h5 : (1 - e) * z ^ 2 ≤ G + 1824 := by nlinarith [sq_nonneg r]
    have h6 : 2 * (1 - e) * a ^ 2 * z ^ 2 ≤ 2 * 40680632 * (G + 1824) := by
      have := mul_le_mul aa.le h5 (by positivity) (by norm_num)
      linarith
    have h7 : 2 * 40680632 * (G + 1824) ≤ 5 / 2 * G ^ 2 := by nlinarith
    exact le_of_mul_le_mul_right (by linarith) (by positivity : 0 < G ^ 2)
  refine ⟨ρ, σ, u, hρ, hell, hru, hzu, ?_, ?_, hroot, hP1, ?_⟩
  · have h3 : ρ ^ 2 + σ ^ 2 ≤ 40955100 := by nlinarith [sq_nonneg ρ, sq_nonneg σ]
    have h4 : r ^ 2 + z ^ 2 ≤ (u + e) ^ 2 * (ρ ^ 2 + σ ^ 2) := by
      rw [hru, hzu]
      have : 0 ≤ e * (2 * u + e) * σ ^ 2 := by positivity
      linarith
    have h5 : (u + e) ^ 2 * (ρ ^ 2 + σ ^ 2) ≤ (u + e) ^ 2 * 40955100 := mul_le_mul_of_nonneg_left h3 (by positivity)
    have h6 : 937 / 1000 ≤ u + e := by
      refine le_of_sq_le_sq ?_ (by linarith)
      norm_num at h1 ⊢
      linarith
    linarith
  · have h3 : u ^ 2 * a ^ 2 = (r - e * ρ) ^ 2 + (1 - e) * z ^ 2 := by rw [hreρ, hzu]; linear_combination (-u ^ 2) * hell
    have h4 : (r - e * ρ) ^ 2 ≤ r ^ 2 := pow_le_pow_left₀ (by linarith) (by nlinarith [mul_pos e0 hρ]) 2
    have h5 : u ^ 2 * 40680631 ≤ 50001 ^ 2 := by nlinarith [sq_nonneg z, sq_nonneg u]
    refine le_of_sq_le_sq (by norm_num at h5 ⊢; linarith) (by norm_num)
  · have h3 := hH.Q2
    have h4 : e ^ 2 * P₀ ≤ (67 / 10000) ^ 2 * (5 / 2) := mul_le_mul (pow_le_pow_left₀ e0.le (by linarith) 2) hP1 hH.P0 (by norm_num)
    refine le_of_sq_le_sq (by rw [h3]; norm_num at h4 ⊢; linarith) (by norm_num)

theorem exact_geo {r z P₀ Q₀ : ℝ} (hr1 : 50 ≤ r) (h1 : 5999 ^ 2 ≤ r ^ 2 + z ^ 2) (h2 : r ^ 2 + z ^ 2 ≤ 50001 ^ 2)
    (hH : Coord.Heikkinen a₀ (1 - e₀) e₀ r z (r ^ 2 + (1 - e₀) * z ^ 2 - e₀ * (e₀ * a₀ ^ 2)) P₀ Q₀) : ∃ ρ σ u, ExactGeo r z P₀ Q₀ ρ σ u := by
  obtain ⟨e0, e1, aa, aa', ed1⟩ := e₀_bounds
  have a0 : 0 < a₀ := by rw [a₀]; norm_num
  obtain ⟨ρ, σ, u, p1, p2, p3, p4, p5, p6, p7, p8, p9⟩ := exact_geo_aux e0 (by norm_num at e1; exact e1) aa aa' ed1 a0 hr1 h1 h2 hH
  exact ⟨ρ, σ, u, p1, p2, p3, p4, p5, p6, p7, p8, p9⟩

/-- The computed `r0`. -/
theorem r0_err {r z P₀ Q₀ ρ σ u P' q' rad : ℝ} (hr1 : 50 ≤ r) (hr2 : r ≤ 50001) (g : ExactGeo r z P₀ Q₀ ρ σ u)
    (hH : Coord.Heikkinen a₀ (1 - e₀) e₀ r z (r ^ 2 + (1 - e₀) * z ^ 2 - e₀ * (e₀ * a₀ ^ 2)) P₀ Q₀)
    (nP : Near 920 (-300) 65 P' P₀) (nq : Near 936 0 28 q' (1 + Q₀))
    (herr : |rad - (1 / 2 * a₀ ^ 2 * (1 + 1 / Q₀) - P₀ * (1 - e₀) * z ^ 2 / (Q₀ * (1 + Q₀)) - 1 / 2 * P₀ * r ^ 2)| ≤ 6 / 10 ^ 5) :
    0 ≤ rad ∧ |R (R (R (R (-P' * (7718207876587895 / 1152921504606846976)) * r) / q') + R (Real.sqrt rad)) - ρ| * r ≤ 6 / 10 ^ 4 := by
  obtain ⟨e0, e1, aa, aa', ed1⟩ := e₀_bounds
  norm_num at e1
  have he2 : |(7718207876587895 / 1152921504606846976 : ℝ) - e₀| ≤ 1 / 10 ^ 17 := by
    rw [e₀, a₀, b₀]
    norm_num [abs_le]
  have hP0 := hH.P0
  have hQ1 := hH.Q1
  have hP1 := g.P1
  have hQ2 := g.Q2
  have hu1 := g.u1
  have hu2 := g.u2
  have hρ0 := g.ρ0
  have hroot := g.root
  have hk0 : 0 ≤ 1 - e₀ := by linarith
  have hle := radicand_le hH hk0
  have hρr : r / (79 / 10) ≤ ρ := by
    rw [div_le_iff₀ (by norm_num), g.hr]
    nlinarith
  have eP : |-P' - -P₀| ≤ 6 / 10 ^ 13 := by
    rw [show -P' - -P₀ = -(P' - P₀) by ring, abs_neg]
    refine nP.err.trans ?_
    have := mul_le_mul_of_nonneg_left hP1 (by norm_num : (0 : ℝ) ≤ 920 / 2 ^ 52)
    exact this.trans (by norm_num)
  have eq : |q' - (1 + Q₀)| ≤ 5 / 10 ^ 13 := by
    refine nq.err.trans ?_
    have := mul_le_mul_of_nonneg_left (by linarith : 1 + Q₀ ≤ 2001 / 1000) (by norm_num : (0 : ℝ) ≤ 936 / 2 ^ 52)
    exact this.trans (by norm_num)
  generalize (7718207876587895 / 1152921504606846976 : ℝ) = e2 at *
  generalize (1 / 2 * a₀ ^ 2 * (1 + 1 / Q₀) - P₀ * (1 - e₀) * z ^ 2 / (Q₀ * (1 + Q₀)) - 1 / 2 * P₀ * r ^ 2) = rad₀ at *
  have hle' : rad₀ ≤ 40680632 := by linarith
  clear hle
  have hT0 : 0 ≤ P₀ * e₀ * r / (1 + Q₀) := by positivity
  have hTe : -P₀ * e₀ * r / (1 + Q₀) = -(P₀ * e₀ * r / (1 + Q₀)) := by ring
  have hρs : ρ ≤ Real.sqrt rad₀ := by rw [hTe] at hroot; linarith
  have hPe : P₀ * e₀ ≤ 17 / 1000 := by
    have := mul_le_mul hP1 (by linarith : e₀ ≤ 67 / 10000) e0.le (by norm_num)
    linarith
  have hPer : P₀ * e₀ * r ≤ 851 := by
    have := mul_le_mul hPe hr2 (by linarith) (by norm_num)
    linarith
  have hT1 : P₀ * e₀ * r / (1 + Q₀) ≤ 851 := (div_le_self (by positivity) (by linarith)).trans hPer
  -- the first term
  have t1 := mul_err eP he2 (X := 5 / 2) (Y := 67 / 10000) (by rw [abs_neg, abs_of_nonneg hP0]; exact hP1) (by rw [abs_of_pos e0]; linarith)
  have t2 : |R (-P' * e2) - -P₀ * e₀| ≤ 5 / 10 ^ 15 :=
    rstep R (k := -5) t1 (M := 17 / 1000) (by rw [neg_mul, abs_neg, abs_of_nonneg (by positivity)]; exact hPe) (by norm_num) (by norm_num) (by norm_num) (by norm_num)
  have t3 := mul_err t2 (x := -P₀ * e₀) (y' := r) (y := r) (εy := 0) (X := 17 / 1000) (Y := 50001) (by simp) (by rw [neg_mul, abs_neg, abs_of_nonneg (by positivity)]; exact hPe)
    (by rw [abs_of_pos (by linarith)]; exact hr2)
  have t4 : |R (R (-P' * e2) * r) - -P₀ * e₀ * r| ≤ 3 / 10 ^ 10 :=
    rstep R (k := 10) t3 (M := 851) (by rw [neg_mul, neg_mul, abs_neg, abs_of_nonneg (by positivity)]; exact hPer) (by norm_num) (by norm_num) (by norm_num) (by norm_num)
  have hq1 : 1 ≤ q' := by rw [abs_le] at eq; norm_num at eq; linarith
  have t5 := div_err t4 eq (Z := 851) (m := 1) (by rw [hTe, abs_neg, abs_of_nonneg hT0]; exact hT1) (by norm_num) hq1 (by linarith)
  have t6 : |R (R (R (-P' * e2) * r) / q') - -P₀ * e₀ * r / (1 + Q₀)| ≤ 9 / 10 ^ 10 :=
    rstep R (k := 10) t5 (M := 851) (by rw [hTe, abs_neg, abs_of_nonneg hT0]; exact hT1) (by norm_num) (by norm_num) (by norm_num) (by norm_num)
  -- the root
  have hm : 0 < r / (79 / 10) := by positivity
  have hr0 : 0 < r := by linarith
  have hrad : 36 ≤ rad₀ := by
    have h6 : 6 ≤ Real.sqrt rad₀ := le_trans (by rw [le_div_iff₀ (by norm_num)]; linarith) (hρr.trans hρs)
    have := (Real.le_sqrt' (by norm_num)).1 h6
    linarith
  have hrad' : 0 ≤ rad := by rw [abs_le] at herr; norm_num at herr; linarith
  have s1 := sqrt_err herr hrad' hm (hρr.trans hρs)
  have s2 : 6 / 10 ^ 5 / (r / (79 / 10)) = 474 / 10 ^ 6 / r := by field_simp; norm_num
  rw [s2] at s1
  have s3 : 474 / 10 ^ 6 / r ≤ 1 / 10 ^ 5 := by rw [div_le_div_iff₀ hr0 (by norm_num)]; linarith
  have hsM : |Real.sqrt rad₀| ≤ 6379 := by
    rw [abs_of_nonneg (Real.sqrt_nonneg _)]
    exact (Real.sqrt_le_left (by norm_num)).2 (by norm_num; linarith)
  have s4 : |R (Real.sqrt rad) - Real.sqrt rad₀| ≤ 474 / 10 ^ 6 / r + 1 / 10 ^ 12 := by
    refine rstep R (k := 13) s1 (M := 6379) hsM (le_trans (add_le_add_right s3 _) (by norm_num)) (by norm_num) (by norm_num) (add_le_add_right (by norm_num) _)
  have f1 : |R (R (R (-P' * e2) * r) / q') + R (Real.sqrt rad) - ρ| ≤ 9 / 10 ^ 10 + (474 / 10 ^ 6 / r + 1 / 10 ^ 12) := by
    rw [← hroot, add_sub_add_comm]
    exact (abs_add_le _ _).trans (add_le_add t6 s4)
  have hρM : |ρ| ≤ 6379 := by rw [abs_of_pos hρ0]; exact hρs.trans ((le_abs_self _).trans hsM)
  have f2 : |R (R (R (R (-P' * e2) * r) / q') + R (Real.sqrt rad)) - ρ| ≤ 1 / 10 ^ 9 + 474 / 10 ^ 6 / r := by
    refine rstep R (k := 13) f1 (M := 6379) hρM (le_trans (by linarith [s3]) (by norm_num : (6379 + 1 : ℝ) ≤ _)) (by norm_num) (by norm_num) ?_
    have : (9 / 10 ^ 10 + 1 / 10 ^ 12 + (2 : ℝ) ^ (13 - 54 : ℤ)) ≤ 1 / 10 ^ 9 := by norm_num
    linarith
  refine ⟨hrad', (mul_le_mul_of_nonneg_right f2 hr0.le).trans ?_⟩
  rw [add_mul, div_mul_cancel₀ _ hr0.ne']
  have := mul_le_mul_of_nonneg_left hr2 (by norm_num : (0 : ℝ) ≤ 1 / 10 ^ 9)
  norm_num at this ⊢
  linarith

end ChaosMagPy.FloatGeod
