import Verif.Lemmas.FloatGeodOut
import Verif.Props.FloatGeodNumbers
import Verif.Spec.FloatArc
import Verif.Spec.Geodetic
/-!
# C99: accuracy of `geo_to_gg` in double precision
-/
namespace ChaosMagPy.FloatGeod
open ChaosMagPy.Spec ChaosMagPy.Float ChaosMagPy.FloatLegendre ChaosMagPy.FloatNear

variable (R : Rounding)

theorem b₀_sq : b₀ ^ 2 = (1 - e₀) * a₀ ^ 2 := by
  have : a₀ ≠ 0 := by norm_num [a₀]
  rw [e₀]
  field_simp
  ring

theorem sub_cos_le (x y : ℝ) : |Real.cos x - Real.cos y| ≤ |x - y| := by
  have h1 := Real.abs_sin_le_one ((x + y) / 2)
  have h2 : |Real.sin ((x - y) / 2)| ≤ |(x - y) / 2| := Real.abs_sin_le_abs
  rw [Real.cos_sub_cos, abs_mul, abs_mul]
  rw [abs_div] at h2
  norm_num at h2 ⊢
  nlinarith [abs_nonneg (Real.sin ((x + y) / 2)), abs_nonneg (Real.sin ((x - y) / 2)), abs_nonneg (x - y)]

theorem sub_sin_le (x y : ℝ) : |Real.sin x - Real.sin y| ≤ |x - y| := by
  have h := sub_cos_le (Real.pi / 2 - x) (Real.pi / 2 - y)
  rw [Real.cos_pi_div_two_sub, Real.cos_pi_div_two_sub, show Real.pi / 2 - x - (Real.pi / 2 - y) = -(x - y) by ring, abs_neg] at h
  exact h

/-- The radius of curvature depends little on the latitude. -/
theorem prime_lip {a b φ φ' : ℝ} (hb : 6356 ≤ b) (ha : a ^ 2 ≤ 40680632) (hab : b ^ 2 ≤ a ^ 2) (hφ : |φ' - φ| ≤ 1 / 10 ^ 13) :
    |primeVertical a b φ' - primeVertical a b φ| ≤ 1 / 10 ^ 10 := by
  have low : ∀ t, b ^ 2 ≤ a ^ 2 * Real.cos t ^ 2 + b ^ 2 * Real.sin t ^ 2 := by
    intro t
    have := Real.sin_sq_add_cos_sq t
    have := mul_nonneg (sub_nonneg.2 hab) (sq_nonneg (Real.cos t))
    nlinarith
  have hs := sub_sin_le φ' φ
  have hb2 : (6356 : ℝ) ^ 2 ≤ b ^ 2 := pow_le_pow_left₀ (by norm_num) hb 2
  have hD : |(a ^ 2 * Real.cos φ' ^ 2 + b ^ 2 * Real.sin φ' ^ 2) - (a ^ 2 * Real.cos φ ^ 2 + b ^ 2 * Real.sin φ ^ 2)| ≤ 1 / 10 ^ 7 := by
    have e : (a ^ 2 * Real.cos φ' ^ 2 + b ^ 2 * Real.sin φ' ^ 2) - (a ^ 2 * Real.cos φ ^ 2 + b ^ 2 * Real.sin φ ^ 2)
        = (a ^ 2 - b ^ 2) * ((Real.sin φ + Real.sin φ') * (Real.sin φ - Real.sin φ')) := by
      linear_combination a ^ 2 * (Real.sin_sq_add_cos_sq φ' - Real.sin_sq_add_cos_sq φ)
    rw [e, abs_mul, abs_mul, abs_of_nonneg (sub_nonneg.2 hab), abs_sub_comm (Real.sin φ)]
    have h1 : |Real.sin φ + Real.sin φ'| ≤ 2 := (abs_add_le _ _).trans (by linarith [Real.abs_sin_le_one φ, Real.abs_sin_le_one φ'])
    have h2 := mul_le_mul h1 (hs.trans hφ) (abs_nonneg _) (by norm_num)
    have h3 := mul_le_mul (by linarith : a ^ 2 - b ^ 2 ≤ 281896) h2 (by positivity) (by norm_num)
    exact h3.trans (by norm_num)
  have low' : ∀ t, 6356 ≤ Real.sqrt (a ^ 2 * Real.cos t ^ 2 + b ^ 2 * Real.sin t ^ 2) := by
    intro t
    exact Real.le_sqrt_of_sq_le (hb2.trans (low t))
  have h4 := sqrt_err hD (le_trans (sq_nonneg _) (low φ')) (m := 6356) (by norm_num) (low' φ)
  have hZ : |a ^ 2 / Real.sqrt (a ^ 2 * Real.cos φ ^ 2 + b ^ 2 * Real.sin φ ^ 2)| ≤ 6401 := by
    rw [abs_of_nonneg (by positivity), div_le_iff₀ (by linarith [low' φ])]
    have := low' φ
    nlinarith
  have h5 := div_err (x' := a ^ 2) (x := a ^ 2) (εx := 0) (by simp) h4 hZ (m := 6356) (by norm_num) (low' φ') (by linarith [low' φ])
  unfold primeVertical
  exact h5.trans (by norm_num)

set_option maxHeartbeats 1000000 in
theorem acc_core (p : Platform) (hA : IsArctan2 p.arctan2) (hcube : ∀ x, (2 : ℝ) ^ (-300 : ℤ) ≤ x → x ≤ (2 : ℝ) ^ (300 : ℤ) → |p.cube x - x ^ 3| ≤ 4 / 2 ^ 52 * x ^ 3)
    (hcbrt : ∀ x, (2 : ℝ) ^ (-300 : ℤ) ≤ x → x ≤ (2 : ℝ) ^ (300 : ℤ) → |p.cbrt x - x ^ ((1 : ℝ) / 3)| ≤ 256 / 2 ^ 52 * x ^ ((1 : ℝ) / 3))
    {radius theta : ℝ} (hr1 : 50 ≤ R (radius * p.sin (radians R theta))) (hr2 : R (radius * p.sin (radians R theta)) ≤ 50001)
    (hz1 : (2 : ℝ) ^ (-100 : ℤ) ≤ |R (radius * p.cos (radians R theta))|) (hz2 : |R (radius * p.cos (radians R theta))| ≤ 50001)
    (hrz : 5999 ^ 2 ≤ R (radius * p.sin (radians R theta)) ^ 2 + R (radius * p.cos (radians R theta)) ^ 2)
    (hrz' : R (radius * p.sin (radians R theta)) ^ 2 + R (radius * p.cos (radians R theta)) ^ 2 ≤ 50001 ^ 2) :
    ∃ h β, geoToGg R p (R 6378.137) (R 6356.752) radius theta = (some h, some β) ∧ -500 ≤ h ∧ h ≤ 45000 ∧ 0 ≤ β ∧ β ≤ 180 ∧
      |(geodeticPoint (R 6378.137) (R 6356.752) h (rad (90 - β))).1 - R (radius * p.sin (radians R theta))| ≤ 6 / 10 ^ 8 ∧
      |(geodeticPoint (R 6378.137) (R 6356.752) h (rad (90 - β))).2 - R (radius * p.cos (radians R theta))| ≤ 6 / 10 ^ 8 := by
  rw [show (6378.137 : ℝ) = 6378137 / 1000 by norm_num, show (6356.752 : ℝ) = 6356752 / 1000 by norm_num, v_a, v_b,
    show (7012835795048333 / 1099511627776 : ℝ) = a₀ from rfl, show (873665342361043 / 137438953472 : ℝ) = b₀ from rfl]
  unfold geoToGg
  generalize R (radius * p.sin (radians R theta)) = r' at *
  generalize R (radius * p.cos (radians R theta)) = z' at *
  obtain ⟨P', q', rad', P₀, Q₀, hP, hq, hrad, nP, nq, hH, herr⟩ :=
    radicand_strong (R := R) p hcube hcbrt (by linarith) hr2 hz1 hz2 (le_trans (by norm_num) hrz)
  obtain ⟨ρ, σ, u, g⟩ := exact_geo hr1 hrz hrz' hH
  obtain ⟨rad0, hr0⟩ := r0_err R hr1 hr2 g hH nP nq herr
  obtain ⟨ep, hep, nep⟩ : NearF 9 (-10) (-6) (fdiv R (fsub R (fsq R (some a₀)) (fsq R (some b₀))) (fsq R (some b₀))) (e₀ * a₀ ^ 2 / ((1 - e₀) * a₀ ^ 2)) :=
    nearF_div (const_d (R := R)) (const_b2 (R := R)) (by norm_num)
  obtain ⟨b2', hb2', nb2⟩ := const_b2 (R := R)
  obtain ⟨e0, e1, aa, aa', ed1⟩ := e₀_bounds
  norm_num at e1
  have a0 : 0 < a₀ := by rw [a₀]; norm_num
  have he2 : |(7718207876587895 / 1152921504606846976 : ℝ) - e₀| ≤ 1 / 10 ^ 17 := by
    rw [e₀, a₀, b₀]
    norm_num [abs_le]
  have hzz : z' ^ 2 ≤ 50001 ^ 2 := by nlinarith [sq_nonneg r']
  have qep : e₀ * a₀ ^ 2 / ((1 - e₀) * a₀ ^ 2) = e₀ / (1 - e₀) := mul_div_mul_right _ _ (by positivity)
  rw [qep] at nep
  have eep : |ep - e₀ / (1 - e₀)| ≤ 2 / 10 ^ 17 := by
    refine nep.err.trans ?_
    have : e₀ / (1 - e₀) ≤ 68 / 10000 := by rw [div_le_iff₀ (by linarith)]; linarith
    exact (mul_le_mul_of_nonneg_left this (by norm_num)).trans (by norm_num)
  have eb2 : |b2' - (1 - e₀) * a₀ ^ 2| ≤ 1 / 10 ^ 8 := by
    refine nb2.err.trans ?_
    have : (1 - e₀) * a₀ ^ 2 ≤ 40680632 := by nlinarith
    exact (mul_le_mul_of_nonneg_left this (by norm_num)).trans (by norm_num)
  extract_lets c1 a2 b2 e2 e4 ep2 r z r2 z2 bigF G c s P Q radicand r0 U V z0 height beta
  have h_e2 : e2 = some (7718207876587895 / 1152921504606846976) := const_e2_val
  have h_b2 : b2 = some b2' := hb2'
  have h_ep2 : ep2 = some ep := hep
  have h_P : P = some P' := hP
  have h_q : fadd R c1 Q = some q' := hq
  have h_rad : radicand = some rad' := hrad
  obtain ⟨zz, h_z2, n_z2⟩ : NearF 1 (-200) 32 z2 (z' ^ 2) := by
    have h1 : NearF 1 (-200) 32 (fsq R (some |z'|)) (|z'| ^ 2) :=
      nearF_sq (n1 := 0) (l1 := -100) (h1 := 16) ⟨_, rfl, near_exact hz1 (hz2.trans (by norm_num))⟩ (by norm_num)
    rw [sq_abs] at h1
    have e : z2 = fsq R (some |z'|) := by simp only [z2, z, fsq, fmul, abs_mul_abs_self]
    rw [e]
    exact h1
  obtain ⟨kz, h_kz, n_kz⟩ : NearF 3 (-201) 32 (fmul R (fsub R c1 e2) z2) ((1 - e₀) * z' ^ 2) :=
    nearF_mul (const_k1 (R := R)) (n2 := 1) (l2 := -200) (h2 := 32) ⟨zz, h_z2, n_z2⟩ (by norm_num)
  have ez2 : |zz - z' ^ 2| ≤ 6 / 10 ^ 7 := n_z2.err.trans ((mul_le_mul_of_nonneg_left hzz (by norm_num)).trans (by norm_num))
  have ekz : |kz - (1 - e₀) * z' ^ 2| ≤ 2 / 10 ^ 6 := by
    refine n_kz.err.trans ?_
    have : (1 - e₀) * z' ^ 2 ≤ 50001 ^ 2 := by nlinarith [sq_nonneg z']
    exact (mul_le_mul_of_nonneg_left this (by norm_num)).trans (by norm_num)
  clear_value radicand P Q ep2 e2 b2
  clear hP hq hrad
  have hq1 : q' ≠ 0 := by
    have h1 := (nq.pos' (by norm_num)).1
    have h2 := hH.Q1
    intro h
    rw [h] at h1
    linarith
  have h_r0 : r0 = some (R (R (R (R (-P' * (7718207876587895 / 1152921504606846976)) * r') / q') + R (Real.sqrt rad'))) := by
    simp only [r0]
    rw [h_P, h_e2, h_q, h_rad, fsqrt_val R (not_lt.2 rad0)]
    simp only [fneg, fmul, r]
    rw [fdiv_val R hq1]
    rfl
  generalize R (R (R (R (-P' * (7718207876587895 / 1152921504606846976)) * r') / q') + R (Real.sqrt rad')) = v at *
  obtain ⟨o1, o2, o3, o4, o5⟩ := out_err R e0 e1 aa aa' a0 g.ρ0 g.ell g.u1 g.u2 g.hr g.hz hr1 hr2 hz2 hr0 he2 ez2 ekz eb2 eep
  set x := R (r' - R (7718207876587895 / 1152921504606846976 * v)) with hx
  have h_x2 : fsq R (fsub R r (fmul R e2 r0)) = some (R (x * x)) := by
    rw [h_e2, h_r0]
    rfl
  have h_V : V = some (R (Real.sqrt (R (R (x * x) + kz)))) := by
    simp only [V]
    rw [h_x2, h_kz]
    exact fsqrt_val R (not_lt.2 o2)
  have h_U : U = some (R (Real.sqrt (R (R (x * x) + zz)))) := by
    simp only [U]
    rw [h_x2, h_z2]
    exact fsqrt_val R (not_lt.2 o1)
  have h_aV : fmul R (some a₀) V = some (R (a₀ * R (Real.sqrt (R (R (x * x) + kz))))) := by rw [h_V]; rfl
  set aV := R (a₀ * R (Real.sqrt (R (R (x * x) + kz)))) with haV
  have h_h : height = some (R (R (Real.sqrt (R (R (x * x) + zz))) * R (1 - R (b2' / aV)))) := by
    simp only [height]
    rw [h_aV, h_b2, h_U, fdiv_val R o3.ne']
    rfl
  have h_z0 : z0 = some (R (R (b2' * z') / aV)) := by
    simp only [z0]
    rw [h_aV, h_b2]
    exact fdiv_val R o3.ne'
  have h_beta : beta = some (R (90 - FloatCoord.degrees R (p.arctan2 (R (z' + R (ep * R (R (b2' * z') / aV)))) r'))) := by
    simp only [beta]
    rw [h_z0, h_ep2]
    rfl
  rw [h_h, h_beta]
  refine ⟨_, _, rfl, ?_⟩
  generalize R (R (Real.sqrt (R (R (x * x) + zz))) * R (1 - R (b2' / aV))) = H at *
  generalize R (z' + R (ep * R (R (b2' * z') / aV))) = Y at *
  clear_value x aV
  clear h_h h_beta h_z0 h_aV h_U h_V h_x2 h_r0 h_kz h_z2 beta height z0 U V r0
  obtain ⟨ga1, ga2, gρ, gσ, gN1, gN2⟩ := exact_bounds (r := r') (z := z') e0 e1 aa aa' a0 g.ρ0 g.ell g.u1 g.u2
  have hρ := g.ρ0
  have hu1 := g.u1
  have hu2 := g.u2
  have hN2 : Real.sqrt (ρ ^ 2 + σ ^ 2) ^ 2 = ρ ^ 2 + σ ^ 2 := Real.sq_sqrt (by positivity)
  set N := Real.sqrt (ρ ^ 2 + σ ^ 2) with hN
  have hN0 : 0 < N := by linarith
  -- the exact latitude
  set φ := Complex.arg ⟨ρ, σ⟩ with hφ
  have hnorm : ‖(⟨ρ, σ⟩ : ℂ)‖ = N := by
    rw [hN, Complex.norm_eq_sqrt_sq_add_sq]
  have hcφ : N * Real.cos φ = ρ := by have := Complex.norm_mul_cos_arg (⟨ρ, σ⟩ : ℂ); rwa [hnorm] at this
  have hsφ : N * Real.sin φ = σ := by have := Complex.norm_mul_sin_arg (⟨ρ, σ⟩ : ℂ); rwa [hnorm] at this
  have bφ : |φ| < Real.pi / 2 := Complex.abs_arg_lt_pi_div_two_iff.2 (Or.inl hρ)
  have bY : |Complex.arg ⟨r', Y⟩| < Real.pi / 2 := Complex.abs_arg_lt_pi_div_two_iff.2 (Or.inl (by simp only; linarith))
  have hL : 5900 ≤ (u + e₀) * N := by
    have := mul_le_mul hu1 gN1 (by norm_num) (by linarith)
    nlinarith
  have hδ := abs_le.1 bφ.le
  have hδ' := abs_le.1 bY.le
  have ang : |Complex.arg ⟨r', Y⟩ - φ| ≤ 5 * (6 / 10 ^ 15) := by
    refine ChaosMagPy.FloatCoord.angle_close (L := (u + e₀) * N) (by linarith) (by norm_num) ?_ ?_ ?_ rfl rfl
    · rw [mul_assoc, hcφ, ← g.hr, sub_self, abs_zero]
      positivity
    · rw [mul_assoc (u + e₀) N, hsφ]
      refine o5.trans ?_
      have := mul_le_mul_of_nonneg_left hL (by norm_num : (0 : ℝ) ≤ 6 / 10 ^ 15)
      refine le_trans ?_ this
      norm_num
    · rw [abs_le]
      constructor <;> linarith [hδ.1, hδ.2, hδ'.1, hδ'.2]
  have hp := Real.pi_gt_d4
  have hp' := Real.pi_lt_d4
  have arct := hA.err Y r'
  set A := p.arctan2 Y r' with hAdef
  have dA : |A - φ| ≤ 31 / 10 ^ 15 := by
    have h := abs_add_le (A - Complex.arg ⟨r', Y⟩) (Complex.arg ⟨r', Y⟩ - φ)
    rw [sub_add_sub_cancel] at h
    refine h.trans ((add_le_add arct ang).trans ?_)
    norm_num
  have bA : |A| ≤ 4 := by
    have h := abs_add_le (A - φ) φ
    rw [sub_add_cancel] at h
    have : (31 / 10 ^ 15 : ℝ) ≤ 1 := by norm_num
    linarith
  have dd := FloatCoord.degrees_err R bA
  set D := FloatCoord.degrees R A with hD
  have d1 : |90 - D - (90 - φ * (180 / Real.pi))| ≤ 19 / 10 ^ 13 := by
    have e : 90 - D - (90 - φ * (180 / Real.pi)) = -((D - A * (180 / Real.pi)) + (A - φ) * (180 / Real.pi)) := by ring
    rw [e, abs_neg]
    refine (abs_add_le _ _).trans ?_
    rw [abs_mul, abs_of_pos (by positivity : 0 < 180 / Real.pi)]
    have h180 : 180 / Real.pi ≤ 58 := by rw [div_le_iff₀ Real.pi_pos]; linarith
    have h := mul_le_mul dA h180 (by positivity) (by norm_num)
    norm_num at dd h ⊢
    linarith
  have d2 : |R (90 - D) - (90 - φ * (180 / Real.pi))| ≤ 2 / 10 ^ 12 := by
    refine rstep R (k := 8) d1 (M := 180) ?_ (by norm_num) (by norm_num) (by norm_num) (by norm_num)
    have e : φ * (180 / Real.pi) = φ / (Real.pi / 2) * 90 := by field_simp; ring
    have h1 : |φ / (Real.pi / 2)| ≤ 1 := by
      rw [abs_div, abs_of_pos (by positivity : 0 < Real.pi / 2)]
      exact (div_le_one (by positivity)).2 bφ.le
    rw [e]
    rw [abs_le] at h1 ⊢
    constructor <;> linarith [h1.1, h1.2]
  generalize R (90 - D) = β at *
  have dφ : |rad (90 - β) - φ| ≤ 1 / 10 ^ 13 := by
    have e : rad (90 - β) - φ = -(β - (90 - φ * (180 / Real.pi))) * (Real.pi / 180) := by
      rw [rad]
      have := Real.pi_pos.ne'
      field_simp
      ring
    rw [e, abs_mul, abs_neg, abs_of_pos (by positivity : 0 < Real.pi / 180)]
    have h180 : Real.pi / 180 ≤ 1 / 50 := by linarith
    have h := mul_le_mul d2 h180 (by positivity) (by norm_num)
    exact h.trans (by norm_num)
  generalize rad (90 - β) = φ' at *
  have hb0 := b₀_sq
  have hpv := prime_lip (a := a₀) (b := b₀) (by rw [b₀]; norm_num) aa.le (by rw [hb0]; nlinarith) dφ
  have hpN : primeVertical a₀ b₀ φ = N := by
    have hs : Real.sqrt (a₀ ^ 2 * Real.cos φ ^ 2 + b₀ ^ 2 * Real.sin φ ^ 2) = a₀ ^ 2 / N := by
      rw [Real.sqrt_eq_iff_mul_self_eq_of_pos (by positivity)]
      have : a₀ ^ 2 / N * (a₀ ^ 2 / N) = a₀ ^ 2 * a₀ ^ 2 / N ^ 2 := by ring
      rw [this, div_eq_iff (by positivity), hb0]
      have e1 : (N * Real.cos φ) ^ 2 + (1 - e₀) * (N * Real.sin φ) ^ 2 = a₀ ^ 2 := by rw [hcφ, hsφ]; exact g.ell
      linear_combination (-a₀ ^ 2) * e1
    rw [primeVertical, hs]
    field_simp
  rw [hpN] at hpv
  have hba : b₀ ^ 2 / a₀ ^ 2 = 1 - e₀ := by rw [hb0]; field_simp
  have dc := (sub_cos_le φ' φ).trans dφ
  have ds := (sub_sin_le φ' φ).trans dφ
  have bH : |N * (u - (1 - e₀))| ≤ 44800 := by
    rw [abs_mul, abs_of_pos hN0]
    have : |u - (1 - e₀)| ≤ 7 := by rw [abs_le]; constructor <;> linarith
    have := mul_le_mul gN2 this (abs_nonneg _) (by norm_num)
    linarith
  have c1' := abs_le.1 bH
  have o4' := abs_le.1 o4
  have hlowN : -448 ≤ N * (u - (1 - e₀)) := by
    have h7 : 0 ≤ N * (u - (1 - e₀) + 7 / 100) := mul_nonneg hN0.le (by linarith)
    linarith
  have hcosφ : 9 / 10 ^ 4 ≤ Real.cos φ := by
    have h5 : 6 ≤ ρ := by
      have e := g.hr
      have : (u + e₀) * ρ ≤ 79 / 10 * ρ := mul_le_mul_of_nonneg_right (by linarith) hρ.le
      linarith
    have h6 : N * Real.cos φ ≤ 6400 * Real.cos φ := mul_le_mul_of_nonneg_right gN2 (Real.cos_nonneg_of_mem_Icc ⟨hδ.1, hδ.2⟩)
    norm_num
    linarith
  have hφb : |φ| ≤ Real.pi / 2 - 9 / 10 ^ 4 := by
    have h5 := Real.sin_le (x := Real.pi / 2 - |φ|) (by linarith)
    rw [Real.sin_pi_div_two_sub, Real.cos_abs] at h5
    linarith
  have hφd : |φ * (180 / Real.pi)| ≤ 90 - 4 / 100 := by
    have e : |φ * (180 / Real.pi)| = |φ| * (180 / Real.pi) := by rw [abs_mul, abs_of_pos (by positivity : 0 < 180 / Real.pi)]
    rw [e]
    have h5 := mul_le_mul_of_nonneg_right hφb (by positivity : 0 ≤ 180 / Real.pi)
    have h6 : (Real.pi / 2 - 9 / 10 ^ 4) * (180 / Real.pi) = 90 - 9 / 10 ^ 4 * (180 / Real.pi) := by field_simp; ring
    have h7 : 50 ≤ 180 / Real.pi := by rw [le_div_iff₀ Real.pi_pos]; linarith
    norm_num at h5 h6 ⊢
    linarith
  have hφd' := abs_le.1 hφd
  have d2' := abs_le.1 d2
  refine ⟨by norm_num at o4'; linarith [o4'.1], by norm_num at o4'; linarith [o4'.2, c1'.2], by norm_num at d2'; linarith [d2'.1, hφd'.2], by norm_num at d2'; linarith [d2'.2, hφd'.1], ?_, ?_⟩
  · have e1 : r' = (N + N * (u - (1 - e₀))) * Real.cos φ := by rw [g.hr, ← hcφ]; ring
    simp only [geodeticPoint]
    rw [e1]
    have hs : |primeVertical a₀ b₀ φ' + H - (N + N * (u - (1 - e₀)))| ≤ 41 / 10 ^ 9 := by
      rw [add_sub_add_comm]
      exact (abs_add_le _ _).trans ((add_le_add hpv o4).trans (by norm_num))
    refine (mul_err hs dc (X := 51200) (Y := 1) ?_ (Real.abs_cos_le_one _)).trans (by norm_num)
    exact (abs_add_le _ _).trans (by rw [abs_of_pos hN0]; linarith)
  · have e1 : z' = (N * (1 - e₀) + N * (u - (1 - e₀))) * Real.sin φ := by rw [g.hz, ← hsφ]; ring
    simp only [geodeticPoint]
    rw [e1, hba]
    have hs : |primeVertical a₀ b₀ φ' * (1 - e₀) + H - (N * (1 - e₀) + N * (u - (1 - e₀)))| ≤ 41 / 10 ^ 9 := by
      rw [add_sub_add_comm, ← sub_mul]
      refine (abs_add_le _ _).trans ?_
      rw [abs_mul, abs_of_pos (by linarith : 0 < 1 - e₀)]
      have h := mul_le_mul hpv (by linarith : 1 - e₀ ≤ 1) (by linarith) (by norm_num)
      norm_num at h o4 ⊢
      linarith
    refine (mul_err hs ds (X := 51200) (Y := 1) ?_ (Real.abs_sin_le_one _)).trans (by norm_num)
    refine (abs_add_le _ _).trans ?_
    rw [abs_mul, abs_of_pos hN0, abs_of_pos (by linarith : 0 < 1 - e₀)]
    have h := mul_le_mul gN2 (by linarith : 1 - e₀ ≤ 1) (by linarith) (by norm_num)
    linarith

theorem coord_err' {radius s s₀ : ℝ} (h1 : 0 ≤ radius) (h2 : radius ≤ 50000) (hs : |s - s₀| ≤ 2⁻¹ ^ 49 + 2⁻¹ ^ 52) (hs0 : |s₀| ≤ 1) :
    |R (radius * s) - radius * s₀| ≤ 2 / 10 ^ 10 := by
  have h := mul_err (x' := radius) (x := radius) (εx := 0) (X := 50000) (by simp) hs (by rw [abs_of_nonneg h1]; exact h2) hs0
  refine rstep R (k := 16) h (M := 50000) ?_ (by norm_num) (by norm_num) (by norm_num) (by norm_num)
  rw [abs_mul, abs_of_nonneg h1]
  calc _ ≤ (50000 : ℝ) * 1 := mul_le_mul h2 hs0 (abs_nonneg _) (by norm_num)
    _ = _ := by norm_num

/-- **C99.** For the default ellipsoid and every point at radii from 6000 to 50000 km that is at least 50.001 km away from the axis: the computed height and
colatitude are those of a point within 0.0000001 km (a tenth of a millimetre) of the given one, in the direction of the axis and away from it.
The colatitude is from 0 to 180 degrees, the height from -500 to 45000 km.
(The cosine is not smaller than `2^-100` in size: for doubles the exact cosine is not.) -/
theorem C99_accuracy (p : Platform) (hS : IsSine p.sin) (hC : IsCosine p.cos) (hA : IsArctan2 p.arctan2)
    (hcube : ∀ x, (2 : ℝ) ^ (-300 : ℤ) ≤ x → x ≤ (2 : ℝ) ^ (300 : ℤ) → |p.cube x - x ^ 3| ≤ 4 / 2 ^ 52 * x ^ 3)
    (hcbrt : ∀ x, (2 : ℝ) ^ (-300 : ℤ) ≤ x → x ≤ (2 : ℝ) ^ (300 : ℤ) → |p.cbrt x - x ^ ((1 : ℝ) / 3)| ≤ 256 / 2 ^ 52 * x ^ ((1 : ℝ) / 3))
    {radius theta : ℝ} (h1 : 6000 ≤ radius) (h2 : radius ≤ 50000) (h3 : 0 ≤ theta) (h4 : theta ≤ 180)
    (hdist : 50.001 ≤ (geocentricPoint radius theta).1) (hcos : (2 : ℝ) ^ (-100 : ℤ) ≤ |p.cos (radians R theta)|) :
    ∃ h β, geoToGg R p (R 6378.137) (R 6356.752) radius theta = (some h, some β) ∧ -500 ≤ h ∧ h ≤ 45000 ∧ 0 ≤ β ∧ β ≤ 180 ∧
      |(geodeticPoint (R 6378.137) (R 6356.752) h ((90 - β) * Real.pi / 180)).1 - (geocentricPoint radius theta).1| ≤ 1 / 10 ^ 7 ∧
      |(geodeticPoint (R 6378.137) (R 6356.752) h ((90 - β) * Real.pi / 180)).2 - (geocentricPoint radius theta).2| ≤ 1 / 10 ^ 7 := by
  have erad : ∀ t : ℝ, t * Real.pi / 180 = rad t := fun t => by rw [rad]; ring
  simp only [geocentricPoint, erad] at hdist ⊢
  have h5 : |theta| ≤ 360 := by rw [abs_of_nonneg h3]; linarith
  have hs := FloatCoord.sin_wide R hS h5
  have hc := FloatCoord.cos_wide R hC h5
  have hr := coord_err' R (by linarith) h2 hs (Real.abs_sin_le_one _)
  have hz := coord_err' R (by linarith) h2 hc (Real.abs_cos_le_one _)
  have hsc := Real.sin_sq_add_cos_sq (rad theta)
  have bs := Real.sin_le_one (rad theta)
  have hXY : (radius * Real.sin (rad theta)) ^ 2 + (radius * Real.cos (rad theta)) ^ 2 = radius ^ 2 := by linear_combination radius ^ 2 * hsc
  have hX : radius * Real.sin (rad theta) ≤ 50000 := by nlinarith
  have hY : |radius * Real.cos (rad theta)| ≤ 50000 := by
    rw [abs_mul, abs_of_nonneg (by linarith)]
    calc _ ≤ (50000 : ℝ) * 1 := mul_le_mul h2 (Real.abs_cos_le_one _) (abs_nonneg _) (by norm_num)
      _ = _ := by norm_num
  have hzb : |radius * p.cos (radians R theta)| ≤ 2 ^ 100 := by
    have hcb : |p.cos (radians R theta)| ≤ 2 := by
      have h := abs_add_le (p.cos (radians R theta) - Real.cos (rad theta)) (Real.cos (rad theta))
      rw [sub_add_cancel] at h
      have := Real.abs_cos_le_one (rad theta)
      have : (2⁻¹ ^ 49 + 2⁻¹ ^ 52 : ℝ) ≤ 1 := by norm_num
      linarith
    rw [abs_mul, abs_of_nonneg (by linarith : 0 ≤ radius)]
    calc _ ≤ (50000 : ℝ) * 2 := mul_le_mul h2 hcb (abs_nonneg _) (by norm_num)
      _ ≤ _ := by norm_num
  have hz1 : (2 : ℝ) ^ (-100 : ℤ) ≤ |R (radius * p.cos (radians R theta))| := by
    refine rnd_abs_ge R ?_ (hzb.trans (pow_le_pow_right₀ (by norm_num) (by norm_num))) (by norm_num) (by norm_num)
    rw [abs_mul, abs_of_nonneg (by linarith : 0 ≤ radius)]
    exact hcos.trans (le_mul_of_one_le_left (abs_nonneg _) (by linarith))
  have hz2 : |R (radius * p.cos (radians R theta))| ≤ 50001 := by
    have h := abs_add_le (R (radius * p.cos (radians R theta)) - radius * Real.cos (rad theta)) (radius * Real.cos (rad theta))
    rw [sub_add_cancel] at h
    have : (2 / 10 ^ 10 : ℝ) ≤ 1 := by norm_num
    linarith
  have hr' := abs_le.1 hr
  have tiny' : (2 / 10 ^ 10 : ℝ) ≤ 1 / 10 ^ 9 := by norm_num
  have hrad2 : (6000 : ℝ) ^ 2 ≤ radius ^ 2 ∧ radius ^ 2 ≤ 50000 ^ 2 := ⟨pow_le_pow_left₀ (by norm_num) h1 2, pow_le_pow_left₀ (by linarith) h2 2⟩
  have sqd : ∀ {t t₀ : ℝ}, |t - t₀| ≤ 2 / 10 ^ 10 → |t₀| ≤ 50000 → |t ^ 2 - t₀ ^ 2| ≤ 1 := by
    intro t t₀ g1 g2
    rw [sq, sq]
    exact (mul_err g1 g1 g2 g2).trans (by norm_num)
  have q1 := abs_le.1 (sqd hr (by rw [abs_of_nonneg (by norm_num at hdist; linarith)]; exact hX))
  have q2 := abs_le.1 (sqd hz hY)
  obtain ⟨h, β, e, b1, b2, b3, b4, g1, g2⟩ := acc_core R p hA hcube hcbrt (by norm_num at hdist hr' ⊢; linarith [hr'.1]) (by norm_num at hr' ⊢; linarith [hr'.2]) hz1 hz2
    (by norm_num at hrad2 ⊢; linarith [q1.1, q2.1]) (by norm_num at hrad2 ⊢; linarith [q1.2, q2.2])
  refine ⟨h, β, e, b1, b2, b3, b4, ?_, ?_⟩
  · have := abs_add_le ((geodeticPoint (R 6378.137) (R 6356.752) h (rad (90 - β))).1 - R (radius * p.sin (radians R theta))) (R (radius * p.sin (radians R theta)) - radius * Real.sin (rad theta))
    rw [sub_add_sub_cancel] at this
    refine this.trans ((add_le_add g1 hr).trans ?_)
    norm_num
  · have := abs_add_le ((geodeticPoint (R 6378.137) (R 6356.752) h (rad (90 - β))).2 - R (radius * p.cos (radians R theta))) (R (radius * p.cos (radians R theta)) - radius * Real.cos (rad theta))
    rw [sub_add_sub_cancel] at this
    refine this.trans ((add_le_add g2 hz).trans ?_)
    norm_num

end ChaosMagPy.FloatGeod
