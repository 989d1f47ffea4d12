import Verif.Lemmas.FloatFrame
import Verif.Props.FloatSun
import Verif.Props.FloatSphere
/-!
# C103: base vectors of GSM, SM and MAG in double precision
-/
namespace ChaosMagPy.FloatBase
open ChaosMagPy.Spec ChaosMagPy.Float ChaosMagPy.FloatLegendre ChaosMagPy.FloatGeod ChaosMagPy.FloatSun

variable (R : Rounding)

theorem sunDir_unit (t : ℝ) : dot (sunDir t) (sunDir t) = 1 := by
  simp only [dot, sunDir, rotateAxis, eclipticToEquatorial, Matrix.cons_val_zero, Matrix.cons_val_one, Matrix.cons_val]
  have h1 := Real.sin_sq_add_cos_sq (greenwich t * Real.pi / 180)
  have h2 := Real.sin_sq_add_cos_sq (sunObliquity t * Real.pi / 180)
  have h3 := Real.sin_sq_add_cos_sq (sunLongitude t * Real.pi / 180)
  generalize Real.sin (greenwich t * Real.pi / 180) = sg at *
  generalize Real.cos (greenwich t * Real.pi / 180) = cg at *
  generalize Real.sin (sunObliquity t * Real.pi / 180) = so at *
  generalize Real.cos (sunObliquity t * Real.pi / 180) = co at *
  generalize Real.sin (sunLongitude t * Real.pi / 180) = sl at *
  generalize Real.cos (sunLongitude t * Real.pi / 180) = cl at *
  linear_combination (cl ^ 2 + sl ^ 2 * co ^ 2) * h1 + sl ^ 2 * h2 + h3

theorem direction_unit (θ φ : ℝ) : dot (direction θ φ) (direction θ φ) = 1 := by
  rw [FloatCoord.dot_direction]
  have h1 := Real.sin_sq_add_cos_sq (rad θ)
  simp only [sub_self, Real.cos_zero]
  linear_combination h1

/-- The computed vector to the sun. -/
theorem sun_vector (p : SunPlatform) (hS : IsSine p.sin) (hC : IsCosine p.cos) (hT : ∀ x, |x| < Real.pi / 2 → |p.tan x - Real.tan x| ≤ 4 / 2 ^ 52 * |Real.tan x|)
    (hat : ∀ x, |p.arctan x - Real.arctan x| ≤ 2⁻¹ ^ 51) (hA : IsArctan2 p.arctan2) {t : ℝ} (hd : IsDouble t) (h : |t| ≤ 36525) :
    ∃ s σ, sunVector R p t = fv s ∧ dot σ σ = 1 ∧ (∀ i, |s i - σ i| ≤ 1 / 10 ^ 14) ∧ ∀ i, |σ i - sunDir t i| ≤ 1 / 10 ^ 10 := by
  obtain ⟨θ, φ, e, h1, h2, h3, h4, hi⟩ := C102_accuracy R p hS hC hT hat hA hd h
  obtain ⟨x, y, z, e2, g1, g2, g3⟩ := FloatCoord.C96_cartesian R hC hS (r := 1) (by norm_num) (by norm_num) (θ := θ) (φ := φ) (abs_le.2 ⟨by linarith, by linarith⟩)
    (abs_le.2 ⟨by linarith, by linarith⟩)
  refine ⟨![x, y, z], direction θ φ, ?_, direction_unit θ φ, ?_, hi⟩
  · rw [sunVector, e]
    simp only [e2]
    funext i
    fin_cases i <;> rfl
  · rw [one_mul, one_mul] at g1 g2 g3
    intro i
    fin_cases i
    · exact g1.trans (by norm_num)
    · exact g2.trans (by norm_num)
    · exact g3.trans (by norm_num)

/-- Two directions that are not nearly parallel. -/
theorem len_ge {m σ : Fin 3 → ℝ} (hm : dot m m = 1) (hσ : dot σ σ = 1) (h : |dot m σ| ≤ 901 / 1000) : 43 / 100 ≤ len (vecProd m σ) := by
  rw [len, lagrange, hm, hσ]
  refine Real.le_sqrt_of_sq_le ?_
  have := pow_le_pow_left₀ (abs_nonneg _) h 2
  rw [sq_abs] at this
  norm_num at *
  linarith

theorem dot_close {m σ σ' : Fin 3 → ℝ} (hm : dot m m = 1) (h : ∀ i, |σ i - σ' i| ≤ 1 / 10 ^ 10) : |dot m σ| ≤ |dot m σ'| + 1 / 1000 := by
  have p : ∀ i, |m i * (σ i - σ' i)| ≤ 1 / 10 ^ 10 := fun i => by
    rw [abs_mul]
    calc |m i| * |σ i - σ' i| ≤ 1 * (1 / 10 ^ 10) := mul_le_mul (unit_le hm i) (h i) (abs_nonneg _) (by norm_num)
      _ = _ := one_mul _
  have e : dot m σ = dot m σ' + (m 0 * (σ 0 - σ' 0) + m 1 * (σ 1 - σ' 1) + m 2 * (σ 2 - σ' 2)) := by unfold dot; ring
  have t0 := abs_add_le (dot m σ') (m 0 * (σ 0 - σ' 0) + m 1 * (σ 1 - σ' 1) + m 2 * (σ 2 - σ' 2))
  have t1 := abs_add_le (m 0 * (σ 0 - σ' 0) + m 1 * (σ 1 - σ' 1)) (m 2 * (σ 2 - σ' 2))
  have t2 := abs_add_le (m 0 * (σ 0 - σ' 0)) (m 1 * (σ 1 - σ' 1))
  have p0 := p 0
  have p1 := p 1
  have p2 := p 2
  rw [← e] at t0
  have : (3 : ℝ) * (1 / 10 ^ 10) ≤ 1 / 1000 := by norm_num
  linarith

/-- **C103, GSM.** If the angle between the dipole axis and the direction of the sun has a cosine of at most 0.9 in size, the three base vectors are numbers; they differ by at most
`2e-12` from an orthonormal right-handed frame, and by at most `2e-8` from the GSM frame of the exact formulas: the first vector points to the sun, the second is orthogonal to the
dipole axis `m`, the third is on its side. -/
theorem C103_gsm {sum3 : F → F → F → F} (hs : IsSum3 R sum3) (p : SunPlatform) (hS : IsSine p.sin) (hC : IsCosine p.cos)
    (hT : ∀ x, |x| < Real.pi / 2 → |p.tan x - Real.tan x| ≤ 4 / 2 ^ 52 * |Real.tan x|)
    (hat : ∀ x, |p.arctan x - Real.arctan x| ≤ 2⁻¹ ^ 51) (hA : IsArctan2 p.arctan2) {t : ℝ} (hd : IsDouble t) (h : |t| ≤ 36525)
    {v m : Fin 3 → ℝ} (hm : dot m m = 1) (hv : ∀ i, |v i - m i| ≤ 1 / 10 ^ 14) (hang : |dot m (sunDir t)| ≤ 9 / 10) :
    ∃ e1 e2 e3 : Fin 3 → ℝ, baseGsm R sum3 p t (fun i => some (v i)) = (fun i => some (e1 i), fun i => some (e2 i), fun i => some (e3 i)) ∧
      (∃ w1 w2 w3, RightHanded w1 w2 w3 ∧ ∀ i, |e1 i - w1 i| ≤ 2 / 10 ^ 12 ∧ |e2 i - w2 i| ≤ 2 / 10 ^ 12 ∧ |e3 i - w3 i| ≤ 2 / 10 ^ 12) ∧
      ∃ w2 w3, RightHanded (sunDir t) w2 w3 ∧ dot m w2 = 0 ∧ 0 < dot m w3 ∧
        ∀ i, |e1 i - sunDir t i| ≤ 2 / 10 ^ 8 ∧ |e2 i - w2 i| ≤ 2 / 10 ^ 8 ∧ |e3 i - w3 i| ≤ 2 / 10 ^ 8 := by
  obtain ⟨s, σ, es, hσ, h1, h2⟩ := sun_vector R p hS hC hT hat hA hd h
  have hu := sunDir_unit t
  have h3 : ∀ i, |s i - sunDir t i| ≤ 11 / 10 ^ 11 := fun i => by
    have := abs_add_le (s i - σ i) (σ i - sunDir t i)
    rw [sub_add_sub_cancel] at this
    exact this.trans ((add_le_add (h1 i) (h2 i)).trans (by norm_num))
  have l1 := len_ge hm hσ ((dot_close hm h2).trans (by norm_num at hang ⊢; linarith))
  have l2 := len_ge hm hu (hang.trans (by norm_num))
  obtain ⟨w, hw, a1, ⟨a, ha, a2⟩, -⟩ := normal_err R hs (η := 5 / 10 ^ 13) hm hσ (by norm_num) (by norm_num) (by norm_num) l1 (by norm_num) hv h1
  obtain ⟨w', hw', b1, ⟨a', ha', b2⟩, -⟩ := normal_err R hs (ε := 11 / 10 ^ 11) (η := 6 / 10 ^ 9) hm hu (by norm_num) (by norm_num) (by norm_num) l2 (by norm_num)
    (fun i => (hv i).trans (by norm_num)) h3
  have ew : w' = w := by
    rw [hw] at hw'
    funext i
    exact (Option.some.inj (congrFun hw' i)).symm
  subst ew
  have ea : a' = a := by
    rw [ha] at ha'
    funext i
    exact (Option.some.inj (congrFun ha' i)).symm
  subst ea
  refine ⟨s, w', a', ?_, ⟨σ, normal m σ, _, (frame_first hσ (by linarith)).1, fun i => ⟨(h1 i).trans (by norm_num), (a1 i).trans (by norm_num), (a2 i).trans (by norm_num)⟩⟩,
    normal m (sunDir t), _, (frame_first hu (by linarith)).1, (frame_first hu (by linarith)).2.1, (frame_first hu (by linarith)).2.2,
    fun i => ⟨(h3 i).trans (by norm_num), (b1 i).trans (by norm_num), (b2 i).trans (by norm_num)⟩⟩
  show (sunVector R p t, normalize R sum3 (fcross R (fv v) (sunVector R p t)), fcross R (sunVector R p t) (normalize R sum3 (fcross R (fv v) (sunVector R p t)))) = _
  rw [es, hw, ha]
  rfl

/-- **C103, SM.** The same for SM: the third vector is the dipole axis, the second is orthogonal to the direction of the sun, and the sun is on the side of the first one. -/
theorem C103_sm {sum3 : F → F → F → F} (hs : IsSum3 R sum3) (p : SunPlatform) (hS : IsSine p.sin) (hC : IsCosine p.cos)
    (hT : ∀ x, |x| < Real.pi / 2 → |p.tan x - Real.tan x| ≤ 4 / 2 ^ 52 * |Real.tan x|)
    (hat : ∀ x, |p.arctan x - Real.arctan x| ≤ 2⁻¹ ^ 51) (hA : IsArctan2 p.arctan2) {t : ℝ} (hd : IsDouble t) (h : |t| ≤ 36525)
    {v m : Fin 3 → ℝ} (hm : dot m m = 1) (hv : ∀ i, |v i - m i| ≤ 1 / 10 ^ 14) (hang : |dot m (sunDir t)| ≤ 9 / 10) :
    ∃ e1 e2 e3 : Fin 3 → ℝ, baseSm R sum3 p t (fun i => some (v i)) = (fun i => some (e1 i), fun i => some (e2 i), fun i => some (e3 i)) ∧
      (∃ w1 w2 w3, RightHanded w1 w2 w3 ∧ ∀ i, |e1 i - w1 i| ≤ 2 / 10 ^ 12 ∧ |e2 i - w2 i| ≤ 2 / 10 ^ 12 ∧ |e3 i - w3 i| ≤ 2 / 10 ^ 12) ∧
      ∃ w1 w2, RightHanded w1 w2 m ∧ dot (sunDir t) w2 = 0 ∧ 0 < dot (sunDir t) w1 ∧
        ∀ i, |e1 i - w1 i| ≤ 2 / 10 ^ 8 ∧ |e2 i - w2 i| ≤ 2 / 10 ^ 8 ∧ |e3 i - m i| ≤ 1 / 10 ^ 14 := by
  obtain ⟨s, σ, es, hσ, h1, h2⟩ := sun_vector R p hS hC hT hat hA hd h
  have hu := sunDir_unit t
  have h3 : ∀ i, |s i - sunDir t i| ≤ 11 / 10 ^ 11 := fun i => by
    have := abs_add_le (s i - σ i) (σ i - sunDir t i)
    rw [sub_add_sub_cancel] at this
    exact this.trans ((add_le_add (h1 i) (h2 i)).trans (by norm_num))
  have l1 := len_ge hm hσ ((dot_close hm h2).trans (by norm_num at hang ⊢; linarith))
  have l2 := len_ge hm hu (hang.trans (by norm_num))
  obtain ⟨w, hw, a1, -, ⟨a, ha, a2⟩, -⟩ := normal_err R hs (η := 5 / 10 ^ 13) hm hσ (by norm_num) (by norm_num) (by norm_num) l1 (by norm_num) hv h1
  obtain ⟨w', hw', b1, -, ⟨a', ha', b2⟩, -⟩ := normal_err R hs (ε := 11 / 10 ^ 11) (η := 6 / 10 ^ 9) hm hu (by norm_num) (by norm_num) (by norm_num) l2 (by norm_num)
    (fun i => (hv i).trans (by norm_num)) h3
  have ew : w' = w := by
    rw [hw] at hw'
    funext i
    exact (Option.some.inj (congrFun hw' i)).symm
  subst ew
  have ea : a' = a := by
    rw [ha] at ha'
    funext i
    exact (Option.some.inj (congrFun ha' i)).symm
  subst ea
  refine ⟨a', w', v, ?_, ⟨_, normal m σ, m, (frame_third hm (by linarith)).1, fun i => ⟨(a2 i).trans (by norm_num), (a1 i).trans (by norm_num), (hv i).trans (by norm_num)⟩⟩,
    _, normal m (sunDir t), (frame_third hm (by linarith)).1, (frame_third hm (by linarith)).2.1, (frame_third hm (by linarith)).2.2,
    fun i => ⟨(b2 i).trans (by norm_num), (b1 i).trans (by norm_num), hv i⟩⟩
  show (fcross R (normalize R sum3 (fcross R (fv v) (sunVector R p t))) (fv v), normalize R sum3 (fcross R (fv v) (sunVector R p t)), fv v) = _
  rw [es, hw, ha]
  rfl

/-- **C103, MAG.** If the dipole axis is at least 0.6 degrees away from the rotation axis, the base vectors are numbers and differ by at most `1e-10` from the right-handed frame
whose third vector is the dipole axis and whose second vector is orthogonal to the rotation axis, with the first vector to the south of the geomagnetic pole. -/
theorem C103_mag {sum3 : F → F → F → F} (hs : IsSum3 R sum3) {v m : Fin 3 → ℝ} (hm : dot m m = 1) (hv : ∀ i, |v i - m i| ≤ 1 / 10 ^ 14)
    (hax : 1 / 100 ≤ Real.sqrt (m 0 ^ 2 + m 1 ^ 2)) :
    ∃ e1 e2 e3 : Fin 3 → ℝ, baseMag R sum3 (fun i => some (v i)) = (fun i => some (e1 i), fun i => some (e2 i), fun i => some (e3 i)) ∧
      ∃ w1 w2, RightHanded w1 w2 m ∧ w2 2 = 0 ∧ w1 2 < 0 ∧ ∀ i, |e1 i - w1 i| ≤ 1 / 10 ^ 10 ∧ |e2 i - w2 i| ≤ 1 / 10 ^ 10 ∧ |e3 i - m i| ≤ 1 / 10 ^ 14 := by
  have hz : dot (![0, 0, 1] : Fin 3 → ℝ) ![0, 0, 1] = 1 := by simp [dot]
  have hl : len (vecProd ![0, 0, 1] m) = Real.sqrt (m 0 ^ 2 + m 1 ^ 2) := by
    rw [len]
    congr 1
    simp only [dot, vecProd, Matrix.cons_val_zero, Matrix.cons_val_one, Matrix.cons_val]
    ring
  rw [← hl] at hax
  obtain ⟨w, hw, a1, -, -, ⟨a, ha, a2⟩⟩ := normal_err R hs (v := ![0, 0, 1]) (ε := 1 / 10 ^ 14) (η := 2 / 10 ^ 11) hz hm (by norm_num) (by norm_num) (by norm_num) hax (by norm_num)
    (fun i => by rw [sub_self]; norm_num) hv
  obtain ⟨n1, n2, n3, -⟩ := normal_spec (m := ![0, 0, 1]) (σ := m) (by linarith)
  refine ⟨a, w, v, ?_, _, normal ![0, 0, 1] m, frame_pair n1 hm (by rw [dot_symm]; exact n3), ?_, ?_,
    fun i => ⟨(a2 i).trans (by norm_num), (a1 i).trans (by norm_num), hv i⟩⟩
  · have ez : (![some 0, some 0, some 1] : FVec) = fv ![0, 0, 1] := by
      funext i
      fin_cases i <;> rfl
    show (fcross R (normalize R sum3 (fcross R ![some 0, some 0, some 1] (fv v))) (fv v), normalize R sum3 (fcross R ![some 0, some 0, some 1] (fv v)), fv v) = _
    rw [ez, hw, ha]
    rfl
  · simpa [dot] using n2
  · have L0 : 0 < len (vecProd ![0, 0, 1] m) := by linarith
    have e : vecProd (normal ![0, 0, 1] m) m 2 = -(m 0 ^ 2 + m 1 ^ 2) / len (vecProd ![0, 0, 1] m) := by
      simp only [normal, vecProd, Matrix.cons_val_zero, Matrix.cons_val_one, Matrix.cons_val]
      ring
    rw [e]
    refine div_neg_of_neg_of_pos ?_ L0
    rw [hl] at L0
    have := Real.sqrt_pos.1 L0
    linarith

/-- **C103, dipole coefficients.** The unit vector of three coefficients (of any size from `2^-90` to `2^90`) is opposite to the dipole `(g11, h11, g10)`, to `1e-14` in each component. -/
theorem C103_dipole_coeffs {sum3 : F → F → F → F} (hs : IsSum3 R sum3) {g10 g11 h11 : ℝ} (h1 : (2 : ℝ) ^ (-90 : ℤ) ≤ Real.sqrt (g10 ^ 2 + g11 ^ 2 + h11 ^ 2))
    (h2 : Real.sqrt (g10 ^ 2 + g11 ^ 2 + h11 ^ 2) ≤ (2 : ℝ) ^ (90 : ℤ)) :
    ∃ v m : Fin 3 → ℝ, dipoleCoeffs R sum3 g10 g11 h11 = (fun i => some (v i)) ∧ dot m m = 1 ∧ (∀ i, |v i - m i| ≤ 1 / 10 ^ 14) ∧
      g11 = -Real.sqrt (g10 ^ 2 + g11 ^ 2 + h11 ^ 2) * m 0 ∧ h11 = -Real.sqrt (g10 ^ 2 + g11 ^ 2 + h11 ^ 2) * m 1 ∧ g10 = -Real.sqrt (g10 ^ 2 + g11 ^ 2 + h11 ^ 2) * m 2 := by
  have hl : Real.sqrt (g10 ^ 2 + g11 ^ 2 + h11 ^ 2) = len ![g11, h11, g10] := by
    rw [len]
    congr 1
    simp only [dot, Matrix.cons_val_zero, Matrix.cons_val_one, Matrix.cons_val]
    ring
  rw [hl] at h1 h2 ⊢
  have hN : 0 < len ![g11, h11, g10] := lt_of_lt_of_le (by positivity) h1
  obtain ⟨n, hn, en⟩ := norm_err R hs h1 h2
  have ev : (![some g11, some h11, some g10] : FVec) = fv ![g11, h11, g10] := by
    funext i
    fin_cases i <;> rfl
  refine ⟨fun i => R (-(![g11, h11, g10] : Fin 3 → ℝ) i / n), fun i => -(![g11, h11, g10] : Fin 3 → ℝ) i / len ![g11, h11, g10], ?_, ?_, ?_, ?_⟩
  · funext i
    have := (quotient_err R hN (x := -(![g11, h11, g10] : Fin 3 → ℝ) i) (by rw [abs_neg]; exact le_len _ i) en).1
    simp only [dipoleCoeffs]
    rw [ev, hn, fv, fneg, fdiv, if_neg this]
  · have := len_sq ![g11, h11, g10]
    simp only [dot] at this ⊢
    generalize len ![g11, h11, g10] = N at *
    field_simp
    linarith
  · intro i
    exact (quotient_err R hN (by rw [abs_neg]; exact le_len _ i) en).2.trans (by norm_num)
  · simp only [Matrix.cons_val_zero, Matrix.cons_val_one, Matrix.cons_val]
    generalize len ![g11, h11, g10] = N at *
    refine ⟨?_, ?_, ?_⟩ <;> field_simp

/-- **C103, pole position.** The unit vector of a colatitude and a longitude is the direction of the pole, to `1e-14` in each component. -/
theorem C103_dipole_angles {S C : ℝ → ℝ} (hS : IsSine S) (hC : IsCosine C) {θ φ : ℝ} (h1 : |θ| ≤ 360) (h2 : |φ| ≤ 360) :
    ∃ v : Fin 3 → ℝ, dipoleAngles R S C θ φ = (fun i => some (v i)) ∧ ∀ i, |v i - direction θ φ i| ≤ 1 / 10 ^ 14 := by
  have prod : ∀ {a b a0 b0 : ℝ}, |a0| ≤ 1 → |b0| ≤ 1 → |a - a0| ≤ 2⁻¹ ^ 49 + 2⁻¹ ^ 52 → |b - b0| ≤ 2⁻¹ ^ 49 + 2⁻¹ ^ 52 → |R (a * b) - a0 * b0| ≤ 1 / 10 ^ 14 := by
    intro a b a0 b0 p q r s
    exact rstep R (k := 1) (M := 1) (mul_err r s p q) (by rw [abs_mul]; exact mul_le_one₀ p (abs_nonneg _) q) (by norm_num) (by norm_num) (by norm_num) (by norm_num)
  have s1 := FloatCoord.sin_wide R hS h1
  have c1 := FloatCoord.cos_wide R hC h1
  have s2 := FloatCoord.sin_wide R hS h2
  have c2 := FloatCoord.cos_wide R hC h2
  refine ⟨![R (S (radians R θ) * C (radians R φ)), R (S (radians R θ) * S (radians R φ)), C (radians R θ)], ?_, ?_⟩
  · funext i
    fin_cases i <;> rfl
  · intro i
    simp only [direction, erad]
    fin_cases i
    · exact prod (Real.abs_sin_le_one _) (Real.abs_cos_le_one _) s1 c2
    · exact prod (Real.abs_sin_le_one _) (Real.abs_sin_le_one _) s1 s2
    · exact c1.trans (by norm_num)

/-- **C103, angle to the sun.** The angle between the dipole axis and the direction of the sun is large enough for C103_gsm and C103_sm at every time, if the axis is within 25 degrees
of the rotation axis. -/
theorem C103_angle {t : ℝ} (h : |t| ≤ 36525) {m : Fin 3 → ℝ} (hm : dot m m = 1) (hax : 9 / 10 ≤ |m 2|) : |dot m (sunDir t)| ≤ 9 / 10 := by
  have hu := sunDir_unit t
  have ht := abs_le.1 h
  have hp' := Real.pi_lt_d4
  norm_num at hp'
  have o1 : 0 ≤ sunObliquity t := by unfold sunObliquity dj; linarith [ht.2]
  have o2 : sunObliquity t ≤ 235 / 10 := by unfold sunObliquity dj; linarith [ht.1]
  have hr : rad (sunObliquity t) ≤ 42 / 100 := by
    rw [rad]
    have := mul_le_mul o2 (by linarith : Real.pi / 180 ≤ 1746 / 100000) (by positivity) (by norm_num)
    linarith
  have hr0 : 0 ≤ rad (sunObliquity t) := by rw [rad]; positivity
  have hs0 : 0 ≤ Real.sin (rad (sunObliquity t)) := Real.sin_nonneg_of_nonneg_of_le_pi hr0 (by linarith [Real.pi_gt_d4])
  have hs1 : Real.sin (rad (sunObliquity t)) ≤ 42 / 100 := (Real.sin_le hr0).trans hr
  have e2 : sunDir t 2 = Real.sin (rad (sunLongitude t)) * Real.sin (rad (sunObliquity t)) := by
    unfold sunDir rotateAxis eclipticToEquatorial
    simp [erad]
  have b2 : |sunDir t 2| ≤ 42 / 100 := by
    rw [e2, abs_mul, abs_of_nonneg hs0]
    calc _ ≤ 1 * (42 / 100 : ℝ) := mul_le_mul (Real.abs_sin_le_one _) hs1 hs0 (by norm_num)
      _ = _ := one_mul _
  have m2 : |m 2 * sunDir t 2| ≤ 42 / 100 := by
    rw [abs_mul]
    calc _ ≤ 1 * (42 / 100 : ℝ) := mul_le_mul (unit_le hm 2) b2 (abs_nonneg _) (by norm_num)
      _ = _ := one_mul _
  have hsq : (81 / 100 : ℝ) ≤ m 2 ^ 2 := by
    rw [← sq_abs]
    calc (81 / 100 : ℝ) = (9 / 10) ^ 2 := by norm_num
      _ ≤ _ := pow_le_pow_left₀ (by norm_num) hax 2
  have hh : |m 0 * sunDir t 0 + m 1 * sunDir t 1| ≤ 44 / 100 := by
    refine abs_le_of_sq_le_sq ?_ (by norm_num)
    unfold dot at hm hu
    generalize sunDir t 0 = x at *
    generalize sunDir t 1 = y at *
    generalize sunDir t 2 = z at *
    have c1 : (m 0 * x + m 1 * y) ^ 2 ≤ (m 0 ^ 2 + m 1 ^ 2) * (x ^ 2 + y ^ 2) := by nlinarith [sq_nonneg (m 0 * y - m 1 * x)]
    have c2 : m 0 ^ 2 + m 1 ^ 2 ≤ 19 / 100 := by nlinarith
    have c3 : x ^ 2 + y ^ 2 ≤ 1 := by nlinarith [sq_nonneg z]
    have c4 := mul_le_mul c2 c3 (by positivity) (by norm_num)
    norm_num at *
    linarith
  have t1 := abs_add_le (m 0 * sunDir t 0 + m 1 * sunDir t 1) (m 2 * sunDir t 2)
  unfold dot
  linarith

/-- **C103, GSM and SM from coefficients.** For a dipole whose axis is within 25 degrees of the rotation axis, the base vectors of GSM and SM are numbers at every time, and each base is,
to `2e-12`, orthonormal and right-handed. -/
theorem C103_always {sum3 : F → F → F → F} (hs : IsSum3 R sum3) (p : SunPlatform) (hS : IsSine p.sin) (hC : IsCosine p.cos)
    (hT : ∀ x, |x| < Real.pi / 2 → |p.tan x - Real.tan x| ≤ 4 / 2 ^ 52 * |Real.tan x|)
    (hat : ∀ x, |p.arctan x - Real.arctan x| ≤ 2⁻¹ ^ 51) (hA : IsArctan2 p.arctan2) {g10 g11 h11 : ℝ} (h1 : (2 : ℝ) ^ (-90 : ℤ) ≤ Real.sqrt (g10 ^ 2 + g11 ^ 2 + h11 ^ 2))
    (h2 : Real.sqrt (g10 ^ 2 + g11 ^ 2 + h11 ^ 2) ≤ (2 : ℝ) ^ (90 : ℤ)) (hax : 9 / 10 * Real.sqrt (g10 ^ 2 + g11 ^ 2 + h11 ^ 2) ≤ |g10|) {t : ℝ} (hd : IsDouble t) (h : |t| ≤ 36525) :
    ∃ e1 e2 e3 s1 s2 s3 : Fin 3 → ℝ,
      baseGsm R sum3 p t (dipoleCoeffs R sum3 g10 g11 h11) = (fun i => some (e1 i), fun i => some (e2 i), fun i => some (e3 i)) ∧
      baseSm R sum3 p t (dipoleCoeffs R sum3 g10 g11 h11) = (fun i => some (s1 i), fun i => some (s2 i), fun i => some (s3 i)) ∧
      (∃ w1 w2 w3, RightHanded w1 w2 w3 ∧ ∀ i, |e1 i - w1 i| ≤ 2 / 10 ^ 12 ∧ |e2 i - w2 i| ≤ 2 / 10 ^ 12 ∧ |e3 i - w3 i| ≤ 2 / 10 ^ 12) ∧
      ∃ w1 w2 w3, RightHanded w1 w2 w3 ∧ ∀ i, |s1 i - w1 i| ≤ 2 / 10 ^ 12 ∧ |s2 i - w2 i| ≤ 2 / 10 ^ 12 ∧ |s3 i - w3 i| ≤ 2 / 10 ^ 12 := by
  obtain ⟨v, m, ev, hm, hv, -, -, eg⟩ := C103_dipole_coeffs R hs h1 h2
  have hN : 0 < Real.sqrt (g10 ^ 2 + g11 ^ 2 + h11 ^ 2) := lt_of_lt_of_le (by positivity) h1
  have hm2 : 9 / 10 ≤ |m 2| := by
    rw [eg, abs_mul, abs_neg, ← eg, abs_of_pos hN, mul_comm] at hax
    exact le_of_mul_le_mul_left hax hN
  have ha := C103_angle h hm hm2
  obtain ⟨e1, e2, e3, he, hf, -⟩ := C103_gsm R hs p hS hC hT hat hA hd h hm hv ha
  obtain ⟨s1, s2, s3, hs', hf', -⟩ := C103_sm R hs p hS hC hT hat hA hd h hm hv ha
  rw [ev]
  exact ⟨e1, e2, e3, s1, s2, s3, he, hs', hf, hf'⟩

end ChaosMagPy.FloatBase
