import Verif.Model.Coord
import Verif.Spec.Coord
import Mathlib.Tactic.LinearCombination
import Mathlib.Tactic.FinCases
import Mathlib.LinearAlgebra.Matrix.NonsingularInverse
/-!
# Lemmas about angles and vectors
-/
namespace ChaosMagPy.Coord
open ChaosMagPy.Spec

theorem radians_degrees (x : ℝ) : radians (degrees x) = x := by
  unfold radians degrees
  field_simp

theorem degrees_radians (x : ℝ) : degrees (radians x) = x := by
  unfold radians degrees
  field_simp

theorem radians_eq (x : ℝ) : radians x = x * Real.pi / 180 := by unfold radians; ring

theorem radians_lt {x y : ℝ} : radians x < radians y ↔ x < y := by
  unfold radians
  exact mul_lt_mul_iff_left₀ (by positivity)

theorem radians_le {x y : ℝ} : radians x ≤ radians y ↔ x ≤ y := by
  unfold radians
  exact mul_le_mul_iff_left₀ (by positivity)

theorem radians_180 : radians 180 = Real.pi := by unfold radians; ring
theorem radians_0 : radians 0 = 0 := by unfold radians; ring
theorem radians_neg (x : ℝ) : radians (-x) = -radians x := by unfold radians; ring

/-! ### `arctan2` -/

theorem norm_mk (x y : ℝ) : ‖(⟨x, y⟩ : ℂ)‖ = Real.sqrt (x ^ 2 + y ^ 2) := by
  rw [Complex.norm_eq_sqrt_sq_add_sq]

theorem arctan2_cos (y x : ℝ) : Real.sqrt (x ^ 2 + y ^ 2) * Real.cos (arctan2 y x) = x := by
  unfold arctan2
  rw [← norm_mk]
  by_cases h : (⟨x, y⟩ : ℂ) = 0
  · rw [h, norm_zero, zero_mul]
    exact (congrArg Complex.re h).symm
  · rw [Complex.cos_arg h]
    exact mul_div_cancel₀ _ (norm_ne_zero_iff.2 h)

theorem arctan2_sin (y x : ℝ) : Real.sqrt (x ^ 2 + y ^ 2) * Real.sin (arctan2 y x) = y := by
  unfold arctan2
  rw [← norm_mk]
  by_cases h : (⟨x, y⟩ : ℂ) = 0
  · rw [h, norm_zero, zero_mul]
    exact (congrArg Complex.im h).symm
  · rw [Complex.sin_arg]
    exact mul_div_cancel₀ _ (norm_ne_zero_iff.2 h)

theorem arctan2_range (y x : ℝ) : -Real.pi < arctan2 y x ∧ arctan2 y x ≤ Real.pi :=
  ⟨Complex.neg_pi_lt_arg _, Complex.arg_le_pi _⟩

theorem arctan2_polar (r t : ℝ) (hr : 0 < r) (h1 : -Real.pi < t) (h2 : t ≤ Real.pi) :
    arctan2 (r * Real.sin t) (r * Real.cos t) = t := by
  unfold arctan2
  have := Complex.arg_mul_cos_add_sin_mul_I hr (⟨h1, h2⟩ : t ∈ Set.Ioc (-Real.pi) Real.pi)
  rw [← this]
  congr 1
  · rw [this]
    apply Complex.ext <;> simp [Complex.cos_ofReal_re, Complex.sin_ofReal_re, Complex.cos_ofReal_im, Complex.sin_ofReal_im]

/-! ### Spherical coordinates -/

theorem sph_eq (theta phi : ℝ) : sphericalToCartesian 1 theta phi = direction theta phi := by
  unfold sphericalToCartesian direction
  simp only [radians_eq, one_mul]
  funext i
  fin_cases i <;> simp [mul_comm]

theorem direction_unit (theta phi : ℝ) : dot (direction theta phi) (direction theta phi) = 1 := by
  simp only [dot, direction, Matrix.cons_val]
  linear_combination Real.sin (theta * Real.pi / 180) ^ 2 * Real.sin_sq_add_cos_sq (phi * Real.pi / 180) + Real.sin_sq_add_cos_sq (theta * Real.pi / 180)

theorem sph_cart (v : Vec) : let s := cartesianToSpherical v; sphericalToCartesian s.1 s.2.1 s.2.2 = v := by
  simp only [cartesianToSpherical, sphericalToCartesian, radians_degrees]
  have hn : Real.sqrt (v 0 ^ 2 + v 1 ^ 2 + v 2 ^ 2) = Real.sqrt (v 2 ^ 2 + Real.sqrt (v 0 ^ 2 + v 1 ^ 2) ^ 2) := by
    rw [Real.sq_sqrt (by positivity)]
    congr 1
    ring
  have h1 := arctan2_cos (Real.sqrt (v 0 ^ 2 + v 1 ^ 2)) (v 2)
  have h2 := arctan2_sin (Real.sqrt (v 0 ^ 2 + v 1 ^ 2)) (v 2)
  rw [← hn] at h1 h2
  have h3 := arctan2_cos (v 1) (v 0)
  have h4 := arctan2_sin (v 1) (v 0)
  funext i
  fin_cases i
  · simp only [Fin.zero_eta, Matrix.cons_val]
    rw [mul_right_comm, h2, h3]
  · simp only [Fin.mk_one, Matrix.cons_val]
    rw [mul_right_comm, h2, h4]
  · simp only [Fin.reduceFinMk, Matrix.cons_val]
    rw [h1]

theorem cart_sph (r theta phi : ℝ) (hr : 0 < r) (h1 : 0 < theta) (h2 : theta < 180) (h3 : -180 < phi) (h4 : phi ≤ 180) :
    cartesianToSpherical (sphericalToCartesian r theta phi) = (r, theta, phi) := by
  have ht1 : 0 < radians theta := by rw [← radians_0]; exact radians_lt.2 h1
  have ht2 : radians theta < Real.pi := by rw [← radians_180]; exact radians_lt.2 h2
  have hp1 : -Real.pi < radians phi := by rw [← radians_180, ← radians_neg]; exact radians_lt.2 h3
  have hp2 : radians phi ≤ Real.pi := by rw [← radians_180]; exact radians_le.2 h4
  have hs : 0 < Real.sin (radians theta) := Real.sin_pos_of_pos_of_lt_pi ht1 ht2
  simp only [cartesianToSpherical, sphericalToCartesian, Matrix.cons_val]
  have e1 : (r * Real.cos (radians phi) * Real.sin (radians theta)) ^ 2 + (r * Real.sin (radians phi) * Real.sin (radians theta)) ^ 2 = (r * Real.sin (radians theta)) ^ 2 := by
    linear_combination (r * Real.sin (radians theta)) ^ 2 * Real.sin_sq_add_cos_sq (radians phi)
  have e2 : (r * Real.sin (radians theta)) ^ 2 + (r * Real.cos (radians theta)) ^ 2 = r ^ 2 := by
    linear_combination r ^ 2 * Real.sin_sq_add_cos_sq (radians theta)
  rw [e1, e2, Real.sqrt_sq hr.le, Real.sqrt_sq (by positivity), arctan2_polar r _ hr (by linarith) ht2.le, degrees_radians,
    mul_right_comm r (Real.sin (radians phi)), mul_right_comm r (Real.cos (radians phi)), arctan2_polar _ _ (by positivity) hp1 hp2, degrees_radians]

/-- Colatitude and longitude are in the documented ranges. -/
theorem cart_range (v : Vec) : 0 ≤ (cartesianToSpherical v).2.1 ∧ (cartesianToSpherical v).2.1 ≤ 180 ∧
    -180 < (cartesianToSpherical v).2.2 ∧ (cartesianToSpherical v).2.2 ≤ 180 := by
  simp only [cartesianToSpherical]
  have h1 := arctan2_range (Real.sqrt (v 0 ^ 2 + v 1 ^ 2)) (v 2)
  have h2 := arctan2_range (v 1) (v 0)
  have h0 : 0 ≤ arctan2 (Real.sqrt (v 0 ^ 2 + v 1 ^ 2)) (v 2) := Complex.arg_nonneg_iff.2 (Real.sqrt_nonneg _)
  have e : ∀ x, radians (degrees x) = x := radians_degrees
  refine ⟨?_, ?_, ?_, ?_⟩
  · rw [← radians_le, e, radians_0]; exact h0
  · rw [← radians_le, e, radians_180]; exact h1.2
  · rw [← radians_lt, e, radians_neg, radians_180]; exact h2.1
  · rw [← radians_le, e, radians_180]; exact h2.2

/-- Unit vectors. -/
theorem unit_direction (v : Vec) (hv : dot v v = 1) : direction (cartesianToSpherical v).2.1 (cartesianToSpherical v).2.2 = v := by
  have h := sph_cart v
  simp only at h
  have h1 : (cartesianToSpherical v).1 = 1 := by
    simp only [cartesianToSpherical]
    have : v 0 ^ 2 + v 1 ^ 2 + v 2 ^ 2 = 1 := by
      unfold dot at hv
      linear_combination hv
    rw [this, Real.sqrt_one]
  rw [h1, sph_eq] at h
  exact h

/-! ### Vector algebra -/

theorem cross_eq (a b : Vec) : cross a b = vecProd a b := rfl

theorem norm_sq (a : Vec) : norm a ^ 2 = dot a a := by
  unfold norm dot
  rw [Real.sq_sqrt (by positivity)]
  ring

theorem normalize_some (a : Vec) (h : norm a ≠ 0) : normalize a = some fun i => a i / norm a := by
  unfold normalize
  rw [if_neg h]

theorem norm_eq_zero (a : Vec) : norm a = 0 ↔ a = 0 := by
  constructor
  · intro h
    have := norm_sq a
    rw [h] at this
    unfold dot at this
    have h0 : a 0 = 0 := by nlinarith [sq_nonneg (a 0), sq_nonneg (a 1), sq_nonneg (a 2)]
    have h1 : a 1 = 0 := by nlinarith [sq_nonneg (a 0), sq_nonneg (a 1), sq_nonneg (a 2)]
    have h2 : a 2 = 0 := by nlinarith [sq_nonneg (a 0), sq_nonneg (a 1), sq_nonneg (a 2)]
    funext i
    fin_cases i <;> assumption
  · intro h
    subst h
    simp [norm]

theorem rightHanded_left (a b : Vec) (ha : dot a a = 1) (hb : dot b b = 1) (hab : dot a b = 0) : RightHanded a b (vecProd a b) := by
  simp only [dot] at ha hb hab
  refine ⟨?_, ?_, ?_, ?_, ?_, ?_, rfl⟩ <;> simp only [dot, vecProd, Matrix.cons_val]
  · exact ha
  · exact hb
  · linear_combination (b 0 * b 0 + b 1 * b 1 + b 2 * b 2) * ha + hb - (a 0 * b 0 + a 1 * b 1 + a 2 * b 2) * hab
  · exact hab
  · ring
  · ring

theorem rightHanded_right (w u : Vec) (hw : dot w w = 1) (hu : dot u u = 1) (hwu : dot w u = 0) : RightHanded (vecProd w u) w u := by
  simp only [dot] at hw hu hwu
  refine ⟨?_, ?_, ?_, ?_, ?_, ?_, ?_⟩
  · simp only [dot, vecProd, Matrix.cons_val]
    linear_combination (u 0 * u 0 + u 1 * u 1 + u 2 * u 2) * hw + hu - (w 0 * u 0 + w 1 * u 1 + w 2 * u 2) * hwu
  · exact hw
  · exact hu
  · simp only [dot, vecProd, Matrix.cons_val]; ring
  · simp only [dot, vecProd, Matrix.cons_val]; ring
  · exact hwu
  · funext i
    fin_cases i <;> simp only [vecProd, Matrix.cons_val, Fin.zero_eta, Fin.mk_one, Fin.reduceFinMk]
    · linear_combination u 0 * hw - w 0 * hwu
    · linear_combination u 1 * hw - w 1 * hwu
    · linear_combination u 2 * hw - w 2 * hwu

/-- Two unit vectors `u`, `s` that are not parallel: `u × s` normalised completes right-handed triples. -/
theorem frame (u s : Vec) (hu : dot u u = 1) (hs : dot s s = 1) (hn : norm (cross u s) ≠ 0) :
    ∃ w : Vec, normalize (cross u s) = some w ∧ RightHanded s w (cross s w) ∧ RightHanded (cross w u) w u := by
  have hN := norm_sq (cross u s)
  refine ⟨fun i => cross u s i / norm (cross u s), normalize_some _ hn, ?_, ?_⟩
  · apply rightHanded_left _ _ hs
    · have : dot (fun i => cross u s i / norm (cross u s)) (fun i => cross u s i / norm (cross u s)) = dot (cross u s) (cross u s) / norm (cross u s) ^ 2 := by
        simp only [dot]; field_simp
      rw [this, ← hN, div_self (pow_ne_zero 2 hn)]
    · have : dot s (fun i => cross u s i / norm (cross u s)) = dot s (cross u s) / norm (cross u s) := by
        simp only [dot]; field_simp
      rw [this]
      have : dot s (cross u s) = 0 := by simp only [dot, cross, Matrix.cons_val]; ring
      rw [this, zero_div]
  · rw [cross_eq (fun i => cross u s i / norm (cross u s)) u]
    refine rightHanded_right (fun i => cross u s i / norm (cross u s)) u ?_ hu ?_
    rotate_left
    · have : dot (fun i => cross u s i / norm (cross u s)) u = dot (cross u s) u / norm (cross u s) := by
        simp only [dot]; field_simp
      rw [this]
      have : dot (cross u s) u = 0 := by simp only [dot, cross, Matrix.cons_val]; ring
      rw [this, zero_div]
    · have : dot (fun i => cross u s i / norm (cross u s)) (fun i => cross u s i / norm (cross u s)) = dot (cross u s) (cross u s) / norm (cross u s) ^ 2 := by
        simp only [dot]; field_simp
      rw [this, ← hN, div_self (pow_ne_zero 2 hn)]

/-- A right-handed triple: components and combination are inverse (completeness). -/
theorem rh_rows {e1 e2 e3 : Vec} (h : RightHanded e1 e2 e3) (v : Vec) :
    combine e1 e2 e3 ![dot e1 v, dot e2 v, dot e3 v] = v := by
  obtain ⟨h11, h22, h33, h12, h13, h23, hx⟩ := h
  have c0 : e3 0 = e1 1 * e2 2 - e1 2 * e2 1 := by rw [← hx]; rfl
  have c1 : e3 1 = e1 2 * e2 0 - e1 0 * e2 2 := by rw [← hx]; rfl
  have c2 : e3 2 = e1 0 * e2 1 - e1 1 * e2 0 := by rw [← hx]; rfl
  have key : ∀ i j : Fin 3, e1 i * e1 j + e2 i * e2 j + e3 i * e3 j = if i = j then 1 else 0 := by
    have hM : (Matrix.of ![e1, e2, e3]) * (Matrix.of ![e1, e2, e3]).transpose = 1 := by
      ext i j
      rw [Matrix.mul_apply, Fin.sum_univ_three]
      simp only [dot] at h11 h22 h33 h12 h13 h23
      fin_cases i <;> fin_cases j <;> simp [Matrix.transpose_apply] <;> linarith
    have hM' := mul_eq_one_comm.1 hM
    intro i j
    have := congrFun (congrFun hM' i) j
    rw [Matrix.mul_apply, Fin.sum_univ_three] at this
    simpa [Matrix.transpose_apply, Matrix.one_apply] using this
  funext i
  simp only [combine, dot, Matrix.cons_val]
  have k0 := key i 0
  have k1 := key i 1
  have k2 := key i 2
  have : v i = (if i = 0 then 1 else 0) * v 0 + (if i = 1 then 1 else 0) * v 1 + (if i = 2 then 1 else 0) * v 2 := by
    fin_cases i <;> simp
  rw [this, ← k0, ← k1, ← k2]
  ring

theorem rh_dot_combine {e1 e2 e3 : Vec} (h : RightHanded e1 e2 e3) (c : Vec) :
    ![dot e1 (combine e1 e2 e3 c), dot e2 (combine e1 e2 e3 c), dot e3 (combine e1 e2 e3 c)] = c := by
  obtain ⟨h11, h22, h33, h12, h13, h23, _⟩ := h
  simp only [dot] at h11 h22 h33 h12 h13 h23
  funext i
  fin_cases i <;> simp only [dot, combine, Matrix.cons_val, Fin.zero_eta, Fin.mk_one, Fin.reduceFinMk]
  · linear_combination c 0 * h11 + c 1 * h12 + c 2 * h13
  · linear_combination c 0 * h12 + c 1 * h22 + c 2 * h23
  · linear_combination c 0 * h13 + c 1 * h23 + c 2 * h33

theorem rh_unit_combine {e1 e2 e3 : Vec} (h : RightHanded e1 e2 e3) (c : Vec) :
    dot (combine e1 e2 e3 c) (combine e1 e2 e3 c) = dot c c := by
  obtain ⟨h11, h22, h33, h12, h13, h23, _⟩ := h
  simp only [dot] at h11 h22 h33 h12 h13 h23
  simp only [dot, combine]
  linear_combination c 0 ^ 2 * h11 + c 1 ^ 2 * h22 + c 2 ^ 2 * h33 + 2 * c 0 * c 1 * h12 + 2 * c 0 * c 2 * h13 + 2 * c 1 * c 2 * h23

theorem rh_unit_rows {e1 e2 e3 : Vec} (h : RightHanded e1 e2 e3) (v : Vec) :
    dot ![dot e1 v, dot e2 v, dot e3 v] ![dot e1 v, dot e2 v, dot e3 v] = dot v v := by
  rw [← rh_unit_combine h, rh_rows h]

end ChaosMagPy.Coord
