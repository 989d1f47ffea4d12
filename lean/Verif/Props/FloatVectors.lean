import Verif.Lemmas.FloatVectors
import Verif.Lemmas.FloatGgToGeo
import Verif.Spec.Horizontal
/-!
# C105: `matrix_geo_to_base` and `transform_vectors` in double precision
-/
namespace ChaosMagPy.FloatBase
open ChaosMagPy.Spec ChaosMagPy.Float ChaosMagPy.FloatLegendre ChaosMagPy.FloatGeod ChaosMagPy.FloatSun

variable (R : Rounding)

/-- The rotation matrix between two points that are no poles. -/
theorem rot_entries {dot3 : FVec → FVec → F} (hd : IsDot3 dot3) {S C : ℝ → ℝ} (hS : IsSine S) (hC : IsCosine C) {e1 e2 e3 w1 w2 w3 : Fin 3 → ℝ} {η : ℝ} (h0 : 1 / 10 ^ 14 ≤ η)
    (hη : η ≤ 1 / 10 ^ 5) (hw : RightHanded w1 w2 w3) (he : ∀ i, |e1 i - w1 i| ≤ η ∧ |e2 i - w2 i| ≤ η ∧ |e3 i - w3 i| ≤ η) {θ φ θ' φ' : ℝ} (h1 : |θ| ≤ 360) (h2 : |φ| ≤ 360)
    (h3 : |θ'| ≤ 360) (h4 : |φ'| ≤ 360) (hp : ¬polar R θ) (hp' : ¬polar R θ') :
    ∃ b b' : FVec × FVec × FVec, ∃ c : Fin 3 → Fin 3 → ℝ, basevectorsUse R S C (some θ) (some φ) = some b ∧ basevectorsUse R S C (some θ') (some φ') = some b' ∧
      (∀ i j, matmul dot3 (fun i j => nth b' i j) (matmul dot3 (fun i j => nth (fun i => some (e1 i), fun i => some (e2 i), fun i => some (e3 i)) i j) (fun i j => nth b j i)) i j = some (c i j)) ∧
      ∀ i j, |c i j - dot (local3 θ' φ' i) (rows w1 w2 w3 (local3 θ φ j))| ≤ 33 * η := by
  obtain ⟨u, ⟨b, hb, ub⟩, hu⟩ := use_err R hS hC h1 h2 hp
  obtain ⟨v, ⟨b', hb', vb⟩, hv⟩ := use_err R hS hC h3 h4 hp'
  have he' : ∀ k i, |(![e1, e2, e3] : Fin 3 → Fin 3 → ℝ) k i - (![w1, w2, w3] : Fin 3 → Fin 3 → ℝ) k i| ≤ η := by
    intro k i
    fin_cases k
    · exact (he i).1
    · exact (he i).2.1
    · exact (he i).2.2
  have key : ∀ i j, ∃ c, dot3 (fun k => some (v i k)) (fun k => dot3 (fun l => some ((![e1, e2, e3] : Fin 3 → Fin 3 → ℝ) k l)) (fun l => some (u j l))) = some c ∧
      |c - dot (local3 θ' φ' i) (rows w1 w2 w3 (local3 θ φ j))| ≤ 33 * η := fun i j =>
    entry_err hd (e := ![e1, e2, e3]) (w := ![w1, w2, w3]) h0 hη hw he' (local3_unit θ φ j) (local3_unit θ' φ' i) (hu j) (hv i)
  choose c hc1 hc2 using key
  refine ⟨b, b', c, hb, hb', fun i j => ?_, hc2⟩
  rw [← hc1 i j]
  have hbase : ∀ k, nth (fun i => some (e1 i), fun i => some (e2 i), fun i => some (e3 i)) k = fun l => some ((![e1, e2, e3] : Fin 3 → Fin 3 → ℝ) k l) := by
    intro k
    fin_cases k <;> rfl
  simp only [matmul, ub, vb, hbase]

/-- The components along the local vectors of the other point. -/
theorem rows_horizontal (w1 w2 w3 : Fin 3 → ℝ) (θ φ x y : ℝ) (v : Fin 3 → ℝ) :
    dot v (rows w1 w2 w3 (south θ φ)) * x + dot v (rows w1 w2 w3 (east φ)) * y = dot v (rows w1 w2 w3 (horizontal θ φ x y)) := by
  simp only [dot, rows, horizontal, Matrix.cons_val_zero, Matrix.cons_val_one, Matrix.cons_val]
  ring

theorem dot_le {u v : Fin 3 → ℝ} (hu : dot u u = 1) (hv : dot v v = 1) : |dot u v| ≤ 1 := by
  rw [← sq_le_one_iff_abs_le_one]
  have h1 := sq_nonneg (u 0 * v 1 - u 1 * v 0)
  have h2 := sq_nonneg (u 0 * v 2 - u 2 * v 0)
  have h3 := sq_nonneg (u 1 * v 2 - u 2 * v 1)
  have e : dot u v ^ 2 + ((u 0 * v 1 - u 1 * v 0) ^ 2 + (u 0 * v 2 - u 2 * v 0) ^ 2 + (u 1 * v 2 - u 2 * v 1) ^ 2) = dot u u * dot v v := by
    simp only [dot]
    ring
  rw [hu, hv] at e
  linarith

theorem rows_combine (w1 w2 w3 a b : Fin 3 → ℝ) : dot a (rows w1 w2 w3 b) = dot b (combine w1 w2 w3 a) := by
  simp only [dot, rows, combine, Matrix.cons_val_zero, Matrix.cons_val_one, Matrix.cons_val]
  ring

theorem rows_dot {w1 w2 w3 : Fin 3 → ℝ} (hw : RightHanded w1 w2 w3) (a b : Fin 3 → ℝ) : dot (rows w1 w2 w3 a) (rows w1 w2 w3 b) = dot a b := by
  rw [rows_combine]
  have := Coord.rh_rows hw a
  rw [← rows] at this
  rw [this]
  simp only [dot]
  ring

theorem combine_dot {w1 w2 w3 : Fin 3 → ℝ} (hw : RightHanded w1 w2 w3) (a b : Fin 3 → ℝ) : dot (combine w1 w2 w3 a) (combine w1 w2 w3 b) = dot a b := by
  obtain ⟨h11, h22, h33, h12, h13, h23, _⟩ := hw
  simp only [dot] at h11 h22 h33 h12 h13 h23
  simp only [dot, combine]
  linear_combination a 0 * b 0 * h11 + a 1 * b 1 * h22 + a 2 * b 2 * h33 + (a 0 * b 1 + a 1 * b 0) * h12 + (a 0 * b 2 + a 2 * b 0) * h13 + (a 1 * b 2 + a 2 * b 1) * h23

theorem unit_column {w1 w2 w3 : Fin 3 → ℝ} (hw : RightHanded w1 w2 w3) (i : Fin 3) : dot ![w1 i, w2 i, w3 i] ![w1 i, w2 i, w3 i] = 1 := by
  have h := congrFun (Coord.rh_rows hw (Pi.single i 1)) i
  rw [Pi.single_eq_same] at h
  have e : ∀ w : Fin 3 → ℝ, dot w (Pi.single i 1) = w i := by
    intro w
    fin_cases i <;> simp [dot]
  simp only [e, combine, Matrix.cons_val_zero, Matrix.cons_val_one, Matrix.cons_val] at h
  simp only [dot, Matrix.cons_val_zero, Matrix.cons_val_one, Matrix.cons_val]
  linarith

theorem rows_le {w1 w2 w3 u v : Fin 3 → ℝ} (hw : RightHanded w1 w2 w3) (hu : dot u u = 1) (hv : dot v v = 1) : |dot v (rows w1 w2 w3 u)| ≤ 1 := by
  have h : dot (rows w1 w2 w3 u) (rows w1 w2 w3 u) = 1 := by rw [rows, Coord.rh_unit_rows hw, hu]
  exact dot_le hv h

theorem horizontal_dot (θ φ x y : ℝ) : dot (direction θ φ) (horizontal θ φ x y) = 0 := by
  obtain ⟨-, -, -, h1, h2, -, -⟩ := Coord.use_rh θ φ
  simp only [dot, horizontal] at *
  linear_combination x * h1 + y * h2

theorem horizontal_le {θ φ x y M : ℝ} (hx : |x| ≤ M) (hy : |y| ≤ M) {w : Fin 3 → ℝ} (hw : dot w w = 1) : |dot w (horizontal θ φ x y)| ≤ 2 * M := by
  obtain ⟨-, h2, h3, -, -, -, -⟩ := Coord.use_rh θ φ
  have e : dot w (horizontal θ φ x y) = x * dot w (south θ φ) + y * dot w (east φ) := by
    simp only [dot, horizontal]
    ring
  have small : ∀ {x y : ℝ}, |x| ≤ M → |y| ≤ 1 → |x * y| ≤ M := by
    intro x y hx hy
    rw [abs_mul]
    calc |x| * |y| ≤ M * 1 := mul_le_mul hx hy (abs_nonneg _) ((abs_nonneg _).trans hx)
      _ = M := mul_one _
  rw [e]
  exact (abs_add_le _ _).trans ((add_le_add (small hx (dot_le hw h2)) (small hy (dot_le hw h3))).trans (le_of_eq (by ring)))

/-- **C105, forward.** For base vectors within `η` of a right-handed frame and horizontal components up to `M`: unless the point or the rotated point is a pole, the result has the angles of
`geo_to_base`, and the vector with the returned components at the returned point has the components of the given vector in the frame, to `1000 η M`. -/
theorem C105_forward {dot3 : FVec → FVec → F} (hd : IsDot3 dot3) {S C : ℝ → ℝ} {A : ℝ → ℝ → ℝ} (hS : IsSine S) (hC : IsCosine C) (hA : IsArctan2 A) {e1 e2 e3 w1 w2 w3 : Fin 3 → ℝ} {η : ℝ}
    (h0 : 1 / 10 ^ 14 ≤ η) (hη : η ≤ 1 / 10 ^ 5) (hw : RightHanded w1 w2 w3) (he : ∀ i, |e1 i - w1 i| ≤ η ∧ |e2 i - w2 i| ≤ η ∧ |e3 i - w3 i| ≤ η)
    {θ φ x y M : ℝ} (h1 : |θ| ≤ 360) (h2 : |φ| ≤ 360) (hM : (2 : ℝ) ^ (-100 : ℤ) ≤ M) (hM' : M ≤ (2 : ℝ) ^ (100 : ℤ)) (hx : |x| ≤ M) (hy : |y| ≤ M) :
    ∃ θ' φ', geoToBase R S C A θ φ (fun i => some (e1 i), fun i => some (e2 i), fun i => some (e3 i)) false = (some θ', some φ') ∧
      (polar R θ ∨ polar R θ' → rotateVectors R dot3 S C A (fun i => some (e1 i), fun i => some (e2 i), fun i => some (e3 i)) false θ φ x y = none) ∧
      (¬polar R θ → ¬polar R θ' → ∃ x' y', rotateVectors R dot3 S C A (fun i => some (e1 i), fun i => some (e2 i), fun i => some (e3 i)) false θ φ x y = some (some θ', some φ', some x', some y') ∧
        |horizontal θ' φ' x' y' 0 - dot w1 (horizontal θ φ x y)| ≤ 1000 * η * M ∧ |horizontal θ' φ' x' y' 1 - dot w2 (horizontal θ φ x y)| ≤ 1000 * η * M ∧
        |horizontal θ' φ' x' y' 2 - dot w3 (horizontal θ φ x y)| ≤ 1000 * η * M) := by
  obtain ⟨θ', φ', f1, f2, f3, f4, f5, f6, f7⟩ := C104_forward R hS hC hA h0 hη hw he h1 h2
  have hM0 : 0 < M := lt_of_lt_of_le (by positivity) hM
  have h3 : |θ'| ≤ 360 := abs_le.2 ⟨by norm_num at *; linarith, by norm_num at *; linarith⟩
  have h4 : |φ'| ≤ 360 := f4.trans (by norm_num)
  refine ⟨θ', φ', f1, ?_, ?_⟩
  · rintro (hp | hp)
    · simp only [rotateVectors, matrixGeoToBase, f1, Bool.false_eq_true, if_false, basevectorsUse, if_pos hp]
    · by_cases hq : polar R θ
      · simp only [rotateVectors, matrixGeoToBase, f1, Bool.false_eq_true, if_false, basevectorsUse, if_pos hq]
      · simp only [rotateVectors, matrixGeoToBase, f1, Bool.false_eq_true, if_false, basevectorsUse, if_pos hp, if_neg hq]
  · intro hp hp'
    obtain ⟨b, b', c, hb, hb', hc, hcd⟩ := rot_entries R hd hS hC h0 hη hw he h1 h2 h3 h4 hp hp'
    have hu := Coord.use_rh θ φ
    have hv := Coord.use_rh θ' φ'
    have X := component_err R h0 hη hM hM' (hcd 1 1) (hcd 1 2) (rows_le hw hu.2.1 hv.2.1) (rows_le hw hu.2.2.1 hv.2.1) hx hy
    have Y := component_err R h0 hη hM hM' (hcd 2 1) (hcd 2 2) (rows_le hw hu.2.1 hv.2.2.1) (rows_le hw hu.2.2.1 hv.2.2.1) hx hy
    have X' := (show _ from rows_horizontal w1 w2 w3 θ φ x y (south θ' φ')) ▸ X
    have Y' := (show _ from rows_horizontal w1 w2 w3 θ φ x y (east φ')) ▸ Y
    have res := local_vector (d := rows w1 w2 w3 (direction θ φ)) (p := rows w1 w2 w3 (horizontal θ φ x y)) (by norm_num at h0; linarith) hM0.le (fun i => by
        rw [rows_at]
        apply horizontal_le hx hy
        fin_cases i
        · exact hw.1
        · exact hw.2.1
        · exact hw.2.2.1) (by rw [rows_dot hw, horizontal_dot]) (fun i => by
        fin_cases i
        · exact f5
        · exact f6
        · exact f7) X' Y'
    refine ⟨_, _, ?_, res 0, res 1, res 2⟩
    simp only [rotateVectors, matrixGeoToBase, f1, Bool.false_eq_true, if_false, hb, hb', hc, fmul, fadd]

/-- The components along the local vectors of the other point, on the way back. -/
theorem combine_horizontal (w1 w2 w3 : Fin 3 → ℝ) (θ φ x y : ℝ) (v : Fin 3 → ℝ) :
    dot (south θ φ) (rows w1 w2 w3 v) * x + dot (east φ) (rows w1 w2 w3 v) * y = dot v (combine w1 w2 w3 (horizontal θ φ x y)) := by
  simp only [dot, rows, horizontal, combine, Matrix.cons_val_zero, Matrix.cons_val_one, Matrix.cons_val]
  ring

/-- **C105, inverse.** With `inverse=True` the vector at the point with the given coordinates in the frame. -/
theorem C105_inverse {dot3 : FVec → FVec → F} (hd : IsDot3 dot3) {S C : ℝ → ℝ} {A : ℝ → ℝ → ℝ} (hS : IsSine S) (hC : IsCosine C) (hA : IsArctan2 A) {e1 e2 e3 w1 w2 w3 : Fin 3 → ℝ} {η : ℝ}
    (h0 : 1 / 10 ^ 14 ≤ η) (hη : η ≤ 1 / 10 ^ 5) (hw : RightHanded w1 w2 w3) (he : ∀ i, |e1 i - w1 i| ≤ η ∧ |e2 i - w2 i| ≤ η ∧ |e3 i - w3 i| ≤ η)
    {θ φ x y M : ℝ} (h1 : |θ| ≤ 360) (h2 : |φ| ≤ 360) (hM : (2 : ℝ) ^ (-100 : ℤ) ≤ M) (hM' : M ≤ (2 : ℝ) ^ (100 : ℤ)) (hx : |x| ≤ M) (hy : |y| ≤ M) :
    ∃ θ' φ', geoToBase R S C A θ φ (fun i => some (e1 i), fun i => some (e2 i), fun i => some (e3 i)) true = (some θ', some φ') ∧
      (polar R θ ∨ polar R θ' → rotateVectors R dot3 S C A (fun i => some (e1 i), fun i => some (e2 i), fun i => some (e3 i)) true θ φ x y = none) ∧
      (¬polar R θ → ¬polar R θ' → ∃ x' y', rotateVectors R dot3 S C A (fun i => some (e1 i), fun i => some (e2 i), fun i => some (e3 i)) true θ φ x y = some (some θ', some φ', some x', some y') ∧
        ∀ i, |horizontal θ' φ' x' y' i - combine w1 w2 w3 (horizontal θ φ x y) i| ≤ 1000 * η * M) := by
  obtain ⟨θ', φ', f1, f2, f3, f4, f5⟩ := C104_inverse R hS hC hA h0 hη hw he h1 h2
  have hM0 : 0 < M := lt_of_lt_of_le (by positivity) hM
  have h3 : |θ'| ≤ 360 := abs_le.2 ⟨by norm_num at *; linarith, by norm_num at *; linarith⟩
  have h4 : |φ'| ≤ 360 := f4.trans (by norm_num)
  refine ⟨θ', φ', f1, ?_, ?_⟩
  · rintro (hp | hp)
    · by_cases hq : polar R θ'
      · simp only [rotateVectors, matrixGeoToBase, f1, if_true, basevectorsUse, if_pos hq]
      · simp only [rotateVectors, matrixGeoToBase, f1, if_true, basevectorsUse, if_pos hp, if_neg hq]
    · simp only [rotateVectors, matrixGeoToBase, f1, if_true, basevectorsUse, if_pos hp]
  · intro hp hp'
    obtain ⟨b, b', c, hb, hb', hc, hcd⟩ := rot_entries R hd hS hC h0 hη hw he h3 h4 h1 h2 hp' hp
    have hu := Coord.use_rh θ' φ'
    have hv := Coord.use_rh θ φ
    have X := component_err R h0 hη hM hM' (hcd 1 1) (hcd 2 1) (rows_le hw hu.2.1 hv.2.1) (rows_le hw hu.2.1 hv.2.2.1) hx hy
    have Y := component_err R h0 hη hM hM' (hcd 1 2) (hcd 2 2) (rows_le hw hu.2.2.1 hv.2.1) (rows_le hw hu.2.2.1 hv.2.2.1) hx hy
    have X' := (show _ from combine_horizontal w1 w2 w3 θ φ x y (south θ' φ')) ▸ X
    have Y' := (show _ from combine_horizontal w1 w2 w3 θ φ x y (east φ')) ▸ Y
    have res := local_vector (d := combine w1 w2 w3 (direction θ φ)) (p := combine w1 w2 w3 (horizontal θ φ x y)) (by norm_num at h0; linarith) hM0.le (fun i => by
        have := horizontal_le (θ := θ) (φ := φ) hx hy (unit_column hw i)
        refine le_trans (le_of_eq (congrArg abs ?_)) this
        simp only [dot, combine, Matrix.cons_val_zero, Matrix.cons_val_one, Matrix.cons_val]
        ring) (by rw [combine_dot hw, horizontal_dot]) f5 X' Y'
    refine ⟨_, _, ?_, res⟩
    simp only [rotateVectors, matrixGeoToBase, f1, if_true, hb, hb', hc, fmul, fadd]

/-- **C105, poles.** The colatitudes 0 and 180 raise the error; a colatitude up to 360 degrees raises it only if its cosine is within `1e-12` of 1 or -1 (`1.5e-6` radians from the axis). -/
theorem C105_poles : polar R 0 ∧ polar R 180 ∧ ∀ θ φ : ℝ, |θ| ≤ 360 → polar R θ → 1 - 1 / 10 ^ 12 ≤ |direction θ φ 2| := by
  refine ⟨Or.inl ?_, Or.inr ?_, ?_⟩
  · have h0 : R 0 = 0 := by
      have := rnd_int R (m := 0) (by norm_num)
      simpa using this
    rw [radians, zero_mul, h0]
  · rw [radians, rnd_deg, rnd_pi]
    exact rnd_val R 884279719003555 (-48) 1 (by norm_num) (by norm_num) (by norm_num) (by norm_num) (by norm_num [abs_of_pos]) (by norm_num [abs_of_pos]) (by norm_num [abs_lt])
  · intro θ φ h hp
    have e1 := (radians_err_wide R h).1
    have e : direction θ φ 2 = Real.cos (rad θ) := by
      simp only [direction, Matrix.cons_val]
      congr 1
      unfold rad
      ring
    have e2 := (Real.abs_cos_sub_cos_le (radians R θ) (rad θ)).trans e1
    rw [e]
    rcases hp with hp | hp
    · rw [hp, Real.cos_zero] at e2
      have := abs_le.1 e2
      have b := le_abs_self (Real.cos (rad θ))
      norm_num at *
      linarith [this.2]
    · have e3 := Real.abs_cos_sub_cos_le (R Real.pi) Real.pi
      have e4 := rnd_err R (x := Real.pi) (k := 2) (by rw [abs_of_pos Real.pi_pos]; have := Real.pi_lt_d4; norm_num at *; linarith) (by norm_num) (by norm_num)
      rw [Real.cos_pi] at e3
      rw [hp] at e2
      have a2 := abs_le.1 e2
      have a3 := abs_le.1 (e3.trans e4)
      have b := neg_le_abs (Real.cos (rad θ))
      norm_num at *
      linarith [a2.1, a3.2]

/-- The components of a horizontal vector. -/
theorem horizontal_components {θ φ x y B : ℝ} (h : ∀ i, |horizontal θ φ x y i| ≤ B) : |x| ≤ 3 * B ∧ |y| ≤ 3 * B := by
  obtain ⟨-, h2, h3, -, -, h4, -⟩ := Coord.use_rh θ φ
  have e1 : x = dot (south θ φ) (horizontal θ φ x y) := by
    simp only [dot, horizontal] at *
    linear_combination -x * h2 - y * h4
  have e2 : y = dot (east φ) (horizontal θ φ x y) := by
    simp only [dot, horizontal] at *
    linear_combination -y * h3 - x * h4
  have key : ∀ {w : Fin 3 → ℝ}, dot w w = 1 → |dot w (horizontal θ φ x y)| ≤ 3 * B := by
    intro w hw
    have one : ∀ i, |w i * horizontal θ φ x y i| ≤ B := by
      intro i
      rw [abs_mul]
      calc |w i| * |horizontal θ φ x y i| ≤ 1 * B := mul_le_mul (unit_le hw i) (h i) (abs_nonneg _) (by norm_num)
        _ = B := one_mul B
    unfold dot
    exact (abs_add_le _ _).trans ((add_le_add ((abs_add_le _ _).trans (add_le_add (one 0) (one 1))) (one 2)).trans (le_of_eq (by ring)))
  exact ⟨(congrArg abs e1).le.trans (key h2), (congrArg abs e2).le.trans (key h3)⟩

/-- **C105, round trip.** Unless one of the three points is a pole, the transformation and its inverse return the vector, to `10000 η M` in each cartesian component. -/
theorem C105_round_trip {dot3 : FVec → FVec → F} (hd : IsDot3 dot3) {S C : ℝ → ℝ} {A : ℝ → ℝ → ℝ} (hS : IsSine S) (hC : IsCosine C) (hA : IsArctan2 A) {e1 e2 e3 w1 w2 w3 : Fin 3 → ℝ} {η : ℝ}
    (h0 : 1 / 10 ^ 14 ≤ η) (hη : η ≤ 1 / 10 ^ 5) (hw : RightHanded w1 w2 w3) (he : ∀ i, |e1 i - w1 i| ≤ η ∧ |e2 i - w2 i| ≤ η ∧ |e3 i - w3 i| ≤ η)
    {θ φ x y M : ℝ} (h1 : |θ| ≤ 360) (h2 : |φ| ≤ 360) (hM : (2 : ℝ) ^ (-100 : ℤ) ≤ M) (hM' : M ≤ (2 : ℝ) ^ (90 : ℤ)) (hx : |x| ≤ M) (hy : |y| ≤ M) :
    ∃ θ' φ' θ'' φ'', geoToBase R S C A θ φ (fun i => some (e1 i), fun i => some (e2 i), fun i => some (e3 i)) false = (some θ', some φ') ∧
      geoToBase R S C A θ' φ' (fun i => some (e1 i), fun i => some (e2 i), fun i => some (e3 i)) true = (some θ'', some φ'') ∧
      (¬polar R θ → ¬polar R θ' → ¬polar R θ'' → ∃ x' y' x'' y'',
        rotateVectors R dot3 S C A (fun i => some (e1 i), fun i => some (e2 i), fun i => some (e3 i)) false θ φ x y = some (some θ', some φ', some x', some y') ∧
        rotateVectors R dot3 S C A (fun i => some (e1 i), fun i => some (e2 i), fun i => some (e3 i)) true θ' φ' x' y' = some (some θ'', some φ'', some x'', some y'') ∧
        ∀ i, |horizontal θ'' φ'' x'' y'' i - horizontal θ φ x y i| ≤ 10000 * η * M) := by
  have hM0 : 0 < M := lt_of_lt_of_le (by positivity) hM
  have hM7 : (2 : ℝ) ^ (-100 : ℤ) ≤ 7 * M := hM.trans (by linarith only [hM0])
  have hM7' : 7 * M ≤ (2 : ℝ) ^ (100 : ℤ) :=
    calc 7 * M ≤ 7 * (2 : ℝ) ^ (90 : ℤ) := mul_le_mul_of_nonneg_left hM' (by norm_num)
      _ ≤ _ := by norm_num
  have hηM : 0 ≤ η * M := mul_nonneg (by norm_num at h0; linarith) hM0.le
  have hηM' : η * M ≤ 1 / 10 ^ 5 * M := mul_le_mul_of_nonneg_right hη hM0.le
  obtain ⟨θ', φ', f1, f2, f3, f4, -⟩ := C104_forward R hS hC hA h0 hη hw he h1 h2
  have h3 : |θ'| ≤ 360 := abs_le.2 ⟨by norm_num at *; linarith, by norm_num at *; linarith⟩
  have h4 : |φ'| ≤ 360 := f4.trans (by norm_num)
  obtain ⟨θ'', φ'', g1, -⟩ := C104_inverse R hS hC hA h0 hη hw he h3 h4
  refine ⟨θ', φ', θ'', φ'', f1, g1, fun p1 p2 p3 => ?_⟩
  obtain ⟨_, _, a1, -, a3⟩ := C105_forward R hd hS hC hA h0 hη hw he h1 h2 hM (hM'.trans (zpow_le_zpow_right₀ (by norm_num) (by norm_num))) hx hy
  rw [f1] at a1
  simp only [Prod.mk.injEq, Option.some.injEq] at a1
  obtain ⟨rfl, rfl⟩ := a1
  obtain ⟨x', y', r1, r2, r3, r4⟩ := a3 p1 p2
  have b : ∀ i, |horizontal θ' φ' x' y' i| ≤ 7 / 3 * M := by
    intro i
    have q : ∀ {z w : ℝ}, |z - w| ≤ 1000 * η * M → |w| ≤ 2 * M → |z| ≤ 7 / 3 * M := by
      intro z w hz hw
      refine (abs_of_close hz hw).trans ?_
      norm_num at hηM'
      linarith only [hηM', hM0]
    fin_cases i
    · exact q r2 (horizontal_le hx hy hw.1)
    · exact q r3 (horizontal_le hx hy hw.2.1)
    · exact q r4 (horizontal_le hx hy hw.2.2.1)
  obtain ⟨bx, bY⟩ := horizontal_components b
  obtain ⟨_, _, c1, -, c3⟩ := C105_inverse R hd hS hC hA h0 hη hw he h3 h4 hM7 hM7' (bx.trans (by linarith only [hM0])) (bY.trans (by linarith only [hM0]))
  rw [g1] at c1
  simp only [Prod.mk.injEq, Option.some.injEq] at c1
  obtain ⟨rfl, rfl⟩ := c1
  obtain ⟨x'', y'', t1, t2⟩ := c3 p2 p3
  refine ⟨x', y', x'', y'', r1, t1, fun i => ?_⟩
  have hr := congrFun (Coord.rh_rows hw (horizontal θ φ x y)) i
  have e : horizontal θ'' φ'' x'' y'' i - horizontal θ φ x y i = (horizontal θ'' φ'' x'' y'' i - combine w1 w2 w3 (horizontal θ' φ' x' y') i) +
      ((horizontal θ' φ' x' y' 0 - dot w1 (horizontal θ φ x y)) * w1 i +
      ((horizontal θ' φ' x' y' 1 - dot w2 (horizontal θ φ x y)) * w2 i + (horizontal θ' φ' x' y' 2 - dot w3 (horizontal θ φ x y)) * w3 i)) := by
    rw [← hr]
    simp only [combine, Matrix.cons_val_zero, Matrix.cons_val_one, Matrix.cons_val]
    ring
  have small : ∀ {x e y : ℝ}, |x| ≤ e → |y| ≤ 1 → |x * y| ≤ e := by
    intro x e y hx hy
    rw [abs_mul]
    calc |x| * |y| ≤ e * 1 := mul_le_mul hx hy (abs_nonneg _) ((abs_nonneg _).trans hx)
      _ = e := mul_one _
  rw [e]
  refine (abs_add_le _ _).trans ((add_le_add (t2 i) ((abs_add_le _ _).trans (add_le_add (small r2 (unit_le hw.1 i)) ((abs_add_le _ _).trans
    (add_le_add (small r3 (unit_le hw.2.1 i)) (small r4 (unit_le hw.2.2.1 i))))))).trans (le_of_eq (by ring)))

/-- The same without the condition on the poles: for a point at least 1.2 degrees away from the axes of both systems. -/
theorem round_trip_away {dot3 : FVec → FVec → F} (hd : IsDot3 dot3) {S C : ℝ → ℝ} {A : ℝ → ℝ → ℝ} (hS : IsSine S) (hC : IsCosine C) (hA : IsArctan2 A) {e1 e2 e3 w1 w2 w3 : Fin 3 → ℝ} {η : ℝ}
    (h0 : 1 / 10 ^ 14 ≤ η) (hη : η ≤ 1 / 10 ^ 8) (hw : RightHanded w1 w2 w3) (he : ∀ i, |e1 i - w1 i| ≤ η ∧ |e2 i - w2 i| ≤ η ∧ |e3 i - w3 i| ≤ η)
    {θ φ x y M : ℝ} (h1 : |θ| ≤ 360) (h2 : |φ| ≤ 360) (hM : (2 : ℝ) ^ (-100 : ℤ) ≤ M) (hM' : M ≤ (2 : ℝ) ^ (90 : ℤ)) (hx : |x| ≤ M) (hy : |y| ≤ M) (hz : |direction θ φ 2| ≤ 9998 / 10000) :
    ∃ θ' φ', geoToBase R S C A θ φ (fun i => some (e1 i), fun i => some (e2 i), fun i => some (e3 i)) false = (some θ', some φ') ∧ (|direction θ' φ' 2| ≤ 9998 / 10000 →
      ∃ θ'' φ'' x' y' x'' y'',
        rotateVectors R dot3 S C A (fun i => some (e1 i), fun i => some (e2 i), fun i => some (e3 i)) false θ φ x y = some (some θ', some φ', some x', some y') ∧
        rotateVectors R dot3 S C A (fun i => some (e1 i), fun i => some (e2 i), fun i => some (e3 i)) true θ' φ' x' y' = some (some θ'', some φ'', some x'', some y'') ∧
        ∀ i, |direction θ'' φ'' i - direction θ φ i| ≤ 560 * η ∧ |horizontal θ'' φ'' x'' y'' i - horizontal θ φ x y i| ≤ 10000 * η * M) := by
  have hη5 : η ≤ 1 / 10 ^ 5 := hη.trans (by norm_num)
  obtain ⟨θ', φ', θ'', φ'', a1, a2, a3⟩ := C105_round_trip R hd hS hC hA h0 hη5 hw he h1 h2 hM hM' hx hy
  obtain ⟨_, _, b1, f2, f3, f4, -⟩ := C104_forward R hS hC hA h0 hη5 hw he h1 h2
  rw [a1] at b1
  simp only [Prod.mk.injEq, Option.some.injEq] at b1
  obtain ⟨rfl, rfl⟩ := b1
  have h3 : |θ'| ≤ 360 := abs_le.2 ⟨by norm_num at *; linarith, by norm_num at *; linarith⟩
  have h4 : |φ'| ≤ 360 := f4.trans (by norm_num)
  obtain ⟨_, _, c1, g2, g3, g4, -⟩ := C104_inverse R hS hC hA h0 hη5 hw he h3 h4
  rw [a2] at c1
  simp only [Prod.mk.injEq, Option.some.injEq] at c1
  obtain ⟨rfl, rfl⟩ := c1
  have h5 : |θ''| ≤ 360 := abs_le.2 ⟨by norm_num at *; linarith, by norm_num at *; linarith⟩
  obtain ⟨_, _, _, _, d1, d2, d3⟩ := C104_round_trip R hS hC hA h0 hη5 hw he h1 h2
  rw [a1] at d1
  simp only [Prod.mk.injEq, Option.some.injEq] at d1
  obtain ⟨rfl, rfl⟩ := d1
  rw [a2] at d2
  simp only [Prod.mk.injEq, Option.some.injEq] at d2
  obtain ⟨rfl, rfl⟩ := d2
  refine ⟨θ', φ', a1, fun hz' => ?_⟩
  have np : ∀ {α β : ℝ}, |α| ≤ 360 → |direction α β 2| ≤ 9999 / 10000 → ¬polar R α := by
    intro α β hα hb hp
    have := (C105_poles R).2.2 α β hα hp
    norm_num at this hb
    linarith only [this, hb]
  obtain ⟨x', y', x'', y'', r1, r2, r3⟩ := a3 (np h1 (hz.trans (by norm_num))) (np h3 (hz'.trans (by norm_num))) (np h5 ((abs_of_close (d3 2) hz).trans (by norm_num at hη ⊢; linarith only [hη])))
  exact ⟨θ'', φ'', x', y', x'', y'', r1, r2, fun i => ⟨d3 i, r3 i⟩⟩

/-- **C105, GSM and SM.** For a dipole whose axis is within 25 degrees of the rotation axis, at every time, for every point at least 1.2 degrees away from the axes of both systems and every horizontal vector with
components up to `M`: `transform_vectors` to GSM or SM followed by the inverse transformation returns the point and the vector, to `2e-9` and `2e-8 M`. -/
theorem C105_transform {sum3 : F → F → F → F} (hs : IsSum3 R sum3) {dot3 : FVec → FVec → F} (hd3 : IsDot3 dot3) (p : SunPlatform) (hS : IsSine p.sin) (hC : IsCosine p.cos)
    (hT : ∀ x, |x| < Real.pi / 2 → |p.tan x - Real.tan x| ≤ 4 / 2 ^ 52 * |Real.tan x|)
    (hat : ∀ x, |p.arctan x - Real.arctan x| ≤ 2⁻¹ ^ 51) (hA : IsArctan2 p.arctan2) {g10 g11 h11 : ℝ} (h1 : (2 : ℝ) ^ (-90 : ℤ) ≤ Real.sqrt (g10 ^ 2 + g11 ^ 2 + h11 ^ 2))
    (h2 : Real.sqrt (g10 ^ 2 + g11 ^ 2 + h11 ^ 2) ≤ (2 : ℝ) ^ (90 : ℤ)) (hax : 9 / 10 * Real.sqrt (g10 ^ 2 + g11 ^ 2 + h11 ^ 2) ≤ |g10|) {t : ℝ} (hd : IsDouble t) (h : |t| ≤ 36525)
    {reference : Reference} (href : reference ≠ .mag) {θ φ x y M : ℝ} (h3 : |θ| ≤ 360) (h4 : |φ| ≤ 360) (hM : (2 : ℝ) ^ (-100 : ℤ) ≤ M) (hM' : M ≤ (2 : ℝ) ^ (90 : ℤ)) (hx : |x| ≤ M) (hy : |y| ≤ M)
    (hz : |direction θ φ 2| ≤ 9998 / 10000) :
    ∃ θ' φ', transformPoints R sum3 p g10 g11 h11 reference false θ φ t = (some θ', some φ') ∧ (|direction θ' φ' 2| ≤ 9998 / 10000 →
      ∃ θ'' φ'' x' y' x'' y'', transformVectors R sum3 dot3 p g10 g11 h11 reference false θ φ x y t = some (some θ', some φ', some x', some y') ∧
        transformVectors R sum3 dot3 p g10 g11 h11 reference true θ' φ' x' y' t = some (some θ'', some φ'', some x'', some y'') ∧
        ∀ i, |direction θ'' φ'' i - direction θ φ i| ≤ 2 / 10 ^ 9 ∧ |horizontal θ'' φ'' x'' y'' i - horizontal θ φ x y i| ≤ 2 / 10 ^ 8 * M) := by
  obtain ⟨e1, e2, e3, s1, s2, s3, hg, hsm, ⟨w1, w2, w3, hw, he⟩, u1, u2, u3, hu, hf⟩ := C103_always R hs p hS hC hT hat hA h1 h2 hax hd h
  cases reference with
  | gsm =>
    obtain ⟨θ', φ', a1, a2⟩ := round_trip_away R hd3 hS hC hA (by norm_num) (by norm_num) hw he h3 h4 hM hM' hx hy hz
    refine ⟨θ', φ', ?_, fun hz' => ?_⟩
    · simp only [transformPoints]
      rw [hg]
      exact a1
    · obtain ⟨θ'', φ'', x', y', x'', y'', b1, b2, b3⟩ := a2 hz'
      refine ⟨θ'', φ'', x', y', x'', y'', ?_, ?_, fun i => ⟨(b3 i).1.trans (by norm_num), (b3 i).2.trans (le_of_eq (by norm_num))⟩⟩
      · simp only [transformVectors]
        rw [hg]
        exact b1
      · simp only [transformVectors]
        rw [hg]
        exact b2
  | sm =>
    obtain ⟨θ', φ', a1, a2⟩ := round_trip_away R hd3 hS hC hA (by norm_num) (by norm_num) hu hf h3 h4 hM hM' hx hy hz
    refine ⟨θ', φ', ?_, fun hz' => ?_⟩
    · simp only [transformPoints]
      rw [hsm]
      exact a1
    · obtain ⟨θ'', φ'', x', y', x'', y'', b1, b2, b3⟩ := a2 hz'
      refine ⟨θ'', φ'', x', y', x'', y'', ?_, ?_, fun i => ⟨(b3 i).1.trans (by norm_num), (b3 i).2.trans (le_of_eq (by norm_num))⟩⟩
      · simp only [transformVectors]
        rw [hsm]
        exact b1
      · simp only [transformVectors]
        rw [hsm]
        exact b2
  | mag => exact absurd rfl href

/-- **C105, accuracy of GSM.** The vector with the returned components at the returned point has the components of the given vector in the GSM frame of the exact formulas (as in `C104_gsm`), to `2e-5 M`. -/
theorem C105_gsm {sum3 : F → F → F → F} (hs : IsSum3 R sum3) {dot3 : FVec → FVec → F} (hd3 : IsDot3 dot3) (p : SunPlatform) (hS : IsSine p.sin) (hC : IsCosine p.cos)
    (hT : ∀ x, |x| < Real.pi / 2 → |p.tan x - Real.tan x| ≤ 4 / 2 ^ 52 * |Real.tan x|)
    (hat : ∀ x, |p.arctan x - Real.arctan x| ≤ 2⁻¹ ^ 51) (hA : IsArctan2 p.arctan2) {g10 g11 h11 : ℝ} (h1 : (2 : ℝ) ^ (-90 : ℤ) ≤ Real.sqrt (g10 ^ 2 + g11 ^ 2 + h11 ^ 2))
    (h2 : Real.sqrt (g10 ^ 2 + g11 ^ 2 + h11 ^ 2) ≤ (2 : ℝ) ^ (90 : ℤ)) (hax : 9 / 10 * Real.sqrt (g10 ^ 2 + g11 ^ 2 + h11 ^ 2) ≤ |g10|) {t : ℝ} (hd : IsDouble t) (h : |t| ≤ 36525)
    {θ φ x y M : ℝ} (h3 : |θ| ≤ 360) (h4 : |φ| ≤ 360) (hM : (2 : ℝ) ^ (-100 : ℤ) ≤ M) (hM' : M ≤ (2 : ℝ) ^ (100 : ℤ)) (hx : |x| ≤ M) (hy : |y| ≤ M) :
    ∃ θ' φ' w2 w3, transformPoints R sum3 p g10 g11 h11 .gsm false θ φ t = (some θ', some φ') ∧ RightHanded (sunDir t) w2 w3 ∧ dot ![g11, h11, g10] w2 = 0 ∧ dot ![g11, h11, g10] w3 < 0 ∧
      (¬polar R θ → ¬polar R θ' → ∃ x' y', transformVectors R sum3 dot3 p g10 g11 h11 .gsm false θ φ x y t = some (some θ', some φ', some x', some y') ∧
        |horizontal θ' φ' x' y' 0 - dot (sunDir t) (horizontal θ φ x y)| ≤ 2 / 10 ^ 5 * M ∧ |horizontal θ' φ' x' y' 1 - dot w2 (horizontal θ φ x y)| ≤ 2 / 10 ^ 5 * M ∧
        |horizontal θ' φ' x' y' 2 - dot w3 (horizontal θ φ x y)| ≤ 2 / 10 ^ 5 * M) := by
  obtain ⟨v, m, ev, hm, hv, k0, k1, k2⟩ := C103_dipole_coeffs R hs h1 h2
  have hN : 0 < Real.sqrt (g10 ^ 2 + g11 ^ 2 + h11 ^ 2) := lt_of_lt_of_le (by positivity) h1
  have hdip : ∀ w, dot ![g11, h11, g10] w = -Real.sqrt (g10 ^ 2 + g11 ^ 2 + h11 ^ 2) * dot m w := by
    intro w
    simp only [dot, Matrix.cons_val_zero, Matrix.cons_val_one, Matrix.cons_val]
    linear_combination w 0 * k0 + w 1 * k1 + w 2 * k2
  have hm2 : 9 / 10 ≤ |m 2| := by
    rw [k2, abs_mul, abs_neg, ← k2, abs_of_pos hN, mul_comm] at hax
    exact le_of_mul_le_mul_left hax hN
  obtain ⟨e1, e2, e3, hb, -, w2, w3, hw, q1, q2, he⟩ := C103_gsm R hs p hS hC hT hat hA hd h hm hv (C103_angle h hm hm2)
  obtain ⟨θ', φ', f1, -, f2⟩ := C105_forward R hd3 hS hC hA (by norm_num) (by norm_num) hw he h3 h4 hM hM' hx hy
  refine ⟨θ', φ', w2, w3, ?_, hw, by rw [hdip, q1, mul_zero], by rw [hdip]; exact mul_neg_of_neg_of_pos (by linarith) q2, fun hp hp' => ?_⟩
  · simp only [transformPoints]
    rw [ev, hb]
    exact f1
  · obtain ⟨x', y', r1, r2, r3, r4⟩ := f2 hp hp'
    refine ⟨x', y', ?_, r2.trans (le_of_eq (by norm_num)), r3.trans (le_of_eq (by norm_num)), r4.trans (le_of_eq (by norm_num))⟩
    simp only [transformVectors]
    rw [ev, hb]
    exact r1

/-- **C105, accuracy of SM.** The same for SM (as in `C104_sm`). -/
theorem C105_sm {sum3 : F → F → F → F} (hs : IsSum3 R sum3) {dot3 : FVec → FVec → F} (hd3 : IsDot3 dot3) (p : SunPlatform) (hS : IsSine p.sin) (hC : IsCosine p.cos)
    (hT : ∀ x, |x| < Real.pi / 2 → |p.tan x - Real.tan x| ≤ 4 / 2 ^ 52 * |Real.tan x|)
    (hat : ∀ x, |p.arctan x - Real.arctan x| ≤ 2⁻¹ ^ 51) (hA : IsArctan2 p.arctan2) {g10 g11 h11 : ℝ} (h1 : (2 : ℝ) ^ (-90 : ℤ) ≤ Real.sqrt (g10 ^ 2 + g11 ^ 2 + h11 ^ 2))
    (h2 : Real.sqrt (g10 ^ 2 + g11 ^ 2 + h11 ^ 2) ≤ (2 : ℝ) ^ (90 : ℤ)) (hax : 9 / 10 * Real.sqrt (g10 ^ 2 + g11 ^ 2 + h11 ^ 2) ≤ |g10|) {t : ℝ} (hd : IsDouble t) (h : |t| ≤ 36525)
    {θ φ x y M : ℝ} (h3 : |θ| ≤ 360) (h4 : |φ| ≤ 360) (hM : (2 : ℝ) ^ (-100 : ℤ) ≤ M) (hM' : M ≤ (2 : ℝ) ^ (100 : ℤ)) (hx : |x| ≤ M) (hy : |y| ≤ M) :
    ∃ θ' φ' w1 w2 w3, transformPoints R sum3 p g10 g11 h11 .sm false θ φ t = (some θ', some φ') ∧ RightHanded w1 w2 w3 ∧
      (∀ w, dot ![g11, h11, g10] w = -Real.sqrt (g10 ^ 2 + g11 ^ 2 + h11 ^ 2) * dot w3 w) ∧ dot (sunDir t) w2 = 0 ∧ 0 < dot (sunDir t) w1 ∧
      (¬polar R θ → ¬polar R θ' → ∃ x' y', transformVectors R sum3 dot3 p g10 g11 h11 .sm false θ φ x y t = some (some θ', some φ', some x', some y') ∧
        |horizontal θ' φ' x' y' 0 - dot w1 (horizontal θ φ x y)| ≤ 2 / 10 ^ 5 * M ∧ |horizontal θ' φ' x' y' 1 - dot w2 (horizontal θ φ x y)| ≤ 2 / 10 ^ 5 * M ∧
        |horizontal θ' φ' x' y' 2 - dot w3 (horizontal θ φ x y)| ≤ 2 / 10 ^ 5 * M) := by
  obtain ⟨v, m, ev, hm, hv, k0, k1, k2⟩ := C103_dipole_coeffs R hs h1 h2
  have hN : 0 < Real.sqrt (g10 ^ 2 + g11 ^ 2 + h11 ^ 2) := lt_of_lt_of_le (by positivity) h1
  have hdip : ∀ w, dot ![g11, h11, g10] w = -Real.sqrt (g10 ^ 2 + g11 ^ 2 + h11 ^ 2) * dot m w := by
    intro w
    simp only [dot, Matrix.cons_val_zero, Matrix.cons_val_one, Matrix.cons_val]
    linear_combination w 0 * k0 + w 1 * k1 + w 2 * k2
  have hm2 : 9 / 10 ≤ |m 2| := by
    rw [k2, abs_mul, abs_neg, ← k2, abs_of_pos hN, mul_comm] at hax
    exact le_of_mul_le_mul_left hax hN
  obtain ⟨e1, e2, e3, hb, -, w1, w2, hw, q1, q2, he⟩ := C103_sm R hs p hS hC hT hat hA hd h hm hv (C103_angle h hm hm2)
  obtain ⟨θ', φ', f1, -, f2⟩ := C105_forward R hd3 hS hC hA (η := 2 / 10 ^ 8) (by norm_num) (by norm_num) hw
    (fun i => ⟨(he i).1, (he i).2.1, (he i).2.2.trans (by norm_num)⟩) h3 h4 hM hM' hx hy
  refine ⟨θ', φ', w1, w2, m, ?_, hw, hdip, q1, q2, fun hp hp' => ?_⟩
  · simp only [transformPoints]
    rw [ev, hb]
    exact f1
  · obtain ⟨x', y', r1, r2, r3, r4⟩ := f2 hp hp'
    refine ⟨x', y', ?_, r2.trans (le_of_eq (by norm_num)), r3.trans (le_of_eq (by norm_num)), r4.trans (le_of_eq (by norm_num))⟩
    simp only [transformVectors]
    rw [ev, hb]
    exact r1

/-- **C105, MAG.** The round trip for MAG, for a dipole at least 0.6 degrees away from the rotation axis. -/
theorem C105_transform_mag {sum3 : F → F → F → F} (hs : IsSum3 R sum3) {dot3 : FVec → FVec → F} (hd3 : IsDot3 dot3) (p : SunPlatform) (hS : IsSine p.sin) (hC : IsCosine p.cos) (hA : IsArctan2 p.arctan2)
    {g10 g11 h11 : ℝ} (h1 : (2 : ℝ) ^ (-90 : ℤ) ≤ Real.sqrt (g10 ^ 2 + g11 ^ 2 + h11 ^ 2))
    (h2 : Real.sqrt (g10 ^ 2 + g11 ^ 2 + h11 ^ 2) ≤ (2 : ℝ) ^ (90 : ℤ)) (hax : 1 / 100 * Real.sqrt (g10 ^ 2 + g11 ^ 2 + h11 ^ 2) ≤ Real.sqrt (g11 ^ 2 + h11 ^ 2)) {t : ℝ}
    {θ φ x y M : ℝ} (h3 : |θ| ≤ 360) (h4 : |φ| ≤ 360) (hM : (2 : ℝ) ^ (-100 : ℤ) ≤ M) (hM' : M ≤ (2 : ℝ) ^ (90 : ℤ)) (hx : |x| ≤ M) (hy : |y| ≤ M)
    (hz : |direction θ φ 2| ≤ 9998 / 10000) :
    ∃ θ' φ', transformPoints R sum3 p g10 g11 h11 .mag false θ φ t = (some θ', some φ') ∧ (|direction θ' φ' 2| ≤ 9998 / 10000 →
      ∃ θ'' φ'' x' y' x'' y'', transformVectors R sum3 dot3 p g10 g11 h11 .mag false θ φ x y t = some (some θ', some φ', some x', some y') ∧
        transformVectors R sum3 dot3 p g10 g11 h11 .mag true θ' φ' x' y' t = some (some θ'', some φ'', some x'', some y'') ∧
        ∀ i, |direction θ'' φ'' i - direction θ φ i| ≤ 6 / 10 ^ 8 ∧ |horizontal θ'' φ'' x'' y'' i - horizontal θ φ x y i| ≤ 1 / 10 ^ 6 * M) := by
  obtain ⟨v, m, ev, hm, hv, k0, k1, -⟩ := C103_dipole_coeffs R hs h1 h2
  have hN : 0 < Real.sqrt (g10 ^ 2 + g11 ^ 2 + h11 ^ 2) := lt_of_lt_of_le (by positivity) h1
  have hm2 : 1 / 100 ≤ Real.sqrt (m 0 ^ 2 + m 1 ^ 2) := by
    generalize Real.sqrt (g10 ^ 2 + g11 ^ 2 + h11 ^ 2) = N at *
    rw [k0, k1, show (-N * m 0) ^ 2 + (-N * m 1) ^ 2 = N ^ 2 * (m 0 ^ 2 + m 1 ^ 2) by ring, Real.sqrt_mul (by positivity), Real.sqrt_sq hN.le, mul_comm] at hax
    exact le_of_mul_le_mul_left hax hN
  obtain ⟨e1, e2, e3, hb, w1, w2, hw, -, -, he⟩ := C103_mag R hs hm hv hm2
  obtain ⟨θ', φ', a1, a2⟩ := round_trip_away R hd3 hS hC hA (η := 1 / 10 ^ 10) (by norm_num) (by norm_num) hw
    (fun i => ⟨(he i).1, (he i).2.1, (he i).2.2.trans (by norm_num)⟩) h3 h4 hM hM' hx hy hz
  refine ⟨θ', φ', ?_, fun hz' => ?_⟩
  · simp only [transformPoints]
    rw [ev, hb]
    exact a1
  · obtain ⟨θ'', φ'', x', y', x'', y'', b1, b2, b3⟩ := a2 hz'
    refine ⟨θ'', φ'', x', y', x'', y'', ?_, ?_, fun i => ⟨(b3 i).1.trans (by norm_num), (b3 i).2.trans (le_of_eq (by norm_num))⟩⟩
    · simp only [transformVectors]
      rw [ev, hb]
      exact b1
    · simp only [transformVectors]
      rw [ev, hb]
      exact b2

end ChaosMagPy.FloatBase
