import Verif.Lemmas.FloatTransform
import Verif.Lemmas.Coord
import Verif.Props.FloatBase
/-!
# C104: `geo_to_base` and `transform_points` in double precision
-/
namespace ChaosMagPy.FloatBase
open ChaosMagPy.Spec ChaosMagPy.Float ChaosMagPy.FloatLegendre ChaosMagPy.FloatGeod ChaosMagPy.FloatSun

variable (R : Rounding)

/-- A point, and its coordinates computed from three rows next to orthonormal ones. -/
theorem rows_point {S C : ℝ → ℝ} {A : ℝ → ℝ → ℝ} (hS : IsSine S) (hC : IsCosine C) (hA : IsArctan2 A) {r1 r2 r3 v1 v2 v3 : Fin 3 → ℝ} {η : ℝ} (h0 : 1 / 10 ^ 14 ≤ η)
    (hη : η ≤ 1 / 10 ^ 5) (hv : ∀ i, |v1 i| ≤ 1 ∧ |v2 i| ≤ 1 ∧ |v3 i| ≤ 1) (he : ∀ i, |r1 i - v1 i| ≤ η ∧ |r2 i - v2 i| ≤ η ∧ |r3 i - v3 i| ≤ η)
    {θ φ : ℝ} (h1 : |θ| ≤ 360) (h2 : |φ| ≤ 360)
    (hu : dot (![dot v1 (direction θ φ), dot v2 (direction θ φ), dot v3 (direction θ φ)] : Fin 3 → ℝ) ![dot v1 (direction θ φ), dot v2 (direction θ φ), dot v3 (direction θ φ)] = 1) :
    ∃ x y z x' y' z' θ' φ', FloatCoord.sphericalToCartesian R C S 1 θ φ = (x, y, z) ∧
      row R (some (r1 0)) (some (r1 1)) (some (r1 2)) x y z = some x' ∧ row R (some (r2 0)) (some (r2 1)) (some (r2 2)) x y z = some y' ∧
      row R (some (r3 0)) (some (r3 1)) (some (r3 2)) x y z = some z' ∧ (FloatCoord.cartesianToSpherical R A (x', y', z')).2 = (θ', φ') ∧
      -1 / 10 ^ 11 ≤ θ' ∧ θ' ≤ 180 + 1 / 10 ^ 11 ∧ |φ'| ≤ 180 + 1 / 10 ^ 11 ∧
      ∀ i, |direction θ' φ' i - (![dot v1 (direction θ φ), dot v2 (direction θ φ), dot v3 (direction θ φ)] : Fin 3 → ℝ) i| ≤ 140 * η := by
  obtain ⟨x, y, z, e2, g1, g2, g3⟩ := FloatCoord.C96_cartesian R hC hS (r := 1) (by norm_num) (by norm_num) h1 h2
  rw [one_mul, one_mul] at g1 g2 g3
  have hd : ∀ i, |(![x, y, z] : Fin 3 → ℝ) i - direction θ φ i| ≤ η := by
    have k : (2⁻¹ : ℝ) ^ 47 ≤ η := le_trans (by norm_num) h0
    intro i
    fin_cases i
    · exact g1.trans k
    · exact g2.trans k
    · exact g3.trans k
  have bd := unit_le (direction_unit θ φ)
  have x1 := row_err R h0 hη (fun i => (hv i).1) bd (fun i => (he i).1) hd
  have x2 := row_err R h0 hη (fun i => (hv i).2.1) bd (fun i => (he i).2.1) hd
  have x3 := row_err R h0 hη (fun i => (hv i).2.2) bd (fun i => (he i).2.2) hd
  have k1 : 3 / 10 ^ 14 ≤ 7 * η := by norm_num at *; linarith
  have k2 : 7 * η ≤ 1 / 10 ^ 3 := by norm_num at *; linarith
  obtain ⟨q1, q2, q3, dir⟩ := spherical_direction R hA hu k1 k2 x1 x2 x3
  refine ⟨x, y, z, _, _, _, _, _, e2, rfl, rfl, rfl, rfl, q1, q2, q3, fun i => (dir i).trans (by linarith)⟩

/-- **C104, forward.** For base vectors within `η` (from `1e-14` to `1e-5`) of a right-handed frame, `geo_to_base` returns numbers: the coordinates of the point in that frame, with an error of
at most `140 η` in each component of the direction. -/
theorem C104_forward {S C : ℝ → ℝ} {A : ℝ → ℝ → ℝ} (hS : IsSine S) (hC : IsCosine C) (hA : IsArctan2 A) {e1 e2 e3 w1 w2 w3 : Fin 3 → ℝ} {η : ℝ} (h0 : 1 / 10 ^ 14 ≤ η)
    (hη : η ≤ 1 / 10 ^ 5) (hw : RightHanded w1 w2 w3) (he : ∀ i, |e1 i - w1 i| ≤ η ∧ |e2 i - w2 i| ≤ η ∧ |e3 i - w3 i| ≤ η) {θ φ : ℝ} (h1 : |θ| ≤ 360) (h2 : |φ| ≤ 360) :
    ∃ θ' φ', geoToBase R S C A θ φ (fun i => some (e1 i), fun i => some (e2 i), fun i => some (e3 i)) false = (some θ', some φ') ∧
      -1 / 10 ^ 11 ≤ θ' ∧ θ' ≤ 180 + 1 / 10 ^ 11 ∧ |φ'| ≤ 180 + 1 / 10 ^ 11 ∧
      |direction θ' φ' 0 - dot w1 (direction θ φ)| ≤ 140 * η ∧ |direction θ' φ' 1 - dot w2 (direction θ φ)| ≤ 140 * η ∧ |direction θ' φ' 2 - dot w3 (direction θ φ)| ≤ 140 * η := by
  obtain ⟨x, y, z, x', y', z', θ', φ', a1, a2, a3, a4, a5, a6, a7, a8, a9⟩ := rows_point R hS hC hA h0 hη (fun i => ⟨unit_le hw.1 i, unit_le hw.2.1 i, unit_le hw.2.2.1 i⟩) he h1 h2
    (by rw [Coord.rh_unit_rows hw, direction_unit])
  refine ⟨θ', φ', ?_, a6, a7, a8, a9 0, a9 1, a9 2⟩
  simp only [geoToBase, a1, Bool.false_eq_true, if_false, a2, a3, a4, a5]

/-- **C104, inverse.** With `inverse=True` the point with the given coordinates in the frame. -/
theorem C104_inverse {S C : ℝ → ℝ} {A : ℝ → ℝ → ℝ} (hS : IsSine S) (hC : IsCosine C) (hA : IsArctan2 A) {e1 e2 e3 w1 w2 w3 : Fin 3 → ℝ} {η : ℝ} (h0 : 1 / 10 ^ 14 ≤ η)
    (hη : η ≤ 1 / 10 ^ 5) (hw : RightHanded w1 w2 w3) (he : ∀ i, |e1 i - w1 i| ≤ η ∧ |e2 i - w2 i| ≤ η ∧ |e3 i - w3 i| ≤ η) {θ φ : ℝ} (h1 : |θ| ≤ 360) (h2 : |φ| ≤ 360) :
    ∃ θ' φ', geoToBase R S C A θ φ (fun i => some (e1 i), fun i => some (e2 i), fun i => some (e3 i)) true = (some θ', some φ') ∧
      -1 / 10 ^ 11 ≤ θ' ∧ θ' ≤ 180 + 1 / 10 ^ 11 ∧ |φ'| ≤ 180 + 1 / 10 ^ 11 ∧
      ∀ i, |direction θ' φ' i - combine w1 w2 w3 (direction θ φ) i| ≤ 140 * η := by
  have hc : (![dot ![w1 0, w2 0, w3 0] (direction θ φ), dot ![w1 1, w2 1, w3 1] (direction θ φ), dot ![w1 2, w2 2, w3 2] (direction θ φ)] : Fin 3 → ℝ) =
      combine w1 w2 w3 (direction θ φ) := by
    funext i
    fin_cases i <;> simp only [dot, combine, Matrix.cons_val, Fin.zero_eta, Fin.mk_one, Fin.reduceFinMk] <;> ring
  obtain ⟨x, y, z, x', y', z', θ', φ', a1, a2, a3, a4, a5, a6, a7, a8, a9⟩ := rows_point R hS hC hA (r1 := ![e1 0, e2 0, e3 0]) (r2 := ![e1 1, e2 1, e3 1]) (r3 := ![e1 2, e2 2, e3 2])
    (v1 := ![w1 0, w2 0, w3 0]) (v2 := ![w1 1, w2 1, w3 1]) (v3 := ![w1 2, w2 2, w3 2]) h0 hη
    (fun i => by fin_cases i
                 · exact ⟨unit_le hw.1 0, unit_le hw.1 1, unit_le hw.1 2⟩
                 · exact ⟨unit_le hw.2.1 0, unit_le hw.2.1 1, unit_le hw.2.1 2⟩
                 · exact ⟨unit_le hw.2.2.1 0, unit_le hw.2.2.1 1, unit_le hw.2.2.1 2⟩)
    (fun i => by fin_cases i
                 · exact ⟨(he 0).1, (he 1).1, (he 2).1⟩
                 · exact ⟨(he 0).2.1, (he 1).2.1, (he 2).2.1⟩
                 · exact ⟨(he 0).2.2, (he 1).2.2, (he 2).2.2⟩) h1 h2
    (by rw [hc, Coord.rh_unit_combine hw, direction_unit])
  rw [hc] at a9
  refine ⟨θ', φ', ?_, a6, a7, a8, a9⟩
  simp only [Matrix.cons_val_zero, Matrix.cons_val_one, Matrix.cons_val] at a2 a3 a4
  simp only [geoToBase, a1, if_true, a2, a3, a4, a5]

/-- **C104, round trip.** The transformation and its inverse return the direction of the point, to `560 η` in each component. -/
theorem C104_round_trip {S C : ℝ → ℝ} {A : ℝ → ℝ → ℝ} (hS : IsSine S) (hC : IsCosine C) (hA : IsArctan2 A) {e1 e2 e3 w1 w2 w3 : Fin 3 → ℝ} {η : ℝ} (h0 : 1 / 10 ^ 14 ≤ η)
    (hη : η ≤ 1 / 10 ^ 5) (hw : RightHanded w1 w2 w3) (he : ∀ i, |e1 i - w1 i| ≤ η ∧ |e2 i - w2 i| ≤ η ∧ |e3 i - w3 i| ≤ η) {θ φ : ℝ} (h1 : |θ| ≤ 360) (h2 : |φ| ≤ 360) :
    ∃ θ' φ' θ'' φ'', geoToBase R S C A θ φ (fun i => some (e1 i), fun i => some (e2 i), fun i => some (e3 i)) false = (some θ', some φ') ∧
      geoToBase R S C A θ' φ' (fun i => some (e1 i), fun i => some (e2 i), fun i => some (e3 i)) true = (some θ'', some φ'') ∧
      ∀ i, |direction θ'' φ'' i - direction θ φ i| ≤ 560 * η := by
  obtain ⟨θ', φ', f1, f2, f3, f4, f5, f6, f7⟩ := C104_forward R hS hC hA h0 hη hw he h1 h2
  obtain ⟨θ'', φ'', g1, -, -, -, g5⟩ := C104_inverse R hS hC hA h0 hη hw he (θ := θ') (φ := φ') (abs_le.2 ⟨by norm_num at *; linarith, by norm_num at *; linarith⟩)
    (f4.trans (by norm_num))
  refine ⟨θ', φ', θ'', φ'', f1, g1, fun i => ?_⟩
  have hr := congrFun (Coord.rh_rows hw (direction θ φ)) i
  have e : direction θ'' φ'' i - direction θ φ i = (direction θ'' φ'' i - combine w1 w2 w3 (direction θ' φ') i) + ((direction θ' φ' 0 - dot w1 (direction θ φ)) * w1 i +
      ((direction θ' φ' 1 - dot w2 (direction θ φ)) * w2 i + (direction θ' φ' 2 - dot w3 (direction θ φ)) * w3 i)) := by
    rw [← hr]
    simp only [combine, Matrix.cons_val_zero, Matrix.cons_val_one, Matrix.cons_val]
    ring
  rw [e]
  have small : ∀ {x e y : ℝ}, |x| ≤ e → |y| ≤ 1 → |x * y| ≤ e := by
    intro x e y hx hy
    rw [abs_mul]
    calc |x| * |y| ≤ e * 1 := mul_le_mul hx hy (abs_nonneg _) ((abs_nonneg _).trans hx)
      _ = e := mul_one _
  have s1 := small f5 (unit_le hw.1 i)
  have s2 := small f6 (unit_le hw.2.1 i)
  have s3 := small f7 (unit_le hw.2.2.1 i)
  refine (abs_add_le _ _).trans ((add_le_add (g5 i) ((abs_add_le _ _).trans (add_le_add s1 ((abs_add_le _ _).trans (add_le_add s2 s3))))).trans (le_of_eq (by ring)))

/-- **C104, GSM and SM.** For a dipole whose axis is within 25 degrees of the rotation axis, at every time and every point, `transform_points` to GSM or SM followed by the inverse transformation
returns the direction of the point, to `2e-9` in each component. -/
theorem C104_transform {sum3 : F → F → F → F} (hs : IsSum3 R sum3) (p : SunPlatform) (hS : IsSine p.sin) (hC : IsCosine p.cos)
    (hT : ∀ x, |x| < Real.pi / 2 → |p.tan x - Real.tan x| ≤ 4 / 2 ^ 52 * |Real.tan x|)
    (hat : ∀ x, |p.arctan x - Real.arctan x| ≤ 2⁻¹ ^ 51) (hA : IsArctan2 p.arctan2) {g10 g11 h11 : ℝ} (h1 : (2 : ℝ) ^ (-90 : ℤ) ≤ Real.sqrt (g10 ^ 2 + g11 ^ 2 + h11 ^ 2))
    (h2 : Real.sqrt (g10 ^ 2 + g11 ^ 2 + h11 ^ 2) ≤ (2 : ℝ) ^ (90 : ℤ)) (hax : 9 / 10 * Real.sqrt (g10 ^ 2 + g11 ^ 2 + h11 ^ 2) ≤ |g10|) {t : ℝ} (hd : IsDouble t) (h : |t| ≤ 36525)
    {reference : Reference} (href : reference ≠ .mag) {θ φ : ℝ} (h3 : |θ| ≤ 360) (h4 : |φ| ≤ 360) :
    ∃ θ' φ' θ'' φ'', transformPoints R sum3 p g10 g11 h11 reference false θ φ t = (some θ', some φ') ∧
      transformPoints R sum3 p g10 g11 h11 reference true θ' φ' t = (some θ'', some φ'') ∧ ∀ i, |direction θ'' φ'' i - direction θ φ i| ≤ 2 / 10 ^ 9 := by
  obtain ⟨e1, e2, e3, s1, s2, s3, hg, hsm, ⟨w1, w2, w3, hw, he⟩, u1, u2, u3, hu, hf⟩ := C103_always R hs p hS hC hT hat hA h1 h2 hax hd h
  cases reference with
  | gsm =>
    obtain ⟨θ', φ', θ'', φ'', a1, a2, a3⟩ := C104_round_trip R hS hC hA (by norm_num) (by norm_num) hw he h3 h4
    refine ⟨θ', φ', θ'', φ'', ?_, ?_, fun i => (a3 i).trans (by norm_num)⟩
    · simp only [transformPoints]
      rw [hg]
      exact a1
    · simp only [transformPoints]
      rw [hg]
      exact a2
  | sm =>
    obtain ⟨θ', φ', θ'', φ'', a1, a2, a3⟩ := C104_round_trip R hS hC hA (by norm_num) (by norm_num) hu hf h3 h4
    refine ⟨θ', φ', θ'', φ'', ?_, ?_, fun i => (a3 i).trans (by norm_num)⟩
    · simp only [transformPoints]
      rw [hsm]
      exact a1
    · simp only [transformPoints]
      rw [hsm]
      exact a2
  | mag => exact absurd rfl href

/-- **C104, accuracy of GSM.** The returned angles are those of the point in the GSM frame of the exact formulas (first axis to the sun, second axis orthogonal to the dipole, the dipole on the
negative side of the third axis), to `3e-6` in each component of the direction. -/
theorem C104_gsm {sum3 : F → F → F → F} (hs : IsSum3 R sum3) (p : SunPlatform) (hS : IsSine p.sin) (hC : IsCosine p.cos)
    (hT : ∀ x, |x| < Real.pi / 2 → |p.tan x - Real.tan x| ≤ 4 / 2 ^ 52 * |Real.tan x|)
    (hat : ∀ x, |p.arctan x - Real.arctan x| ≤ 2⁻¹ ^ 51) (hA : IsArctan2 p.arctan2) {g10 g11 h11 : ℝ} (h1 : (2 : ℝ) ^ (-90 : ℤ) ≤ Real.sqrt (g10 ^ 2 + g11 ^ 2 + h11 ^ 2))
    (h2 : Real.sqrt (g10 ^ 2 + g11 ^ 2 + h11 ^ 2) ≤ (2 : ℝ) ^ (90 : ℤ)) (hax : 9 / 10 * Real.sqrt (g10 ^ 2 + g11 ^ 2 + h11 ^ 2) ≤ |g10|) {t : ℝ} (hd : IsDouble t) (h : |t| ≤ 36525)
    {θ φ : ℝ} (h3 : |θ| ≤ 360) (h4 : |φ| ≤ 360) :
    ∃ θ' φ' w2 w3, transformPoints R sum3 p g10 g11 h11 .gsm false θ φ t = (some θ', some φ') ∧ RightHanded (sunDir t) w2 w3 ∧ dot ![g11, h11, g10] w2 = 0 ∧ dot ![g11, h11, g10] w3 < 0 ∧
      |direction θ' φ' 0 - dot (sunDir t) (direction θ φ)| ≤ 3 / 10 ^ 6 ∧ |direction θ' φ' 1 - dot w2 (direction θ φ)| ≤ 3 / 10 ^ 6 ∧
      |direction θ' φ' 2 - dot w3 (direction θ φ)| ≤ 3 / 10 ^ 6 := by
  obtain ⟨v, m, ev, hm, hv, k0, k1, k2⟩ := C103_dipole_coeffs R hs h1 h2
  have hN : 0 < Real.sqrt (g10 ^ 2 + g11 ^ 2 + h11 ^ 2) := lt_of_lt_of_le (by positivity) h1
  have hdip : ∀ w, dot ![g11, h11, g10] w = -Real.sqrt (g10 ^ 2 + g11 ^ 2 + h11 ^ 2) * dot m w := by
    intro w
    simp only [dot, Matrix.cons_val_zero, Matrix.cons_val_one, Matrix.cons_val]
    linear_combination w 0 * k0 + w 1 * k1 + w 2 * k2
  have hm2 : 9 / 10 ≤ |m 2| := by
    rw [k2, abs_mul, abs_neg, ← k2, abs_of_pos hN, mul_comm] at hax
    exact le_of_mul_le_mul_left hax hN
  obtain ⟨e1, e2, e3, hb, -, w2, w3, hw, q1, q2, he⟩ := C103_gsm R hs p hS hC hT hat hA hd h hm hv (C103_angle h hm hm2)
  obtain ⟨θ', φ', f1, -, -, -, f5, f6, f7⟩ := C104_forward R hS hC hA (by norm_num) (by norm_num) hw he h3 h4
  refine ⟨θ', φ', w2, w3, ?_, hw, by rw [hdip, q1, mul_zero], by rw [hdip]; exact mul_neg_of_neg_of_pos (by linarith) q2, f5.trans (by norm_num), f6.trans (by norm_num), f7.trans (by norm_num)⟩
  simp only [transformPoints]
  rw [ev, hb]
  exact f1

/-- **C104, accuracy of SM.** The third axis is opposite to the dipole, the second one orthogonal to the direction of the sun, which is on the positive side of the first one. -/
theorem C104_sm {sum3 : F → F → F → F} (hs : IsSum3 R sum3) (p : SunPlatform) (hS : IsSine p.sin) (hC : IsCosine p.cos)
    (hT : ∀ x, |x| < Real.pi / 2 → |p.tan x - Real.tan x| ≤ 4 / 2 ^ 52 * |Real.tan x|)
    (hat : ∀ x, |p.arctan x - Real.arctan x| ≤ 2⁻¹ ^ 51) (hA : IsArctan2 p.arctan2) {g10 g11 h11 : ℝ} (h1 : (2 : ℝ) ^ (-90 : ℤ) ≤ Real.sqrt (g10 ^ 2 + g11 ^ 2 + h11 ^ 2))
    (h2 : Real.sqrt (g10 ^ 2 + g11 ^ 2 + h11 ^ 2) ≤ (2 : ℝ) ^ (90 : ℤ)) (hax : 9 / 10 * Real.sqrt (g10 ^ 2 + g11 ^ 2 + h11 ^ 2) ≤ |g10|) {t : ℝ} (hd : IsDouble t) (h : |t| ≤ 36525)
    {θ φ : ℝ} (h3 : |θ| ≤ 360) (h4 : |φ| ≤ 360) :
    ∃ θ' φ' w1 w2 w3, transformPoints R sum3 p g10 g11 h11 .sm false θ φ t = (some θ', some φ') ∧ RightHanded w1 w2 w3 ∧
      (∀ w, dot ![g11, h11, g10] w = -Real.sqrt (g10 ^ 2 + g11 ^ 2 + h11 ^ 2) * dot w3 w) ∧ dot (sunDir t) w2 = 0 ∧ 0 < dot (sunDir t) w1 ∧
      |direction θ' φ' 0 - dot w1 (direction θ φ)| ≤ 3 / 10 ^ 6 ∧ |direction θ' φ' 1 - dot w2 (direction θ φ)| ≤ 3 / 10 ^ 6 ∧
      |direction θ' φ' 2 - dot w3 (direction θ φ)| ≤ 3 / 10 ^ 6 := by
  obtain ⟨v, m, ev, hm, hv, k0, k1, k2⟩ := C103_dipole_coeffs R hs h1 h2
  have hN : 0 < Real.sqrt (g10 ^ 2 + g11 ^ 2 + h11 ^ 2) := lt_of_lt_of_le (by positivity) h1
  have hdip : ∀ w, dot ![g11, h11, g10] w = -Real.sqrt (g10 ^ 2 + g11 ^ 2 + h11 ^ 2) * dot m w := by
    intro w
    simp only [dot, Matrix.cons_val_zero, Matrix.cons_val_one, Matrix.cons_val]
    linear_combination w 0 * k0 + w 1 * k1 + w 2 * k2
  have hm2 : 9 / 10 ≤ |m 2| := by
    rw [k2, abs_mul, abs_neg, ← k2, abs_of_pos hN, mul_comm] at hax
    exact le_of_mul_le_mul_left hax hN
  obtain ⟨e1, e2, e3, hb, -, w1, w2, hw, q1, q2, he⟩ := C103_sm R hs p hS hC hT hat hA hd h hm hv (C103_angle h hm hm2)
  obtain ⟨θ', φ', f1, -, -, -, f5, f6, f7⟩ := C104_forward R hS hC hA (η := 2 / 10 ^ 8) (by norm_num) (by norm_num) hw
    (fun i => ⟨(he i).1, (he i).2.1, (he i).2.2.trans (by norm_num)⟩) h3 h4
  refine ⟨θ', φ', w1, w2, m, ?_, hw, hdip, q1, q2, f5.trans (by norm_num), f6.trans (by norm_num), f7.trans (by norm_num)⟩
  simp only [transformPoints]
  rw [ev, hb]
  exact f1

/-- **C104, MAG.** The same for MAG, for a dipole at least 0.6 degrees away from the rotation axis, to `6e-8`. -/
theorem C104_transform_mag {sum3 : F → F → F → F} (hs : IsSum3 R sum3) (p : SunPlatform) (hS : IsSine p.sin) (hC : IsCosine p.cos) (hA : IsArctan2 p.arctan2)
    {g10 g11 h11 : ℝ} (h1 : (2 : ℝ) ^ (-90 : ℤ) ≤ Real.sqrt (g10 ^ 2 + g11 ^ 2 + h11 ^ 2))
    (h2 : Real.sqrt (g10 ^ 2 + g11 ^ 2 + h11 ^ 2) ≤ (2 : ℝ) ^ (90 : ℤ)) (hax : 1 / 100 * Real.sqrt (g10 ^ 2 + g11 ^ 2 + h11 ^ 2) ≤ Real.sqrt (g11 ^ 2 + h11 ^ 2)) {t : ℝ}
    {θ φ : ℝ} (h3 : |θ| ≤ 360) (h4 : |φ| ≤ 360) :
    ∃ θ' φ' θ'' φ'', transformPoints R sum3 p g10 g11 h11 .mag false θ φ t = (some θ', some φ') ∧
      transformPoints R sum3 p g10 g11 h11 .mag true θ' φ' t = (some θ'', some φ'') ∧ ∀ i, |direction θ'' φ'' i - direction θ φ i| ≤ 6 / 10 ^ 8 := by
  obtain ⟨v, m, ev, hm, hv, k0, k1, -⟩ := C103_dipole_coeffs R hs h1 h2
  have hN : 0 < Real.sqrt (g10 ^ 2 + g11 ^ 2 + h11 ^ 2) := lt_of_lt_of_le (by positivity) h1
  have hm2 : 1 / 100 ≤ Real.sqrt (m 0 ^ 2 + m 1 ^ 2) := by
    generalize Real.sqrt (g10 ^ 2 + g11 ^ 2 + h11 ^ 2) = N at *
    rw [k0, k1, show (-N * m 0) ^ 2 + (-N * m 1) ^ 2 = N ^ 2 * (m 0 ^ 2 + m 1 ^ 2) by ring, Real.sqrt_mul (by positivity), Real.sqrt_sq hN.le, mul_comm] at hax
    exact le_of_mul_le_mul_left hax hN
  obtain ⟨e1, e2, e3, hb, w1, w2, hw, -, -, he⟩ := C103_mag R hs hm hv hm2
  obtain ⟨θ', φ', θ'', φ'', a1, a2, a3⟩ := C104_round_trip R hS hC hA (η := 1 / 10 ^ 10) (by norm_num) (by norm_num) hw
    (fun i => ⟨(he i).1, (he i).2.1, (he i).2.2.trans (by norm_num)⟩) h3 h4
  refine ⟨θ', φ', θ'', φ'', ?_, ?_, fun i => (a3 i).trans (by norm_num)⟩
  · simp only [transformPoints]
    rw [ev, hb]
    exact a1
  · simp only [transformPoints]
    rw [ev, hb]
    exact a2

end ChaosMagPy.FloatBase
