import Verif.Props.FloatCoord
import Verif.Props.FloatSphere
import Verif.Examples.FloatField
/-!
# Concrete cases for C95 and C96
-/
namespace ChaosMagPy.FloatCoord
open ChaosMagPy.Spec ChaosMagPy.Float ChaosMagPy.FloatLegendre

variable (R : Rounding)

theorem bestArccos_isArccos : IsArccos (bestArccos R) := by
  have hp := Real.pi_lt_d4
  have h : ∀ x, |Real.arccos x| ≤ (2 : ℝ) ^ (2 : ℤ) := fun x => by
    rw [abs_of_nonneg (Real.arccos_nonneg x)]
    have := Real.arccos_le_pi x
    norm_num
    linarith
  refine ⟨fun x _ => (R.nearest _ ((h x).trans (pow_le_max (by norm_num)))).1, fun x _ => ?_⟩
  refine (rnd_err R (h x) (by norm_num) (by norm_num)).trans (by norm_num)

theorem bestArctan2_isArctan2 : IsArctan2 (bestArctan2 R) := by
  have hp := Real.pi_lt_d4
  have h : ∀ z : ℂ, |Complex.arg z| ≤ (2 : ℝ) ^ (2 : ℤ) := fun z => by
    have := Complex.abs_arg_le_pi z
    norm_num
    linarith
  refine ⟨fun y x => (R.nearest _ ((h _).trans (pow_le_max (by norm_num)))).1, fun y x => ?_⟩
  refine (rnd_err R (h _) (by norm_num) (by norm_num)).trans (by norm_num)

theorem dot_30_60 : Real.cos (rad 60) = dot (direction 30 45) (direction 90 45) := by
  have e30 : rad 30 = Real.pi / 6 := by unfold rad; ring
  have e60 : rad 60 = Real.pi / 3 := by unfold rad; ring
  have e90 : rad 90 = Real.pi / 2 := by unfold rad; ring
  rw [dot_direction, e30, e60, e90]
  simp

/-- `C95_nan` and `C95_zenith`: the sun above the equator, the point 30 degrees from the pole at the same longitude: the result is a number, 60 degrees to `2^-36`. -/
example : ∃ z, zenithAngle R (bestCos R) (bestSin R) (bestArccos R) 90 45 30 45 = some z ∧ |z - 60| ≤ 2⁻¹ ^ 36 := by
  cases h : zenithAngle R (bestCos R) (bestSin R) (bestArccos R) 90 45 30 45 with
  | none =>
    exfalso
    have := C95_nan R (bestCos_isCosine R) (bestSin_isSine R) _ (by norm_num) (by norm_num) (by norm_num) (by norm_num) (ζ := 60) (by norm_num) (by norm_num)
      dot_30_60 h
    norm_num at this
  | some z =>
    refine ⟨z, rfl, ?_⟩
    have := (C95_zenith R (bestCos_isCosine R) (bestSin_isSine R) (bestArccos_isArccos R) (by norm_num) (by norm_num) (by norm_num) (by norm_num) (ζ := 60)
      (by norm_num) (by norm_num) dot_30_60 h).2
    have hs : 1 / 2 ≤ Real.sin (rad 60) := by
      have e60 : rad 60 = Real.pi / 3 := by unfold rad; ring
      rw [e60, Real.sin_pi_div_three]
      have : (1 : ℝ) ≤ Real.sqrt 3 := by rw [Real.one_le_sqrt]; norm_num
      linarith
    have h0 := abs_nonneg (z - 60)
    have := (mul_le_mul_of_nonneg_left hs h0).trans this
    norm_num at this ⊢
    linarith

/-- `C96_cartesian`: a point at the surface. -/
example : ∃ x y z, sphericalToCartesian R (bestCos R) (bestSin R) 6371.2 30 (-120) = (x, y, z) ∧ |x - 6371.2 * direction 30 (-120) 0| ≤ 1e-10 := by
  obtain ⟨x, y, z, e, h, -⟩ := C96_cartesian R (bestCos_isCosine R) (bestSin_isSine R) (r := 6371.2) (θ := 30) (φ := -120) (by norm_num) (by norm_num) (by norm_num) (by norm_num)
  exact ⟨x, y, z, e, h.trans (by norm_num)⟩

/-- `C96_round_trip`: at the south pole. -/
example : ∃ r' θ' φ', cartesianToSpherical R (bestArctan2 R) (sphericalToCartesian R (bestCos R) (bestSin R) 6371.2 180 77) = (r', θ', φ') ∧
    |r' - 6371.2| ≤ 1e-9 ∧ |θ' - 180| ≤ 1e-10 := by
  obtain ⟨r', θ', φ', e, h1, h2⟩ := C96_round_trip R (bestCos_isCosine R) (bestSin_isSine R) (bestArctan2_isArctan2 R) (r := 6371.2) (θ := 180) (φ := 77)
    (by norm_num) (by norm_num) (by norm_num) (by norm_num) (by norm_num)
  exact ⟨r', θ', φ', e, h1.trans (by norm_num), h2.trans (by norm_num)⟩

/-- `C96_longitude`. -/
example : ∃ r' θ' φ', cartesianToSpherical R (bestArctan2 R) (sphericalToCartesian R (bestCos R) (bestSin R) 6371.2 30 (-120)) = (r', θ', φ') ∧
    |φ' - (-120)| ≤ 1e-10 := by
  obtain ⟨r', θ', φ', e, -, h⟩ := C96_longitude R (bestCos_isCosine R) (bestSin_isSine R) (bestArctan2_isArctan2 R) (r := 6371.2) (θ := 30) (φ := -120)
    (by norm_num) (by norm_num) (by norm_num) (by rw [sin_30]; norm_num) (by norm_num)
  exact ⟨r', θ', φ', e, (h (by norm_num)).trans (by norm_num)⟩

end ChaosMagPy.FloatCoord
