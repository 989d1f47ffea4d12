import Verif.Props.FloatTransform
import Verif.Examples.FloatSun
/-!
# Concrete cases for C103 and C104
-/
namespace ChaosMagPy.FloatBase
open ChaosMagPy.Spec ChaosMagPy.Float ChaosMagPy.FloatLegendre ChaosMagPy.FloatSun

variable (R : Rounding)

/-- From left to right. -/
noncomputable def leftSum (x y z : F) : F := fadd R (fadd R x y) z

theorem leftSum_isSum3 : IsSum3 R (leftSum R) := fun _ _ _ => Or.inl rfl

theorem len_345 : Real.sqrt ((-24 : ℝ) ^ 2 + 0 ^ 2 + 7 ^ 2) = 25 := by
  rw [show ((-24 : ℝ) ^ 2 + 0 ^ 2 + 7 ^ 2) = 25 ^ 2 by norm_num]
  exact Real.sqrt_sq (by norm_num)

/-- `C103_always`: the dipole `(-24, 0, 7)`, 16 degrees from the axis. -/
example : ∃ e1 e2 e3 : Fin 3 → ℝ, baseGsm R (leftSum R) (bestPlatform R) (1 / 4) (dipoleCoeffs R (leftSum R) (-24) 0 7) = (fun i => some (e1 i), fun i => some (e2 i), fun i => some (e3 i)) := by
  obtain ⟨e1, e2, e3, -, -, -, h, -⟩ := C103_always R (leftSum_isSum3 R) (bestPlatform R) (bestSin_isSine R) (bestCos_isCosine R) (tan_ok R) (arctan_ok R)
    (FloatCoord.bestArctan2_isArctan2 R) (g10 := -24) (g11 := 0) (h11 := 7) (by rw [len_345]; norm_num) (by rw [len_345]; norm_num) (by rw [len_345]; norm_num) double_quarter (by norm_num)
  exact ⟨e1, e2, e3, h⟩

/-- `C103_mag` and `C103_dipole_coeffs`: the same dipole. -/
example : ∃ e1 e2 e3 : Fin 3 → ℝ, baseMag R (leftSum R) (dipoleCoeffs R (leftSum R) (-24) 0 7) = (fun i => some (e1 i), fun i => some (e2 i), fun i => some (e3 i)) ∧
    |e3 2 - 24 / 25| ≤ 1 / 10 ^ 14 := by
  obtain ⟨v, m, ev, hm, hv, k0, k1, k2⟩ := C103_dipole_coeffs R (leftSum_isSum3 R) (g10 := -24) (g11 := 0) (h11 := 7) (by rw [len_345]; norm_num) (by rw [len_345]; norm_num)
  rw [len_345] at k0 k1 k2
  have m0 : m 0 = 0 := by linarith
  have m1 : m 1 = -(7 / 25) := by linarith
  have m2 : m 2 = 24 / 25 := by linarith
  obtain ⟨e1, e2, e3, h, w1, w2, hw, q1, q2, he⟩ := C103_mag R (leftSum_isSum3 R) hm hv (by rw [m0, m1]; exact Real.le_sqrt_of_sq_le (by norm_num))
  rw [ev]
  exact ⟨e1, e2, e3, h, by rw [← m2]; exact (he 2).2.2⟩

/-- `C103_dipole_angles`: the pole of epoch 2010 (`igrf_dipole('2010')`), rounded angles. -/
example : ∃ v : Fin 3 → ℝ, dipoleAngles R (bestSin R) (bestCos R) 11 290 = (fun i => some (v i)) ∧ |v 2 - Real.cos (11 * Real.pi / 180)| ≤ 1 / 10 ^ 14 := by
  obtain ⟨v, h, hv⟩ := C103_dipole_angles R (bestSin_isSine R) (bestCos_isCosine R) (θ := 11) (φ := 290) (by norm_num) (by norm_num)
  exact ⟨v, h, by simpa [direction] using hv 2⟩

/-- `C104_transform`: GSM. -/
example : ∃ θ' φ' θ'' φ'', transformPoints R (leftSum R) (bestPlatform R) (-24) 0 7 .gsm false 45 45 (1 / 4) = (some θ', some φ') ∧
    transformPoints R (leftSum R) (bestPlatform R) (-24) 0 7 .gsm true θ' φ' (1 / 4) = (some θ'', some φ'') ∧ |direction θ'' φ'' 2 - direction 45 45 2| ≤ 2 / 10 ^ 9 := by
  obtain ⟨θ', φ', θ'', φ'', h1, h2, h3⟩ := C104_transform R (leftSum_isSum3 R) (bestPlatform R) (bestSin_isSine R) (bestCos_isCosine R) (tan_ok R) (arctan_ok R)
    (FloatCoord.bestArctan2_isArctan2 R) (g10 := -24) (g11 := 0) (h11 := 7) (by rw [len_345]; norm_num) (by rw [len_345]; norm_num) (by rw [len_345]; norm_num) double_quarter (by norm_num)
    (reference := .gsm) (by simp) (θ := 45) (φ := 45) (by norm_num) (by norm_num)
  exact ⟨θ', φ', θ'', φ'', h1, h2, h3 2⟩

/-- `C104_transform_mag`. -/
example : ∃ θ' φ', transformPoints R (leftSum R) (bestPlatform R) (-24) 0 7 .mag false 45 45 0 = (some θ', some φ') := by
  obtain ⟨θ', φ', _, _, h1, -, -⟩ := C104_transform_mag R (leftSum_isSum3 R) (bestPlatform R) (bestSin_isSine R) (bestCos_isCosine R)
    (FloatCoord.bestArctan2_isArctan2 R) (g10 := -24) (g11 := 0) (h11 := 7) (by rw [len_345]; norm_num) (by rw [len_345]; norm_num)
    (by rw [len_345]; exact Real.le_sqrt_of_sq_le (by norm_num)) (t := 0) (θ := 45) (φ := 45) (by norm_num) (by norm_num)
  exact ⟨θ', φ', h1⟩

end ChaosMagPy.FloatBase
