import Verif.Props.FloatVectors
import Verif.Examples.FloatBase
/-!
# Concrete cases for C105
-/
namespace ChaosMagPy.FloatBase
open ChaosMagPy.Spec ChaosMagPy.Float ChaosMagPy.FloatLegendre ChaosMagPy.FloatGeod ChaosMagPy.FloatSun

variable (R : Rounding)

/-- Products and sums from left to right. -/
noncomputable def leftDot (a b : FVec) : F := fadd R (fadd R (fmul R (a 0) (b 0)) (fmul R (a 1) (b 1))) (fmul R (a 2) (b 2))

/-- The rounded products, summed from left to right, meet the condition on the inner product. -/
theorem leftDot_isDot3 : IsDot3 (leftDot R) := by
  intro a b ha hb
  refine ⟨_, rfl, ?_⟩
  have bb : ∀ i, |a i * b i| ≤ 4 := fun i => by
    rw [abs_mul]
    calc |a i| * |b i| ≤ 2 * 2 := mul_le_mul (ha i) (hb i) (abs_nonneg _) (by norm_num)
      _ = 4 := by norm_num
  have pr : ∀ i, |R (a i * b i) - a i * b i| ≤ 1 / 10 ^ 15 := fun i =>
    rstep R (k := 2) (ε := 0) (M := 4) (by simp) (bb i) (by norm_num) (by norm_num) (by norm_num) (by norm_num)
  have b1 : |a 0 * b 0 + a 1 * b 1| ≤ 8 := (abs_add_le _ _).trans (by linarith [bb 0, bb 1])
  have b2 : |a 0 * b 0 + a 1 * b 1 + a 2 * b 2| ≤ 12 := (abs_add_le _ _).trans (by linarith [bb 2])
  have s1 : |R (R (a 0 * b 0) + R (a 1 * b 1)) - (a 0 * b 0 + a 1 * b 1)| ≤ 4 / 10 ^ 15 :=
    rstep R (k := 4) (add_err (pr 0) (pr 1)) b1 (by norm_num) (by norm_num) (by norm_num) (by norm_num)
  exact rstep R (k := 4) (add_err s1 (pr 2)) b2 (by norm_num) (by norm_num) (by norm_num) (by norm_num)

theorem cos_45 : |direction 45 45 2| ≤ 9998 / 10000 := by
  simp only [direction, Matrix.cons_val]
  rw [show (45 * Real.pi / 180 : ℝ) = Real.pi / 4 by ring, Real.cos_pi_div_four, abs_of_nonneg (by positivity)]
  have := Real.sqrt_le_sqrt (show (2 : ℝ) ≤ (3 / 2) ^ 2 by norm_num)
  rw [Real.sqrt_sq (by norm_num)] at this
  linarith

/-- `C105_transform`: a field of 30000 nT to the north and 100 nT to the east, to SM. -/
example : ∃ θ' φ', transformPoints R (leftSum R) (bestPlatform R) (-24) 0 7 .sm false 45 45 (1 / 4) = (some θ', some φ') ∧ (|direction θ' φ' 2| ≤ 9998 / 10000 →
    ∃ θ'' φ'' x' y' x'' y'', transformVectors R (leftSum R) (leftDot R) (bestPlatform R) (-24) 0 7 .sm false 45 45 (-30000) 100 (1 / 4) = some (some θ', some φ', some x', some y') ∧
      transformVectors R (leftSum R) (leftDot R) (bestPlatform R) (-24) 0 7 .sm true θ' φ' x' y' (1 / 4) = some (some θ'', some φ'', some x'', some y'') ∧
      |horizontal θ'' φ'' x'' y'' 2 - horizontal 45 45 (-30000) 100 2| ≤ 6 / 10 ^ 4) := by
  obtain ⟨θ', φ', h1, h2⟩ := C105_transform R (leftSum_isSum3 R) (leftDot_isDot3 R) (bestPlatform R) (bestSin_isSine R) (bestCos_isCosine R) (tan_ok R) (arctan_ok R)
    (FloatCoord.bestArctan2_isArctan2 R) (g10 := -24) (g11 := 0) (h11 := 7) (by rw [len_345]; norm_num) (by rw [len_345]; norm_num) (by rw [len_345]; norm_num) double_quarter (by norm_num)
    (reference := .sm) (by simp) (θ := 45) (φ := 45) (x := -30000) (y := 100) (M := 30000) (by norm_num) (by norm_num) (by norm_num) (by norm_num) (by norm_num) (by norm_num) cos_45
  refine ⟨θ', φ', h1, fun hz => ?_⟩
  obtain ⟨θ'', φ'', x', y', x'', y'', a1, a2, a3⟩ := h2 hz
  exact ⟨θ'', φ'', x', y', x'', y'', a1, a2, (a3 2).2.trans (by norm_num)⟩

/-- The frame turned by a quarter turn about the rotation axis. -/
theorem quarter_rh : RightHanded ![0, 1, 0] ![-1, 0, 0] ![0, 0, 1] := by
  refine ⟨?_, ?_, ?_, ?_, ?_, ?_, ?_⟩ <;> (try simp [dot])
  funext i
  fin_cases i <;> simp [vecProd]

/-- `C105_forward`: no pole is involved for this frame, since the third component is kept. -/
example : ∃ θ' φ' x' y', rotateVectors R (leftDot R) (bestSin R) (bestCos R) (bestArctan2 R)
    (fun i => some ((![0, 1, 0] : Fin 3 → ℝ) i), fun i => some ((![-1, 0, 0] : Fin 3 → ℝ) i), fun i => some ((![0, 0, 1] : Fin 3 → ℝ) i)) false 45 45 (-30000) 100 =
      some (some θ', some φ', some x', some y') ∧ |horizontal θ' φ' x' y' 2 - horizontal 45 45 (-30000) 100 2| ≤ 3 / 10 ^ 7 := by
  have hz : ∀ i, |(![0, 1, 0] : Fin 3 → ℝ) i - (![0, 1, 0] : Fin 3 → ℝ) i| ≤ 1 / 10 ^ 14 ∧ |(![-1, 0, 0] : Fin 3 → ℝ) i - (![-1, 0, 0] : Fin 3 → ℝ) i| ≤ 1 / 10 ^ 14 ∧
      |(![0, 0, 1] : Fin 3 → ℝ) i - (![0, 0, 1] : Fin 3 → ℝ) i| ≤ 1 / 10 ^ 14 := by
    intro i
    simp only [sub_self, abs_zero]
    norm_num
  obtain ⟨θ', φ', h1, -, h3⟩ := C105_forward R (leftDot_isDot3 R) (bestSin_isSine R) (bestCos_isCosine R) (FloatCoord.bestArctan2_isArctan2 R) (η := 1 / 10 ^ 14) le_rfl (by norm_num)
    quarter_rh hz (θ := 45) (φ := 45) (x := -30000) (y := 100) (M := 30000) (by norm_num) (by norm_num) (by norm_num) (by norm_num) (by norm_num) (by norm_num)
  obtain ⟨_, _, k1, k2, k3, -, -, -, k7⟩ := C104_forward R (bestSin_isSine R) (bestCos_isCosine R) (FloatCoord.bestArctan2_isArctan2 R) (η := 1 / 10 ^ 14) le_rfl (by norm_num)
    quarter_rh hz (θ := 45) (φ := 45) (by norm_num) (by norm_num)
  rw [h1] at k1
  simp only [Prod.mk.injEq, Option.some.injEq] at k1
  obtain ⟨rfl, rfl⟩ := k1
  have d : ∀ v : Fin 3 → ℝ, dot ![0, 0, 1] v = v 2 := by intro v; simp [dot]
  rw [d] at k7
  have p1 : ¬polar R 45 := fun hp => by
    have := (C105_poles R).2.2 45 45 (by norm_num) hp
    have c := cos_45
    norm_num at this c
    linarith
  have p2 : ¬polar R θ' := fun hp => by
    have := (C105_poles R).2.2 θ' φ' (abs_le.2 ⟨by norm_num at *; linarith, by norm_num at *; linarith⟩) hp
    have c := abs_of_close k7 cos_45
    norm_num at this c
    linarith
  obtain ⟨x', y', r1, -, -, r4⟩ := h3 p1 p2
  rw [d] at r4
  exact ⟨θ', φ', x', y', r1, r4.trans (by norm_num)⟩

end ChaosMagPy.FloatBase
