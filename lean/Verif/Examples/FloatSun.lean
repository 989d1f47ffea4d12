import Verif.Props.FloatSun
import Verif.Examples.FloatCoord
/-!
# Concrete cases for C102
-/
namespace ChaosMagPy.FloatSun
open ChaosMagPy.Spec ChaosMagPy.Float ChaosMagPy.FloatLegendre

variable (R : Rounding)

/-- Functions that satisfy the hypotheses of C102. -/
noncomputable def bestPlatform : SunPlatform := ⟨bestSin R, bestCos R, Real.tan, Real.arctan, bestArctan2 R⟩

theorem tan_ok : ∀ x, |x| < Real.pi / 2 → |(bestPlatform R).tan x - Real.tan x| ≤ 4 / 2 ^ 52 * |Real.tan x| := fun x _ => by
  show |Real.tan x - Real.tan x| ≤ _
  rw [sub_self, abs_zero]
  positivity

theorem arctan_ok : ∀ x, |(bestPlatform R).arctan x - Real.arctan x| ≤ 2⁻¹ ^ 51 := fun x => by
  show |Real.arctan x - Real.arctan x| ≤ _
  rw [sub_self, abs_zero]
  positivity

theorem double_quarter : IsDouble (1 / 4) := by
  have := double_of (m := 1) (e := -2) (by norm_num) (by norm_num) (by norm_num)
  norm_num at this ⊢
  exact this

/-- `C102_accuracy`: 2000-01-01, 06:00. -/
example : ∃ θ φ, sunPosition R (bestPlatform R) (1 / 4) = (some θ, some φ) ∧ 30 ≤ θ ∧ θ ≤ 150 ∧ |direction θ φ 2 - sunDir (1 / 4) 2| ≤ 1 / 10 ^ 10 := by
  obtain ⟨θ, φ, e, h1, h2, -, -, h3⟩ := C102_accuracy R (bestPlatform R) (bestSin_isSine R) (bestCos_isCosine R) (tan_ok R) (arctan_ok R) (FloatCoord.bestArctan2_isArctan2 R)
    (t := 1 / 4) double_quarter (by norm_num)
  exact ⟨θ, φ, e, h1, h2, h3 2⟩

/-- `C102_zenith`, `C102_zenith_nan`: at the south pole the result is a number, and its cosine is minus the third component of the direction of the sun. -/
example : ∃ z, zenithAngle R (bestPlatform R) (bestArccos R) (1 / 4) 180 0 = some z ∧ |Real.cos (z * Real.pi / 180) + sunDir (1 / 4) 2| ≤ 4 / 10 ^ 10 := by
  have hd : IsDouble (1 / 4) := double_quarter
  have hdot : dot (direction 180 0) (sunDir (1 / 4)) = -sunDir (1 / 4) 2 := by
    have e : rad 180 = Real.pi := by unfold rad; ring
    simp [dot, direction, erad, e]
  cases h : zenithAngle R (bestPlatform R) (bestArccos R) (1 / 4) 180 0 with
  | none =>
    exfalso
    have h1 := C102_zenith_nan R (bestPlatform R) (bestSin_isSine R) (bestCos_isCosine R) (tan_ok R) (arctan_ok R) (FloatCoord.bestArctan2_isArctan2 R) _ hd (by norm_num) (by norm_num) (by norm_num) h
    obtain ⟨θ, φ, e, h2, h3, -, -, h4⟩ := C102_accuracy R (bestPlatform R) (bestSin_isSine R) (bestCos_isCosine R) (tan_ok R) (arctan_ok R) (FloatCoord.bestArctan2_isArctan2 R) hd (by norm_num)
    have c30 : Real.cos (rad 30) ≤ 87 / 100 := by
      rw [show rad 30 = Real.pi / 6 by unfold rad; ring, Real.cos_pi_div_six]
      have : Real.sqrt 3 ≤ 174 / 100 := Real.sqrt_le_iff.2 ⟨by norm_num, by norm_num⟩
      linarith
    have hp := Real.pi_pos
    have u : Real.cos (rad θ) ≤ 87 / 100 := (Real.cos_le_cos_of_nonneg_of_le_pi (by unfold rad; positivity) (by unfold rad; nlinarith) (by unfold rad; nlinarith)).trans c30
    have l : -(87 / 100) ≤ Real.cos (rad θ) := by
      have h5 : Real.cos (Real.pi - rad θ) ≤ Real.cos (rad 30) := Real.cos_le_cos_of_nonneg_of_le_pi (by unfold rad; positivity) (by unfold rad; nlinarith) (by unfold rad; nlinarith)
      rw [Real.cos_pi_sub] at h5
      linarith
    have h6 : |sunDir (1 / 4) 2| ≤ 9 / 10 := by
      have h7 := abs_le.1 (h4 2)
      have h8 : direction θ φ 2 = Real.cos (rad θ) := by simp [direction, erad]
      rw [h8] at h7
      norm_num at h7
      exact abs_le.2 ⟨by linarith [h7.2], by linarith [h7.1]⟩
    rw [hdot, abs_neg] at h1
    norm_num at h1
    linarith
  | some z =>
    have h1 := (C102_zenith R (bestPlatform R) (bestSin_isSine R) (bestCos_isCosine R) (tan_ok R) (arctan_ok R) (FloatCoord.bestArctan2_isArctan2 R) (FloatCoord.bestArccos_isArccos R) hd (by norm_num) (by norm_num) (by norm_num) h).2.2
    rw [hdot, sub_neg_eq_add] at h1
    exact ⟨z, rfl, h1⟩

end ChaosMagPy.FloatSun
