import Verif.Props.FloatModel
import Verif.Props.FloatModelSpectrum
import Verif.Examples.FloatField
/-!
# Concrete cases for C106 and C107
-/
namespace ChaosMagPy.FloatModel
open ChaosMagPy.Spec ChaosMagPy.Float ChaosMagPy.FloatLegendre ChaosMagPy.PPoly

variable (R : Rounding)

theorem exC_le (i j d : ℕ) : |exC i j d| ≤ 1 := by
  unfold exC
  split_ifs <;> norm_num

/-- `C106_inside`: the secular variation of the quadratic model of the splines (C26) at time 2, at the surface: the radial component is that of minus the gradient to `1e-4`. -/
example : ∃ br bt bp Br, modelPoint R (bestCos R) (bestSin R) (FloatSpectrum.roundedPower R).fn 6371.2 ⟨exModel, "internal"⟩ none (some 1) none 2 6371.2 30 90 = .ok ⟨some br, some bt, some bp⟩ ∧
    HasDerivAt (fun r' => potInt 6371.2 (upTo 1 fun d => iteratedDeriv 1 (piece exModel exC 1 d) 2 * (365.25 : ℝ) ^ 1) 1 1 1 r' (rad 30) (rad 90)) (-Br) 6371.2 ∧ |br - Br| ≤ 1e-4 := by
  obtain ⟨n, v, μ, br, bt, bp, Br, Bt, Bp, rfl, rfl, rfl, e, d1, -, -, k, -⟩ := C106_inside R (bestCos_isCosine R) (bestSin_isSine R) (FloatSpectrum.roundedPower R) .internal (a := 6371.2) (by norm_num)
    (m := ⟨exModel, "internal"⟩) (N := 1) exProper rfl rfl (by norm_num [exModel]) (fun i j d _ _ _ => (exC_le i j d).trans (by norm_num)) (by
      intro x hx
      simp only [exModel, List.mem_cons, List.not_mem_nil, or_false] at hx
      rcases hx with rfl | rfl | rfl <;> norm_num) none (some 1) none (by norm_num [dOrder]) (by decide) (by decide) ex_outside.2.1 ex_outside.2.2.1 (by
      intro d hd
      have : d < 3 := hd
      interval_cases d <;> norm_num [magnitude, exModel, exC, dOrder, Finset.sum_range_succ, Nat.descFactorial])
    (r := 6371.2) (θ := 30) (φ := 90) (by norm_num) (by norm_num) (by norm_num) (by norm_num)
    (by rw [sin_30]; norm_num) (by norm_num)
  refine ⟨br, bt, bp, Br, e, d1, k.trans ?_⟩
  have hu : usedDegree 1 none = 1 := by decide
  rw [sin_30, hu]
  simp only [fieldBound, errorBound, Finset.Icc_self, Finset.sum_singleton]
  have hp : ((1 : ℝ) / 2) ^ 300 ≤ 1 := pow_le_one₀ (by norm_num) (by norm_num)
  have hc : coefStart 1 1 1 = 0 := by decide
  norm_num [upTo, ratioOf, coefG, coefH, Finset.sum_range_succ, hc, magnitude, exModel, exC, dOrder, Nat.descFactorial]
  generalize ((1 : ℝ) / 2) ^ 300 = u at hp ⊢
  linarith

/-- `C106_linear`: an external source after the end of the model. -/
example := C106_linear R (bestCos_isCosine R) (bestSin_isSine R) (FloatSpectrum.roundedPower R) .external (a := 6371.2) (by norm_num)
    (m := ⟨exModel, "external"⟩) (N := 1) exProper rfl rfl (by norm_num [exModel]) (by norm_num [exModel]) (fun i j d _ _ _ => (exC_le i j d).trans (by norm_num)) (by
      intro x hx
      simp only [exModel, List.mem_cons, List.not_mem_nil, or_false] at hx
      rcases hx with rfl | rfl | rfl <;> norm_num) (some 7) none (Or.inl rfl) (by decide) (by decide) (t := 4) (by norm_num) ex_outside.2.2.2.2.2.2 (by
      intro d hd
      have : d < 3 := hd
      interval_cases d <;> norm_num [magnitude, exModel, exC, Finset.sum_range_succ, Nat.descFactorial])
    (r := 6800) (θ := 30) (φ := -120) (by norm_num) (by norm_num) (by norm_num) (by norm_num)
    (by rw [sin_30]; norm_num) (by norm_num)

/-- `C106_linear_rate`: the secular variation after the end. -/
example := C106_linear_rate R (bestCos_isCosine R) (bestSin_isSine R) (FloatSpectrum.roundedPower R) .internal (a := 6371.2) (by norm_num)
    (m := ⟨exModel, "internal"⟩) (N := 1) exProper rfl rfl (by norm_num [exModel]) (by norm_num [exModel]) (fun i j d _ _ _ => (exC_le i j d).trans (by norm_num)) (by
      intro x hx
      simp only [exModel, List.mem_cons, List.not_mem_nil, or_false] at hx
      rcases hx with rfl | rfl | rfl <;> norm_num) none (some 1) rfl none (Or.inl rfl) (by decide) (by decide) (t := 4) (by norm_num) ex_outside.2.2.2.2.2.2 (by
      intro d hd
      have : d < 3 := hd
      interval_cases d <;> norm_num [magnitude, exModel, exC, Finset.sum_range_succ, Nat.descFactorial])
    (r := 6800) (θ := 30) (φ := -120) (by norm_num) (by norm_num) (by norm_num) (by norm_num)
    (by rw [sin_30]; norm_num) (by norm_num)

/-- `C106_off`: NaN after the end. -/
example : modelPoint R (bestCos R) (bestSin R) (FloatSpectrum.roundedPower R).fn 6371.2 ⟨exModel, "internal"⟩ none none (some (.str "off")) 4 6371.2 30 90 = .ok ⟨none, none, none⟩ :=
  C106_off R (bestCos_isCosine R) _ _ (m := ⟨exModel, "internal"⟩) (N := 1) exProper rfl none none _ (Or.inl rfl) (by decide) (by decide) (Or.inr (by norm_num [exModel, last])) (by norm_num) (by norm_num)
    (by rw [sin_30]; norm_num)

set_option exponentiation.threshold 2000 in
/-- `C107_spectrum`: the dipole of the quadratic model at time 2 (all three coefficients are 1), at twice the reference radius: `2·2^(-6)·3`. -/
example (S : FloatSpectrum.Summation R) : ∃ w, modelSpectrum R S (FloatSpectrum.roundedPower R) 6371.2 ⟨exModel, "internal"⟩ 2 (some 12742.4) (some 4) none none = .ok (some [some w]) ∧ |w - 3 / 32| ≤ 1e-13 := by
  have hval : ∀ d, iteratedDeriv 0 (piece exModel exC 1 d) 2 = 1 := by
    intro d
    rw [iteratedDeriv_zero]
    simp only [piece, poly, exModel, exC, Finset.sum_range_succ, Finset.sum_range_zero]
    norm_num
  obtain ⟨n, v, W, rfl, rfl, e, hl, h⟩ := C107_spectrum R S (FloatSpectrum.roundedPower R) (a := 6371.2) (r := 12742.4) (by norm_num) (by norm_num) (Or.inl rfl)
    (m := ⟨exModel, "internal"⟩) (N := 1) exProper rfl (Or.inl rfl) (by norm_num [exModel]) (fun i j d _ _ _ => (exC_le i j d).trans (by norm_num)) (by
      intro x hx
      simp only [exModel, List.mem_cons, List.not_mem_nil, or_false] at hx
      rcases hx with rfl | rfl | rfl <;> norm_num) (some 4) none none (by norm_num [dOrder]) (by decide) ex_outside.2.1 ex_outside.2.2.1 (by
      have : usedDegree 1 (some 4) = 1 := by decide
      rw [this]
      norm_num) (K := 1) le_rfl (by norm_num) (by
      intro d _
      refine Or.inr ?_
      rw [show dOrder none = 0 from rfl, hval]
      norm_num [magnitude, exModel, exC, Finset.sum_range_succ, Nat.descFactorial])
  have hu : usedDegree 1 (some 4) = 1 := by decide
  rw [hu] at hl h
  obtain ⟨w, hw, hb⟩ := h 1 le_rfl le_rfl
  obtain ⟨x, rfl⟩ := List.length_eq_one_iff.1 hl
  obtain rfl : x = some w := by simpa using hw
  refine ⟨w, e, ?_⟩
  have hp : degreePower (upTo 1 fun d => iteratedDeriv (dOrder none) (piece exModel exC 1 d) 2 * (365.25 : ℝ) ^ dOrder none) 1 = 3 := by
    have g : ∀ d, d < 3 → upTo 1 (fun d => iteratedDeriv (dOrder none) (piece exModel exC 1 d) 2 * (365.25 : ℝ) ^ dOrder none) d = 1 := by
      intro d hd
      unfold upTo
      rw [if_pos hd, show dOrder none = 0 from rfl]
      simp only [hval]
      norm_num
    have p0 : gaussPos 1 0 < 3 := by decide
    have p1 : gaussPos 1 1 < 3 := by decide
    have p2 : gaussPos 1 (-1) < 3 := by decide
    generalize (upTo 1 fun d => iteratedDeriv (dOrder none) (piece exModel exC 1 d) 2 * (365.25 : ℝ) ^ dOrder none) = f at g ⊢
    simp only [degreePower, Finset.sum_range_succ, Finset.sum_range_zero, gaussG, gaussH]
    norm_num [g _ p0, g _ p1, g _ p2]
  rw [hp] at hb
  have hf : Spectrum.docFactor "internal" 6371.2 12742.4 1 = 2 / 64 := by
    norm_num [Spectrum.docFactor, factorInternal]
  simp only [hf] at hb
  norm_num at hb ⊢
  refine hb.trans ?_
  norm_num

theorem ex_sizes : (∀ i j d, i < exModel.order → j + 1 < exModel.breaks.length → d < exModel.dim → |exC i j d| ≤ 2 ^ 80) ∧ ∀ x ∈ exModel.breaks, |x| ≤ 2 ^ 23 := by
  refine ⟨fun i j d _ _ _ => (exC_le i j d).trans (by norm_num), fun x hx => ?_⟩
  simp only [exModel, List.mem_cons, List.not_mem_nil, or_false] at hx
  rcases hx with rfl | rfl | rfl <;> norm_num

/-- `C106_constant`: the values at time 4 are those at the end 3. -/
example : modelPoint R (bestCos R) (bestSin R) (FloatSpectrum.roundedPower R).fn 6371.2 ⟨exModel, "internal"⟩ none none (some (.str "constant")) 4 6371.2 30 90 =
    modelPoint R (bestCos R) (bestSin R) (FloatSpectrum.roundedPower R).fn 6371.2 ⟨exModel, "internal"⟩ none none none 3 6371.2 30 90 :=
  (C106_constant R _ _ _ _ (m := ⟨exModel, "internal"⟩) (N := 1) exProper rfl (by norm_num [exModel]) ex_sizes.1 ex_sizes.2 none none ex_outside.2.2.2.1 ex_outside.2.2.2.2.2.2 _ _ _).1

/-- `C107_constant`: the same for the spectrum. -/
example (S : FloatSpectrum.Summation R) : modelSpectrum R S (FloatSpectrum.roundedPower R) 6371.2 ⟨exModel, "external"⟩ 4 none none none (some (.str "constant")) =
    modelSpectrum R S (FloatSpectrum.roundedPower R) 6371.2 ⟨exModel, "external"⟩ 3 none none none none :=
  C107_constant R S _ _ (m := ⟨exModel, "external"⟩) exProper (by norm_num [exModel]) ex_sizes.1 ex_sizes.2 none none none ex_outside.2.2.2.1 ex_outside.2.2.2.2.2.2

end ChaosMagPy.FloatModel
