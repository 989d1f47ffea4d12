import Verif.Props.FloatField
import Verif.Props.FloatDesign
import Verif.Examples.FloatSpectrum
/-!
# Concrete cases for C92, C93 and C94
-/
namespace ChaosMagPy.FloatLegendre
open ChaosMagPy.Spec ChaosMagPy.Float ChaosMagPy.Legendre

variable (R : Rounding)

theorem bestSin_isSine : IsSine (bestSin R) := by
  have hx : ∀ x, |Real.sin x| ≤ 2 ^ 1000 := fun x => big' ((Real.abs_sin_le_one x).trans (by norm_num))
  refine ⟨fun x => (R.nearest _ (hx x)).1, fun x => ?_, fun x => ?_⟩
  · have e1 : R 1 = 1 := by simpa using rnd_int R (m := 1) (by norm_num)
    have e2 : R (-1) = -1 := by simpa using rnd_int R (m := -1) (by norm_num)
    rw [abs_le]
    constructor
    · rw [← e2]; exact rnd_mono R (big' (by norm_num)) (hx x) (Real.neg_one_le_sin x)
    · rw [← e1]; exact rnd_mono R (hx x) (big' (by norm_num)) (Real.sin_le_one x)
  · refine (err_one R (Real.abs_sin_le_one x)).trans (by norm_num)

theorem sin_30 : Real.sin (rad 30) = 1 / 2 := by
  unfold rad
  rw [show (30 : ℝ) * (Real.pi / 180) = Real.pi / 6 by ring, Real.sin_pi_div_six]

/-- `C92_values` and `C92_derivatives` at 30 degrees: the dipole of order 1 is 1/2 to `2^-41`, the errors of degree 13 are below `1e-6` and `1e-4`. -/
example : ∃ T, legendrePolyF R (bestCos R) 13 30 = .ok T ∧ (∃ t, T (1, 1) = some t ∧ |t - 1 / 2| ≤ 2⁻¹ ^ 41) ∧
    (∃ t, T (13, 5) = some t ∧ |t - schmidt 13 5 (rad 30)| ≤ 1e-6) ∧
    ∃ t d, T (5, 14) = some t ∧ HasDerivAt (schmidt 13 5) d (rad 30) ∧ |t - d| ≤ 1e-4 := by
  have hs : (2 : ℝ)⁻¹ ^ 20 ≤ Real.sin (rad 30) := by rw [sin_30]; norm_num
  obtain ⟨T, h1, h2⟩ := C92_values R (bestCos_isCosine R) (nmax := 13) (by norm_num) (by norm_num) (θ := 30) (by norm_num) (by norm_num) hs
  obtain ⟨T', g1, g2⟩ := C92_derivatives R (bestCos_isCosine R) (nmax := 13) (by norm_num) (by norm_num) (θ := 30) (by norm_num) (by norm_num) hs
  rw [h1] at g1
  cases g1
  refine ⟨T, h1, ?_, ?_, ?_⟩
  · obtain ⟨t, ht, h⟩ := h2 1 1 le_rfl (by norm_num)
    refine ⟨t, ht, ?_⟩
    rw [Synth.schmidt_1_1, sin_30] at h
    refine h.trans ?_
    norm_num
  · obtain ⟨t, ht, h⟩ := h2 13 5 (by norm_num) le_rfl
    refine ⟨t, ht, h.trans ?_⟩
    rw [sin_30]
    norm_num
  · obtain ⟨t, d, ht, hd, h⟩ := g2 13 5 (by norm_num) (by norm_num) le_rfl
    refine ⟨t, d, ht, hd, h.trans ?_⟩
    rw [sin_30]
    norm_num

/-- `C93_internal`: an axial dipole of -30000 nT at the surface, 30 degrees from the pole: the radial component is correct to 0.001 nT. -/
example : ∃ br bt bp Br, synthPoint R (bestCos R) (bestSin R) (FloatSpectrum.roundedPower R).fn 6371.2 true 1 1 0 (fun i => some (if i = 0 then -30000 else 0))
      6371.2 30 90 = .ok ⟨some br, some bt, some bp⟩ ∧
    HasDerivAt (fun r' => potInt 6371.2 (fun i => if i = 0 then -30000 else 0) 1 1 0 r' (rad 30) (rad 90)) (-Br) 6371.2 ∧ |br - Br| ≤ 1e-3 := by
  obtain ⟨br, bt, bp, Br, Bt, Bp, e, d1, -, -, k, -⟩ := C93_internal R (bestCos_isCosine R) (bestSin_isSine R) (FloatSpectrum.roundedPower R)
    (a := 6371.2) (by norm_num) (nmin := 1) (nmax := 1) (M := 0) le_rfl le_rfl (by norm_num) (c := fun i => if i = 0 then -30000 else 0)
    (fun i => by split_ifs <;> norm_num) (r := 6371.2) (θ := 30) (φ := 90) (by norm_num) (by norm_num) (by norm_num) (by norm_num)
    (by rw [sin_30]; norm_num) (by norm_num)
  refine ⟨br, bt, bp, Br, ?_, d1, k.trans ?_⟩
  · exact e
  · rw [sin_30]
    simp only [errorBound, Finset.Icc_self, Finset.sum_singleton]
    have hp : ((1 : ℝ) / 2) ^ 300 ≤ 1 := pow_le_one₀ (by norm_num) (by norm_num)
    have hc : coefStart 1 0 1 = 0 := by decide
    norm_num [coefG, coefH, Finset.sum_range_succ, hc]
    generalize ((1 : ℝ) / 2) ^ 300 = u at hp ⊢
    linarith

/-- `C93_external`: an external field of degree 2 with all coefficients 20 nT, above the surface. -/
example : ∃ br bt bp Bp, synthPoint R (bestCos R) (bestSin R) (FloatSpectrum.roundedPower R).fn 6371.2 false 1 2 2 (fun _ => some 20)
      6800 30 (-120) = .ok ⟨some br, some bt, some bp⟩ ∧
    HasDerivAt (fun y => potExt 6371.2 (fun _ => 20) 1 2 2 6800 (rad 30) y) (-(6800 * Real.sin (rad 30) * Bp)) (rad (-120)) ∧ |bp - Bp| ≤ 1e-3 := by
  obtain ⟨br, bt, bp, Br, Bt, Bp, e, -, -, d, -, -, k⟩ := C93_external R (bestCos_isCosine R) (bestSin_isSine R) (FloatSpectrum.roundedPower R)
    (a := 6371.2) (by norm_num) (nmin := 1) (nmax := 2) (M := 2) le_rfl (by norm_num) (by norm_num) (c := fun _ => 20)
    (fun i => by norm_num) (r := 6800) (θ := 30) (φ := -120) (by norm_num) (by norm_num) (by norm_num) (by norm_num)
    (by rw [sin_30]; norm_num) (by norm_num)
  refine ⟨br, bt, bp, Bp, e, d, k.trans ?_⟩
  rw [sin_30]
  have e1 : Finset.Icc 1 2 = {1, 2} := rfl
  simp only [errorBound, e1]
  have hp : ((1 : ℝ) / 2) ^ 300 ≤ 1 := pow_le_one₀ (by norm_num) (by norm_num)
  norm_num [coefG, coefH, Finset.sum_range_succ]
  generalize ((1 : ℝ) / 2) ^ 300 = u at hp ⊢
  linarith

/-- `C94_internal`: the three columns of degree 1 and the last column of degree 2, at the surface, are correct to `1e-9`. -/
example : ∃ A, designPointF R (bestCos R) (bestSin R) (FloatSpectrum.roundedPower R).fn 6371.2 true 1 2 2 6371.2 30 90 = .ok A ∧
    (∀ k, k < 3 → ∃ ar Br, A.radius k = some ar ∧
      HasDerivAt (fun r' => potInt 6371.2 (unitModel k) 1 2 2 r' (rad 30) (rad 90)) (-Br) 6371.2 ∧ |ar - Br| ≤ 1e-9) ∧
    ∃ at' Bt, A.theta 7 = some at' ∧
      HasDerivAt (fun x => potInt 6371.2 (unitModel 7) 1 2 2 6371.2 x (rad 90)) (-(6371.2 * Bt)) (rad 30) ∧ |at' - Bt| ≤ 1e-9 := by
  obtain ⟨A, e, h⟩ := C94_internal R (bestCos_isCosine R) (bestSin_isSine R) (FloatSpectrum.roundedPower R)
    (a := 6371.2) (by norm_num) (nmin := 1) (nmax := 2) (M := 2) le_rfl (by norm_num) (by norm_num) (r := 6371.2) (θ := 30) (φ := 90)
    (by norm_num) (by norm_num) (by norm_num) (by norm_num) (by rw [sin_30]; norm_num) (by norm_num)
  have c1 : coefStart 1 2 1 = 0 := by decide
  have c2 : coefStart 1 2 (1 + 1) = 3 := by decide
  have c4 : coefStart 1 2 2 = 3 := by decide
  have c3 : coefStart 1 2 (2 + 1) = 8 := by decide
  refine ⟨A, e, fun k hk => ?_, ?_⟩
  · obtain ⟨ar, at', ap, Br, Bt, Bp, e1, -, -, d, -, -, b, -⟩ := h 1 k le_rfl (by norm_num) (by omega) (by omega)
    refine ⟨ar, Br, e1, d, b.trans ?_⟩
    rw [sin_30]
    norm_num [entryBound]
  · obtain ⟨ar, at', ap, Br, Bt, Bp, -, e1, -, -, d, -, -, b, -⟩ := h 2 7 (by norm_num) le_rfl (by omega) (by omega)
    refine ⟨at', Bt, e1, d, b.trans ?_⟩
    rw [sin_30]
    norm_num [entryBound]

/-- `C94_external`: the sine column of order 1 and degree 2, without the columns of order 2. -/
example : ∃ A, designPointF R (bestCos R) (bestSin R) (FloatSpectrum.roundedPower R).fn 6371.2 false 1 2 1 6800 30 (-120) = .ok A ∧
    ∃ ap Bp, A.phi 5 = some ap ∧
      HasDerivAt (fun y => potExt 6371.2 (unitModel 5) 1 2 1 6800 (rad 30) y) (-(6800 * Real.sin (rad 30) * Bp)) (rad (-120)) ∧ |ap - Bp| ≤ 1e-9 := by
  obtain ⟨A, e, h⟩ := C94_external R (bestCos_isCosine R) (bestSin_isSine R) (FloatSpectrum.roundedPower R)
    (a := 6371.2) (by norm_num) (nmin := 1) (nmax := 2) (M := 1) le_rfl (by norm_num) (by norm_num) (r := 6800) (θ := 30) (φ := -120)
    (by norm_num) (by norm_num) (by norm_num) (by norm_num) (by rw [sin_30]; norm_num) (by norm_num)
  have c2 : coefStart 1 1 2 = 3 := by decide
  have c3 : coefStart 1 1 (2 + 1) = 6 := by decide
  obtain ⟨ar, at', ap, Br, Bt, Bp, -, -, e1, -, -, d, -, -, b⟩ := h 2 5 (by norm_num) le_rfl (by omega) (by omega)
  refine ⟨A, e, ap, Bp, e1, d, b.trans ?_⟩
  rw [sin_30]
  norm_num [entryBound]

end ChaosMagPy.FloatLegendre
