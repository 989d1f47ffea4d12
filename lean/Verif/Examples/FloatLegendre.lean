import Verif.Props.FloatLegendre
/-!
# Concrete cases for C91
-/
namespace ChaosMagPy.FloatLegendre
open ChaosMagPy.Spec ChaosMagPy.Float ChaosMagPy.Legendre

variable (R : Rounding)

/-- There are roundings. -/
example : Nonempty Rounding := by
  choose f hf using nearest_exists
  exact ⟨⟨f, fun x _ => hf x⟩⟩

/-- `C91_sine` and `C91_positive` at 45°: the square of the computed sine is 1/2 to `2^-46`. -/
example : ∃ T s, legendrePolyF R (bestCos R) 13 45 = .ok T ∧ T (1, 1) = some s ∧ 2⁻¹ ^ 26 ≤ s ∧ |s ^ 2 - 1 / 2| ≤ 2⁻¹ ^ 46 := by
  obtain ⟨T, s, h1, -, h3, -, -, -, h7⟩ := C91_sine R (bestCos_isCosine R) (nmax := 13) (by norm_num) (by norm_num) (θ := 45) (by norm_num) (by norm_num)
  obtain ⟨T', s', g1, g2, g3⟩ := C91_positive R (bestCos_isCosine R) (nmax := 13) (by norm_num) (θ := 45) (a := 1.3e-6) (by norm_num) (by norm_num) (Or.inl rfl)
  rw [h1] at g1
  cases g1
  rw [h3] at g2
  cases g2
  refine ⟨T, s, h1, h3, g3, ?_⟩
  have hs : Real.sin (rad 45) ^ 2 = 1 / 2 := by
    unfold rad
    rw [show (45 : ℝ) * (Real.pi / 180) = Real.pi / 4 by ring, Real.sin_pi_div_four, div_pow, Real.sq_sqrt (by norm_num)]
    norm_num
  rwa [hs] at h7

/-- `C91_poles` at the south pole: the Legendre polynomial of degree 13 is -1 exactly, and the derivative of the function of degree and order 1 is -1. -/
example : ∃ T, legendrePolyF R (bestCos R) 13 180 = .ok T ∧ T (13, 0) = some (-1) ∧ T (1, 2) = some (-1) := by
  have hw : legendrePolyF R (bestCos R) 13 180 = .ok (finF R 13 (poleSign 180) 0) := by
    refine table_window R (by norm_num) ?_ ?_ ?_ <;> norm_num
  have hs : poleSign 180 = -1 := by unfold poleSign; norm_num
  rw [hs] at hw
  refine ⟨_, hw, ?_, ?_⟩
  · rw [finF_pole_zonal R 13 (Or.inr rfl) (by norm_num) (by norm_num) 13 (by norm_num)]
    norm_num
  · rw [finF_12, finF_pole_zonal R 13 (Or.inr rfl) (by norm_num) (by norm_num) 1 (by norm_num)]
    norm_num

/-- `C91_lost`: a dipole at colatitude `1e-7°` - the azimuthal component is NaN at this point, and `C91_defined`: a number at the pole. -/
example (sin : ℝ → ℝ) (power : ℝ → ℤ → ℝ) :
    (∃ B, synthPoint R (bestCos R) sin power 6371.2 true 1 1 1 (fun _ => some (-30000)) 6371.2 1e-7 90 = .ok B ∧ B.phi = none) ∧
    ∃ B z, synthPoint R (bestCos R) sin power 6371.2 true 1 1 1 (fun _ => some (-30000)) 6371.2 0 90 = .ok B ∧ B.phi = some z := by
  constructor
  · obtain ⟨B, P, h1, -, h3, -⟩ := C91_lost R sin power 6371.2 true (nmin := 1) (nmax := 1) (mmax := 1) (by norm_num) (by norm_num) (by norm_num)
      (by norm_num) (fun _ => some (-30000)) 6371.2 90 (θ := 1e-7) (pole := 0) (Or.inl rfl) (by rw [abs_of_pos] <;> norm_num) (by norm_num) (by norm_num)
    exact ⟨B, h1, h3⟩
  · obtain ⟨B, x, y, z, h1, -, -, h4⟩ := C91_defined R (bestCos_isCosine R) sin power 6371.2 true (nmin := 1) (nmax := 1) (mmax := 1) (by norm_num)
      (by norm_num) (by norm_num) (fun _ => -30000) 6371.2 90 (by
        rw [div_self (by norm_num)]
        exact pow_le_one₀ (by norm_num) (by norm_num)) (by
        rw [div_self (by norm_num)]
        exact one_le_pow₀ (by norm_num)) (θ := 0) (a := 6.1e-7) (Or.inr ⟨rfl, rfl⟩) (Or.inl rfl)
    exact ⟨B, z, h1, h4⟩

/-- `C91_design` close to the south pole. -/
example : ∃ T, legendrePolyF R (bestCos R) 3 (180 - 2e-7) = .ok T ∧ designPhi R (bestCos R) Real.sin T (180 - 2e-7) 1 (some 1) 3 2 = (none, none) := by
  obtain ⟨T, h1, h2⟩ := C91_design R Real.sin (nmax := 3) (by norm_num) (by norm_num) 1 (some 1) (θ := 180 - 2e-7) (pole := 180) (Or.inr rfl)
    (by norm_num) (by norm_num) (by norm_num)
  exact ⟨T, h1, h2 3 2⟩

/-- `C91_quotient` at the equator. -/
example : ∃ T, legendrePolyF R (bestCos R) 5 90 = .ok T ∧ divPnm R T 90 1 1 = some 1 := by
  obtain ⟨T, h1, h2, -⟩ := C91_quotient R (nmax := 5) (by norm_num) (by norm_num) (θ := 90) (Or.inr (Or.inr (by norm_num)))
  exact ⟨T, h1, h2⟩

end ChaosMagPy.FloatLegendre
