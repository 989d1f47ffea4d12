import Verif.Props.FloatSpectrum
/-!
# Concrete cases for C90
-/
namespace ChaosMagPy.FloatSpectrum
open ChaosMagPy.Spec ChaosMagPy.Float

variable (R : Rounding)

/-- One order of the additions: from the last number to the first. -/
noncomputable def sumRight : Summation R where
  fn l := l.foldr (fun x s => R (x + s)) 0
  order l := by
    induction l with
    | nil => exact .zero
    | cons x l ih => exact (Added.one x).add ih

/-- Another one: from the first number to the last. -/
noncomputable def sumLeft : Summation R where
  fn l := l.foldl (fun s x => R (s + x)) 0
  order l := by
    induction l using List.reverseRecOn with
    | nil => exact .zero
    | append_singleton l x ih =>
      rw [List.foldl_append]
      exact ih.add (Added.one x)

/-- A power function: the exact power, rounded once. -/
noncomputable def roundedPower : Power where
  fn x k := R (x ^ k)
  one k := by
    rw [one_zpow]
    exact_mod_cast rnd_int R (m := 1) (by norm_num)
  accurate x k hx h1 h2 := by
    have hI : In (-900) 900 (x ^ k) := ⟨h1, h2⟩
    obtain ⟨hr, hd⟩ := hI.rnd R (by norm_num) (by norm_num)
    refine ⟨hd, ?_⟩
    have := hr.err (by norm_num)
    rw [abs_of_pos hI.pos] at this
    refine this.trans (mul_le_mul_of_nonneg_right ?_ hI.pos.le)
    norm_num

/-- Coefficients of a model of degree 2 with a zero. -/
noncomputable def exC (i : ℕ) : ℝ := (([-29404, -1450, 4652, -2500, 2982, 0, 1677, -734] : List ℤ)[i]?).getD 0
/-- Another model of degree 2, without power in degree 2. -/
noncomputable def exD (i : ℕ) : ℝ := (([-29350, -1410, 4545] : List ℤ)[i]?).getD 0

theorem moderate_int {m : ℤ} (h : |m| ≤ 2 ^ 20) : Moderate (m : ℝ) := by
  refine ⟨double_int (h.trans (by norm_num)), ?_⟩
  by_cases h0 : m = 0
  · left; exact_mod_cast h0
  · right
    constructor
    · have h1 : (1 : ℝ) ≤ |(m : ℝ)| := by exact_mod_cast Int.one_le_abs h0
      refine le_trans ?_ h1
      rw [← zpow_zero (2 : ℝ)]
      exact zpow_le_zpow_right₀ (by norm_num) (by norm_num)
    · have h1 : |(m : ℝ)| ≤ 2 ^ 20 := by exact_mod_cast h
      exact h1.trans (pow_le_pow_right₀ (by norm_num) (by norm_num))

theorem exC_moderate (i : ℕ) : Moderate (exC i) := by
  unfold exC
  apply moderate_int
  rcases i with _ | _ | _ | _ | _ | _ | _ | _ | i <;> simp

theorem exD_moderate (i : ℕ) : Moderate (exD i) := by
  unfold exD
  apply moderate_int
  rcases i with _ | _ | _ | i <;> simp

theorem exC_power : degreePower exC 1 ≠ 0 ∧ degreePower exC 2 ≠ 0 := by
  constructor
  · have : 0 < degreePower exC 1 := by
      simp [degreePower, gaussG, gaussH, gaussPos, exC, Finset.sum_range_succ]
      norm_num
    exact this.ne'
  · have : 0 < degreePower exC 2 := by
      simp [degreePower, gaussG, gaussH, gaussPos, exC, Finset.sum_range_succ]
      norm_num
    exact this.ne'

theorem exD_power : degreePower exD 1 ≠ 0 ∧ degreePower exD 2 = 0 := by
  constructor
  · have : 0 < degreePower exD 1 := by
      simp [degreePower, gaussG, gaussH, gaussPos, exD, Finset.sum_range_succ]
      norm_num
    exact this.ne'
  · simp [degreePower, gaussG, gaussH, gaussPos, exD, Finset.sum_range_succ]

theorem exRatio : (2 : ℝ) ^ (-500 : ℤ) ≤ (6371.2 / 3485 : ℝ) ^ (2 * 2 + 4) ∧ (6371.2 / 3485 : ℝ) ^ (2 * 2 + 4) ≤ 2 ^ 500 := by
  constructor
  · refine le_trans (b := 1) ?_ (one_le_pow₀ (by norm_num))
    rw [← zpow_zero (2 : ℝ)]
    exact zpow_le_zpow_right₀ (by norm_num) (by norm_num)
  · refine le_trans (b := (2 : ℝ) ^ (2 * 2 + 4)) (pow_le_pow_left₀ (by norm_num) (by norm_num) _) (pow_le_pow_right₀ (by norm_num) (by norm_num))

/-- C90_power: degree 2 at the core surface, with the additions in two orders. -/
example := C90_power (sumRight R) (roundedPower R) (a := 6371.2) (r := 3485) (by norm_num) (by norm_num) 8 2 (by norm_num) (by norm_num) (by norm_num)
  exRatio exC exC_moderate none "internal" (by decide)
example := C90_power (sumLeft R) (roundedPower R) (a := 6371.2) (r := 3485) (by norm_num) (by norm_num) 8 2 (by norm_num) (by norm_num) (by norm_num)
  exRatio exC exC_moderate (some 1) "external" (by decide)

/-- C90_defaults. -/
example := (C90_defaults (sumLeft R) (roundedPower R) (a := 6371.2) (by norm_num) 8 exC none none none).1

/-- C90_correlation: degree 1 has a correlation, degree 2 gives NaN. -/
example : ∃ C x, degreeCorrelation R (sumLeft R) 8 exC 8 exD = .ok C ∧ C[0]? = some (.val x) ∧
    |x - degreeProduct exC exD 1 / (Real.sqrt (degreePower exC 1) * Real.sqrt (degreePower exD 1))| ≤ 13 / 2 ^ 53 ∧ C[1]? = some .nan := by
  obtain ⟨C, h1, -, h⟩ := C90_correlation (sumLeft R) 8 2 (by norm_num) (by norm_num) (by norm_num) exC exD exC_moderate exD_moderate
  obtain ⟨x, h2, h3⟩ := (h 1 le_rfl (by norm_num)).2 exC_power.1 exD_power.1
  refine ⟨C, x, h1, h2, ?_, (h 2 (by norm_num) le_rfl).1 (Or.inr exD_power.2)⟩
  refine h3.trans (le_of_eq ?_)
  norm_num

/-- C90_self: both degrees give exactly one. -/
example : ∃ C, degreeCorrelation R (sumLeft R) 8 exC 8 exC = .ok C ∧ C[0]? = some (.val 1) ∧ C[1]? = some (.val 1) := by
  obtain ⟨C, h1, h⟩ := C90_self (sumLeft R) 8 2 (by norm_num) (by norm_num) (by norm_num) exC exC_moderate
  exact ⟨C, h1, h 1 le_rfl (by norm_num) exC_power.1, h 2 (by norm_num) le_rfl exC_power.2⟩

/-- C90_symmetric. -/
example := C90_symmetric (sumLeft R) 8 exC exD

/-- C90_sensitivity: `g_1^0` has a finite value, `g_2^0` of the model without power in degree 2 is infinite (negative). -/
example : ∃ L x, sensitivity R (sumRight R) 8 exC 8 exD = .ok L ∧ L[0]? = some (.val x) ∧ L[3]? = some .negInf := by
  obtain ⟨L, h1, -, h, -⟩ := C90_sensitivity (sumRight R) 8 2 (by norm_num) (by norm_num) (by norm_num) exC exD exC_moderate exD_moderate
  obtain ⟨x, h2, -⟩ := (h 1 0 le_rfl (by norm_num) (by norm_num)).1 exD_power.1
  have h3 := (h 2 0 (by norm_num) le_rfl (by norm_num)).2 exD_power.2
  have e1 : gaussPos 1 0 = 0 := by decide
  have e2 : gaussPos 2 0 = 3 := by decide
  rw [e1] at h2
  rw [e2] at h3
  refine ⟨L, x, h1, h2, ?_⟩
  rw [h3]
  have : exC 3 - exD 3 < 0 := by simp [exC, exD]
  rw [if_neg this.ne, if_neg (not_lt.2 this.le)]

end ChaosMagPy.FloatSpectrum
