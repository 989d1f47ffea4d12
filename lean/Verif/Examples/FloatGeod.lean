import Verif.Props.FloatGeodAccuracy
import Verif.Props.FloatGgVector
import Verif.Examples.FloatCoord
import Verif.Examples.FloatField
/-!
# Non-vacuity of C98 to C101: the platform's functions can be the exact ones, and there is a rounding with the rule for ties of IEEE 754
-/
namespace ChaosMagPy.FloatGeod
open ChaosMagPy.Spec ChaosMagPy.Float ChaosMagPy.FloatLegendre

/-- The exact functions. -/
noncomputable def exactPlatform : Platform := ⟨Real.sin, Real.cos, fun x => x ^ 3, fun x => x ^ (1 / 3 : ℝ), fun y x => Complex.arg ⟨x, y⟩⟩

example : exactPlatform.sin 0 = 0 ∧ exactPlatform.cos 0 = 1 ∧ (∀ x, 0 < x → exactPlatform.cube x ≠ 0) ∧ exactPlatform.cbrt 1 = 1 :=
  ⟨Real.sin_zero, Real.cos_zero, fun x hx => (pow_pos hx 3).ne', Real.one_rpow _⟩

theorem tie_unique {m m' : ℕ} {e e' : ℤ} (h1 : 2 ^ 52 ≤ m) (h2 : m < 2 ^ 53) (h1' : 2 ^ 52 ≤ m') (h2' : m' < 2 ^ 53)
    (h : ((m : ℝ) + 1 / 2) * (2 : ℝ) ^ e = (m' + 1 / 2) * (2 : ℝ) ^ e') : m = m' ∧ e = e' := by
  have key : ∀ {m m' : ℕ} {e e' : ℤ}, 2 ^ 52 ≤ m → m' < 2 ^ 53 → ((m : ℝ) + 1 / 2) * (2 : ℝ) ^ e = (m' + 1 / 2) * (2 : ℝ) ^ e' → ¬ e' < e := by
    intro m m' e e' a b h hlt
    have a' : (2 ^ 52 : ℝ) ≤ m := by exact_mod_cast a
    have b' : (m' : ℝ) + 1 ≤ 2 ^ 53 := by exact_mod_cast b
    have c : (2 : ℝ) * (2 : ℝ) ^ e' ≤ (2 : ℝ) ^ e := by
      rw [← zpow_one_add₀ (by norm_num : (2 : ℝ) ≠ 0)]
      exact zpow_le_zpow_right₀ (by norm_num) (by omega)
    have hp : (0 : ℝ) < (2 : ℝ) ^ e' := by positivity
    nlinarith
  have he : e = e' := le_antisymm (not_lt.1 (key h1 h2' h)) (not_lt.1 (key h1' h2 h.symm))
  subst he
  have hp : (2 : ℝ) ^ e ≠ 0 := by positivity
  have := mul_right_cancel₀ hp h
  exact ⟨by exact_mod_cast (add_right_cancel this), rfl⟩

theorem tie_nearest {m : ℕ} {e : ℤ} (h1 : 2 ^ 52 ≤ m) {y : ℝ} (hy : IsDouble y) : (2 : ℝ) ^ e / 2 ≤ |y - (m + 1 / 2) * (2 : ℝ) ^ e| := by
  by_contra hlt
  rw [not_le, abs_lt] at hlt
  have hp : (0 : ℝ) < (2 : ℝ) ^ e := by positivity
  have a' : (2 ^ 52 : ℝ) ≤ m := by exact_mod_cast h1
  have g1 : (m : ℝ) * (2 : ℝ) ^ e < y := by linarith
  have g2 : y < (m + 1) * (2 : ℝ) ^ e := by linarith
  have e1 : (2 : ℝ) ^ (52 + e) = 2 ^ 52 * (2 : ℝ) ^ e := by
    rw [zpow_add₀ (by norm_num)]
    norm_cast
  obtain ⟨k, hk⟩ := double_multiple hy (k := 52 + e) (by rw [e1]; refine le_trans ?_ (le_abs_self y); nlinarith)
  rw [show 52 + e - 52 = e by ring] at hk
  rw [hk] at g1 g2
  have k1 := lt_of_mul_lt_mul_right g1 hp.le
  have k2 := lt_of_mul_lt_mul_right g2 hp.le
  have k3 : (m : ℤ) < k := by exact_mod_cast k1
  have k4 : k < (m : ℤ) + 1 := by exact_mod_cast k2
  omega

/-- There is a rounding with this rule for ties. -/
example : ∃ R : Rounding, TiesToEven R := by
  have key : ∀ x : ℝ, ∃ r, (IsDouble r ∧ ∀ y, IsDouble y → |r - x| ≤ |y - x|) ∧
      ∀ (m : ℕ) (e : ℤ), 2 ^ 52 ≤ m → m < 2 ^ 53 → -1074 ≤ e → e ≤ 900 → x = (m + 1 / 2) * (2 : ℝ) ^ e → r = (if Even m then (m : ℝ) else m + 1) * (2 : ℝ) ^ e := by
    intro x
    by_cases hx : ∃ (m : ℕ) (e : ℤ), 2 ^ 52 ≤ m ∧ m < 2 ^ 53 ∧ -1074 ≤ e ∧ e ≤ 900 ∧ x = (m + 1 / 2) * (2 : ℝ) ^ e
    · obtain ⟨m, e, h1, h2, h3, h4, rfl⟩ := hx
      refine ⟨(if Even m then (m : ℝ) else m + 1) * (2 : ℝ) ^ e, ⟨?_, ?_⟩, fun m' e' h1' h2' _ _ h => ?_⟩
      · split_ifs
        · exact_mod_cast double_of (m := m) (by rw [Int.abs_natCast]; exact_mod_cast h2.le) h3 (by omega)
        · exact_mod_cast double_of (m := m + 1) (by rw [abs_of_nonneg (by positivity)]; exact_mod_cast h2) h3 (by omega)
      · intro y hy
        refine le_trans (le_of_eq ?_) (tie_nearest h1 hy)
        have hp : (0 : ℝ) < (2 : ℝ) ^ e := by positivity
        split_ifs
        · rw [show (m : ℝ) * (2 : ℝ) ^ e - (m + 1 / 2) * (2 : ℝ) ^ e = -((2 : ℝ) ^ e / 2) by ring, abs_neg, abs_of_pos (by positivity)]
        · rw [show ((m : ℝ) + 1) * (2 : ℝ) ^ e - (m + 1 / 2) * (2 : ℝ) ^ e = (2 : ℝ) ^ e / 2 by ring, abs_of_pos (by positivity)]
      · obtain ⟨rfl, rfl⟩ := tie_unique h1 h2 h1' h2' h
        rfl
    · obtain ⟨r, hr⟩ := nearest_exists x
      exact ⟨r, hr, fun m e h1 h2 h3 h4 h => (hx ⟨m, e, h1, h2, h3, h4, h⟩).elim⟩
  choose f hf ht using key
  exact ⟨⟨f, fun x _ => hf x⟩, fun m e h1 h2 h3 h4 => ht _ m e h1 h2 h3 h4 rfl⟩

/-- The point at colatitude 60 degrees on the reference sphere, with correctly rounded sine and cosine. -/
example (R : Rounding) : ∃ h β, geoToGg R ⟨bestSin R, bestCos R, fun x => x ^ 3, fun x => x ^ ((1 : ℝ) / 3), fun y x => Complex.arg ⟨x, y⟩⟩
    (R 6378.137) (R 6356.752) 6371.2 60 = (some h, some β) := by
  have h60 : rad 60 = Real.pi / 3 := by rw [rad]; ring
  refine C98_numbers R _ (bestSin_isSine R) (bestCos_isCosine R) ?_ ?_ (by norm_num) (by norm_num) (by norm_num) (by norm_num) ?_ ?_
  · intro x h1 _
    have : 0 < x := lt_of_lt_of_le (by positivity) h1
    simp only [sub_self, abs_zero]
    positivity
  · intro x h1 _
    have : 0 < x := lt_of_lt_of_le (by positivity) h1
    simp only [sub_self, abs_zero]
    positivity
  · rw [h60, Real.sin_pi_div_three]
    have : (1 : ℝ) ≤ Real.sqrt 3 := Real.one_le_sqrt.2 (by norm_num)
    norm_num
    linarith
  · have h := FloatCoord.cos_wide R (bestCos_isCosine R) (x := 60) (by norm_num [abs_le])
    rw [h60, Real.cos_pi_div_three, abs_le] at h
    refine le_trans ?_ (le_abs_self _)
    have : (2 : ℝ) ^ (-100 : ℤ) ≤ 1 / 2 - (2⁻¹ ^ 49 + 2⁻¹ ^ 52) := by norm_num
    linarith [h.1]

/-- The same point: the returned coordinates describe it to 0.1 mm. -/
example (R : Rounding) : ∃ h β, geoToGg R ⟨bestSin R, bestCos R, fun x => x ^ 3, fun x => x ^ ((1 : ℝ) / 3), bestArctan2 R⟩
    (R 6378.137) (R 6356.752) 6371.2 60 = (some h, some β) ∧ -500 ≤ h ∧ h ≤ 45000 ∧ 0 ≤ β ∧ β ≤ 180 ∧
      |(geodeticPoint (R 6378.137) (R 6356.752) h ((90 - β) * Real.pi / 180)).1 - (geocentricPoint 6371.2 60).1| ≤ 1 / 10 ^ 7 ∧
      |(geodeticPoint (R 6378.137) (R 6356.752) h ((90 - β) * Real.pi / 180)).2 - (geocentricPoint 6371.2 60).2| ≤ 1 / 10 ^ 7 := by
  have h60 : rad 60 = Real.pi / 3 := by rw [rad]; ring
  refine C99_accuracy R _ (bestSin_isSine R) (bestCos_isCosine R) (FloatCoord.bestArctan2_isArctan2 R) ?_ ?_ (by norm_num) (by norm_num) (by norm_num) (by norm_num) ?_ ?_
  · intro x h1 _
    have : 0 < x := lt_of_lt_of_le (by positivity) h1
    simp only [sub_self, abs_zero]
    positivity
  · intro x h1 _
    have : 0 < x := lt_of_lt_of_le (by positivity) h1
    simp only [sub_self, abs_zero]
    positivity
  · rw [geocentricPoint, show (60 : ℝ) * Real.pi / 180 = Real.pi / 3 by ring, Real.sin_pi_div_three]
    have : (1 : ℝ) ≤ Real.sqrt 3 := Real.one_le_sqrt.2 (by norm_num)
    norm_num
    linarith
  · have h := FloatCoord.cos_wide R (bestCos_isCosine R) (x := 60) (by norm_num [abs_le])
    rw [h60, Real.cos_pi_div_three, abs_le] at h
    refine le_trans ?_ (le_abs_self _)
    have : (2 : ℝ) ^ (-100 : ℤ) ≤ 1 / 2 - (2⁻¹ ^ 49 + 2⁻¹ ^ 52) := by norm_num
    linarith [h.1]

/-- The north pole at height 400 km: `gg_to_geo` returns its geocentric coordinates to 0.01 mm. -/
example (R : Rounding) : ∃ r θ, ggToGeo R ⟨bestSin R, bestCos R, Real.tan, fun x => x ^ 4, bestArctan2 R⟩ (R 6378.137) (R 6356.752) 400 0 = (some r, some θ) ∧
    |(geocentricPoint r θ).1 - (geodeticPoint (R 6378.137) (R 6356.752) 400 ((90 - 0) * Real.pi / 180)).1| ≤ 1 / 10 ^ 8 ∧
    |(geocentricPoint r θ).2 - (geodeticPoint (R 6378.137) (R 6356.752) 400 ((90 - 0) * Real.pi / 180)).2| ≤ 1 / 10 ^ 8 := by
  refine C100_accuracy R _ (bestSin_isSine R) (bestCos_isCosine R) ?_ (FloatCoord.bestArctan2_isArctan2 R) ?_ (by norm_num) (by norm_num) le_rfl (by norm_num)
  · intro x _
    rw [sub_self, abs_zero]
    positivity
  · intro x _ _
    rw [sub_self, abs_zero]
    positivity

/-- There and back at radius 6371.2 km, colatitude 60 degrees. -/
example (R : Rounding) : ∃ h β r θ, geoToGg R ⟨bestSin R, bestCos R, fun x => x ^ 3, fun x => x ^ ((1 : ℝ) / 3), bestArctan2 R⟩
    (R 6378.137) (R 6356.752) 6371.2 60 = (some h, some β) ∧
    ggToGeo R ⟨bestSin R, bestCos R, Real.tan, fun x => x ^ 4, bestArctan2 R⟩ (R 6378.137) (R 6356.752) h β = (some r, some θ) ∧
    |r - 6371.2| ≤ 3 / 10 ^ 7 ∧ |θ - 60| ≤ 1 / 10 ^ 8 := by
  have h60 : rad 60 = Real.pi / 3 := by rw [rad]; ring
  refine C100_round_trip R _ (bestSin_isSine R) (bestCos_isCosine R) (FloatCoord.bestArctan2_isArctan2 R) ?_ ?_ _ (bestSin_isSine R) (bestCos_isCosine R) ?_
    (FloatCoord.bestArctan2_isArctan2 R) ?_ (by norm_num) (by norm_num) (by norm_num) (by norm_num) ?_ ?_
  · intro x h1 _
    have : 0 < x := lt_of_lt_of_le (by positivity) h1
    simp only [sub_self, abs_zero]
    positivity
  · intro x h1 _
    have : 0 < x := lt_of_lt_of_le (by positivity) h1
    simp only [sub_self, abs_zero]
    positivity
  · intro x _
    rw [sub_self, abs_zero]
    positivity
  · intro x _ _
    rw [sub_self, abs_zero]
    positivity
  · rw [geocentricPoint, show (60 : ℝ) * Real.pi / 180 = Real.pi / 3 by ring, Real.sin_pi_div_three]
    have : (1 : ℝ) ≤ Real.sqrt 3 := Real.one_le_sqrt.2 (by norm_num)
    norm_num
    linarith
  · have h := FloatCoord.cos_wide R (bestCos_isCosine R) (x := 60) (by norm_num [abs_le])
    rw [h60, Real.cos_pi_div_three, abs_le] at h
    refine le_trans ?_ (le_abs_self _)
    have : (2 : ℝ) ^ (-100 : ℤ) ≤ 1 / 2 - (2⁻¹ ^ 49 + 2⁻¹ ^ 52) := by norm_num
    linarith [h.1]

/-- The same with the vector of 60000 nT downward, 20000 nT northward: back to 0.00006 nT. -/
example (R : Rounding) : ∃ h β X Z r θ Br Bt, geoToGgVector R ⟨bestSin R, bestCos R, fun x => x ^ 3, fun x => x ^ ((1 : ℝ) / 3), bestArctan2 R⟩
    (R 6378.137) (R 6356.752) 6371.2 60 (-60000) (-20000) = (some h, some β, some X, some Z) ∧
    ggToGeoVector R ⟨bestSin R, bestCos R, Real.tan, fun x => x ^ 4, bestArctan2 R⟩ (R 6378.137) (R 6356.752) h β X Z = (some r, some θ, some Br, some Bt) ∧
    |r - 6371.2| ≤ 3 / 10 ^ 7 ∧ |θ - 60| ≤ 1 / 10 ^ 8 ∧ |Br - -60000| ≤ 1 / 10 ^ 9 * 60000 ∧ |Bt - -20000| ≤ 1 / 10 ^ 9 * 60000 := by
  have h60 : rad 60 = Real.pi / 3 := by rw [rad]; ring
  refine C101_round_trip R _ (bestSin_isSine R) (bestCos_isCosine R) (FloatCoord.bestArctan2_isArctan2 R) ?_ ?_ _ (bestSin_isSine R) (bestCos_isCosine R) ?_
    (FloatCoord.bestArctan2_isArctan2 R) ?_ (by norm_num) (by norm_num) (by norm_num) (by norm_num) ?_ ?_
    (M := 60000) (by norm_num) (by norm_num) (by norm_num [abs_le]) (by norm_num [abs_le])
  · intro x h1 _
    have : 0 < x := lt_of_lt_of_le (by positivity) h1
    simp only [sub_self, abs_zero]
    positivity
  · intro x h1 _
    have : 0 < x := lt_of_lt_of_le (by positivity) h1
    simp only [sub_self, abs_zero]
    positivity
  · intro x _
    rw [sub_self, abs_zero]
    positivity
  · intro x _ _
    rw [sub_self, abs_zero]
    positivity
  · rw [geocentricPoint, show (60 : ℝ) * Real.pi / 180 = Real.pi / 3 by ring, Real.sin_pi_div_three]
    have : (1 : ℝ) ≤ Real.sqrt 3 := Real.one_le_sqrt.2 (by norm_num)
    norm_num
    linarith
  · have h := FloatCoord.cos_wide R (bestCos_isCosine R) (x := 60) (by norm_num [abs_le])
    rw [h60, Real.cos_pi_div_three, abs_le] at h
    refine le_trans ?_ (le_abs_self _)
    have : (2 : ℝ) ^ (-100 : ℤ) ≤ 1 / 2 - (2⁻¹ ^ 49 + 2⁻¹ ^ 52) := by norm_num
    linarith [h.1]

end ChaosMagPy.FloatGeod
