import Verif.Props.RotateField
import Verif.Props.Sun
import Verif.Lemmas.GaussRule
import Mathlib.Data.List.Sort
/-!
# C37 (existence of the axes) and the arguments for which the theorems C63 hold
-/
namespace ChaosMagPy.RotateFft
open ChaosMagPy.Fourier
open ChaosMagPy.Coord
open ChaosMagPy.Spec (GaussRule RightHanded dot direction sunDir sunObliquity)

/-- The sun is less than 30 degrees from the equator. -/
theorem sun_low (t : ℝ) (h1 : -10000000 ≤ t) (h2 : t ≤ 10000000) : |sunDirection t 2| < 1 / 2 := by
  unfold sunDirection
  rw [C42_direction t h1 h2]
  have hpi := Real.pi_pos
  have ho1 : 0 < sunObliquity t := by unfold sunObliquity Spec.dj; linarith
  have ho2 : sunObliquity t < 30 := by unfold sunObliquity Spec.dj; linarith
  have hs : 0 ≤ Real.sin (sunObliquity t * Real.pi / 180) := Real.sin_nonneg_of_nonneg_of_le_pi (by positivity) (by nlinarith)
  have hs2 : Real.sin (sunObliquity t * Real.pi / 180) < 1 / 2 := by
    rw [← Real.sin_pi_div_six]
    apply Real.sin_lt_sin_of_lt_of_le_pi_div_two <;> nlinarith
  have : sunDir t 2 = Real.sin (sunObliquity t * Real.pi / 180) * Real.sin (Spec.sunLongitude t * Real.pi / 180) := by
    unfold sunDir Spec.rotateAxis Spec.eclipticToEquatorial
    simp [mul_comm]
  rw [this, abs_mul, abs_of_nonneg hs]
  have := Real.abs_sin_le_one (Spec.sunLongitude t * Real.pi / 180)
  nlinarith [abs_nonneg (Real.sin (Spec.sunLongitude t * Real.pi / 180))]

/-- Parallel unit vectors have the same height. -/
theorem parallel_height (v s : Vec) (hv : dot v v = 1) (hs : dot s s = 1) (h : cross v s = 0) : v 2 ^ 2 = s 2 ^ 2 := by
  have h0 := congrFun h 0
  have h1 := congrFun h 1
  have h2 := congrFun h 2
  simp only [cross, Matrix.cons_val, Pi.zero_apply] at h0 h1 h2
  unfold dot at hv hs
  have a1 : v 2 * s 0 = v 0 * s 2 := by linarith
  have a2 : v 2 * s 1 = v 1 * s 2 := by linarith
  have e1 : v 2 ^ 2 * (s 0 * s 0 + s 1 * s 1 + s 2 * s 2) = s 2 ^ 2 * (v 0 * v 0 + v 1 * v 1 + v 2 * v 2) := by
    have b1 : (v 2 * s 0) ^ 2 = (v 0 * s 2) ^ 2 := by rw [a1]
    have b2 : (v 2 * s 1) ^ 2 = (v 1 * s 2) ^ 2 := by rw [a2]
    nlinarith
  rw [hv, hs] at e1
  linarith

/-- **C37** (existence). For every dipole within 45 degrees of the rotation axis and every time within ten million days of 2000, the axes of
GSM and SM are numbers, not NaN. -/
theorem C37_exists (config : ℝ × ℝ × ℝ) (hd : config.2.1 ^ 2 + config.2.2 ^ 2 ≤ config.1 ^ 2) (h0 : config.1 ≠ 0) (t : ℝ) (h1 : -10000000 ≤ t) (h2 : t ≤ 10000000) :
    ∃ v, dipoleToVec config .none = .ok (some v) ∧ (∃ b, baseGsm t v = some b) ∧ ∃ b, baseSm t v = some b := by
  obtain ⟨g10, g11, h11⟩ := config
  simp only at hd h0
  obtain ⟨-, hn, -, hv⟩ := C43_coefficients (g10, g11, h11) g10 g11 h11
  obtain ⟨v, m, e, hu, hm, hm2⟩ := hv (fun h => h0 h.1)
  refine ⟨v, hn.trans e, ?_⟩
  have k0 := congrFun hm2 0
  have k1 := congrFun hm2 1
  have k2 := congrFun hm2 2
  simp only [Matrix.cons_val] at k0 k1 k2
  have hheight : 1 / 2 ≤ v 2 ^ 2 := by
    have hm' : 0 < m ^ 2 := by positivity
    have e1 : m ^ 2 * (v 0 ^ 2 + v 1 ^ 2) ≤ m ^ 2 * v 2 ^ 2 := by
      have : m ^ 2 * (v 0 ^ 2 + v 1 ^ 2) = g11 ^ 2 + h11 ^ 2 := by rw [k0, k1]; ring
      rw [this]
      have : m ^ 2 * v 2 ^ 2 = g10 ^ 2 := by rw [k2]; ring
      rw [this]
      exact hd
    have e2 := le_of_mul_le_mul_left e1 hm'
    unfold dot at hu
    nlinarith
  have hc : cross v (sunDirection t) ≠ 0 := by
    intro hc
    have := parallel_height v (sunDirection t) hu (direction_unit _ _) hc
    have hl := sun_low t h1 h2
    have : sunDirection t 2 ^ 2 < (1 / 2) ^ 2 := by
      rw [← sq_abs (sunDirection t 2)]
      exact pow_lt_pow_left₀ hl (abs_nonneg _) (by norm_num)
    norm_num at this
    linarith
  obtain ⟨b, hb, -⟩ := (C37_gsm t v hu).2 hc
  obtain ⟨b', -, hb', -⟩ := (C37_sm t v hu).2 hc
  exact ⟨⟨b, hb⟩, ⟨b', hb'⟩⟩

/-- The dipole of the default configuration is one of these. -/
example : ((-1501.0 : ℝ) ^ 2 + 4797.1 ^ 2) ≤ (-29442.0) ^ 2 := by norm_num

/-- An order as that of `np.argsort(...)[::-1]`. -/
noncomputable def sortDesc (len : ℕ) (x : ℕ → ℂ) : List ℕ := (List.range len).insertionSort fun a b => ‖x b‖ ≤ ‖x a‖

theorem sortDesc_spec (len : ℕ) (x : ℕ → ℂ) : IsArgsortDesc len x (sortDesc len x) := by
  haveI : Std.Total fun a b : ℕ => ‖x b‖ ≤ ‖x a‖ := ⟨fun a b => le_total _ _⟩
  haveI : IsTrans ℕ fun a b : ℕ => ‖x b‖ ≤ ‖x a‖ := ⟨fun a b c h1 h2 => le_trans h2 h1⟩
  exact ⟨List.perm_insertionSort _ _, List.pairwise_insertionSort _ _⟩

/-- **C63** (arguments). The theorems hold for all degrees from 1, all steps and numbers of samples with times in the window of `sun_position` (until
the end of 2098), every dipole within 45 degrees of the rotation axis, and every conductivity model with at least one layer. -/
theorem C63_arguments (config : ℝ × ℝ × ℝ) (hd : config.2.1 ^ 2 + config.2.2 ^ 2 ≤ config.1 ^ 2) (h0 : config.1 ≠ 0)
    (conductivity : List (ℝ × ℝ)) (hc : conductivity ≠ []) :
    ∃ leggauss argsort, ∀ a : Args, 1 ≤ a.nmax → 1 ≤ a.kmax → 0 < a.samples → 0 < a.stepSize → a.filter = none →
      (a.reference.getD "gsm" = "gsm" ∨ a.reference.getD "gsm" = "sm") →
      (∀ n < a.samples, -10000000 ≤ n * a.stepSize / 24 + a.start.getD 0 ∧ n * a.stepSize / 24 + a.start.getD 0 < 36159.75) →
      Good leggauss argsort config conductivity a := by
  choose rule hrule using fun n => ChaosMagPy.Legendre.gaussRule_exists n
  refine ⟨rule, sortDesc, fun a h1 h2 h3 h4 h5 h6 h7 => ⟨h1, h2, (hrule _).1, sortDesc_spec _, h3, h4, h5, h6, ?_, ?_, fun _ => hc⟩⟩
  · intro n hn
    have := (C42_window [sampleTime a.stepSize (a.start.getD 0) n]).1.2 (by
      intro t ht
      rw [List.mem_singleton] at ht
      rw [ht]
      exact (h7 n hn).2)
    unfold sunPosition at this
    by_contra hcon
    rw [if_neg hcon] at this
    cases this
  · intro n hn
    obtain ⟨v, hv, ⟨b, hb⟩, b', hb'⟩ := C37_exists config hd h0 (sampleTime a.stepSize (a.start.getD 0) n) (h7 n hn).1 (by
      have := (h7 n hn).2
      unfold sampleTime
      linarith)
    have hv' : dipoleArray config.1 config.2.1 config.2.2 = some v := by
      unfold dipoleToVec at hv
      injection hv
    unfold frame
    rw [hv', Option.bind_some]
    split_ifs
    · rw [hb]; simp
    · rw [hb']; simp

/-- A case: the default dipole, hourly samples of 8 years and one hour (an odd number). -/
example : ∃ leggauss argsort, Good leggauss argsort (-29442.0, -1501.0, 4797.1) [(0, 1), (3000, 100000)] ⟨4, 3, none, none, some 70129, none, none, some true, none⟩ := by
  obtain ⟨l, s, h⟩ := C63_arguments (-29442.0, -1501.0, 4797.1) (by norm_num) (by norm_num) [(0, 1), (3000, 100000)] (by simp)
  refine ⟨l, s, h _ (by norm_num) (by norm_num) (by simp [Args.samples]) (by simp [Args.stepSize]) rfl (Or.inl rfl) fun n hn => ?_⟩
  have hn' : n < 70129 := hn
  have : (n : ℝ) ≤ 70128 := by exact_mod_cast (by omega : n ≤ 70128)
  have h0 : (0 : ℝ) ≤ n := Nat.cast_nonneg n
  simp only [Args.stepSize, Option.getD_none, mul_one, add_zero]
  constructor <;> linarith

end ChaosMagPy.RotateFft
