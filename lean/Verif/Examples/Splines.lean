import Verif.Props.DesignMatrix
import Verif.Props.ShcModel
import Verif.Props.FloatLinear
/-!
# Concrete cases for C23–C31, C51, C53, C88

Each example applies one theorem to concrete arguments for which all its hypotheses hold.
-/
namespace ChaosMagPy.PPoly
open ChaosMagPy.Spec

/-- C26_succeeds: a value at the inside, one beyond the end. -/
example : ∃ r, exModel.synthCoeffs [2, 4] none none none = .ok r :=
  (C26_succeeds exProper [2, 4] none none none (by simp)).2 (Or.inl ex_outside.2.2.2.1)

/-- C26_end: the second derivative at the last break point. -/
example : ∃ rows v, exModel.synthCoeffs [3] none (some 2) none = .ok (columns exModel none, rows) ∧ rows[0]? = some (some v) ∧
    ∀ d, v d = iteratedDeriv 2 (piece exModel exC 1 d) 3 * (365.25 : ℝ) ^ 2 :=
  C26_end exProper [3] none (some 2) none (Or.inl ex_outside.2.2.2.1) (Or.inr (by
    rintro ⟨t, ht, h⟩
    simp only [List.mem_cons, List.not_mem_nil, or_false] at ht
    subst ht
    norm_num [exModel, first, last] at h)) 0 rfl

/-- The end next to `t = 4` is the last break point. -/
theorem ex_near : NearEnd exModel 4 3 1 := ex_outside.2.2.2.2.2.2

/-- C27_constant, C27_linear, C27_above_linear, C27_actual_formula, C27_taylor_upto_linear: from `t = 3` to `t = 4`. -/
example := C27_constant exProper [4] none 0 4 3 1 rfl ex_near
example := C27_linear exProper (by norm_num [exModel]) [4] none 0 4 3 1 rfl ex_near none (Or.inl rfl)
example := C27_above_linear exProper le_rfl [4] none 0 4 3 1 rfl ex_near
example := C27_actual_formula exProper [4] none (some (.str "quadratic")) (by simp [Known, option])
  (by show (0 : ℤ) < min 3 ((3 : ℕ) : ℤ); norm_num) 0 4 3 1 rfl ex_near
example := C27_taylor_upto_linear exProper [4] none (some 1) none ex_outside.2.2.2.1
  (by rw [ex_outside.2.2.2.2.2.1]; norm_num) (by rw [ex_outside.2.2.2.2.2.1]) 0 4 3 1 rfl ex_near

/-- C27_off: NaN outside. -/
example : ∃ rows, exModel.synthCoeffs [2, 4] none none (some (.str "off")) = .ok (columns exModel none, rows) ∧ rows[1]? = some none :=
  C27_off exProper [2, 4] none none (some (.str "off")) (Or.inl rfl) 1 4 rfl (Or.inr (by norm_num [exModel, last]))

/-- C88_bound: the first derivative at 2 in a call with times outside. -/
example (R : Rounding) : ∃ v vF : ℕ → ℝ, (∃ rows, exModel.synthCoeffs [0.5, 2, 3, 4] none (some 1) none = .ok (3, rows) ∧ rows[1]? = some (some v)) ∧
    (∃ rows, exModel.synthCoeffsF R [0.5, 2, 3, 4] none (some 1) none = .ok (3, rows) ∧ rows[1]? = some (some vF)) ∧
    |vF 0 - v 0| ≤ 2 ^ (-47 : ℤ) * (2 * 365.25) + 2 ^ (-400 : ℤ) := by
  have hc : ∀ i j d, |exC i j d| ≤ 2 ^ 80 := by
    intro i j d
    unfold exC
    split_ifs <;> norm_num
  obtain ⟨rows, rowsF, h1, h2, _, _, h⟩ := C88_bound R exProper [0.5, 2, 3, 4] none (some 1) none (by simp) (Or.inl ex_outside.2.2.2.1)
    (by norm_num [exModel]) (by norm_num [dOrder]) (fun i j d _ _ _ => hc i j d) (by
      intro x hx
      simp only [exModel, List.mem_cons, List.not_mem_nil, or_false] at hx
      rcases hx with rfl | rfl | rfl <;> norm_num)
  obtain ⟨v, vF, a1, a2, a3⟩ := h 1 2 1 rfl ex_outside.2.1 ex_outside.2.2.1
  refine ⟨v, vF, ⟨rows, h1, a1⟩, ⟨rowsF, h2, a2⟩, ?_⟩
  have := (a3 0 (by norm_num [exModel])).2.1
  refine this.trans (le_of_eq ?_)
  norm_num [magnitude, exModel, exC, dOrder, Finset.sum_range_succ, Nat.descFactorial]

/-- C88_breaks: the value at the break point 1. -/
example (R : Rounding) : ∃ rowsF vF, exModel.synthCoeffsF R [1] none none none = .ok (columns exModel none, rowsF) ∧ rowsF[0]? = some (some vF) ∧ ∀ d < exModel.dim, vF d = exC 2 1 d :=
  C88_breaks R exProper [1] none none (by simp) (Or.inl ex_outside.2.2.2.1) (fun i j d _ _ _ => by
    unfold exC
    split_ifs
    · exact ⟨⟨1, 0, by norm_num, by norm_num, by norm_num, by norm_num⟩, by rw [abs_one]; exact one_le_pow₀ (by norm_num)⟩
    · exact ⟨Float.double_zero, by rw [abs_zero]; positivity⟩) 0 1 (by norm_num [exModel]) (by norm_num [exModel]) rfl

/-- C88_constant: at `t = 4`, and at the end 3 in a call with another time outside and linear extrapolation. -/
example (R : Rounding) : ∃ rows v rows' v', exModel.synthCoeffsF R [0.5, 4] none none (some (.str "constant")) = .ok (3, rows) ∧ rows[1]? = some (some v) ∧
    exModel.synthCoeffsF R [3, 9] none none none = .ok (3, rows') ∧ rows'[0]? = some (some v') ∧ v 0 = v' 0 := by
  obtain ⟨rows, v, rows', v', h1, h2, h3, h4, h⟩ := C88_constant R exProper [0.5, 4] [3, 9] none none none (Or.inl ex_outside.2.2.2.1) (by norm_num [exModel]) (by
      intro i j d _ _ _
      unfold exC
      split_ifs <;> norm_num) (by
      intro x hx
      simp only [exModel, List.mem_cons, List.not_mem_nil, or_false] at hx
      rcases hx with rfl | rfl | rfl <;> norm_num) 1 0 4 3 1 rfl ex_near rfl
  exact ⟨rows, v, rows', v', h1, h2, h3, h4, (h 0 (by norm_num [exModel])).1 rfl⟩

/-- C88_linear: the value of the tangent at `t = 4`, beyond the end 3, in a call with another time outside. -/
example (R : Rounding) : ∃ rows v, exModel.synthCoeffsF R [0.5, 4] none none none = .ok (3, rows) ∧ rows[1]? = some (some v) ∧
    |v 0 - (piece exModel exC 1 0 3 + deriv (piece exModel exC 1 0) 3 * (4 - 3))| ≤
      2 ^ (-46 : ℤ) * (magnitude 3 (fun i => exC i 1 0) 0 (3 - 1) + magnitude 3 (fun i => exC i 1 0) 1 (3 - 1) * |4 - 3|) + 2 ^ (-100 : ℤ) := by
  obtain ⟨rows, v, h1, h2, h⟩ := C88_linear R exProper (by norm_num [exModel]) (by norm_num [exModel]) [0.5, 4] none none none (Or.inl rfl) (by
      intro i j d _ _ _
      unfold exC
      split_ifs <;> norm_num) (by
      intro x hx
      simp only [exModel, List.mem_cons, List.not_mem_nil, or_false] at hx
      rcases hx with rfl | rfl | rfl <;> norm_num) 1 4 3 1 rfl (by norm_num) ex_near
  exact ⟨rows, v, h1, h2, (h 0 (by norm_num [exModel])).1 rfl⟩

/-- C27_static: a single epoch. -/
example (c : ℕ → ℕ → ℕ → ℝ) := C27_static 5 none (by simp) 3 (by norm_num) c [0, 7] (by simp) none none ex_outside.2.2.2.1
  (by show (0 : ℤ) < min 2 ((1 : ℕ) : ℤ); norm_num)

/-- C28_values_independent: the value at 2 does not depend on a further time outside. -/
example := C28_values_independent exProper [2] [4, 2] none (some 1) none ex_outside.2.2.2.1 0 1 2 rfl rfl
  (Or.inr (by norm_num [exModel, last]))

/-- C28_derivative_at_end: the first derivative at the end, with a further time outside. -/
example := C28_derivative_at_end exProper [0.5, 2, 3, 4] none (some 1) none ex_outside.2.2.2.1
  (by rw [ex_outside.2.2.2.2.2.1]; norm_num) ex_outside.1 2 rfl

/-- C29_missing: a model without coefficients. -/
example : modelSynthCoeffs { exModel with coeffs := none } [2] none none none = .error .valueError :=
  C29_missing _ [2] none none none (Or.inl rfl)

/-- C29_truncation: a call that succeeds, cut at degree 1. -/
example : ∃ n rows, modelSynthCoeffs exModel [2] none none none = .ok (n, rows) ∧ n = 3 ∧ modelSynthCoeffs exModel [2] (some 1) none none = .ok (3, rows) := by
  obtain ⟨rows, h, _⟩ := C26_inside exProper [2] none none none (by simp) (Or.inl ex_outside.2.2.2.1)
  have := C29_truncation exModel [2] (some 1) none none _ rows h
  exact ⟨_, rows, h, this.1, this.2⟩

/-- C30_roundtrip, C30_roundtrip_file. -/
example (c : ℕ → ℕ → ℕ → ℝ) : fromPPCoefs 8 (toPPCoefs 8 c) 2 5 7 = c 2 5 7 := C30_roundtrip 8 c 2 5 7 (by norm_num)
example (m : ℕ → ℕ → ℝ) : toPPCoefs 8 (fromPPCoefs 8 m) 23 1 = m 23 1 := (C30_roundtrip_file 8 3 m 23 1 (by norm_num)).1

/-- C31_possible, C31_roundtrip: the quadratic spline. -/
example : ∃ f, toShc exSpline none none = .ok f ∧ FromShc f exSpline := exSpline_model.elim fun _ h => C31_possible h
example : ∃ f, toShc exSpline (some 1) (some 1) = .ok f ∧ ∀ b', FromShc f b' → b'.breaks = [0, 1, 3] ∧ b'.order = 3 ∧ b'.dim = 3 :=
  exSpline_model.elim fun _ h => (C31_roundtrip h 1 1 le_rfl le_rfl le_rfl).elim fun f hf =>
    ⟨f, hf.1, fun b' hb => ⟨(hf.2 b' hb).1, (hf.2 b' hb).2.1, (hf.2 b' hb).2.2.1⟩⟩

/-- C31_order1: a step model of degree 2, degree 2 alone exported. -/
example := C31_order1 exStep_model 2 2 (by norm_num) le_rfl le_rfl

/-- C31_extra_samples: order 3 has two samples per piece; one surplus sample. -/
example (c : ℕ → ℕ → ℝ) (b : Base) : ∃ f : ShcData, f.order = 3 ∧ f.step = 2 ∧ f.time = [0, 0.5, 1, 2, 3, 4] ∧
    (FromShc f b ↔ FromShc { f with time := [0, 0.5, 1, 2, 3] } b) := by
  exact ⟨_, rfl, rfl, rfl, C31_extra_samples { order := 3, step := 2, time := [0, 0.5, 1, 2, 3, 4], coeffs := c, nmin := 1, nmax := 1 } 2 1 (by norm_num)
    (by norm_num) (by norm_num) rfl b⟩

end ChaosMagPy.PPoly

namespace ChaosMagPy.BSpline
open Polynomial ChaosMagPy.Spec ChaosMagPy.PPoly

/-- Cubic knots on the break points 0, 1, 3. -/
theorem exKnots : GoodKnots (augmentBreaks [0, 1, 3] 4) (4 - 1) ∧ (augmentBreaks [0, 1, 3] 4).getD (4 - 1) 0 = 0 ∧
    (augmentBreaks [0, 1, 3] 4).getD ((augmentBreaks [0, 1, 3] 4).length - 4) 0 = 3 := by
  have h := C24_fit [0, 1, 3] ex_ascending 4
  exact ⟨h.1, h.2.1, h.2.2 (by norm_num)⟩

/-- C24_augment at order 4. -/
example := C24_augment [0, 1, 3] ex_ascending 4

/-- C23_entries, C23_partition: second derivatives at the time 2. -/
example := C23_entries [2] (augmentBreaks [0, 1, 3] 4) 4 (by norm_num) exKnots.1 (some 2) (by decide) 0 2 rfl (by rw [exKnots.2.1]; norm_num)
  (by rw [exKnots.2.2]; norm_num)
example := C23_partition [2] (augmentBreaks [0, 1, 3] 4) 4 (by norm_num) exKnots.1 none 0 2 rfl (by rw [exKnots.2.1]; norm_num)
  (by rw [exKnots.2.2]; norm_num)

/-- C23_high_derivative: the fourth derivative of cubic splines. -/
example := C23_high_derivative [2] (augmentBreaks [0, 1, 3] 4) 4 (some 4) (by decide)

/-- C23_outside: the time 4. -/
example := C23_outside [2, 4] (augmentBreaks [0, 1, 3] 4) 4 none (by decide) 1 4 rfl (Or.inr (by rw [exKnots.2.2]; norm_num))

/-- C51_cals7k, C51_gufm1: eight knots in years. -/
example (data : List ℝ) := C51_cals7k 10 0 0 0 0 0 [-4950, -4900, -4800, -4700, -4600, -4500, -4400, -4350] data (by norm_num)
example (data : List ℝ) := C51_gufm1 14 [1590, 1600, 1610, 1620, 1630, 1640, 1650] data (by norm_num)

/-- C51_breaks: two break points exchanged; a single break point. -/
example (data : List ℝ) : ∃ e, loadSpline [0, 1, 3, 2, 5] 4 1 data = .error e := C51_breaks _ 4 1 data (by norm_num) (Or.inl ⟨2, by norm_num, by norm_num⟩)
example (data : List ℝ) : ∃ e, loadSpline [3] 4 1 data = .error e := C51_breaks _ 4 1 data (by norm_num) (Or.inr ⟨3, by simp⟩)

/-- C51_order1: three break points of order 1 are refused. -/
example (data : List ℝ) : loadSpline [0, 1, 3] 1 1 data = .error .valueError := C51_order1 [0, 1, 3] 1 data (by norm_num)

/-- C51_padded: order 2 on three break points, one basis function in the file. -/
example := C51_padded [0, 1, 3] ex_ascending 2 1 le_rfl (by norm_num) (by norm_num) [7, 8, 9] (by norm_num)

/-- C53_from_bspline, C53_textbook: cubic splines on the break points 0, 1, 3. -/
example (c : ℕ → ℕ → ℝ) := C53_from_bspline ex_ascending (order := 4) (by norm_num) c 3 (by norm_num)
example (c : ℕ → ℕ → ℝ) := C53_textbook ex_ascending (order := 4) (by norm_num) c 3 (by norm_num) [2] none ex_outside.2.2.2.1 0 2 rfl (by norm_num) (by norm_num)

/-- Two data, one at the end of the knots. -/
noncomputable def exData : List Datum := [⟨0.5, 6371.2, 60, 30⟩, ⟨3, 7000, 100, 10⟩]

/-- C25_value_error: the static degree is below the time-dependent one. -/
example := C25_value_error 6371.2 (augmentBreaks [0, 1, 3] 4) 4 2 exData (by simp [exData])
  (by intro p hp
      simp only [exData, List.mem_cons, List.not_mem_nil, or_false] at hp
      rcases hp with rfl | rfl <;> norm_num) 1 (by norm_num) (by norm_num) none

/-- C25_product. -/
example : ∃ cols rows, designMatrix 6371.2 (augmentBreaks [0, 1, 3] 4) 4 1 exData (some 2) none = .ok (cols, rows) ∧ rows.length = 2 := by
  have hr : ∀ p ∈ exData, p.radius ≠ 0 := by
    intro p hp
    simp only [exData, List.mem_cons, List.not_mem_nil, or_false] at hp
    rcases hp with rfl | rfl <;> norm_num
  obtain ⟨⟨cols, rows⟩, h⟩ : ∃ r, designMatrix 6371.2 (augmentBreaks [0, 1, 3] 4) 4 1 exData (some 2) none = .ok r :=
    (C25_succeeds 6371.2 (by norm_num) _ 4 1 _ (by simp [exData]) hr
      (by intro p hp
          simp only [exData, List.mem_cons, List.not_mem_nil, or_false] at hp
          rcases hp with rfl | rfl <;> norm_num) (some 2) none).2 ⟨Or.inl rfl, Or.inr ⟨2, rfl, by norm_num, by norm_num⟩⟩
  refine ⟨cols, rows, h, ?_⟩
  exact (C25_product 6371.2 (by norm_num) _ 4 (by norm_num) exKnots.1 1 exData (some 2) none cols rows h hr (by
    intro p hp
    rw [exKnots.2.1, exKnots.2.2]
    simp only [exData, List.mem_cons, List.not_mem_nil, or_false] at hp
    rcases hp with rfl | rfl <;> norm_num)).2.2.1

end ChaosMagPy.BSpline
