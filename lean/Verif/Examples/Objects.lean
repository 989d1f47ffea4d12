import Verif.Props.ModelHeap
import Verif.Props.Plot
import Verif.Props.PlotModel
/-!
# Concrete cases for C67, C68, C75

Each example applies one theorem to concrete arguments for which all its hypotheses hold.
-/
namespace ChaosMagPy.ModelHeap
open ChaosMagPy.PPoly

/-- The values of the two arrays of `demo`. -/
theorem demo_values : (run start demo).value 0 = some ⟨[2], [0, 10]⟩ ∧ (run start demo).value 1 = some ⟨[1, 1, 3], [1, 2, 3]⟩ := by
  simp [demo_world, World.value, View.read, View.size, block]

theorem demo_float : (run start demo).IsFloat 1 :=
  ⟨⟨1, 0, [1, 1, 3]⟩, by simp [demo_world], by simp [demo_world, block]⟩

/-- C75_alias: two models from the same array, which is then changed. -/
example := C75_alias demo ⟨[2], [0, 10]⟩ ⟨[2], [0, 20]⟩ ⟨[1, 1, 3], [1, 2, 3]⟩ none none 1 2 7 1 1 3 rfl rfl demo_values.2 demo_float rfl one_pos (by simp)
  (by simp) (by simp)

/-- C75_write. -/
example := C75_write demo 1 2 7 ⟨[1, 1, 3], [1, 2, 3]⟩ demo_values.2 (by simp)

/-- C75_constructed, C75_private: coefficients from a list, break points from the array of integers. -/
example := C75_constructed demo (.var 0) (.list ⟨[1, 1, 3], [4, 5, 6]⟩) none ⟨[2], [0, 10]⟩ ⟨[1, 1, 3], [4, 5, 6]⟩ 1 1 3 demo_values.1 rfl rfl one_pos (by simp)
example := C75_private demo [.write 0 1 20, .write 1 0 5] (.var 0) (.list ⟨[1, 1, 3], [4, 5, 6]⟩) none ⟨[2], [0, 10]⟩ ⟨[1, 1, 3], [4, 5, 6]⟩ 1 1 3
  demo_values.1 rfl rfl one_pos (by simp) (Or.inl ⟨⟨0, 0, [2]⟩, by simp [demo_world], by simp [demo_world, block]⟩) trivial
  (by intro op hop; simp only [List.mem_cons, List.not_mem_nil, or_false] at hop; rcases hop with rfl | rfl <;> simp)

/-- A program that makes one model. -/
def demoModel : List Op := demo ++ [.model (.var 0) none (.list ⟨[1, 1, 3], [1, 2, 3]⟩)]

theorem demoModel_seen : (run start demoModel).seen 0 = some (documented ⟨[2], [0, 10]⟩ none ⟨[1, 1, 3], [1, 2, 3]⟩) := by
  have := (C75_constructed demo (.var 0) (.list ⟨[1, 1, 3], [1, 2, 3]⟩) none ⟨[2], [0, 10]⟩ ⟨[1, 1, 3], [1, 2, 3]⟩ 1 1 3 demo_values.1 rfl rfl one_pos
    (by simp)).2.1
  rw [demo_world] at this
  simpa [demoModel] using this

theorem demoModel_length : (run start demoModel).models.length = 1 := by
  have := (C75_constructed demo (.var 0) (.list ⟨[1, 1, 3], [1, 2, 3]⟩) none ⟨[2], [0, 10]⟩ ⟨[1, 1, 3], [1, 2, 3]⟩ 1 1 3 demo_values.1 rfl rfl one_pos
    (by simp)).1
  rw [demo_world] at this
  simpa [demoModel] using this

/-- C75_frame. -/
example := C75_frame demoModel [.toPP 0, .write 3 0 7, .write 0 0 7, .write 1 0 7] 0 (by rw [demoModel_length]; exact one_pos) ex_quiet

/-- C75_synth, C75_results: a new array with the coefficients at one time, which is then changed. -/
example := C75_synth demoModel 0 _ [5] none none none demoModel_seen
example := C75_results demoModel (.synth 0 [5] none none none) 0 [(5, 0, 7)] (Or.inr ⟨_, _, _, _, rfl⟩) (by
  intro t ht
  rw [List.mem_singleton] at ht
  subst ht
  rw [demoModel, run_append, demo_world]
  simp [run, attempt, step, construct, build, asarray, asFloat, alloc, initBreaks, initCoeffs, View.read, View.size, block])

/-- C75_ppdict: the pp-dictionary of the model. -/
example : ∃ a, (run start (demoModel ++ [.toPP 0])).value ((run start demoModel).env.length + 1) = some a ∧ a.shape = [1 * 3, 1] := by
  obtain ⟨m, hm, hs, ho⟩ : ∃ m : Model, (run start demoModel).models[0]? = some m ∧ m.coeffs.shape = [m.order, 1, 3] ∧ m.order = 1 := by
    rw [demoModel, run_append, demo_world]
    simp [run, attempt, step, construct, build, asarray, asFloat, alloc, initBreaks, initCoeffs, View.read, View.size, block]
  obtain ⟨_, _, a, h1, h2, _⟩ := C75_ppdict demoModel 0 m _ _ 1 3 hm hs (by rw [ho]; exact one_pos) demoModel_seen rfl
  refine ⟨a, h1, ?_⟩
  rw [h2]
  rfl

/-- C75_chaos: the break points from an array of floats that is changed afterwards. -/
example := C75_chaos [.array true ⟨[2], [0, 10]⟩] [.write 0 1 20] 0 none ⟨[2], [0, 10]⟩ ⟨[2], [0, 20]⟩ ⟨[1, 1, 3], [1, 2, 3]⟩ ⟨[1, 1, 3], [4, 5, 6]⟩ 0 1 1 3 1 1 3
  (by simp [run, attempt, step, start, alloc, World.value, View.read, View.size, block]) rfl
  ⟨⟨0, 0, [2]⟩, by simp [run, attempt, step, start, alloc], by simp [run, attempt, step, start, alloc, block]⟩ rfl rfl rfl rfl one_pos one_pos (by simp)
  (by intro op hop; rw [List.mem_singleton] at hop; subst hop; simp)
  (by intro op hop; rw [List.mem_singleton] at hop; subst hop; simp)
  (by
    simp [run, attempt, step, start, alloc, World.value, View.read, View.size, block, chaos, construct, build, asarray, asFloat, initBreaks, initCoeffs, endsOf])

end ChaosMagPy.ModelHeap

namespace ChaosMagPy.Plot
open ChaosMagPy.Spec ChaosMagPy.PPoly ChaosMagPy.NumPy ChaosMagPy.Synth ChaosMagPy.Chaos

/-- C67_layout: a layout of two by two for three components; C67_mesh: two values for one point; C67_timeseries_error: one value for two times. -/
example := C67_layout [90] [0] [0, 1] [onePoint 1, onePoint 2, onePoint 3] {} {} 2 2 (Or.inl (by decide))
example : plotMaps [90] [0] [⟨[2], fun _ => some 1⟩] {} = .error .typeError :=
  C67_mesh [90] [0] [⟨[2], fun _ => some 1⟩] {} rfl rfl
    (by
      intro c hc
      rw [List.mem_singleton] at hc
      subst hc
      obtain ⟨M, h, -⟩ := C67_limits ⟨[2], fun _ => some 1⟩ ⟨[0], by simp [Valid]⟩ (fun _ _ => ⟨1, rfl⟩)
      exact ⟨_, h⟩)
    _ (List.mem_singleton.2 rfl) (by decide) (by decide)
example : plotTimeseries [0, 1] [⟨[1], fun _ => some 1⟩] {} = .error .valueError :=
  C67_timeseries_error [0, 1] [⟨[1], fun _ => some 1⟩] {} rfl rfl _ (List.mem_singleton.2 rfl) (Or.inl (by decide))

/-- C67_limits: the values 3 and -5. -/
example : maxAbs ⟨[2], fun i => some (if i = [0] then 3 else -5)⟩ = .ok (.num 5) := by
  obtain ⟨M, h, hM⟩ := C67_limits ⟨[2], fun i => some (if i = [0] then 3 else -5)⟩ ⟨[0], by simp [Valid]⟩ (fun _ _ => ⟨_, rfl⟩)
  have h5 : IsGreatest {y | ∃ i x, Valid [2] i ∧ some (if i = [0] then 3 else -5 : ℝ) = some x ∧ y = |x|} 5 := by
    refine ⟨⟨[1], -5, by simp [Valid], by simp, by norm_num⟩, ?_⟩
    rintro y ⟨i, x, _, hx, rfl⟩
    rw [← Option.some.inj hx]
    split_ifs <;> norm_num
  rw [h, hM.unique h5]

/-- C68_external_error: a misspelt source. -/
example := C68_external_error exEnv exChaos (scalar 5) (scalar 6371.2) none none (some "crust") (Or.inr ⟨"crust", rfl, by decide +kernel⟩)

/-- A constant model of degree one. -/
noncomputable def exConst : Model := ⟨PPoly.Base.init [0, 1] none 1 3 fun _ _ d => if d = 0 then 5 else 0, "internal"⟩

theorem exConst_rows (times : List ℝ) (hne : times ≠ []) (ht : ∀ t ∈ times, 0 ≤ t ∧ t ≤ 1) (deriv : Option ℕ) :
    ∃ rows, PPoly.modelSynthCoeffs exConst.base times none deriv none = .ok (3, rows) ∧ rows.length = times.length ∧
      ∀ (i : ℕ) (t : ℝ), times[i]? = some t → t < 1 → ∃ v : ℕ → ℝ, rows[i]? = some (some v) := by
  have hx : PPoly.Ascending [0, 1] := by
    refine ⟨by simp, fun j hj => ?_⟩
    simp only [List.length_cons, List.length_nil] at hj
    obtain rfl : j = 0 := by omega
    simp
  obtain ⟨vals, h1, h2, h3⟩ := PPoly.C26_constructed [0, 1] hx none (by simp) 1 3 one_pos (by norm_num) (fun _ _ d => if d = 0 then 5 else 0) times deriv none
    hne (Or.inr (by intro t h; simpa [first, last] using ht t h))
  refine ⟨vals, h1, h2, fun i t hi h => ?_⟩
  obtain ⟨v, hv, -⟩ := h3 i t 0 hi ⟨by simp, Or.inl ⟨by simpa using (ht t (List.mem_of_getElem? hi)).1, by simpa using h⟩⟩ (by simpa [last] using h)
  exact ⟨v, hv⟩

/-- C68_spectrum: the constant model at the surface. -/
example : ∃ C, modelPlotSpectrum 6371.2 exConst (1 / 2) none none none = .ok C ∧ C.length = 1 := by
  obtain ⟨rows, h1, h2, h3⟩ := exConst_rows [1 / 2] (by simp) (by simp; norm_num) none
  obtain ⟨v, hv⟩ := h3 0 (1 / 2) rfl (by norm_num)
  obtain ⟨y, rfl⟩ := List.length_eq_one_iff.1 h2
  simp only [List.getElem?_cons_zero, Option.some.injEq] at hv
  subst hv
  obtain ⟨C, h4, h5, -⟩ := C68_spectrum 6371.2 (by norm_num) exConst (Or.inl rfl) 1 rfl (1 / 2) none (by simp) none none 3 v h1
  exact ⟨C, h4, h5⟩

/-- C68_timeseries: the constant model on the equator. -/
example : ∃ P, modelPlotTimeseries 6371.2 exConst (scalar 6371.2) (scalar 90) (scalar 0) none none none {} = .ok P ∧ P.length = 3 := by
  obtain ⟨rows, h1, -⟩ := exConst_rows ((List.range 500).map (seriesTime exConst.base.breaks)) (by simp) (by
    intro t ht
    obtain ⟨j, hj, rfl⟩ := List.mem_map.1 ht
    have hj' : j ≤ 499 := by have := List.mem_range.1 hj; omega
    have hj2 : (j : ℝ) ≤ 499 := by exact_mod_cast hj'
    have hj0 : (0 : ℝ) ≤ j := Nat.cast_nonneg j
    simp only [seriesTime, exConst, PPoly.Base.init, first, last]
    norm_num
    constructor
    · positivity
    · rw [div_le_one (by norm_num)]; exact hj2) none
  obtain ⟨P, h2, h3, -⟩ := C68_timeseries 6371.2 (by norm_num) exConst .internal rfl 1 rfl le_rfl (scalar 6371.2) (scalar 90) (scalar 0) 6371.2 90 0
    (Or.inl ⟨rfl, rfl⟩) (Or.inl ⟨rfl, rfl⟩) (Or.inl ⟨rfl, rfl⟩) (by norm_num) (by norm_num) none (by simp) none none 3 rows h1 {} rfl rfl
  exact ⟨P, h2, h3⟩

/-- C68_static: the constant model as static part. -/
example : ∃ P, plotMapsStatic exEnv { exChaos with static := some exConst } (scalar 6371.2) none none {} = .ok P := by
  obtain ⟨rows, h1, h2, h3⟩ := exConst_rows [0] (by simp) (by simp) none
  obtain ⟨v, hv⟩ := h3 0 0 rfl (by norm_num)
  obtain ⟨y, rfl⟩ := List.length_eq_one_iff.1 h2
  simp only [List.getElem?_cons_zero, Option.some.injEq] at hv
  subst hv
  have hc : synthCoeffsStatic { exChaos with static := some exConst } none none none = .ok (3, [some v]) := (ofPPoly_ok _ _).2 h1
  obtain ⟨P, _, h4, -⟩ := C68_static exEnv (by norm_num [exEnv]) { exChaos with static := some exConst } exConst rfl .internal rfl 1 rfl le_rfl
    (scalar 6371.2) 6371.2 (Or.inl ⟨rfl, rfl⟩) (by norm_num) none (by simp) 3 v hc {} ⟨rfl, rfl⟩ rfl rfl rfl rfl
  exact ⟨P, h4⟩

end ChaosMagPy.Plot
