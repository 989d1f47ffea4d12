import Verif.Props.Layers
import Verif.Props.RotateGood
import Verif.Props.RotateField
/-!
# Concrete cases for C37, C46, C63, C69

Each example applies one theorem to concrete arguments for which all its hypotheses hold.
-/
namespace ChaosMagPy.QResponse
open ChaosMagPy.Spec

/-- C46_induction, C46_passive, C46_phase, C46_potential: degree one, a period of a day, two layers. -/
example := C46_induction (n := 1) le_rfl (T := 86400) (by norm_num) ex_layers.1
example := C46_passive (n := 1) le_rfl (T := 86400) (by norm_num) ex_layers.1
example := C46_phase (n := 1) le_rfl (T := 86400) (by norm_num) ex_layers.1
example := C46_potential (n := 1) le_rfl (T := 86400) (by norm_num) ex_layers.1 (3 + Complex.I) 2

theorem ex_insulator : GoodLayers [(0, 6371.2), (0, 3480)] := by
  refine ⟨by simp, ?_, ?_, ?_⟩
  · intro l hl; simp at hl; rcases hl with rfl | rfl <;> norm_num
  · intro l hl; simp at hl; rcases hl with rfl | rfl <;> norm_num
  · simp; norm_num

/-- C46_insulator. -/
example := C46_insulator (n := 2) (by norm_num) (T := 86400) (by norm_num) ex_insulator (by simp)

theorem ex_split : GoodLayers ([] ++ (1, 6000) :: (1 * (6000 / 3000) ^ 2, 3000) :: []) := by
  refine ⟨by simp, ?_, ?_, ?_⟩
  · intro l hl; simp at hl; rcases hl with rfl | rfl <;> norm_num
  · intro l hl; simp at hl; rcases hl with rfl | rfl <;> norm_num
  · simp; norm_num

theorem ex_whole : GoodLayers [(1, 6000)] := by
  refine ⟨by simp, ?_, ?_, by simp⟩
  · intro l hl; simp at hl; subst hl; norm_num
  · intro l hl; simp at hl; subst hl; norm_num

/-- C46_split: a layer that is cut at half of its radius; C46_profile: these two models have the same conductivity at every radius. -/
example := C46_split (n := 1) le_rfl (T := 86400) (by norm_num) [] 1 6000 3000 [] ex_split
example : respond 1 86400 ([((1 : ℝ), (6000 : ℝ)), (4, 3000)].map Prod.fst) ([((1 : ℝ), (6000 : ℝ)), (4, 3000)].map Prod.snd) =
    respond 1 86400 ([((1 : ℝ), (6000 : ℝ))].map Prod.fst) ([((1 : ℝ), (6000 : ℝ))].map Prod.snd) := by
  have hg : GoodLayers [(1, 6000), (4, 3000)] := by
    have := ex_split
    norm_num at this
    exact this
  refine C46_profile (n := 1) le_rfl (T := 86400) (by norm_num) hg ex_whole rfl (S := ∅) Set.finite_empty fun r h0 h1 _ => ?_
  simp only [conductivity]
  split_ifs
  · field_simp
    norm_num
  · rfl

/-- C46_table, C46_vectorised: two frequencies, one of them zero, and two periods. -/
example := C46_table [(0, 1), (400, 100)] (by simp) [0, 1 / 86400] 3
example := C46_vectorised [86400, 43200] (ls := [(1, 6371.2), (1000, 3480)]) (by simp) 1 none (Or.inl rfl)

/-- C69_exact, C69_limit: two shells above a core. -/
example := C69_exact (n := 1) le_rfl [86400, 2592000] (by intro T hT; simp at hT; rcases hT with rfl | rfl <;> norm_num) [1000] ex_shells.1 ex_thick
example := C69_limit (n := 1) le_rfl (T := 86400) (by norm_num) [1000] ex_shells.1

/-- C69_core_unused: the conductivity of the core. -/
example := C69_core_unused (.array [86400]) (sigma := [0.5, 2, 1000]) (sigma' := [0.5, 2, 7]) [6371.2, 5700, 3480] 1 rfl

/-- C69_series: an argument of modulus one. -/
example := C69_series (n := 1) le_rfl (z := Complex.I) (by simp) (eps := 1 / 10 ^ 10) (by norm_num) (by norm_num)

/-- C69_profile: a shell that is listed in two parts. -/
example (C Q C' Q' : ℂ) (h : CoreResponse 1 (1 / 1000) 1 (uniform [(2, 6000), (2, 5000)]) 3000 6000 C Q)
    (h' : CoreResponse 1 (1 / 1000) 1 (uniform [(2, 6000)]) 3000 6000 C' Q') : C = C' ∧ Q = Q' :=
  C69_profile (S := ∅) Set.finite_empty (by intro r _ _ _; simp [uniform]) h h'

end ChaosMagPy.QResponse

namespace ChaosMagPy.RotateFft
open ChaosMagPy.Coord

/-- C37_exists: the default dipole. -/
example := C37_exists (-29442.0, -1501.0, 4797.1) (by norm_num) (by norm_num) 5000 (by norm_num) (by norm_num)

/-- Hourly samples of 25 hours. -/
def exArgs (reference : String) (qfunc : Option (List ℝ → ℕ → ℕ → ℂ)) : Args := ⟨4, 3, qfunc, none, some 25, none, some reference, some true, none⟩

theorem ex_good : ∃ leggauss argsort, ∀ reference qfunc, reference = "gsm" ∨ reference = "sm" →
    Good leggauss argsort (-29442.0, -1501.0, 4797.1) [(0, 1), (3000, 100000)] (exArgs reference qfunc) := by
  obtain ⟨l, s, h⟩ := C63_arguments (-29442.0, -1501.0, 4797.1) (by norm_num) (by norm_num) [(0, 1), (3000, 100000)] (by simp)
  refine ⟨l, s, fun reference qfunc hr => h _ (by simp [exArgs]) (by simp [exArgs]) (by simp [Args.samples, exArgs]) (by simp [Args.stepSize, exArgs]) rfl
    (by simpa [exArgs] using hr) fun n hn => ?_⟩
  have hn' : n < 25 := hn
  have : (n : ℝ) ≤ 24 := by exact_mod_cast (by omega : n ≤ 24)
  have h0 : (0 : ℝ) ≤ n := Nat.cast_nonneg n
  simp only [Args.stepSize, exArgs, Option.getD_none, mul_one, add_zero]
  constructor <;> linarith

/-- C63_sampling, C63_filter, C63_gsm, C63_sm, C63_induced, C63_qfunc. -/
example : ∃ leggauss argsort, ∃ f, rotateGaussFft leggauss argsort (-29442.0, -1501.0, 4797.1) [(0, 1), (3000, 100000)] (exArgs "gsm" none) = .ok f ∧ f.rows = 24 ∧ f.cols = 15 := by
  obtain ⟨l, s, h⟩ := ex_good
  obtain ⟨f, R, h1, _, h2, h3, _⟩ := C63_sampling (h "gsm" none (Or.inl rfl)) rfl
  exact ⟨l, s, f, h1, h2, h3⟩
example : ∃ leggauss argsort, (∃ f, rotateGaussFft leggauss argsort (-29442.0, -1501.0, 4797.1) [(0, 1), (3000, 100000)] { exArgs "gsm" none with filter := some 5 } = .ok f ∧ f.k = 5) ∧
    rotateGaussFft leggauss argsort (-29442.0, -1501.0, 4797.1) [(0, 1), (3000, 100000)] { exArgs "gsm" none with filter := some 14 } = .error .valueError := by
  obtain ⟨l, s, h⟩ := ex_good
  obtain ⟨f, h1, h2, -⟩ := (C63_filter (h "gsm" none (Or.inl rfl)) 5).1 (by simp [exArgs, Args.samples])
  exact ⟨l, s, ⟨f, h1, h2⟩, (C63_filter (h "gsm" none (Or.inl rfl)) 14).2 (by simp [exArgs, Args.samples])⟩
example : ∃ leggauss argsort f, rotateGaussFft leggauss argsort (-29442.0, -1501.0, 4797.1) [(0, 1), (3000, 100000)] (exArgs "gsm" none) = .ok f := by
  obtain ⟨l, s, h⟩ := ex_good
  obtain ⟨f, h1, -⟩ := C63_gsm (h "gsm" none (Or.inl rfl)) rfl rfl rfl rfl
  exact ⟨l, s, f, h1⟩
example : ∃ leggauss argsort f, rotateGaussFft leggauss argsort (-29442.0, -1501.0, 4797.1) [(0, 1), (3000, 100000)] (exArgs "sm" none) = .ok f := by
  obtain ⟨l, s, h⟩ := ex_good
  obtain ⟨f, h1, -⟩ := C63_sm (h "sm" none (Or.inr rfl)) rfl rfl rfl rfl
  exact ⟨l, s, f, h1⟩
example : ∃ leggauss argsort f, rotateGaussFft leggauss argsort (-29442.0, -1501.0, 4797.1) [(0, 1), (3000, 100000)] (exArgs "sm" none) = .ok f := by
  obtain ⟨l, s, h⟩ := ex_good
  obtain ⟨f, _, h1, -⟩ := C63_induced (h "sm" none (Or.inr rfl)) rfl rfl
  exact ⟨l, s, f, h1⟩
example : ∃ leggauss argsort f, rotateGaussFft leggauss argsort (-29442.0, -1501.0, 4797.1) [(0, 1), (3000, 100000)] (exArgs "sm" (some fun _ _ _ => 1 / 3)) = .ok f := by
  obtain ⟨l, s, h⟩ := ex_good
  obtain ⟨f, _, h1, -⟩ := C63_qfunc (h "sm" _ (Or.inr rfl)) rfl _ rfl
  exact ⟨l, s, f, h1⟩

/-- C63_reference. -/
example (leggauss : ℕ → List (ℝ × ℝ)) (argsort : ℕ → (ℕ → ℂ) → List ℕ) :
    rotateGaussFft leggauss argsort (-29442.0, -1501.0, 4797.1) [(0, 1)] (exArgs "mag" none) = .error .valueError :=
  C63_reference (by decide) (by decide)

/-- C63_window: samples after the year 2098. -/
example (leggauss : ℕ → List (ℝ × ℝ)) (argsort : ℕ → (ℕ → ℂ) → List ℕ) :
    rotateGaussFft leggauss argsort (-29442.0, -1501.0, 4797.1) [(0, 1)] { exArgs "gsm" none with start := some 40000 } = .error .assertionError := by
  refine C63_window (Or.inl rfl) ?_
  by_contra hc
  rw [Bool.not_eq_false] at hc
  have h1 : sunPosition { exArgs "gsm" none with start := some 40000 }.times = .ok ({ exArgs "gsm" none with start := some 40000 }.times.map sunPoint) := by
    unfold sunPosition
    rw [if_pos hc]
  have h2 := (C42_window _).1.1 h1 40000 (by
    simp only [Args.times, Args.samples, exArgs, Option.getD_some]
    refine List.mem_map.2 ⟨0, by simp, by simp [Fourier.sampleTime]⟩)
  norm_num at h2

end ChaosMagPy.RotateFft
