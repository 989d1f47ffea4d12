import Verif.Props.RotateArr
/-!
# Concrete cases for C82

Each example applies one theorem to concrete arguments for which all its hypotheses hold.
-/
namespace ChaosMagPy.RotateArr
open ChaosMagPy.NumPy ChaosMagPy.Spec
open ChaosMagPy.Fourier (Scaled harmonic synthRotate synthRotateVec)

/-- Times of shape `(2, 1)`. -/
noncomputable def exTime : Arr ℝ := ⟨[2, 1], fun i => i.headD 0 / 2⟩

/-- A spectrum of shape `(2, 1, 3)`. -/
def exSpectrum : Arr ℂ := ⟨[2, 1, 3], fun i => i.getLastD 0⟩

/-- C82_synth. -/
example : ∃ b, synthRotateGauss exTime ⟨[2, 1, 3], fun i => i.headD 0⟩ exSpectrum .none = .ok b ∧ b.shape = [2, 1, 1, 3] ∧
    b.get [1, 0, 0, 2] = synthRotate 2 (fun j _ _ => j) (fun _ _ q => q) .none (1 / 2) 0 2 := by
  obtain ⟨b, h1, h2, h3⟩ := C82_synth exTime ⟨[2, 1, 3], fun i => i.headD 0⟩ exSpectrum .none 2 1 3 rfl rfl
  refine ⟨b, h1, h2, ?_⟩
  have := h3 [1, 0] (by simp [Valid, exTime]) 0 2 (by decide) (by decide)
  rw [show ([1, 0, 0, 2] : List ℕ) = [1, 0] ++ [0, 2] from rfl, this]
  have ht : exTime.get [1, 0] = 1 / 2 := by simp [exTime]
  rw [ht]
  rfl

/-- C82_synth_shapes: a frequency for each time; shapes that do not fit. -/
example : (∃ b : Arr ℝ, synthRotateGauss exTime ⟨[2, 1, 1, 1, 1], fun i => i.headD 0⟩ exSpectrum (.py true) = .ok b ∧ b.shape = [2, 1, 1, 3]) ∧
    synthRotateGauss exTime ⟨[3, 1, 1], fun _ => 0⟩ exSpectrum (.py true) = .error .valueError := by
  constructor
  · obtain ⟨L, k, m, n, b, hG, hb, hs, -⟩ := (C82_synth_shapes exTime ⟨[2, 1, 1, 1, 1], fun i => i.headD 0⟩ exSpectrum (.py true)).2 [2, 1, 2, 1, 3] (by decide)
    refine ⟨b, hb, ?_⟩
    rw [hs]
    obtain ⟨rfl, h⟩ := List.append_inj' (s₁ := [2, 1]) (t₁ := [2, 1, 3]) hG rfl
    injection h with _ h
    injection h with h2 h
    injection h with h3 _
    rw [← h2, ← h3]
    rfl
  · exact (C82_synth_shapes exTime ⟨[3, 1, 1], fun _ => 0⟩ exSpectrum (.py true)).1 (by decide)

/-- C82_vector: two frequencies and three columns are refused. -/
example : ¬ ∃ b, synthRotateGauss exTime ⟨[2], fun _ => 1⟩ exSpectrum .none = .ok b := by
  rw [(C82_vector exTime ⟨[2], fun _ => 1⟩ exSpectrum .none 2 1 3 rfl rfl).1]
  decide

/-- The base vectors of the geographic system, at each of two times, with a fourth component. -/
def exVec (k : ℕ) : Arr ℝ := ⟨[2, 4], fun i => if i.getLastD 0 = k then 1 else 0⟩

/-- C82_rotate. -/
example : ∃ (leggauss : ℕ → List (ℝ × ℝ)) (b : Arr ℝ), rotateGauss leggauss 2 1 (exVec 0) (exVec 1) (exVec 2) = .ok b ∧ b.shape = [2, 8, 3] := by
  obtain ⟨leggauss, h⟩ := Analysis.C45_gauss_rule
  obtain ⟨b, h1, h2, -⟩ := C82_rotate leggauss 2 1 (by decide) (by decide) (h _).1 (exVec 0) (exVec 1) (exVec 2) [2] 4 (by decide) rfl rfl rfl (fun i _ => by
    have e : ∀ k : Fin 3, ∀ n : ℕ, (exVec n).get (i ++ [k.val]) = if k.val = n then 1 else 0 := by
      intro k n
      show (if (i ++ [k.val]).getLastD 0 = n then (1 : ℝ) else 0) = _
      rw [List.getLastD_concat]
    simp only [baseAt, e]
    unfold RightHanded dot vecProd
    refine ⟨by simp, by simp, by simp, by simp, by simp, by simp, ?_⟩
    funext k
    fin_cases k <;> simp)
  exact ⟨leggauss, b, h1, h2⟩

/-- C82_rotate_shapes, C82_rotate_short. -/
example (leggauss : ℕ → List (ℝ × ℝ)) : rotateGauss leggauss 2 1 (exVec 0) (exVec 1) ⟨[4], fun _ => 0⟩ = .error .assertionError ∧
    rotateGauss leggauss 2 1 ⟨[5, 2], fun _ => 0⟩ ⟨[5, 2], fun _ => 0⟩ ⟨[5, 2], fun _ => 0⟩ = .error .indexError :=
  ⟨C82_rotate_shapes _ _ _ _ _ _ (by decide), C82_rotate_short _ _ _ (by decide) _ _ _ [5] 2 (by decide) (by decide) rfl rfl rfl⟩

end ChaosMagPy.RotateArr
