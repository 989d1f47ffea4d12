import Verif.Props.Index
import Verif.Props.Keywords
import Verif.Props.Legendre
import Verif.Props.Spectrum
import Verif.Props.MeanSquare
/-!
# Concrete cases for C12, C15, C47, C48, C49, C52

Each example applies one theorem to concrete arguments for which all its hypotheses hold.
-/
namespace ChaosMagPy.Index
open ChaosMagPy.Synth ChaosMagPy.Spec

/-- C12_count at degrees 2 to 13. -/
example : (labels 2 13).length = 192 ∧ (labels 1 13).length = 195 := C12_count 2 13 (by norm_num) (by norm_num)

/-- C12_label_at: in the degrees 2 to 13, `h_3^2` is coefficient number 9. -/
example : (labels 2 13)[gaussPos 3 (-2) - (2 ^ 2 - 1)]? = some (3, -2) ∧ gaussPos 3 (-2) - (2 ^ 2 - 1) = 9 :=
  ⟨C12_label_at 2 13 3 (-2) (by norm_num) (by norm_num) (by norm_num) (by decide), by decide⟩

/-- C12_bijection at degrees 2 to 13: only position 9 holds `h_3^2`. -/
example (i : ℕ) : (labels 2 13)[i]? = some (3, -2) ↔ i = 9 :=
  (C12_bijection 2 13 (by norm_num) (by norm_num)).2 3 (-2) (by norm_num) (by norm_num) (by decide) i

/-- C12_synthesis_positions: `g_2^1` and `h_2^1` of a model of degree 13 are the entries 4 and 5. -/
example (c : ℕ → ℝ) : coefG c 1 13 2 1 = c 4 ∧ coefH c 1 13 2 1 = c 5 :=
  ⟨(C12_synthesis_positions c 13 2 1 (by norm_num) (by norm_num)).1,
    (C12_synthesis_positions c 13 2 1 (by norm_num) (by norm_num)).2 (by norm_num)⟩

end ChaosMagPy.Index

namespace ChaosMagPy.Keywords

/-- Defaults with distinct keys, one of them the value None. -/
def exDefaults : Dict ℕ := [("figsize", some 5), ("cmap", some 7), ("titles", none)]
/-- Keywords of a caller: one new, one None, one set. -/
def exKeywords : Dict ℕ := [("dpi", some 1), ("cmap", none), ("figsize", some 9)]

/-- C52_keys. -/
example : (defaultkeys exDefaults exKeywords).map Prod.fst = ["dpi", "cmap", "figsize", "titles"] :=
  C52_keys exDefaults exKeywords (by decide)

/-- C52_values: the keyword that is set is kept, the one that is None takes the default, the new one stays. -/
example : get (defaultkeys exDefaults exKeywords) "figsize" = some (some 9) ∧
    get (defaultkeys exDefaults exKeywords) "cmap" = some (some 7) ∧
    get (defaultkeys exDefaults exKeywords) "dpi" = some (some 1) :=
  ⟨(C52_values exDefaults exKeywords (by decide) "figsize").1 9 rfl,
    (C52_values exDefaults exKeywords (by decide) "cmap").2.1 _ rfl (Or.inr rfl),
    (C52_values exDefaults exKeywords (by decide) "dpi").2.2 rfl⟩

/-- C52_idempotent. -/
example : get (defaultkeys exDefaults (defaultkeys exDefaults exKeywords)) "cmap" = get (defaultkeys exDefaults exKeywords) "cmap" :=
  C52_idempotent exDefaults exKeywords (by decide) "cmap"

end ChaosMagPy.Keywords

namespace ChaosMagPy.Legendre
open ChaosMagPy.Spec

/-- C15_in_bounds at degree 13: the step that assigns the value of degree 4 and order 2. -/
example : ∀ p ∈ (valueStep (3 / 5) 2 4).rhs.reads, p.1 < 14 ∧ p.2 < 15 :=
  (C15_in_bounds 13 (3 / 5) (4 / 5) (by norm_num) (valueStep (3 / 5) 2 4)
    (mem_value 13 _ _ (m := 2) (by norm_num) (by
      simp only [valueBlock, List.mem_append, List.mem_map, mem_pyRange]
      exact Or.inr ⟨4, ⟨by norm_num, by norm_num⟩, rfl⟩))).2.1

/-- C15_written_once at degree 13: entry `[5, 3]` is written and no entry twice. -/
example : ((program 13 (3 / 5) (4 / 5)).map Assign.tgt).Nodup ∧ (5, 3) ∈ (program 13 (3 / 5) (4 / 5)).map Assign.tgt :=
  ⟨(C15_written_once 13 (3 / 5) (4 / 5) (by norm_num)).1,
    ((C15_written_once 13 (3 / 5) (4 / 5) (by norm_num)).2 (5, 3)).2 (Or.inl ⟨5, 3, by norm_num, by norm_num, rfl⟩)⟩

/-- C15_reads_after_writes at degree 3, for the step that assigns the derivative of degree 3 and order 2. -/
example : ∃ pre post, program 3 (3 / 5) (4 / 5) = pre ++ derivStep 3 2 :: post ∧
    ∀ p ∈ (derivStep 3 2).rhs.reads, ∃ b ∈ pre, b.tgt = p := by
  obtain ⟨pre, post, h⟩ : ∃ pre post, program 3 (3 / 5) (4 / 5) = pre ++ derivStep 3 2 :: post :=
    List.append_of_mem (mem_deriv 3 _ _ (n := 3) (by norm_num) (by norm_num) (by
      simp only [derivBlock, List.mem_append, List.mem_map, mem_pyRange]
      exact Or.inl (Or.inr ⟨2, ⟨by norm_num, by norm_num⟩, rfl⟩)))
  exact ⟨pre, post, h, (C15_reads_after_writes 3 _ _ (by norm_num) pre post _ h).1⟩

/-- C15_equations at degree 13 and colatitude 57 degrees; entry `[0, 1]` is not assigned and stays zero. -/
example : ∃ T, legendrePoly 13 57 = .ok T ∧ T (0, 1) = 0 ∧
    (∀ a ∈ program 13 (Real.cos (rad 57)) (Real.sqrt (1 - Real.cos (rad 57) ^ 2)), T a.tgt = a.rhs.eval T) := by
  obtain ⟨T, h, h1, h0⟩ := C15_equations 13 57 (by norm_num)
  refine ⟨T, h, h0 _ (fun hc => ?_), h1⟩
  rcases ((C15_written_once 13 _ _ (by norm_num)).2 (0, 1)).1 hc with ⟨n, m, hm, -, he⟩ | ⟨n, m, -, hn, -, he⟩
  · have := Prod.mk.inj he; omega
  · have := Prod.mk.inj he; omega

end ChaosMagPy.Legendre

namespace ChaosMagPy.Spectrum
open ChaosMagPy.Spec

/-- C47_mean_square for the 8 coefficients of degree 2 at the core surface, cut at degree 1. -/
example (c : ℕ → ℝ) := C47_mean_square 6371.2 (by norm_num) 8 2 (by norm_num) (by norm_num) c 3485 (by norm_num) (some 1)

/-- C47_mean_square_degree for the 195 coefficients of degree 13 at the core surface. -/
example (c : ℕ → ℝ) := C47_mean_square_degree 6371.2 (by norm_num) 195 13 (by norm_num) (by norm_num) c 3485 (by norm_num)

/-- C47_scaling between the Earth's surface and the core surface. -/
example (c : ℕ → ℝ) := C47_scaling 6371.2 (by norm_num) 195 13 (by norm_num) (by norm_num) c 6371.2 3485 2 (by norm_num) (by norm_num) none
  "internal" (Or.inl rfl)

/-- C47_unknown_source. -/
example (c : ℕ → ℝ) : powerSpectrum 6371.2 195 c (some 3485) none (some "core") = .error .valueError :=
  (C47_unknown_source 6371.2 195 c 3485 (by norm_num) none "core" (by decide)).1

/-- C48_correlation of two models of degree 13. -/
example (c d : ℕ → ℝ) := C48_correlation 195 13 (by norm_num) (by norm_num) c d

/-- C48_scaling: the correlation of a model with its negative is -1, here for an axial dipole. -/
example : ∃ C : List Num, degreeCorrelation 3 (fun i => (-1) * (if i = 0 then (30000 : ℝ) else 0)) 3 (fun i => if i = 0 then 30000 else 0) = .ok C ∧
    C[0]? = some (.val (-1)) := by
  obtain ⟨C, Cs, Cself, _, _, h, hn⟩ := C48_scaling 3 1 (by norm_num) (by norm_num) (fun i => if i = 0 then (30000 : ℝ) else 0)
    (fun i => if i = 0 then (30000 : ℝ) else 0) (-1) (by norm_num)
  have := (hn 1 le_rfl le_rfl (by simp [degreePower, gaussG, gaussH, gaussPos, Finset.sum_range_succ])).1
  rw [if_neg (by norm_num)] at this
  exact ⟨Cself, h, this⟩

/-- C48_sizes, C49_sizes: models of degrees 1 and 2. -/
example (c d : ℕ → ℝ) : degreeCorrelation 3 c 8 d = .error .valueError ∧ sensitivity 3 c 8 d = .error .valueError :=
  ⟨C48_sizes 3 8 (by norm_num) c d, C49_sizes 3 8 (by norm_num) c d⟩

end ChaosMagPy.Spectrum
