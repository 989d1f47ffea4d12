import Verif.Props.FloatShc
/-!
# Concrete cases for C89
-/
namespace ChaosMagPy.Float
open ChaosMagPy.Spec ChaosMagPy.Shc

variable (R : Rounding)

/-- Two epochs, degrees up to 3, numbers with more than eight decimals. -/
noncomputable def exArr : Arr ℝ := { rows := 2, cols := 15, get := fun i j => -30000.123456789 + 1.1 * i + 2.3 * (min j 14 : ℕ) }

theorem exArr_bound (i j : ℕ) (hi : i < exArr.rows) : |exArr.get i j| ≤ 2 ^ 26 ∧ exArr.get i j < -(1 / (2 * 10 ^ 8)) := by
  have hi : i < 2 := hi
  have h1 : ((min j 14 : ℕ) : ℝ) ≤ 14 := by exact_mod_cast min_le_right j 14
  have h0 : (0 : ℝ) ≤ ((min j 14 : ℕ) : ℝ) := Nat.cast_nonneg _
  have h2 : (i : ℝ) ≤ 2 := by exact_mod_cast hi.le
  have h3 : (0 : ℝ) ≤ (i : ℝ) := Nat.cast_nonneg _
  simp only [exArr]
  generalize ((min j 14 : ℕ) : ℝ) = u at h0 h1 ⊢
  rw [abs_le]
  norm_num
  refine ⟨⟨?_, ?_⟩, ?_⟩ <;> linarith

theorem exTimes : ∀ t ∈ ([7305.3, 7670.1] : List ℝ), |t| ≤ 106650 := by
  intro t ht
  simp only [List.mem_cons, List.not_mem_nil, or_false] at ht
  rcases ht with rfl | rfl <;> norm_num

/-- C89_roundtrip: degrees 2 to 3. -/
example := C89_roundtrip R "2024-01-01".toList [7305.3, 7670.1] exArr 2 2 3 true "# my model\n".toList (by decide) (by decide)
  (by norm_num) (by norm_num) (by norm_num [exArr]) rfl (by norm_num) exTimes

/-- C89_resave: the loaded model is saved again, with the same date and header, and the file does not change. -/
example : ∃ content L coeffs', saveShc R "2024-01-01".toList [7305.3, 7670.1] exArr (some 2) (some 2) (some (3 : ℕ)) (some true) (some "# my model\n".toList) = .ok (content, none) ∧
    loadShc R (some true) content = .ok L ∧
    saveShc R "2024-01-01".toList L.mjd coeffs' (some 2) (some 2) (some (3 : ℕ)) (some true) (some "# my model\n".toList) = .ok (content, none) := by
  obtain ⟨content, L, h1, h2, -, h4, -⟩ := C89_roundtrip R "2024-01-01".toList [7305.3, 7670.1] exArr 2 2 3 true "# my model\n".toList (by decide) (by decide)
    (by norm_num) (by norm_num) (by norm_num [exArr]) rfl (by norm_num) exTimes
  have hlen : L.mjd.length = 2 := h4.length_eq.symm
  obtain ⟨content', a, -, c⟩ := C89_resave R "2024-01-01".toList [7305.3, 7670.1] exArr 2 2 3 true "# my model\n".toList (by decide) (by decide)
    (by norm_num) (by norm_num) (by norm_num [exArr]) rfl (by norm_num) exTimes (fun i hi j _ => (exArr_bound i j hi).1) content L h1 h2
    { rows := 2, cols := 15, get := fun i j => ((L.coeffs[j - 3]?.getD [])[i]?).getD 0 } (by norm_num) hlen.symm
    (by
      intro j row hj i d hd
      simp only
      rw [show 2 ^ 2 - 1 + j - 3 = j by omega, hj, Option.getD_some, hd, Option.getD_some])
    "2024-01-01".toList "# my model\n".toList (by decide) (by decide)
  rw [c rfl rfl (fun i hi j _ => Or.inr (exArr_bound i j hi).2)] at a
  exact ⟨content, L, _, h1, h2, a⟩

/-- C89_defaults: 15 columns are degree 3. -/
example := C89_defaults R "2024-01-01".toList [7305.3, 7670.1] exArr 3 (by norm_num [exArr]) (by norm_num)

end ChaosMagPy.Float
