import Verif.Props.DesignArr
/-!
# Concrete cases for C78

Each example applies one theorem to concrete arguments for which all its hypotheses hold.
-/
namespace ChaosMagPy.DesignArr
open ChaosMagPy.NumPy
open ChaosMagPy.Synth (Error)

/-- The colatitudes of the example in the documentation of `design_gauss`. -/
def exTheta : Arr ℝ := ⟨[4], fun i => 90 + 10 * (i.headD 0 : ℝ)⟩

theorem exTheta_at (i : List ℕ) (hi : Valid [4] i) : 0 < exTheta.at i ∧ exTheta.at i < 180 := by
  rw [at_valid _ _ hi]
  obtain ⟨k, rfl⟩ := List.length_eq_one_iff.1 hi.length_eq
  have h : Valid [4] [k] := hi
  simp only [Valid, List.forall₂_cons] at h
  have hk : (k : ℝ) < 4 := by exact_mod_cast h.1
  have h0 : (0 : ℝ) ≤ k := Nat.cast_nonneg k
  show 0 < 90 + 10 * ((k : ℕ) : ℝ) ∧ 90 + 10 * ((k : ℕ) : ℝ) < 180
  constructor <;> linarith

/-- The call in the documentation returns three matrices. -/
theorem ex_design : ∃ A, designGauss 6371.2 (scalar 6371.2) exTheta (scalar 0) 1 (some 1) (some 1) (some "internal") = .ok A ∧
    A.1.shape = [4, 3] ∧
    Synth.designGauss 6371.2 ((indices [4]).map fun i => (6371.2, exTheta.at i, 0)) 1 (some 1) (some 1) (some "internal") =
      .ok (3, (indices [4]).map fun i => (fun j => A.1.get (i ++ [j]), fun j => A.2.1.get (i ++ [j]), fun j => A.2.2.get (i ++ [j]))) := by
  have hpos : ∃ r, Synth.designGauss 6371.2 ((indices [4]).map fun i => (6371.2, exTheta.at i, 0)) 1 (some 1) (some 1) (some "internal") = .ok r := by
    rw [Synth.C17_design_succeeds 6371.2 (by norm_num) _ (by simpa using indices_ne_nil (by simp))]
    · simp
    · intro p hp
      obtain ⟨i, -, rfl⟩ := List.mem_map.1 hp
      norm_num
    · intro p hp
      obtain ⟨i, hi, rfl⟩ := List.mem_map.1 hp
      exact exTheta_at i (mem_indices.1 hi)
  obtain ⟨r, hr⟩ := hpos
  have h := C78_gauss 6371.2 (scalar 6371.2) exTheta (scalar 0) [4] (by decide) (by simp) 1 (some 1) (some 1) (some "internal")
  have hp : ((indices [4]).map fun i => ((scalar (6371.2 : ℝ)).at i, exTheta.at i, (scalar (0 : ℝ)).at i)) =
      (indices [4]).map fun i => (6371.2, exTheta.at i, 0) := rfl
  rw [hp] at h
  rcases h with ⟨e, -, he⟩ | ⟨A, dim, h1, h2, -, -, h3⟩
  · rw [hr] at he; cases he
  · have hd : dim = 3 := by
      have h4 := h3
      unfold Synth.designGauss at h4
      simp only [bind, Except.bind, pure, Except.pure, throw, throwThe, MonadExceptOf.throw] at h4
      split at h4
      · cases h4
      · rw [if_neg (by norm_num), if_neg (by simp), if_neg (by simp), if_neg (by simp), if_neg (by simp)] at h4
        split at h4
        · cases h4
        · split at h4
          · cases h4
          · have := (Prod.mk.inj (Except.ok.inj h4)).1
            rw [← this]
            decide
    subst hd
    exact ⟨A, h1, h2, h3⟩

/-- C78_product: the product with the dipole of the documentation is the field. -/
example : ∃ A B M, designGauss 6371.2 (scalar 6371.2) exTheta (scalar 0) 1 (some 1) (some 1) (some "internal") = .ok A ∧
    SynthArr.synthValues 6371.2 ⟨[3], fun i => if i.headD 0 = 0 then -30000 else 0⟩ (scalar 6371.2) exTheta (scalar 0) (some 1) (some 1) (some 1) (some "internal") none = .ok B ∧
    matVec A.1 ⟨[3], fun i => if i.headD 0 = 0 then -30000 else 0⟩ = .ok M ∧ M.shape = [4] ∧ B.1.get [2] = M.get [2] := by
  obtain ⟨A, hA, hs, -⟩ := ex_design
  obtain ⟨dim, d1, -, -, h⟩ := C78_product 6371.2 (by norm_num) (scalar 6371.2) exTheta (scalar 0) [4] (by decide) (by simp) (fun i _ => by show (6371.2 : ℝ) ≠ 0; norm_num)
    1 (some 1) (some 1) (some "internal") A hA
  have hd : dim = 3 := by
    rw [hs] at d1
    have := d1
    simp at this
    exact this.symm
  subst hd
  obtain ⟨B, M1, M2, M3, b1, m1, -, -, -, -, -, s1, -, -, hv⟩ := h ⟨[3], fun i => if i.headD 0 = 0 then -30000 else 0⟩ rfl
  exact ⟨A, B, M1, hA, b1, m1, s1, (hv [2] (by simp [Valid])).1⟩

/-- C78_refused: three radii for four colatitudes; no colatitudes. -/
example : designGauss 6371.2 ⟨[3], fun _ => 6371.2⟩ exTheta (scalar 0) 1 none none none = .error .valueError :=
  C78_refused _ _ _ _ _ _ _ _ (Or.inl (by decide))
example : designGauss 6371.2 (scalar 6371.2) ⟨[0], fun _ => 1⟩ (scalar 0) 1 none none none = .error .valueError :=
  C78_refused _ _ _ _ _ _ _ _ (Or.inr rfl)

/-- C78_matrix: two data, degree 1, linear splines with two segments. -/
example : ∃ X cols rows, designMatrix 6371.2 [0, 0, 1, 2, 2] 2 1 ⟨[2], fun i => (i.headD 0 : ℝ)⟩ ⟨[2], fun _ => 6371.2⟩ ⟨[2], fun _ => 90⟩ ⟨[2], fun _ => 0⟩ (some 2) none = .ok X ∧
    BSpline.designMatrix 6371.2 [0, 0, 1, 2, 2] 2 1 ((List.range 2).map fun k : ℕ => ⟨(k : ℝ), 6371.2, 90, 0⟩) (some 2) none = .ok (cols, rows) ∧
    SameMatrices X 2 cols rows := by
  have hok : ∃ r, BSpline.designMatrix 6371.2 [0, 0, 1, 2, 2] 2 1 ((List.range 2).map fun k : ℕ => ⟨(k : ℝ), 6371.2, 90, 0⟩) (some 2) none = .ok r := by
    rw [BSpline.C25_succeeds 6371.2 (by norm_num) _ _ _ _ (by simp)]
    · exact ⟨Or.inl rfl, Or.inr ⟨2, rfl, by omega, by omega⟩⟩
    · intro p hp
      obtain ⟨k, -, rfl⟩ := List.mem_map.1 hp
      norm_num
    · intro p hp
      obtain ⟨k, -, rfl⟩ := List.mem_map.1 hp
      norm_num
  obtain ⟨r, hr⟩ := hok
  have h := C78_matrix 6371.2 [0, 0, 1, 2, 2] 2 1 ⟨[2], fun i => (i.headD 0 : ℝ)⟩ ⟨[2], fun _ => 6371.2⟩ ⟨[2], fun _ => 90⟩ ⟨[2], fun _ => 0⟩ 2 rfl rfl rfl rfl (some 2) none
  simp only [List.headD_cons] at h
  rcases h with ⟨e, -, he⟩ | h
  · rw [hr] at he; cases he
  · exact h

/-- C78_matrix_shapes: one radius for all data. -/
example : designMatrix 6371.2 [0, 0, 1, 2, 2] 2 1 ⟨[2], fun i => (i.headD 0 : ℝ)⟩ (scalar 6371.2) ⟨[2], fun _ => 90⟩ ⟨[2], fun _ => 0⟩ (some 2) none = .error .assertionError :=
  C78_matrix_shapes _ _ _ _ _ _ _ _ _ _ (by rintro ⟨N, -, h, -⟩; cases h)

end ChaosMagPy.DesignArr
