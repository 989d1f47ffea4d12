import Verif.Model.FloatVectors
import Verif.Props.FloatTransform
import Verif.Props.Coord
/-!
# Rotation of horizontal vectors in double precision
-/
namespace ChaosMagPy.FloatBase
open ChaosMagPy.Spec ChaosMagPy.Float ChaosMagPy.FloatLegendre ChaosMagPy.FloatGeod ChaosMagPy.FloatSun

variable (R : Rounding)

/-- The components of a vector along three rows. -/
def rows (w1 w2 w3 v : Fin 3 → ℝ) : Fin 3 → ℝ := ![dot w1 v, dot w2 v, dot w3 v]

theorem rows_at (w1 w2 w3 v : Fin 3 → ℝ) (k : Fin 3) : rows w1 w2 w3 v k = dot ((![w1, w2, w3] : Fin 3 → Fin 3 → ℝ) k) v := by
  fin_cases k <;> rfl

/-- The three vectors of the local frame. -/
noncomputable def local3 (θ φ : ℝ) : Fin 3 → Fin 3 → ℝ := ![direction θ φ, south θ φ, east φ]

theorem local3_le (θ φ : ℝ) (j i : Fin 3) : |local3 θ φ j i| ≤ 1 := by
  have h := Coord.use_rh θ φ
  fin_cases j
  · exact unit_le h.1 i
  · exact unit_le h.2.1 i
  · exact unit_le h.2.2.1 i

theorem local3_unit (θ φ : ℝ) (j : Fin 3) : dot (local3 θ φ j) (local3 θ φ j) = 1 := by
  have h := Coord.use_rh θ φ
  fin_cases j
  · exact h.1
  · exact h.2.1
  · exact h.2.2.1

/-- The computed vectors of the local frame. -/
theorem use_err {S C : ℝ → ℝ} (hS : IsSine S) (hC : IsCosine C) {θ φ : ℝ} (h1 : |θ| ≤ 360) (h2 : |φ| ≤ 360) (hp : ¬polar R θ) :
    ∃ u : Fin 3 → Fin 3 → ℝ, (∃ b, basevectorsUse R S C (some θ) (some φ) = some b ∧ ∀ j, nth b j = fun i => some (u j i)) ∧ ∀ j i, |u j i - local3 θ φ j i| ≤ 1 / 10 ^ 14 := by
  have sθ := FloatCoord.sin_wide R hS h1
  have cθ := FloatCoord.cos_wide R hC h1
  have sφ := FloatCoord.sin_wide R hS h2
  have cφ := FloatCoord.cos_wide R hC h2
  have e : ∀ x : ℝ, x * Real.pi / 180 = rad x := fun x => by unfold rad; ring
  have pr : ∀ {x' x y' y : ℝ}, |x' - x| ≤ 2⁻¹ ^ 49 + 2⁻¹ ^ 52 → |y' - y| ≤ 2⁻¹ ^ 49 + 2⁻¹ ^ 52 → |x| ≤ 1 → |y| ≤ 1 → |R (x' * y') - x * y| ≤ 1 / 10 ^ 14 := by
    intro x' x y' y hx hy bx bY
    have m := mul_err hx hy bx bY
    have bb : |x * y| ≤ 1 := by rw [abs_mul]; exact mul_le_one₀ bx (abs_nonneg _) bY
    exact rstep R (k := 1) m bb (by norm_num) (by norm_num) (by norm_num) (by norm_num)
  have k : (2⁻¹ : ℝ) ^ 49 + 2⁻¹ ^ 52 ≤ 1 / 10 ^ 14 := by norm_num
  have s1 := Real.abs_sin_le_one
  have c1 := Real.abs_cos_le_one
  have ng : ∀ {x y b : ℝ}, |x - y| ≤ b → |-x - -y| ≤ b := by
    intro x y b h
    rwa [neg_sub_neg, abs_sub_comm]
  refine ⟨![![R (S (radians R θ) * C (radians R φ)), R (S (radians R θ) * S (radians R φ)), C (radians R θ)],
    ![R (C (radians R θ) * C (radians R φ)), R (C (radians R θ) * S (radians R φ)), -S (radians R θ)], ![-S (radians R φ), C (radians R φ), 0]], ⟨_, by
      simp only [basevectorsUse, if_neg hp]
      rfl, ?_⟩, ?_⟩
  · intro j
    fin_cases j <;> funext i <;> fin_cases i <;> rfl
  · intro j i
    fin_cases j <;> fin_cases i <;> simp only [local3, direction, south, east, e, Matrix.cons_val, Fin.zero_eta, Fin.mk_one, Fin.reduceFinMk]
    · exact pr sθ cφ (s1 _) (c1 _)
    · exact pr sθ sφ (s1 _) (s1 _)
    · exact cθ.trans k
    · exact pr cθ cφ (c1 _) (c1 _)
    · exact pr cθ sφ (c1 _) (s1 _)
    · exact (ng sθ).trans k
    · exact (ng sφ).trans k
    · exact cφ.trans k
    · norm_num

/-- One inner product. -/
theorem dot3_err {dot3 : FVec → FVec → F} (hd : IsDot3 dot3) {a b a' b' : Fin 3 → ℝ} {τ σ : ℝ} (h0 : 1 / 10 ^ 14 ≤ τ) (hτ : τ ≤ 1 / 10 ^ 5) (h1 : τ ≤ σ) (hσ : σ ≤ 1 / 10 ^ 4)
    (ha : ∀ i, |a i| ≤ 1) (hb : ∀ i, |b i| ≤ 1) (ha' : ∀ i, |a' i - a i| ≤ τ) (hb' : ∀ i, |b' i - b i| ≤ σ) :
    ∃ c, dot3 (fun i => some (a' i)) (fun i => some (b' i)) = some c ∧ |c - dot a b| ≤ 3 * σ + 6 * τ := by
  obtain ⟨c, e, h⟩ := hd a' b' (fun i => (abs_of_close (ha' i) (ha i)).trans (by norm_num at *; linarith)) (fun i => (abs_of_close (hb' i) (hb i)).trans (by norm_num at *; linarith))
  refine ⟨c, e, ?_⟩
  have m : ∀ i, |a' i * b' i - a i * b i| ≤ τ + σ + 1 / 10 ^ 4 * τ := by
    intro i
    have m := mul_err (ha' i) (hb' i) (ha i) (hb i)
    have m2 : τ * σ ≤ τ * (1 / 10 ^ 4) := mul_le_mul_of_nonneg_left hσ (by norm_num at h0; linarith)
    linarith
  have e2 : c - dot a b = (c - dot a' b') + ((a' 0 * b' 0 - a 0 * b 0) + ((a' 1 * b' 1 - a 1 * b 1) + (a' 2 * b' 2 - a 2 * b 2))) := by
    simp only [dot]
    ring
  rw [e2]
  refine (abs_add_le _ _).trans ((add_le_add h ((abs_add_le _ _).trans (add_le_add (m 0) ((abs_add_le _ _).trans (add_le_add (m 1) (m 2)))))).trans ?_)
  norm_num at *
  linarith

/-- The entries of the rotation matrix. -/
theorem entry_err {dot3 : FVec → FVec → F} (hd : IsDot3 dot3) {e w : Fin 3 → Fin 3 → ℝ} {η : ℝ} (h0 : 1 / 10 ^ 14 ≤ η) (hη : η ≤ 1 / 10 ^ 5)
    (hw : RightHanded (w 0) (w 1) (w 2)) (he : ∀ k i, |e k i - w k i| ≤ η) {u u' v v' : Fin 3 → ℝ} (hu : dot u u = 1) (hv : dot v v = 1)
    (hu' : ∀ i, |u' i - u i| ≤ 1 / 10 ^ 14) (hv' : ∀ i, |v' i - v i| ≤ 1 / 10 ^ 14) :
    ∃ c, dot3 (fun i => some (v' i)) (fun k => dot3 (fun i => some (e k i)) (fun i => some (u' i))) = some c ∧ |c - dot v (rows (w 0) (w 1) (w 2) u)| ≤ 33 * η := by
  have inner : ∀ k, ∃ c, dot3 (fun i => some (e k i)) (fun i => some (u' i)) = some c ∧ |c - rows (w 0) (w 1) (w 2) u k| ≤ 9 * η := by
    intro k
    have hwk : ∀ i, |w k i| ≤ 1 := by
      fin_cases k
      · exact unit_le hw.1
      · exact unit_le hw.2.1
      · exact unit_le hw.2.2.1
    obtain ⟨c, e1, e2⟩ := dot3_err hd h0 hη le_rfl (hη.trans (by norm_num)) hwk (unit_le hu) (he k) (fun i => (hu' i).trans h0)
    refine ⟨c, e1, ?_⟩
    rw [rows_at]
    have : (![w 0, w 1, w 2] : Fin 3 → Fin 3 → ℝ) k = w k := by fin_cases k <;> rfl
    rw [this]
    linarith
  choose q hq1 hq2 using inner
  have hr : dot (rows (w 0) (w 1) (w 2) u) (rows (w 0) (w 1) (w 2) u) = 1 := by rw [rows, Coord.rh_unit_rows hw, hu]
  obtain ⟨c, e1, e2⟩ := dot3_err hd h0 hη (by linarith : η ≤ 9 * η) (by norm_num at *; linarith) (unit_le hv) (unit_le hr) (fun i => (hv' i).trans h0) hq2
  refine ⟨c, ?_, by linarith⟩
  rw [show (fun k => dot3 (fun i => some (e k i)) (fun i => some (u' i))) = fun k => some (q k) from funext hq1]
  exact e1

/-- The rotated components. -/
theorem component_err {a b a0 b0 x y η M : ℝ} (h0 : 1 / 10 ^ 14 ≤ η) (hη : η ≤ 1 / 10 ^ 5) (h1 : (2 : ℝ) ^ (-100 : ℤ) ≤ M) (h2 : M ≤ (2 : ℝ) ^ (100 : ℤ)) (ha : |a - a0| ≤ 33 * η)
    (hb : |b - b0| ≤ 33 * η) (ha0 : |a0| ≤ 1) (hb0 : |b0| ≤ 1) (hx : |x| ≤ M) (hy : |y| ≤ M) : |R (R (a * x) + R (b * y)) - (a0 * x + b0 * y)| ≤ 67 * η * M := by
  have hM : 0 < M := lt_of_lt_of_le (by positivity) h1
  have hηM : 1 / 10 ^ 14 * M ≤ η * M := mul_le_mul_of_nonneg_right h0 hM.le
  have hηM' : η * M ≤ 1 / 10 ^ 5 * M := mul_le_mul_of_nonneg_right hη hM.le
  have w1 : (2 : ℝ) ^ (-900 : ℤ) ≤ 2 * M := by
    refine le_trans (zpow_le_zpow_right₀ (by norm_num) (by norm_num)) (h1.trans ?_)
    linarith only [hM]
  have w3 : (2 : ℝ) ^ (-900 : ℤ) ≤ 4 * M := w1.trans (by linarith only [hM])
  have w2 : 4 * M ≤ (2 : ℝ) ^ (900 : ℤ) :=
    calc 4 * M ≤ 4 * (2 : ℝ) ^ (100 : ℤ) := mul_le_mul_of_nonneg_left h2 (by norm_num)
      _ = (2 : ℝ) ^ (102 : ℤ) := by norm_num
      _ ≤ _ := zpow_le_zpow_right₀ (by norm_num) (by norm_num)
  have w4 : 2 * M ≤ (2 : ℝ) ^ (900 : ℤ) := le_trans (by linarith only [hM]) w2
  clear h1 h2
  have one : ∀ {a a0 x : ℝ}, |a - a0| ≤ 33 * η → |a0| ≤ 1 → |x| ≤ M → |a0 * x| ≤ M ∧ |R (a * x) - a0 * x| ≤ 33 * (η * M) + 2 * M * (2 : ℝ) ^ (-53 : ℤ) := by
    intro a a0 x h h' hx
    have b1 : |a0 * x| ≤ M := by
      rw [abs_mul]
      calc |a0| * |x| ≤ 1 * M := mul_le_mul h' hx (abs_nonneg _) (by norm_num)
        _ = M := one_mul M
    have b2 : |a * x - a0 * x| ≤ 33 * (η * M) := by
      rw [← sub_mul, abs_mul]
      calc |a - a0| * |x| ≤ 33 * η * M := mul_le_mul h hx (abs_nonneg _) (by norm_num at *; linarith)
        _ = _ := by ring
    have b3 := rnd_bound R w1 w4 (x := a * x) ((abs_of_close b2 b1).trans (by norm_num at *; linarith))
    refine ⟨b1, ?_⟩
    have t := abs_add_le (R (a * x) - a * x) (a * x - a0 * x)
    rw [sub_add_sub_cancel] at t
    linarith
  obtain ⟨p1, p2⟩ := one ha ha0 hx
  obtain ⟨q1, q2⟩ := one hb hb0 hy
  generalize R (a * x) = s at *
  generalize R (b * y) = t at *
  generalize a0 * x = s0 at *
  generalize b0 * y = t0 at *
  have e1 : |s + t - (s0 + t0)| ≤ 66 * (η * M) + 4 * M * (2 : ℝ) ^ (-53 : ℤ) := by
    rw [show s + t - (s0 + t0) = (s - s0) + (t - t0) by ring]
    exact (abs_add_le _ _).trans ((add_le_add p2 q2).trans (le_of_eq (by ring)))
  have e2 : |s0 + t0| ≤ 2 * M := (abs_add_le _ _).trans (by linarith)
  have e3 := rnd_bound R w3 w2 (x := s + t) ((abs_of_close e1 e2).trans (by norm_num at *; linarith))
  have t3 := abs_add_le (R (s + t) - (s + t)) (s + t - (s0 + t0))
  rw [sub_add_sub_cancel] at t3
  refine t3.trans ((add_le_add e3 e1).trans ?_)
  clear w1 w2 w3 w4
  norm_num at *
  linarith

/-- A vector from its components in the local frame. -/
theorem local_vector {θ φ X Y η M : ℝ} {p d : Fin 3 → ℝ} (hη : 0 ≤ η) (hM : 0 ≤ M) (hp : ∀ i, |p i| ≤ 2 * M) (hpd : dot d p = 0) (hd : ∀ i, |direction θ φ i - d i| ≤ 140 * η)
    (hX : |X - dot (south θ φ) p| ≤ 67 * η * M) (hY : |Y - dot (east φ) p| ≤ 67 * η * M) (k : Fin 3) : |X * south θ φ k + Y * east φ k - p k| ≤ 1000 * η * M := by
  have hu := Coord.use_rh θ φ
  have hr := congrFun (Coord.rh_rows hu p) k
  simp only [combine, Matrix.cons_val_zero, Matrix.cons_val_one, Matrix.cons_val] at hr
  have e : X * south θ φ k + Y * east φ k - p k = (X - dot (south θ φ) p) * south θ φ k + ((Y - dot (east φ) p) * east φ k + -(dot (direction θ φ) p) * direction θ φ k) := by
    rw [← hr]
    ring
  have small : ∀ {x e y : ℝ}, |x| ≤ e → |y| ≤ 1 → |x * y| ≤ e := by
    intro x e y hx hy
    rw [abs_mul]
    calc |x| * |y| ≤ e * 1 := mul_le_mul hx hy (abs_nonneg _) ((abs_nonneg _).trans hx)
      _ = e := mul_one _
  have rad : |-(dot (direction θ φ) p)| ≤ 840 * η * M := by
    rw [abs_neg]
    have : dot (direction θ φ) p = (direction θ φ 0 - d 0) * p 0 + ((direction θ φ 1 - d 1) * p 1 + (direction θ φ 2 - d 2) * p 2) := by
      have h := hpd
      simp only [dot] at h ⊢
      linear_combination h
    rw [this]
    have one : ∀ i, |(direction θ φ i - d i) * p i| ≤ 280 * η * M := by
      intro i
      rw [abs_mul]
      calc |direction θ φ i - d i| * |p i| ≤ 140 * η * (2 * M) := mul_le_mul (hd i) (hp i) (abs_nonneg _) (by linarith)
        _ = _ := by ring
    exact (abs_add_le _ _).trans ((add_le_add (one 0) ((abs_add_le _ _).trans (add_le_add (one 1) (one 2)))).trans (le_of_eq (by ring)))
  rw [e]
  refine (abs_add_le _ _).trans ((add_le_add (small hX (unit_le hu.2.1 k)) ((abs_add_le _ _).trans (add_le_add (small hY (unit_le hu.2.2.1 k)) (small rad (unit_le hu.1 k))))).trans ?_)
  have : 0 ≤ η * M := mul_nonneg hη hM
  linarith

end ChaosMagPy.FloatBase
