import Verif.Lemmas.FloatBase
/-!
# Frames from two directions, exactly and in double precision
-/
namespace ChaosMagPy.FloatBase
open ChaosMagPy.Spec ChaosMagPy.Float ChaosMagPy.FloatLegendre ChaosMagPy.FloatGeod ChaosMagPy.FloatSun

variable (R : Rounding)

theorem lagrange (a b : Fin 3 → ℝ) : dot (vecProd a b) (vecProd a b) = dot a a * dot b b - dot a b ^ 2 := by
  simp only [dot, vecProd, Matrix.cons_val_zero, Matrix.cons_val_one, Matrix.cons_val]
  ring

theorem dot_left (a b : Fin 3 → ℝ) : dot a (vecProd a b) = 0 := by
  simp only [dot, vecProd, Matrix.cons_val_zero, Matrix.cons_val_one, Matrix.cons_val]
  ring

theorem dot_right (a b : Fin 3 → ℝ) : dot b (vecProd a b) = 0 := by
  simp only [dot, vecProd, Matrix.cons_val_zero, Matrix.cons_val_one, Matrix.cons_val]
  ring

theorem dot_symm (a b : Fin 3 → ℝ) : dot a b = dot b a := by unfold dot; ring

theorem cyclic (a b c : Fin 3 → ℝ) : dot a (vecProd b c) = dot c (vecProd a b) := by
  simp only [dot, vecProd, Matrix.cons_val_zero, Matrix.cons_val_one, Matrix.cons_val]
  ring

theorem dot_div (a b : Fin 3 → ℝ) (L : ℝ) : dot a (fun i => b i / L) = dot a b / L := by
  unfold dot
  ring

theorem twice {w m : Fin 3 → ℝ} (hw : dot w w = 1) (h : dot w m = 0) : vecProd (vecProd w m) w = m := by
  unfold dot at hw h
  funext i
  fin_cases i <;> simp only [vecProd, Matrix.cons_val_zero, Matrix.cons_val_one, Matrix.cons_val, Fin.mk_one, Fin.zero_eta, Fin.reduceFinMk]
  · linear_combination m 0 * hw - w 0 * h
  · linear_combination m 1 * hw - w 1 * h
  · linear_combination m 2 * hw - w 2 * h

/-- The unit vector orthogonal to two directions. -/
noncomputable def normal (m σ : Fin 3 → ℝ) : Fin 3 → ℝ := fun i => vecProd m σ i / len (vecProd m σ)

theorem dot_normal (a m σ : Fin 3 → ℝ) : dot a (normal m σ) = dot a (vecProd m σ) / len (vecProd m σ) := dot_div _ _ _

theorem normal_spec {m σ : Fin 3 → ℝ} (h : 0 < len (vecProd m σ)) :
    dot (normal m σ) (normal m σ) = 1 ∧ dot m (normal m σ) = 0 ∧ dot σ (normal m σ) = 0 ∧ dot (normal m σ) (vecProd m σ) = len (vecProd m σ) := by
  have e := len_sq (vecProd m σ)
  have h1 : dot (normal m σ) (vecProd m σ) = len (vecProd m σ) := by
    rw [dot_symm, dot_normal, ← e]
    field_simp
  refine ⟨?_, by rw [dot_normal, dot_left, zero_div], by rw [dot_normal, dot_right, zero_div], h1⟩
  have h2 : dot (normal m σ) (normal m σ) = dot (normal m σ) (vecProd m σ) / len (vecProd m σ) := dot_normal _ _ _
  rw [h2, h1, div_self h.ne']

/-- First base vector given. -/
theorem frame_first {m σ : Fin 3 → ℝ} (hσ : dot σ σ = 1) (h : 0 < len (vecProd m σ)) :
    RightHanded σ (normal m σ) (vecProd σ (normal m σ)) ∧ dot m (normal m σ) = 0 ∧ 0 < dot m (vecProd σ (normal m σ)) := by
  obtain ⟨h1, h2, h3, h4⟩ := normal_spec h
  refine ⟨⟨hσ, h1, ?_, h3, dot_left _ _, dot_right _ _, rfl⟩, h2, ?_⟩
  · rw [lagrange, hσ, h1, h3]; norm_num
  · rw [cyclic, h4]
    exact h

theorem frame_pair {w m : Fin 3 → ℝ} (hw : dot w w = 1) (hm : dot m m = 1) (h : dot w m = 0) : RightHanded (vecProd w m) w m := by
  refine ⟨?_, hw, hm, ?_, ?_, h, twice hw h⟩
  · rw [lagrange, hm, hw, h]; norm_num
  · rw [dot_symm, dot_left]
  · rw [dot_symm, dot_right]

/-- Third base vector given. -/
theorem frame_third {m σ : Fin 3 → ℝ} (hm : dot m m = 1) (h : 0 < len (vecProd m σ)) :
    RightHanded (vecProd (normal m σ) m) (normal m σ) m ∧ dot σ (normal m σ) = 0 ∧ 0 < dot σ (vecProd (normal m σ) m) := by
  obtain ⟨h1, h2, h3, h4⟩ := normal_spec h
  have h2' : dot (normal m σ) m = 0 := by rw [dot_symm]; exact h2
  refine ⟨⟨?_, h1, hm, ?_, ?_, h2', twice h1 h2'⟩, h3, ?_⟩
  · rw [lagrange, hm, h1, h2']; norm_num
  · rw [dot_symm, dot_left]
  · rw [dot_symm, dot_right]
  · rw [← cyclic, h4]
    exact h

theorem unit_le {m : Fin 3 → ℝ} (h : dot m m = 1) (i : Fin 3) : |m i| ≤ 1 :=
  abs_le_one_iff_mul_self_le_one.2 (h ▸ sq_le_dot m i)

theorem abs_sum_le (x : Fin 3 → ℝ) : |x 0| + |x 1| + |x 2| ≤ 2 * len x := by
  have h := len_sq x
  have h0 : 0 ≤ len x := Real.sqrt_nonneg _
  refine abs_le_of_sq_le_sq' ?_ (by linarith) |>.2
  rw [mul_pow, h, dot]
  have a0 := sq_abs (x 0)
  have a1 := sq_abs (x 1)
  have a2 := sq_abs (x 2)
  nlinarith [sq_nonneg (|x 0| - |x 1|), sq_nonneg (|x 0| - |x 2|), sq_nonneg (|x 1| - |x 2|), sq_nonneg (|x 0|), sq_nonneg (|x 1|), sq_nonneg (|x 2|)]

/-- Nearby vectors have nearby lengths. -/
theorem len_close {x y : Fin 3 → ℝ} {δ : ℝ} (hy : 0 < len y) (h : ∀ i, |x i - y i| ≤ δ) : |len x - len y| ≤ 2 * δ := by
  have hx : 0 ≤ len x := Real.sqrt_nonneg _
  have key : |(len x - len y) * (len x + len y)| ≤ 2 * δ * (len x + len y) := by
    have e : (len x - len y) * (len x + len y) = (x 0 - y 0) * (x 0 + y 0) + (x 1 - y 1) * (x 1 + y 1) + (x 2 - y 2) * (x 2 + y 2) := by
      have h1 := len_sq x
      have h2 := len_sq y
      unfold dot at h1 h2
      linear_combination h1 - h2
    rw [e]
    have p : ∀ i, |(x i - y i) * (x i + y i)| ≤ δ * (|x i| + |y i|) := fun i => by
      rw [abs_mul]
      exact mul_le_mul (h i) (abs_add_le _ _) (abs_nonneg _) ((abs_nonneg _).trans (h i))
    have t1 := abs_add_le ((x 0 - y 0) * (x 0 + y 0) + (x 1 - y 1) * (x 1 + y 1)) ((x 2 - y 2) * (x 2 + y 2))
    have t2 := abs_add_le ((x 0 - y 0) * (x 0 + y 0)) ((x 1 - y 1) * (x 1 + y 1))
    have hδ : 0 ≤ δ := (abs_nonneg _).trans (h 0)
    have s1 := mul_le_mul_of_nonneg_left (abs_sum_le x) hδ
    have s2 := mul_le_mul_of_nonneg_left (abs_sum_le y) hδ
    linarith [p 0, p 1, p 2]
  rw [abs_mul, abs_of_pos (by linarith : 0 < len x + len y)] at key
  exact le_of_mul_le_mul_right key (by linarith)

/-- The computed normal and the vector products with it. -/
theorem normal_err {sum3 : F → F → F → F} (hs : IsSum3 R sum3) {m σ v s : Fin 3 → ℝ} {ε κ η : ℝ} (hm : dot m m = 1) (hσ : dot σ σ = 1)
    (h0 : 1 / 10 ^ 15 ≤ ε) (hη : η ≤ 1 / 10 ^ 5) (hε : 20 * ε ≤ η * κ) (hκ : κ ≤ len (vecProd m σ)) (hκ0 : 0 < κ) (hv : ∀ i, |v i - m i| ≤ ε) (hs' : ∀ i, |s i - σ i| ≤ ε) :
    ∃ w, normalize R sum3 (fcross R (fv v) (fv s)) = fv w ∧ (∀ i, |w i - normal m σ i| ≤ η) ∧
      (∃ a, fcross R (fv s) (fv w) = fv a ∧ ∀ i, |a i - vecProd σ (normal m σ) i| ≤ 3 * η) ∧
      (∃ a, fcross R (fv w) (fv v) = fv a ∧ ∀ i, |a i - vecProd (normal m σ) m i| ≤ 3 * η) ∧
      (∃ a, fcross R (fv w) (fv s) = fv a ∧ ∀ i, |a i - vecProd (normal m σ) σ i| ≤ 3 * η) := by
  have hL : 0 < len (vecProd m σ) := by linarith
  have hL1 : len (vecProd m σ) ≤ 1 := by
    rw [len, lagrange, hm, hσ]
    exact Real.sqrt_le_one.2 (by linarith [sq_nonneg (dot m σ)])
  have hη0 : 0 ≤ η := by
    by_contra hc
    have : η * κ < 0 := mul_neg_of_neg_of_pos (by linarith) hκ0
    norm_num at h0
    linarith
  have hεη : 20 * ε ≤ η := by
    have : η * κ ≤ η * 1 := mul_le_mul_of_nonneg_left (by linarith) hη0
    linarith
  have hκε : 2000000 * ε ≤ κ := by
    have := mul_le_mul_of_nonneg_right hη hκ0.le
    norm_num at this
    linarith
  have hε5 : ε ≤ 1 / 10 ^ 5 := by norm_num at *; linarith
  have bm := unit_le hm
  have bσ := unit_le hσ
  obtain ⟨c, hc, ec⟩ := cross_err R (by norm_num at *; linarith) (by norm_num at *; linarith) (by norm_num at *; linarith) hε5 hε5 bm bσ hv hs'
  have hl := len_close hL ec
  have hl' := abs_le.1 hl
  have l1 : 9 / 10 * κ ≤ len c := by linarith [hl'.1]
  have l2 : len c ≤ 2 := by norm_num at hε5; linarith [hl'.2]
  obtain ⟨w, hw, ew⟩ := normalize_err R hs (v := c) (by norm_num at *; linarith) (by norm_num at *; linarith)
  obtain ⟨h1, h2, h3, -⟩ := normal_spec hL
  have bn := unit_le h1
  have ew' : ∀ i, |w i - normal m σ i| ≤ η := by
    intro i
    have d := div_err (ec i) hl (bn i) (by positivity : 0 < 9 / 10 * κ) l1 hL.ne'
    have d' : (5 / 2 * (ε + ε) + 1 * (2 * (5 / 2 * (ε + ε)))) / (9 / 10 * κ) ≤ 17 / 20 * η := by
      rw [div_le_iff₀ (by positivity)]
      linarith
    have t := abs_add_le (w i - c i / len c) (c i / len c - normal m σ i)
    rw [sub_add_sub_cancel] at t
    have e := ew i
    have d2 := d.trans d'
    have : |c i / len c - normal m σ i| ≤ 17 / 20 * η := d2
    norm_num at e h0
    linarith
  refine ⟨w, by rw [hc, hw], ew', ?_, ?_, ?_⟩
  · obtain ⟨a, ha, ea⟩ := cross_err R (by norm_num at *; linarith) (by norm_num at *; linarith) hη0 hε5 hη bσ bn hs' ew'
    exact ⟨a, ha, fun i => (ea i).trans (by linarith)⟩
  · obtain ⟨a, ha, ea⟩ := cross_err R (by norm_num at *; linarith) hη0 (by norm_num at *; linarith) hη hε5 bn bm ew' hv
    exact ⟨a, ha, fun i => (ea i).trans (by linarith)⟩
  · obtain ⟨a, ha, ea⟩ := cross_err R (by norm_num at *; linarith) hη0 (by norm_num at *; linarith) hη hε5 bn bσ ew' hs'
    exact ⟨a, ha, fun i => (ea i).trans (by linarith)⟩

end ChaosMagPy.FloatBase
