import Verif.Model.FloatCoord
import Verif.Spec.FloatArc
import Verif.Spec.FloatCos
import Verif.Spec.Coord
import Verif.Lemmas.FloatAngles
import Mathlib.Analysis.SpecialFunctions.Trigonometric.Bounds
/-!
# Rounding errors of angles between directions
-/
namespace ChaosMagPy.FloatCoord
open ChaosMagPy.Spec ChaosMagPy.Float ChaosMagPy.FloatLegendre

variable (R : Rounding)

/-- `np.degrees`. -/
theorem degrees_err {x : ℝ} (h : |x| ≤ 4) : |degrees R x - x * (180 / Real.pi)| ≤ 2⁻¹ ^ 44 := by
  have hp := Real.pi_gt_d4
  have hp' := Real.pi_lt_d4
  have h1 : |R Real.pi - Real.pi| ≤ (2 : ℝ) ^ (2 - 54 : ℤ) := rnd_err R (by rw [abs_of_pos Real.pi_pos]; norm_num; linarith) (by norm_num) (by norm_num)
  norm_num at h1
  set p := R Real.pi
  have hp1 : 3.141 ≤ p := by rw [abs_le] at h1; norm_num at *; linarith
  have hp2 : p ≤ 3.142 := by rw [abs_le] at h1; norm_num at *; linarith
  have h2 : |180 / p - 180 / Real.pi| ≤ 19 * (1 / 2 ^ 52) := by
    have e : 180 / p - 180 / Real.pi = -(p - Real.pi) * (180 / (p * Real.pi)) := by field_simp; ring
    rw [e, abs_mul, abs_neg, mul_comm (19 : ℝ) (1 / 2 ^ 52)]
    have h3 : |180 / (p * Real.pi)| ≤ 19 := by
      rw [abs_of_pos (by positivity), div_le_iff₀ (by positivity)]
      nlinarith
    have h1' : |p - Real.pi| ≤ 1 / 2 ^ 52 := by norm_num; exact h1
    exact mul_le_mul h1' h3 (abs_nonneg _) (by norm_num)
  have h0 : |180 / Real.pi| ≤ 57.3 := by
    rw [abs_of_pos (by positivity), div_le_iff₀ (by positivity)]
    linarith
  have h4 : |180 / p| ≤ (2 : ℝ) ^ (6 : ℤ) := by
    rw [abs_le] at *
    norm_num at *
    constructor <;> linarith
  have h5 := rnd_err R h4 (by norm_num) (by norm_num)
  set d := R (180 / p) with hd
  have h6 : |d - 180 / Real.pi| ≤ 35 * (1 / 2 ^ 52) := by
    rw [abs_le] at *
    norm_num at *
    constructor <;> linarith
  have h7 : |x * d - x * (180 / Real.pi)| ≤ 4 * (35 * (1 / 2 ^ 52)) := by
    rw [← mul_sub, abs_mul]
    exact mul_le_mul h h6 (abs_nonneg _) (by norm_num)
  have h8 : |x * (180 / Real.pi)| ≤ 4 * 57.3 := by
    rw [abs_mul]
    exact mul_le_mul h h0 (abs_nonneg _) (by norm_num)
  have h9 : |x * d| ≤ (2 : ℝ) ^ (8 : ℤ) := by
    rw [abs_le] at *
    norm_num at *
    constructor <;> linarith
  have h10 := rnd_err R h9 (by norm_num) (by norm_num)
  show |R (x * d) - _| ≤ _
  rw [abs_le] at *
  norm_num at *
  constructor <;> linarith

theorem cos_wide {C : ℝ → ℝ} (hC : IsCosine C) {x : ℝ} (h : |x| ≤ 360) : |C (radians R x) - Real.cos (rad x)| ≤ 2⁻¹ ^ 49 + 2⁻¹ ^ 52 := by
  have h1 := (radians_err_wide R h).1
  have h2 := (Real.abs_cos_sub_cos_le (radians R x) (rad x)).trans h1
  have h3 := abs_add_le (C (radians R x) - Real.cos (radians R x)) (Real.cos (radians R x) - Real.cos (rad x))
  rw [sub_add_sub_cancel] at h3
  linarith [hC.err (radians R x)]

theorem sin_wide {S : ℝ → ℝ} (hS : IsSine S) {x : ℝ} (h : |x| ≤ 360) : |S (radians R x) - Real.sin (rad x)| ≤ 2⁻¹ ^ 49 + 2⁻¹ ^ 52 := by
  have h1 := (radians_err_wide R h).1
  have h2 := (Real.abs_sin_sub_sin_le (radians R x) (rad x)).trans h1
  have h3 := abs_add_le (S (radians R x) - Real.sin (radians R x)) (Real.sin (radians R x) - Real.sin (rad x))
  rw [sub_add_sub_cancel] at h3
  linarith [hS.err (radians R x)]

theorem rnd_unit {x : ℝ} (h : |x| ≤ 1) : |R x| ≤ 1 := by
  have e1 : R 1 = 1 := by simpa using rnd_int R (m := 1) (by norm_num)
  have e2 : R (-1) = -1 := by simpa using rnd_int R (m := -1) (by norm_num)
  have hb : ∀ {y : ℝ}, |y| ≤ 1 → |y| ≤ 2 ^ 1000 := fun h => h.trans (one_le_pow₀ (by norm_num))
  obtain ⟨h1, h2⟩ := abs_le.1 h
  rw [abs_le]
  constructor
  · rw [← e2]; exact rnd_mono R (hb (by norm_num)) (hb h) h1
  · rw [← e1]; exact rnd_mono R (hb h) (hb (by norm_num)) h2

theorem prod_err {a b a0 b0 e e' : ℝ} (ha : |a| ≤ 1) (hb : |b| ≤ 1) (hb0 : |b0| ≤ 1) (h1 : |a - a0| ≤ e) (h2 : |b - b0| ≤ e') :
    |R (a * b) - a0 * b0| ≤ e + e' + 2⁻¹ ^ 54 ∧ |R (a * b)| ≤ 1 := by
  have hab : |a * b| ≤ 1 := by rw [abs_mul]; exact mul_le_one₀ ha (abs_nonneg _) hb
  refine ⟨?_, rnd_unit R hab⟩
  have h3 := err_one R hab
  have h4 : |a * b - a0 * b0| ≤ e + e' := by
    have e1 : a * b - a0 * b0 = (a - a0) * b0 + a * (b - b0) := by ring
    rw [e1]
    refine (abs_add_le _ _).trans (add_le_add ?_ ?_)
    · rw [abs_mul]
      exact (mul_le_of_le_one_right (abs_nonneg _) hb0).trans h1
    · rw [abs_mul]
      exact (mul_le_of_le_one_left (abs_nonneg _) ha).trans h2
  have h5 := abs_add_le (R (a * b) - a * b) (a * b - a0 * b0)
  rw [sub_add_sub_cancel] at h5
  linarith

/-- The scalar product of directions. -/
theorem dot_direction (θ φ θ' φ' : ℝ) : dot (direction θ φ) (direction θ' φ') =
    Real.cos (rad θ) * Real.cos (rad θ') + Real.sin (rad θ) * Real.sin (rad θ') * Real.cos (rad φ' - rad φ) := by
  have e : ∀ x : ℝ, x * Real.pi / 180 = rad x := fun x => by unfold rad; ring
  simp only [dot, direction, e]
  rw [Real.cos_sub]
  simp
  ring

theorem cosZeta_err {C S : ℝ → ℝ} (hC : IsCosine C) (hS : IsSine S) {θs φs θ φ : ℝ} (h1 : |θs| ≤ 360) (h2 : |φs| ≤ 360) (h3 : |θ| ≤ 360)
    (h4 : |φ| ≤ 360) : |cosZeta R C S θs φs θ φ - dot (direction θ φ) (direction θs φs)| ≤ 2⁻¹ ^ 46 := by
  rw [dot_direction]
  unfold cosZeta
  simp only
  obtain ⟨p1, q1⟩ := prod_err R (hC.le_one (radians R θ)) (hC.le_one (radians R θs)) (Real.abs_cos_le_one (rad θs)) (cos_wide R hC h3) (cos_wide R hC h1)
  obtain ⟨p2, q2⟩ := prod_err R (hS.le_one (radians R θ)) (hS.le_one (radians R θs)) (Real.abs_sin_le_one (rad θs)) (sin_wide R hS h3) (sin_wide R hS h1)
  obtain ⟨r1, r2⟩ := radians_err_wide R h2
  obtain ⟨r3, r4⟩ := radians_err_wide R h4
  have d1 : |radians R φs - radians R φ| ≤ (2 : ℝ) ^ (4 : ℤ) := by
    rw [abs_le] at *
    norm_num at *
    constructor <;> linarith
  have d2 := rnd_err R d1 (by norm_num) (by norm_num)
  have d3 : |C (R (radians R φs - radians R φ)) - Real.cos (rad φs - rad φ)| ≤ 2⁻¹ ^ 48 + 2⁻¹ ^ 50 + 2⁻¹ ^ 52 := by
    have k1 := hC.err (R (radians R φs - radians R φ))
    have k2 := Real.abs_cos_sub_cos_le (R (radians R φs - radians R φ)) (rad φs - rad φ)
    have k3 : |R (radians R φs - radians R φ) - (rad φs - rad φ)| ≤ 2⁻¹ ^ 48 + 2⁻¹ ^ 50 := by
      rw [abs_le] at *
      norm_num at *
      constructor <;> linarith
    have k4 := abs_add_le (C (R (radians R φs - radians R φ)) - Real.cos (R (radians R φs - radians R φ)))
      (Real.cos (R (radians R φs - radians R φ)) - Real.cos (rad φs - rad φ))
    rw [sub_add_sub_cancel] at k4
    linarith
  obtain ⟨p3, q3⟩ := prod_err R q2 (hC.le_one _) (Real.abs_cos_le_one (rad φs - rad φ)) p2 d3
  generalize R (C (radians R θ) * C (radians R θs)) = u at *
  generalize R (R (S (radians R θ) * S (radians R θs)) * C (R (radians R φs - radians R φ))) = v at *
  have hs : |u + v| ≤ (2 : ℝ) ^ (1 : ℤ) := by
    have := abs_add_le u v
    norm_num
    linarith
  have hr := rnd_err R hs (by norm_num) (by norm_num)
  generalize R (u + v) = w at *
  clear d2 d1 d3 q1 q2 q3 p2 r1 r2 r3 r4 hs
  rw [abs_le] at *
  norm_num at *
  constructor <;> linarith

theorem abs_dot_direction (θ φ θ' φ' : ℝ) : |dot (direction θ φ) (direction θ' φ')| ≤ 1 := by
  rw [abs_le_one_iff_mul_self_le_one]
  have hd : ∀ θ φ, direction θ φ 0 ^ 2 + direction θ φ 1 ^ 2 + direction θ φ 2 ^ 2 = 1 := by
    intro θ φ
    simp only [direction]
    simp
    nlinarith [Real.sin_sq_add_cos_sq (θ * Real.pi / 180), Real.sin_sq_add_cos_sq (φ * Real.pi / 180)]
  have h1 := hd θ φ
  have h2 := hd θ' φ'
  unfold dot
  generalize direction θ φ = a at *
  generalize direction θ' φ' = b at *
  have h3 : (a 0 ^ 2 + a 1 ^ 2 + a 2 ^ 2) * (b 0 ^ 2 + b 1 ^ 2 + b 2 ^ 2) = 1 := by rw [h1, h2, one_mul]
  nlinarith [sq_nonneg (a 0 * b 1 - a 1 * b 0), sq_nonneg (a 0 * b 2 - a 2 * b 0), sq_nonneg (a 1 * b 2 - a 2 * b 1)]

/-- Angles in `[0, π]` are close if their cosines are. -/
theorem angle_of_cos {a b δ : ℝ} (ha0 : 0 ≤ a) (ha : a ≤ Real.pi) (hb0 : 0 ≤ b) (hb : b ≤ Real.pi) (h : |Real.cos a - Real.cos b| ≤ δ) :
    2 * (|a - b| / Real.pi) ^ 2 ≤ δ ∧ Real.sin b * (|a - b| / Real.pi) ≤ δ := by
  have hp := Real.pi_pos
  have key : ∀ {a b : ℝ}, 0 ≤ b → b ≤ a → a ≤ Real.pi → (a - b) / Real.pi ≤ Real.sin ((a - b) / 2) ∧
      Real.sin ((a - b) / 2) ≤ Real.sin ((a + b) / 2) ∧ Real.sin a ≤ 2 * Real.sin ((a + b) / 2) ∧ Real.sin b ≤ 2 * Real.sin ((a + b) / 2) ∧
      Real.cos b - Real.cos a = 2 * Real.sin ((a + b) / 2) * Real.sin ((a - b) / 2) := by
    intro a b hb hab ha
    have m : ∀ {t x : ℝ}, 0 ≤ t → t ≤ Real.pi / 2 → t ≤ x → x ≤ Real.pi - t → Real.sin t ≤ Real.sin x := by
      intro t x h1 h2 h3 h4
      rcases le_total x (Real.pi / 2) with h5 | h5
      · exact Real.sin_le_sin_of_le_of_le_pi_div_two (by linarith) h5 h3
      · rw [← Real.sin_pi_sub x]
        exact Real.sin_le_sin_of_le_of_le_pi_div_two (by linarith) (by linarith) (by linarith)
    have dbl : ∀ t : ℝ, 0 ≤ t → t ≤ Real.pi → Real.sin t ≤ 2 * Real.sin (t / 2) ∧ Real.sin t ≤ 2 * Real.sin ((Real.pi - t) / 2) := by
      intro t h1 h2
      have e : Real.sin t = 2 * Real.sin (t / 2) * Real.cos (t / 2) := by
        rw [← Real.sin_two_mul]
        congr 1
        ring
      have s0 : 0 ≤ Real.sin (t / 2) := Real.sin_nonneg_of_nonneg_of_le_pi (by linarith) (by linarith)
      have c0 : 0 ≤ Real.cos (t / 2) := Real.cos_nonneg_of_neg_pi_div_two_le_of_le (by linarith) (by linarith)
      have e2 : Real.sin ((Real.pi - t) / 2) = Real.cos (t / 2) := by
        rw [← Real.sin_pi_div_two_sub]
        congr 1
        ring
      rw [e2, e]
      constructor <;> nlinarith [Real.sin_le_one (t / 2), Real.cos_le_one (t / 2)]
    refine ⟨?_, m (by linarith) (by linarith) (by linarith) (by linarith), ?_, ?_, ?_⟩
    · have := Real.mul_le_sin (x := (a - b) / 2) (by linarith) (by linarith)
      calc (a - b) / Real.pi = 2 / Real.pi * ((a - b) / 2) := by field_simp
        _ ≤ _ := this
    · rcases le_total (a / 2) (Real.pi - (a + b) / 2) with h | h
      · have := m (t := a / 2) (x := (a + b) / 2) (by linarith) (by linarith) (by linarith) (by linarith)
        linarith [(dbl a (by linarith) ha).1]
      · have := m (t := (Real.pi - a) / 2) (x := (a + b) / 2) (by linarith) (by linarith) (by linarith) (by linarith)
        linarith [(dbl a (by linarith) ha).2]
    · rcases le_total (b / 2) (Real.pi - (a + b) / 2) with h | h
      · have := m (t := b / 2) (x := (a + b) / 2) (by linarith) (by linarith) (by linarith) (by linarith)
        linarith [(dbl b hb (by linarith)).1]
      · have := m (t := (Real.pi - b) / 2) (x := (a + b) / 2) (by linarith) (by linarith) (by linarith) (by linarith)
        linarith [(dbl b hb (by linarith)).2]
    · rw [← neg_sub (Real.cos a), Real.cos_sub_cos]
      ring
  have fin : ∀ {a b : ℝ}, 0 ≤ b → b ≤ a → a ≤ Real.pi → |Real.cos a - Real.cos b| ≤ δ →
      2 * (|a - b| / Real.pi) ^ 2 ≤ δ ∧ Real.sin a * (|a - b| / Real.pi) ≤ δ ∧ Real.sin b * (|a - b| / Real.pi) ≤ δ := by
    intro a b hb hab ha h
    obtain ⟨k1, k2, k3, k4, k5⟩ := key hb hab ha
    have h' := (abs_le.1 h).1
    rw [abs_of_nonneg (by linarith : 0 ≤ a - b)]
    have q0 : 0 ≤ (a - b) / Real.pi := div_nonneg (by linarith) hp.le
    have s0 : 0 ≤ Real.sin ((a - b) / 2) := q0.trans k1
    refine ⟨?_, ?_, ?_⟩
    · have : ((a - b) / Real.pi) ^ 2 ≤ Real.sin ((a + b) / 2) * Real.sin ((a - b) / 2) := by
        rw [sq]
        exact mul_le_mul (k1.trans k2) k1 q0 (s0.trans k2)
      linarith
    · have : Real.sin a * ((a - b) / Real.pi) ≤ (2 * Real.sin ((a + b) / 2)) * Real.sin ((a - b) / 2) :=
        mul_le_mul k3 k1 q0 (by linarith [s0.trans k2])
      linarith
    · have : Real.sin b * ((a - b) / Real.pi) ≤ (2 * Real.sin ((a + b) / 2)) * Real.sin ((a - b) / 2) :=
        mul_le_mul k4 k1 q0 (by linarith [s0.trans k2])
      linarith
  rcases le_total b a with hab | hab
  · obtain ⟨f1, -, f3⟩ := fin hb0 hab ha h
    exact ⟨f1, f3⟩
  · rw [abs_sub_comm] at h
    obtain ⟨f1, f2, -⟩ := fin ha0 hab hb h
    rw [abs_sub_comm a b]
    exact ⟨f1, f2⟩

end ChaosMagPy.FloatCoord
