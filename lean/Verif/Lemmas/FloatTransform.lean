import Verif.Model.FloatTransform
import Verif.Lemmas.FloatFrame
import Verif.Props.FloatSun
import Verif.Props.FloatSphere
/-!
# Directions from rotated cartesian coordinates in double precision
-/
namespace ChaosMagPy.FloatBase
open ChaosMagPy.Spec ChaosMagPy.Float ChaosMagPy.FloatLegendre ChaosMagPy.FloatGeod ChaosMagPy.FloatSun

variable (R : Rounding)

/-- The distance from the axis: relative error, unless the distance is tiny. -/
theorem hypot_err {x y : ℝ} (h : Real.sqrt (x ^ 2 + y ^ 2) ≤ 2) :
    0 ≤ R (Real.sqrt (R (R (x * x) + R (y * y)))) ∧ |R (Real.sqrt (R (R (x * x) + R (y * y)))) - Real.sqrt (x ^ 2 + y ^ 2)| ≤ 3 / 10 ^ 15 := by
  have q0 : 0 ≤ x ^ 2 + y ^ 2 := by positivity
  have q4 : x ^ 2 + y ^ 2 ≤ 4 := by
    have := Real.sqrt_le_left (by norm_num : (0 : ℝ) ≤ 2) |>.1 h
    linarith
  have nn : ∀ z : ℝ, 0 ≤ z → z ≤ 16 → 0 ≤ R z := by
    intro z h1 h2
    have h0 : R 0 = 0 := by
      have := rnd_int R (m := 0) (by norm_num)
      simpa using this
    rw [← h0]
    exact rnd_mono R (by simp) (by rw [abs_of_nonneg h1]; exact h2.trans ((by norm_num : (16 : ℝ) ≤ 2 ^ 4).trans (pow_le_pow_right₀ (by norm_num) (by norm_num)))) h1
  have hx : x * x ≤ x ^ 2 + y ^ 2 := by nlinarith [sq_nonneg y]
  have hy : y * y ≤ x ^ 2 + y ^ 2 := by nlinarith [sq_nonneg x]
  have rx := nn (x * x) (mul_self_nonneg x) (by linarith)
  have ry := nn (y * y) (mul_self_nonneg y) (by linarith)
  by_cases hc : (2 : ℝ) ^ (-200 : ℤ) ≤ x ^ 2 + y ^ 2
  · have w1 : (2 : ℝ) ^ (-900 : ℤ) ≤ x ^ 2 + y ^ 2 := le_trans (zpow_le_zpow_right₀ (by norm_num) (by norm_num)) hc
    have w2 : x ^ 2 + y ^ 2 ≤ (2 : ℝ) ^ (900 : ℤ) := q4.trans (by
      calc (4 : ℝ) = (2 : ℝ) ^ (2 : ℤ) := by norm_num
        _ ≤ _ := zpow_le_zpow_right₀ (by norm_num) (by norm_num))
    have e1 := rnd_bound R w1 w2 (x := x * x) (by rw [abs_of_nonneg (mul_self_nonneg x)]; exact hx)
    have e2 := rnd_bound R w1 w2 (x := y * y) (by rw [abs_of_nonneg (mul_self_nonneg y)]; exact hy)
    have w3 : (2 : ℝ) ^ (-900 : ℤ) ≤ 2 * (x ^ 2 + y ^ 2) := by linarith
    have w4 : 2 * (x ^ 2 + y ^ 2) ≤ (2 : ℝ) ^ (900 : ℤ) := by
      refine (by linarith : 2 * (x ^ 2 + y ^ 2) ≤ 8).trans ?_
      calc (8 : ℝ) = (2 : ℝ) ^ (3 : ℤ) := by norm_num
        _ ≤ _ := zpow_le_zpow_right₀ (by norm_num) (by norm_num)
    have Q0 : 0 < x ^ 2 + y ^ 2 := lt_of_lt_of_le (by positivity) hc
    have hxy : x * x + y * y = x ^ 2 + y ^ 2 := by ring
    have e0 : 0 ≤ R (R (x * x) + R (y * y)) ∧ |R (R (x * x) + R (y * y)) - (x ^ 2 + y ^ 2)| ≤ (x ^ 2 + y ^ 2) * (4 * (2 : ℝ) ^ (-53 : ℤ)) := by
      clear w1 w2 hc
      generalize R (x * x) = a at *
      generalize R (y * y) = b at *
      generalize x * x = a0 at *
      generalize y * y = b0 at *
      generalize x ^ 2 + y ^ 2 = Q at *
      rw [abs_le] at e1 e2
      norm_num at e1 e2
      have e3 := rnd_bound R w3 w4 (x := a + b) (by rw [abs_le]; constructor <;> linarith [e1.1, e1.2, e2.1, e2.2])
      clear w3 w4
      rw [abs_le] at e3 ⊢
      norm_num at e3 ⊢
      refine ⟨?_, ?_, ?_⟩ <;> linarith [e1.1, e1.2, e2.1, e2.2, e3.1, e3.2]
    have hρ : 0 < Real.sqrt (x ^ 2 + y ^ 2) := Real.sqrt_pos.2 Q0
    have s1 := sqrt_err e0.2 e0.1 hρ le_rfl
    have s2 : (x ^ 2 + y ^ 2) * (4 * (2 : ℝ) ^ (-53 : ℤ)) / Real.sqrt (x ^ 2 + y ^ 2) ≤ 2 * (4 * (2 : ℝ) ^ (-53 : ℤ)) := by
      rw [div_le_iff₀ hρ]
      have : x ^ 2 + y ^ 2 = Real.sqrt (x ^ 2 + y ^ 2) * Real.sqrt (x ^ 2 + y ^ 2) := (Real.mul_self_sqrt q0).symm
      have k : Real.sqrt (x ^ 2 + y ^ 2) * Real.sqrt (x ^ 2 + y ^ 2) ≤ 2 * Real.sqrt (x ^ 2 + y ^ 2) := mul_le_mul_of_nonneg_right h hρ.le
      norm_num
      linarith
    have s3 := (abs_le.1 (s1.trans s2)).2
    refine ⟨nn _ (Real.sqrt_nonneg _) (by norm_num at s3; linarith), ?_⟩
    exact rstep R (k := 2) (M := 2) (s1.trans s2) (by rw [abs_of_pos hρ]; exact h) (by norm_num) (by norm_num) (by norm_num) (by norm_num)
  · have hc' : x ^ 2 + y ^ 2 ≤ (2 : ℝ) ^ (-200 : ℤ) := by linarith
    have d : ∀ z : ℝ, 0 ≤ z → z ≤ (2 : ℝ) ^ (-200 : ℤ) → R z ≤ (2 : ℝ) ^ (-198 : ℤ) := by
      intro z h1 h2
      have := rnd_err R (x := z) (k := -200) (by rw [abs_of_nonneg h1]; exact h2) (by norm_num) (by norm_num)
      have := (abs_le.1 this).2
      norm_num at *
      linarith
    have r1 := d _ (mul_self_nonneg x) (by linarith)
    have r2 := d _ (mul_self_nonneg y) (by linarith)
    have hs : R (x * x) + R (y * y) ≤ (2 : ℝ) ^ (-197 : ℤ) := by
      have : (2 : ℝ) ^ (-198 : ℤ) + (2 : ℝ) ^ (-198 : ℤ) = (2 : ℝ) ^ (-197 : ℤ) := by norm_num
      linarith
    have r3 : R (R (x * x) + R (y * y)) ≤ (2 : ℝ) ^ (-190 : ℤ) := by
      have := rnd_err R (x := R (x * x) + R (y * y)) (k := -197) (by rw [abs_of_nonneg (by linarith)]; exact hs) (by norm_num) (by norm_num)
      have := (abs_le.1 this).2
      norm_num at *
      linarith
    have r0 := nn (R (x * x) + R (y * y)) (by linarith) (hs.trans (by norm_num))
    have s1 : Real.sqrt (R (R (x * x) + R (y * y))) ≤ 1 / 10 ^ 15 := Real.sqrt_le_iff.2 ⟨by norm_num, r3.trans (by norm_num)⟩
    refine ⟨nn _ (Real.sqrt_nonneg _) (s1.trans (by norm_num)), ?_⟩
    have s2 : Real.sqrt (x ^ 2 + y ^ 2) ≤ 1 / 10 ^ 15 := Real.sqrt_le_iff.2 ⟨by norm_num, hc'.trans (by norm_num)⟩
    have s3 : |R (Real.sqrt (R (R (x * x) + R (y * y)))) - 0| ≤ 2 / 10 ^ 15 :=
      rstep R (k := 0) (M := 0) (ε := 1 / 10 ^ 15) (by rw [sub_zero, abs_of_nonneg (Real.sqrt_nonneg _)]; exact s1) (by simp) (by norm_num) (by norm_num) (by norm_num) (by norm_num)
    rw [sub_zero] at s3
    have t := abs_sub (R (Real.sqrt (R (R (x * x) + R (y * y))))) (Real.sqrt (x ^ 2 + y ^ 2))
    rw [abs_of_nonneg (Real.sqrt_nonneg (x ^ 2 + y ^ 2))] at t
    norm_num at *
    linarith

/-- Sine and cosine of a computed angle in degrees. -/
theorem angle_err {A : ℝ → ℝ → ℝ} (hA : IsArctan2 A) (y x : ℝ) :
    |Real.cos (rad (FloatCoord.degrees R (A y x))) - Real.cos (Complex.arg ⟨x, y⟩)| ≤ 3 / 10 ^ 14 ∧
    |Real.sin (rad (FloatCoord.degrees R (A y x))) - Real.sin (Complex.arg ⟨x, y⟩)| ≤ 3 / 10 ^ 14 := by
  have e1 := hA.err y x
  have hp := Real.pi_lt_d4
  have ba : |A y x| ≤ 16 := (abs_of_close e1 (b := 32 / 10) ((Complex.abs_arg_le_pi _).trans (by linarith))).trans (by norm_num)
  obtain ⟨e2, -⟩ := degrees_big R ba
  have e3 := rad_close e2
  rw [show rad (A y x * (180 / Real.pi)) = A y x by rw [rad]; field_simp] at e3
  have e4 : |rad (FloatCoord.degrees R (A y x)) - Complex.arg ⟨x, y⟩| ≤ 3 / 10 ^ 14 := by
    have t1 := abs_add_le (rad (FloatCoord.degrees R (A y x)) - A y x) (A y x - Complex.arg ⟨x, y⟩)
    rw [sub_add_sub_cancel] at t1
    exact t1.trans ((add_le_add e3 e1).trans (by norm_num))
  exact ⟨(sub_cos_le _ _).trans e4, (sub_sin_le _ _).trans e4⟩

/-- Range of a computed angle in degrees. -/
theorem angle_range {A : ℝ → ℝ → ℝ} (hA : IsArctan2 A) (y x : ℝ) :
    |FloatCoord.degrees R (A y x)| ≤ 180 + 1 / 10 ^ 11 ∧ (0 ≤ y → -1 / 10 ^ 11 ≤ FloatCoord.degrees R (A y x)) := by
  have e1 := hA.err y x
  have hp := Real.pi_lt_d4
  have hp3 := Real.pi_gt_d4
  have hb := Complex.abs_arg_le_pi ⟨x, y⟩
  have ba : |A y x| ≤ 16 := (abs_of_close e1 (b := 32 / 10) (hb.trans (by linarith))).trans (by norm_num)
  obtain ⟨e2, -⟩ := degrees_big R ba
  have e3 : |A y x * (180 / Real.pi) - Complex.arg ⟨x, y⟩ * (180 / Real.pi)| ≤ 1 / 10 ^ 12 := by
    rw [← sub_mul, abs_mul, abs_of_pos (by positivity : 0 < 180 / Real.pi)]
    have := mul_le_mul e1 (by rw [div_le_iff₀ Real.pi_pos]; linarith : 180 / Real.pi ≤ 58) (by positivity) (by norm_num)
    exact this.trans (by norm_num)
  have e4 : |FloatCoord.degrees R (A y x) - Complex.arg ⟨x, y⟩ * (180 / Real.pi)| ≤ 2 / 10 ^ 12 := by
    have t1 := abs_add_le (FloatCoord.degrees R (A y x) - A y x * (180 / Real.pi)) (A y x * (180 / Real.pi) - Complex.arg ⟨x, y⟩ * (180 / Real.pi))
    rw [sub_add_sub_cancel] at t1
    exact t1.trans ((add_le_add e2 e3).trans (by norm_num))
  have e5 : |Complex.arg ⟨x, y⟩ * (180 / Real.pi)| ≤ 180 := by
    rw [abs_mul, abs_of_pos (by positivity : 0 < 180 / Real.pi)]
    have := mul_le_mul_of_nonneg_right hb (by positivity : 0 ≤ 180 / Real.pi)
    rwa [mul_div_cancel₀ _ Real.pi_pos.ne'] at this
  refine ⟨(abs_of_close e4 e5).trans (by norm_num), fun hy => ?_⟩
  have e6 : 0 ≤ Complex.arg ⟨x, y⟩ * (180 / Real.pi) := mul_nonneg (Complex.arg_nonneg_iff.2 hy) (by positivity)
  have e4' := abs_le.1 e4
  norm_num at e4' ⊢
  linarith [e4'.1]

/-- The direction of the spherical coordinates of a vector next to a unit vector. -/
theorem spherical_direction {A : ℝ → ℝ → ℝ} (hA : IsArctan2 A) {x y z δ : ℝ} {u : Fin 3 → ℝ} (hu : dot u u = 1) (hδ0 : 3 / 10 ^ 14 ≤ δ) (hδ : δ ≤ 1 / 10 ^ 3)
    (hx : |x - u 0| ≤ δ) (hy : |y - u 1| ≤ δ) (hz : |z - u 2| ≤ δ) :
    -1 / 10 ^ 11 ≤ (FloatCoord.cartesianToSpherical R A (x, y, z)).2.1 ∧ (FloatCoord.cartesianToSpherical R A (x, y, z)).2.1 ≤ 180 + 1 / 10 ^ 11 ∧
    |(FloatCoord.cartesianToSpherical R A (x, y, z)).2.2| ≤ 180 + 1 / 10 ^ 11 ∧
    ∀ i, |direction (FloatCoord.cartesianToSpherical R A (x, y, z)).2.1 (FloatCoord.cartesianToSpherical R A (x, y, z)).2.2 i - u i| ≤ 20 * δ := by
  simp only [FloatCoord.cartesianToSpherical]
  have hu' : u 2 ^ 2 + Real.sqrt (u 0 ^ 2 + u 1 ^ 2) ^ 2 = 1 := by
    rw [Real.sq_sqrt (by positivity)]
    unfold dot at hu
    linarith
  have hρu : |Real.sqrt (x ^ 2 + y ^ 2) - Real.sqrt (u 0 ^ 2 + u 1 ^ 2)| ≤ 2 * δ := FloatCoord.sqrt_near hx hy
  have hu1 : Real.sqrt (u 0 ^ 2 + u 1 ^ 2) ≤ 1 := Real.sqrt_le_one.2 (by unfold dot at hu; nlinarith [sq_nonneg (u 2)])
  have hρu' := abs_le.1 hρu
  have hρ2 : Real.sqrt (x ^ 2 + y ^ 2) ≤ 2 := by norm_num at hδ; linarith [hρu'.2]
  obtain ⟨hn0, eh⟩ := hypot_err R hρ2
  have rg := angle_range R hA (R (Real.sqrt (R (R (x * x) + R (y * y))))) z
  refine ⟨rg.2 hn0, (abs_le.1 rg.1).2, (angle_range R hA y x).1, ?_⟩
  clear rg
  obtain ⟨c1, s1⟩ := angle_err R hA (R (Real.sqrt (R (R (x * x) + R (y * y))))) z
  obtain ⟨c2, s2⟩ := angle_err R hA y x
  have hn : ‖(⟨x, y⟩ : ℂ)‖ = Real.sqrt (x ^ 2 + y ^ 2) := Complex.norm_eq_sqrt_sq_add_sq _
  have pc := Complex.norm_mul_cos_arg (⟨x, y⟩ : ℂ)
  have ps := Complex.norm_mul_sin_arg (⟨x, y⟩ : ℂ)
  rw [hn] at pc ps
  simp only at pc ps
  have hρ0 := Real.sqrt_nonneg (x ^ 2 + y ^ 2)
  generalize R (Real.sqrt (R (R (x * x) + R (y * y)))) = ρ' at *
  generalize Real.sqrt (x ^ 2 + y ^ 2) = ρ at *
  have eρ' : |ρ' - Real.sqrt (u 0 ^ 2 + u 1 ^ 2)| ≤ 3 * δ := by
    have t := abs_add_le (ρ' - ρ) (ρ - Real.sqrt (u 0 ^ 2 + u 1 ^ 2))
    rw [sub_add_sub_cancel] at t
    norm_num at *
    linarith
  obtain ⟨u1, u2⟩ := unit_angle hu' (hz.trans (by norm_num at *; linarith : δ ≤ 3 * δ)) eρ'
  generalize Real.sqrt (u 0 ^ 2 + u 1 ^ 2) = ρu at *
  generalize Complex.arg ⟨z, ρ'⟩ = a at *
  generalize Complex.arg ⟨x, y⟩ = b at *
  generalize FloatCoord.degrees R (A ρ' z) = θ at *
  generalize FloatCoord.degrees R (A y x) = φ at *
  simp only [direction, erad]
  have sθ : |Real.sin (rad θ) - ρ| ≤ 12 * δ := by
    have t1 := abs_add_le (Real.sin (rad θ) - Real.sin a) (Real.sin a - ρu)
    have t2 := abs_add_le (Real.sin (rad θ) - ρu) (ρu - ρ)
    rw [sub_add_sub_cancel] at t1 t2
    rw [abs_sub_comm ρu ρ] at t2
    norm_num at *
    linarith
  have bc := Real.abs_cos_le_one (rad φ)
  have bs := Real.abs_sin_le_one (rad φ)
  have key : ∀ {f g w v : ℝ}, |f| ≤ 1 → |f - g| ≤ 3 / 10 ^ 14 → ρ * g = w → |w - v| ≤ δ → |Real.sin (rad θ) * f - v| ≤ 20 * δ := by
    intro f g w v h1 h2 h3 h4
    have e : Real.sin (rad θ) * f - v = (Real.sin (rad θ) - ρ) * f + ρ * (f - g) + (w - v) := by rw [← h3]; ring
    rw [e]
    have t1 := abs_add_le ((Real.sin (rad θ) - ρ) * f + ρ * (f - g)) (w - v)
    have t2 := abs_add_le ((Real.sin (rad θ) - ρ) * f) (ρ * (f - g))
    have m1 : |(Real.sin (rad θ) - ρ) * f| ≤ 12 * δ := by
      rw [abs_mul]
      calc _ ≤ 12 * δ * 1 := mul_le_mul sθ h1 (abs_nonneg _) (by linarith [(abs_nonneg _).trans hx])
        _ = _ := mul_one _
    have m2 : |ρ * (f - g)| ≤ 2 * (3 / 10 ^ 14) := by
      rw [abs_mul, abs_of_nonneg hρ0]
      exact mul_le_mul hρ2 h2 (abs_nonneg _) (by norm_num)
    have m3 : (2 : ℝ) * (3 / 10 ^ 14) ≤ 2 * δ := mul_le_mul_of_nonneg_left hδ0 (by norm_num)
    linarith [(abs_nonneg _).trans hx]
  intro i
  fin_cases i
  · exact key bc c2 pc hx
  · exact key bs s2 ps hy
  · show |Real.cos (rad θ) - u 2| ≤ _
    have t1 := abs_add_le (Real.cos (rad θ) - Real.cos a) (Real.cos a - u 2)
    rw [sub_add_sub_cancel] at t1
    norm_num at *
    linarith

/-- A rounded sum of three rounded products. -/
theorem row_err {a b a' b' : Fin 3 → ℝ} {τ : ℝ} (h0 : 1 / 10 ^ 14 ≤ τ) (hτ : τ ≤ 1 / 10 ^ 5) (ha : ∀ i, |a i| ≤ 1) (hb : ∀ i, |b i| ≤ 1) (ha' : ∀ i, |a' i - a i| ≤ τ)
    (hb' : ∀ i, |b' i - b i| ≤ τ) : |R (R (R (a' 0 * b' 0) + R (a' 1 * b' 1)) + R (a' 2 * b' 2)) - dot a b| ≤ 7 * τ := by
  have prod : ∀ i, |R (a' i * b' i) - a i * b i| ≤ 21 / 10 * τ := by
    intro i
    have m := mul_err (ha' i) (hb' i) (ha i) (hb i)
    have m2 : τ * τ ≤ 1 / 10 ^ 5 * τ := mul_le_mul_of_nonneg_right hτ (by norm_num at h0; linarith)
    have bb : |a i * b i| ≤ 1 := by rw [abs_mul]; exact mul_le_one₀ (ha i) (abs_nonneg _) (hb i)
    refine rstep R (k := 1) m bb ?_ (by norm_num) (by norm_num) ?_
    · norm_num at *
      linarith
    · norm_num at *
      linarith
  have bb : ∀ i, |a i * b i| ≤ 1 := fun i => by rw [abs_mul]; exact mul_le_one₀ (ha i) (abs_nonneg _) (hb i)
  have b1 : |a 0 * b 0 + a 1 * b 1| ≤ 2 := (abs_add_le _ _).trans (by linarith [bb 0, bb 1])
  have b2 : |a 0 * b 0 + a 1 * b 1 + a 2 * b 2| ≤ 3 := (abs_add_le _ _).trans (by linarith [bb 2])
  have s1 : |R (R (a' 0 * b' 0) + R (a' 1 * b' 1)) - (a 0 * b 0 + a 1 * b 1)| ≤ 43 / 10 * τ := by
    refine rstep R (k := 2) (add_err (prod 0) (prod 1)) b1 ?_ (by norm_num) (by norm_num) ?_
    · norm_num at *
      linarith
    · norm_num at *
      linarith
  refine rstep R (k := 2) (add_err s1 (prod 2)) b2 ?_ (by norm_num) (by norm_num) ?_
  · norm_num at *
    linarith
  · norm_num at *
    linarith

end ChaosMagPy.FloatBase
