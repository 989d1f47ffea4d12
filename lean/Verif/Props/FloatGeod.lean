import Verif.Lemmas.FloatGeodSteps
/-!
# C98: geodetic coordinates of the poles in double precision
-/
namespace ChaosMagPy.FloatGeod
open ChaosMagPy.Spec ChaosMagPy.Float ChaosMagPy.FloatLegendre

variable (R : Rounding)

theorem rnd_zero : R 0 = 0 := rnd_double R double_zero (by norm_num)
theorem rnd_one : R 1 = 1 := by simpa using rnd_int R (m := 1) (by norm_num)
theorem rad_zero : radians R 0 = 0 := by rw [radians, zero_mul, rnd_zero]
theorem fdiv_val {x y : ℝ} (h : y ≠ 0) : fdiv R (some x) (some y) = some (R (x / y)) := by rw [fdiv, if_neg h]
theorem fsqrt_val {x : ℝ} (h : ¬ x < 0) : fsqrt R (some x) = some (R (Real.sqrt x)) := by rw [fsqrt, if_neg h]
theorem fsqrt_neg {x : ℝ} (h : x < 0) : fsqrt R (some x) = none := by rw [fsqrt, if_pos h]
theorem fadd_none (x : F) : fadd R x none = none := by cases x <;> rfl
theorem none_fadd (x : F) : fadd R none x = none := by cases x <;> rfl
theorem fsub_none (x : F) : fsub R x none = none := by cases x <;> rfl
theorem fmul_none (x : F) : fmul R x none = none := by cases x <;> rfl
theorem none_fmul (x : F) : fmul R none x = none := by cases x <;> rfl
theorem fdiv_none (x : F) : fdiv R x none = none := by cases x <;> rfl

theorem fdiv_some {x y : F} {v : ℝ} (h : fdiv R x y = some v) : ∃ a b, x = some a ∧ y = some b ∧ b ≠ 0 := by
  match x, y, h with
  | some a, some b, h =>
    by_cases hb : b = 0
    · simp [fdiv, hb] at h
    · exact ⟨a, b, rfl, rfl, hb⟩

theorem fmul_some {x y : F} {v : ℝ} (h : fmul R x y = some v) : ∃ a b, x = some a ∧ y = some b := by
  match x, y, h with
  | some a, some b, _ => exact ⟨a, b, rfl, rfl⟩

theorem fsub_some {x y : F} {v : ℝ} (h : fsub R x y = some v) : ∃ a b, x = some a ∧ y = some b := by
  match x, y, h with
  | some a, some b, _ => exact ⟨a, b, rfl, rfl⟩

variable (p : Platform)

/-- A colatitude NaN comes with a height NaN: where the height is a number, the colatitude is one. -/
theorem C98_together {a b radius theta h : ℝ} (hb : R (b * b) ≠ 0) (hh : (geoToGg R p a b radius theta).1 = some h) :
    ∃ β, (geoToGg R p a b radius theta).2 = some β := by
  unfold geoToGg at hh ⊢
  extract_lets c1 a2 b2 e2 e4 ep2 r z r2 z2 bigF G c s P Q radicand r0 U V z0 height beta at hh ⊢
  obtain ⟨u, w, -, hw⟩ := fmul_some R hh
  obtain ⟨o, q, -, hq⟩ := fsub_some R hw
  obtain ⟨b', v, hb', hv, hv0⟩ := fdiv_some R hq
  obtain ⟨x, y, hx, hy⟩ := fmul_some R hv
  have h_z0 : ∃ t, z0 = some t := ⟨R (R (R (b * b) * R (radius * p.cos (radians R theta))) / v), by
    simp only [z0]
    rw [hv, show fmul R b2 z = some (R (R (b * b) * R (radius * p.cos (radians R theta)))) from rfl, fdiv_val R hv0]⟩
  obtain ⟨t, ht⟩ := h_z0
  have h_a2 : a2 = some (R (a * a)) := rfl
  have h_b2 : b2 = some (R (b * b)) := rfl
  have h_ep2 : ∃ t, ep2 = some t := ⟨_, by simp only [ep2, h_a2, h_b2, fsub]; exact fdiv_val R hb⟩
  obtain ⟨e, he⟩ := h_ep2
  simp only [beta, ht, he, z, r, fmul, fadd]
  exact ⟨_, rfl⟩

variable (h0 : p.sin 0 = 0) (h1 : p.cos 0 = 1) (hcube : ∀ x, 0 < x → p.cube x ≠ 0) (hcb : p.cbrt 1 = 1)
include h0 h1 hcube hcb

/-- The point above the north pole at the radius 6371.2 km (the default reference radius), with the default ellipsoid: NaN. -/
theorem C98_pole (hT : TiesToEven R) : geoToGg R p (R 6378.137) (R 6356.752) (R 6371.2) 0 = (none, none) := by
  rw [show (6378.137 : ℝ) = 6378137 / 1000 by norm_num, show (6356.752 : ℝ) = 6356752 / 1000 by norm_num, show (6371.2 : ℝ) = 63712 / 10 by norm_num, v_a, v_b, w_z]
  unfold geoToGg
  extract_lets c1 a2 b2 e2 e4 ep2 r z r2 z2 bigF G c s P Q radicand r0 U V z0 height beta
  have h_a2 : a2 = some (682507743214755 / 16777216) := by simp (disch := norm_num) only [a2, fsq, fmul, fadd, fsub, v_a2]
  have h_b2 : b2 = some (5423509680062739 / 134217728) := by simp (disch := norm_num) only [b2, fsq, fmul, fadd, fsub, v_b2]
  have h_e2 : e2 = some (7718207876587895 / 1152921504606846976) := by simp (disch := norm_num) only [e2, fsq, fmul, fadd, fsub, h_a2, h_b2, v_d, fdiv_val, v_e2]
  have h_e4 : e4 = some (6613679917746687 / 147573952589676412928) := by simp (disch := norm_num) only [e4, fsq, fmul, fadd, fsub, h_e2, v_e4]
  have h_ep2 : ep2 = some (7770225481668415 / 1152921504606846976) := by simp (disch := norm_num) only [ep2, fsq, fmul, fadd, fsub, h_a2, h_b2, v_d, fdiv_val, v_ep2]
  have h_r : r = some 0 := by simp (disch := norm_num) only [r, rad_zero, h0, mul_zero, rnd_zero]
  have h_z : z = some (7005208482886451 / 1099511627776) := by simp (disch := norm_num) only [z, rad_zero, h1, mul_one, w_zz]
  have h_r2 : r2 = some 0 := by simp (disch := norm_num) only [r2, fsq, fmul, fadd, fsub, h_r, mul_zero, rnd_zero]
  have h_z2 : z2 = some (681023930147799 / 16777216) := by simp (disch := norm_num) only [z2, fsq, fmul, fadd, fsub, h_z, w_z2]
  have h_bigF : bigF = some 88574105110691088 := by simp (disch := norm_num) only [bigF, fsq, fmul, fadd, fsub, h_b2, h_z2, v_54b2, w_F]
  have h_G : G = some (5411473944015387 / 134217728) := by simp (disch := norm_num) only [G, fsq, fmul, fadd, fsub, h_r2, h_e2, h_z2, h_a2, h_b2, c1, v_k1, v_d, v_ed, w_kz, zero_add, w_kzz, w_G]
  have hc3 : p.cube (5411473944015387 / 134217728) ≠ 0 := hcube _ (by norm_num)
  have h_c : c = some 0 := by simp only [c, fsq, fmul, fadd, fsub, h_e4, h_bigF, h_r2, h_G, Option.map_some, mul_zero, rnd_zero, fdiv_val R hc3, zero_div]
  have h_s : s = some 1 := by simp (disch := norm_num) only [s, fsq, fmul, fadd, fsub, h_c, c1, mul_zero, add_zero, rnd_zero, fsqrt_val, Real.sqrt_zero, rnd_one, Option.map_some, hcb]
  have h_P : P = some (2272120786007501 / 1125899906842624) := by simp (disch := norm_num) only [P, fsq, fmul, fadd, fsub, h_bigF, h_s, h_G, c1, fdiv_val, div_one, rnd_one, v_2, v_3, v_9, v_27, w_G2, w_PG, w_P]
  have h_Q : Q = some (4504006918762485 / 4503599627370496) := by simp (disch := norm_num) only [Q, fsq, fmul, fadd, fsub, h_e4, h_P, c1, v_2e4, w_q, w_Q2, fsqrt_val, w_Q]
  have h_radicand : radicand = some (-3 / 134217728) := by simp (disch := norm_num) only [radicand, fsq, fmul, fadd, fsub, h_a2, h_P, h_Q, h_e2, h_z2, h_r2, c1, v_ha2, v_k1, fdiv_val, w_iQ, w_oQ, w_A, w_Pk, w_Pkz, w_oq R hT, w_Qq, w_B, mul_zero, rnd_zero, w_rad, sub_zero, w_radd]
  have h_r0 : r0 = none := by simp (disch := norm_num) only [r0, h_radicand, fsqrt_neg, fadd_none]
  have h_V : V = none := by simp only [V, h_r0, fmul_none, fsub_none, fsq, none_fadd, fsqrt]
  have h_z0 : z0 = none := by simp only [z0, h_V, fmul_none, fdiv_none]
  have h_height : height = none := by simp only [height, h_V, fmul_none, fdiv_none, fsub_none]
  have h_beta : beta = none := by simp only [beta, h_z0, fmul_none, fadd_none]
  rw [h_height, h_beta]

/-- The same 400 km higher, for every rule for ties. -/
theorem C98_pole_400 : geoToGg R p (R 6378.137) (R 6356.752) (R 6771.2) 0 = (none, none) := by
  rw [show (6378.137 : ℝ) = 6378137 / 1000 by norm_num, show (6356.752 : ℝ) = 6356752 / 1000 by norm_num, show (6771.2 : ℝ) = 67712 / 10 by norm_num, v_a, v_b, x_z]
  unfold geoToGg
  extract_lets c1 a2 b2 e2 e4 ep2 r z r2 z2 bigF G c s P Q radicand r0 U V z0 height beta
  have h_a2 : a2 = some (682507743214755 / 16777216) := by simp (disch := norm_num) only [a2, fsq, fmul, fadd, fsub, v_a2]
  have h_b2 : b2 = some (5423509680062739 / 134217728) := by simp (disch := norm_num) only [b2, fsq, fmul, fadd, fsub, v_b2]
  have h_e2 : e2 = some (7718207876587895 / 1152921504606846976) := by simp (disch := norm_num) only [e2, fsq, fmul, fadd, fsub, h_a2, h_b2, v_d, fdiv_val, v_e2]
  have h_e4 : e4 = some (6613679917746687 / 147573952589676412928) := by simp (disch := norm_num) only [e4, fsq, fmul, fadd, fsub, h_e2, v_e4]
  have h_ep2 : ep2 = some (7770225481668415 / 1152921504606846976) := by simp (disch := norm_num) only [ep2, fsq, fmul, fadd, fsub, h_a2, h_b2, v_d, fdiv_val, v_ep2]
  have h_r : r = some 0 := by simp (disch := norm_num) only [r, rad_zero, h0, mul_zero, rnd_zero]
  have h_z : z = some (7445013133996851 / 1099511627776) := by simp (disch := norm_num) only [z, rad_zero, h1, mul_one, x_zz]
  have h_r2 : r2 = some 0 := by simp (disch := norm_num) only [r2, fsq, fmul, fadd, fsub, h_r, mul_zero, rnd_zero]
  have h_z2 : z2 = some (769221083571159 / 16777216) := by simp (disch := norm_num) only [z2, fsq, fmul, fadd, fsub, h_z, x_z2]
  have h_bigF : bigF = some 100045044077680160 := by simp (disch := norm_num) only [bigF, fsq, fmul, fadd, fsub, h_b2, h_z2, v_54b2, x_F]
  have h_G : G = some (6112327700036525 / 134217728) := by simp (disch := norm_num) only [G, fsq, fmul, fadd, fsub, h_r2, h_e2, h_z2, h_a2, h_b2, c1, v_k1, v_d, v_ed, x_kz, zero_add, x_kzz, x_G]
  have hc3 : p.cube (6112327700036525 / 134217728) ≠ 0 := hcube _ (by norm_num)
  have h_c : c = some 0 := by simp only [c, fsq, fmul, fadd, fsub, h_e4, h_bigF, h_r2, h_G, Option.map_some, mul_zero, rnd_zero, fdiv_val R hc3, zero_div]
  have h_s : s = some 1 := by simp (disch := norm_num) only [s, fsq, fmul, fadd, fsub, h_c, c1, mul_zero, add_zero, rnd_zero, fsqrt_val, Real.sqrt_zero, rnd_one, Option.map_some, hcb]
  have h_P : P = some (8046334743144819 / 4503599627370496) := by simp (disch := norm_num) only [P, fsq, fmul, fadd, fsub, h_bigF, h_s, h_G, c1, fdiv_val, div_one, rnd_one, v_2, v_3, v_9, v_27, x_G2, x_PG, x_P]
  have h_Q : Q = some (562995027222643 / 562949953421312) := by simp (disch := norm_num) only [Q, fsq, fmul, fadd, fsub, h_e4, h_P, c1, v_2e4, x_q, x_Q2, fsqrt_val, x_Q]
  have h_radicand : radicand = some (-1 / 134217728) := by simp (disch := norm_num) only [radicand, fsq, fmul, fadd, fsub, h_a2, h_P, h_Q, h_e2, h_z2, h_r2, c1, v_ha2, v_k1, fdiv_val, x_iQ, x_oQ, x_A, x_Pk, x_Pkz, x_oq R, x_Qq, x_B, mul_zero, rnd_zero, x_rad, sub_zero, x_radd]
  have h_r0 : r0 = none := by simp (disch := norm_num) only [r0, h_radicand, fsqrt_neg, fadd_none]
  have h_V : V = none := by simp only [V, h_r0, fmul_none, fsub_none, fsq, none_fadd, fsqrt]
  have h_z0 : z0 = none := by simp only [z0, h_V, fmul_none, fdiv_none]
  have h_height : height = none := by simp only [height, h_V, fmul_none, fdiv_none, fsub_none]
  have h_beta : beta = none := by simp only [beta, h_z0, fmul_none, fadd_none]
  rw [h_height, h_beta]

/-- And 100 km higher again a number, correct to 10⁻¹¹ km. -/
theorem C98_pole_500 : ∃ h β, geoToGg R p (R 6378.137) (R 6356.752) (R 6871.2) 0 = (some h, some β) ∧ |h - (6871.2 - 6356.752)| ≤ 10 ^ (-11 : ℤ) := by
  rw [show (6378.137 : ℝ) = 6378137 / 1000 by norm_num, show (6356.752 : ℝ) = 6356752 / 1000 by norm_num, show (6871.2 : ℝ) = 68712 / 10 by norm_num, v_a, v_b, y_z]
  unfold geoToGg
  extract_lets c1 a2 b2 e2 e4 ep2 r z r2 z2 bigF G c s P Q radicand r0 U V z0 height beta
  have h_a2 : a2 = some (682507743214755 / 16777216) := by simp (disch := norm_num) only [a2, fsq, fmul, fadd, fsub, v_a2]
  have h_b2 : b2 = some (5423509680062739 / 134217728) := by simp (disch := norm_num) only [b2, fsq, fmul, fadd, fsub, v_b2]
  have h_e2 : e2 = some (7718207876587895 / 1152921504606846976) := by simp (disch := norm_num) only [e2, fsq, fmul, fadd, fsub, h_a2, h_b2, v_d, fdiv_val, v_e2]
  have h_e4 : e4 = some (6613679917746687 / 147573952589676412928) := by simp (disch := norm_num) only [e4, fsq, fmul, fadd, fsub, h_e2, v_e4]
  have h_ep2 : ep2 = some (7770225481668415 / 1152921504606846976) := by simp (disch := norm_num) only [ep2, fsq, fmul, fadd, fsub, h_a2, h_b2, v_d, fdiv_val, v_ep2]
  have h_r : r = some 0 := by simp (disch := norm_num) only [r, rad_zero, h0, mul_zero, rnd_zero]
  have h_z : z = some (7554964296774451 / 1099511627776) := by simp (disch := norm_num) only [z, rad_zero, h1, mul_one, y_zz]
  have h_r2 : r2 = some 0 := by simp (disch := norm_num) only [r2, fsq, fmul, fadd, fsub, h_r, mul_zero, rnd_zero]
  have h_z2 : z2 = some (792109232726999 / 16777216) := by simp (disch := norm_num) only [z2, fsq, fmul, fadd, fsub, h_z, y_z2]
  have h_bigF : bigF = some 103021881218599088 := by simp (disch := norm_num) only [bigF, fsq, fmul, fadd, fsub, h_b2, h_z2, v_54b2, y_F]
  have h_G : G = some (1573551774889779 / 33554432) := by simp (disch := norm_num) only [G, fsq, fmul, fadd, fsub, h_r2, h_e2, h_z2, h_a2, h_b2, c1, v_k1, v_d, v_ed, y_kz, zero_add, y_kzz, y_G]
  have hc3 : p.cube (1573551774889779 / 33554432) ≠ 0 := hcube _ (by norm_num)
  have h_c : c = some 0 := by simp only [c, fsq, fmul, fadd, fsub, h_e4, h_bigF, h_r2, h_G, Option.map_some, mul_zero, rnd_zero, fdiv_val R hc3, zero_div]
  have h_s : s = some 1 := by simp (disch := norm_num) only [s, fsq, fmul, fadd, fsub, h_c, c1, mul_zero, add_zero, rnd_zero, fsqrt_val, Real.sqrt_zero, rnd_one, Option.map_some, hcb]
  have h_P : P = some (7813816270096845 / 4503599627370496) := by simp (disch := norm_num) only [P, fsq, fmul, fadd, fsub, h_bigF, h_s, h_G, c1, fdiv_val, div_one, rnd_one, v_2, v_3, v_9, v_27, y_G2, y_PG, y_P]
  have h_Q : Q = some (2251974899023283 / 2251799813685248) := by simp (disch := norm_num) only [Q, fsq, fmul, fadd, fsub, h_e4, h_P, c1, v_2e4, y_q, y_Q2, fsqrt_val, y_Q]
  have h_radicand : radicand = some 0 := by simp (disch := norm_num) only [radicand, fsq, fmul, fadd, fsub, h_a2, h_P, h_Q, h_e2, h_z2, h_r2, c1, v_ha2, v_k1, fdiv_val, y_iQ, y_oQ, y_A, y_Pk, y_Pkz, y_oq R, y_Qq, y_B, mul_zero, rnd_zero, sub_self, rnd_zero]
  have h_r0 : r0 = some 0 := by simp (disch := norm_num) only [r0, h_radicand, h_r, h_P, h_e2, h_Q, c1, fneg, fsq, fmul, fadd, fsub, mul_zero, rnd_zero, y_oq, fdiv_val, zero_div, fsqrt_val, Real.sqrt_zero, add_zero]
  have h_U : U = some (7554964296774451 / 1099511627776) := by simp (disch := norm_num) only [U, h_r0, h_r, h_e2, h_z2, fsq, fmul, fadd, fsub, mul_zero, rnd_zero, sub_zero, zero_add, y_z2z, fsqrt_val, y_U]
  have h_V : V = some (7529633559682019 / 1099511627776) := by simp (disch := norm_num) only [V, h_r0, h_r, h_e2, h_z2, c1, v_k1, y_kz, fsq, fmul, fadd, fsub, mul_zero, rnd_zero, sub_zero, zero_add, y_kzz, fsqrt_val, y_V]
  have h_height : height = some (4525132463088865 / 8796093022208) := by simp (disch := norm_num) only [height, h_U, h_V, h_b2, c1, fsq, fmul, fadd, fsub, y_aV, fdiv_val, y_w, y_ow, y_h]
  have h_z0 : z0 = some (R (R ((5423509680062739 / 134217728) * (7554964296774451 / 1099511627776)) / (5862430957452343 / 134217728))) := by simp (disch := norm_num) only [z0, h_V, h_b2, h_z, fsq, fmul, fadd, fsub, y_aV, fdiv_val]
  have h_beta : ∃ β, beta = some β := by
    simp only [beta, h_z0, h_z, h_ep2, h_r, fmul, fadd]
    exact ⟨_, rfl⟩
  obtain ⟨β, hβ⟩ := h_beta
  refine ⟨_, β, Prod.ext h_height hβ, ?_⟩
  norm_num [abs_le]

end ChaosMagPy.FloatGeod
