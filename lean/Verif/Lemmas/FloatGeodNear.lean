import Verif.Lemmas.FloatNear
import Verif.Lemmas.Geodetic
import Verif.Props.FloatGeod
import Verif.Props.GeodArr
/-!
# `geo_to_gg` in double precision away from the poles
-/
namespace ChaosMagPy.FloatGeod
open ChaosMagPy.Spec ChaosMagPy.Float ChaosMagPy.FloatLegendre ChaosMagPy.FloatNear

variable {R : Rounding}

/-- The float `x` is a number near `X`. -/
def NearF (n : ℝ) (l h : ℤ) (x : F) (X : ℝ) : Prop := ∃ v, x = some v ∧ Near n l h v X

variable {n n1 n2 : ℝ} {l l1 l2 h h1 h2 : ℤ} {x y : F} {X Y : ℝ}

theorem nearF_mul (hx : NearF n1 l1 h1 x X) (hy : NearF n2 l2 h2 y Y)
    (c : n1 + n2 + 1 ≤ n ∧ n ≤ 2 ^ 20 ∧ -900 ≤ l ∧ h ≤ 900 ∧ l ≤ l1 + l2 ∧ h1 + h2 ≤ h) : NearF n l h (fmul R x y) (X * Y) := by
  obtain ⟨v, rfl, hv⟩ := hx
  obtain ⟨w, rfl, hw⟩ := hy
  exact ⟨_, rfl, near_mul hv hw c⟩

theorem nearF_sq (hx : NearF n1 l1 h1 x X)
    (c : n1 + n1 + 1 ≤ n ∧ n ≤ 2 ^ 20 ∧ -900 ≤ l ∧ h ≤ 900 ∧ l ≤ l1 + l1 ∧ h1 + h1 ≤ h) : NearF n l h (fsq R x) (X ^ 2) := by
  rw [sq]
  exact nearF_mul hx hx c

theorem nearF_div (hx : NearF n1 l1 h1 x X) (hy : NearF n2 l2 h2 y Y)
    (c : n1 + n2 + 2 ≤ n ∧ n ≤ 2 ^ 20 ∧ -900 ≤ l ∧ h ≤ 900 ∧ l ≤ l1 - h2 ∧ h1 - l2 ≤ h) : NearF n l h (fdiv R x y) (X / Y) := by
  obtain ⟨v, rfl, hv⟩ := hx
  obtain ⟨w, rfl, hw⟩ := hy
  obtain ⟨h0, h1⟩ := near_div (R := R) hv hw c
  exact ⟨_, fdiv_val R h0, h1⟩

theorem nearF_add (hx : NearF n1 l1 h1 x X) (hy : NearF n2 l2 h2 y Y)
    (c : n1 + 1 ≤ n ∧ n2 + 1 ≤ n ∧ n ≤ 2 ^ 20 ∧ -900 ≤ l ∧ h ≤ 900 ∧ (l ≤ l1 ∨ l ≤ l2) ∧ h1 + 1 ≤ h ∧ h2 + 1 ≤ h) : NearF n l h (fadd R x y) (X + Y) := by
  obtain ⟨v, rfl, hv⟩ := hx
  obtain ⟨w, rfl, hw⟩ := hy
  exact ⟨_, rfl, near_add hv hw c⟩

theorem nearF_sub (hx : NearF n1 l1 h1 x X) (hy : NearF n2 l2 h2 y Y) (hxy : Y ≤ X / 2)
    (c : 2 * n1 + n2 + 1 ≤ n ∧ n ≤ 2 ^ 20 ∧ -900 ≤ l ∧ h ≤ 900 ∧ l ≤ l1 - 1 ∧ h1 ≤ h) : NearF n l h (fsub R x y) (X - Y) := by
  obtain ⟨v, rfl, hv⟩ := hx
  obtain ⟨w, rfl, hw⟩ := hy
  exact ⟨_, rfl, near_sub hv hw hxy c⟩

theorem nearF_sqrt (hx : NearF n1 l1 h1 x X) (c : n1 + 1 ≤ n ∧ n ≤ 2 ^ 20 ∧ -900 ≤ l ∧ h ≤ 900 ∧ 2 * l ≤ l1 ∧ h1 ≤ 2 * h) :
    NearF n l h (fsqrt R x) (Real.sqrt X) := by
  obtain ⟨v, rfl, hv⟩ := hx
  obtain ⟨h0, h1⟩ := near_sqrt (R := R) hv c
  exact ⟨_, fsqrt_val R h0, h1⟩

theorem nearF_cube {f : ℝ → ℝ} (hf : ∀ x, (2 : ℝ) ^ (-300 : ℤ) ≤ x → x ≤ (2 : ℝ) ^ (300 : ℤ) → |f x - x ^ 3| ≤ 4 / 2 ^ 52 * x ^ 3) (hx : NearF n1 l1 h1 x X)
    (c : 3 * n1 + 5 ≤ n ∧ n ≤ 2 ^ 20 ∧ -299 ≤ l1 ∧ h1 ≤ 299 ∧ l = 3 * l1 ∧ h = 3 * h1) : NearF n l h (x.map f) (X ^ 3) := by
  obtain ⟨v, rfl, hv⟩ := hx
  exact ⟨_, rfl, near_cube hf hv c⟩

theorem nearF_cbrt {f : ℝ → ℝ} (hf : ∀ x, (2 : ℝ) ^ (-300 : ℤ) ≤ x → x ≤ (2 : ℝ) ^ (300 : ℤ) → |f x - x ^ ((1 : ℝ) / 3)| ≤ 256 / 2 ^ 52 * x ^ ((1 : ℝ) / 3))
    (hx : NearF n1 l1 h1 x X) (c : n1 + 257 ≤ n ∧ n ≤ 2 ^ 20 ∧ -299 ≤ l1 ∧ h1 ≤ 299 ∧ 3 * l ≤ l1 ∧ h1 ≤ 3 * h) : NearF n l h (x.map f) (X ^ ((1 : ℝ) / 3)) := by
  obtain ⟨v, rfl, hv⟩ := hx
  exact ⟨_, rfl, near_cbrt hf hv c⟩

/-- The double of the equatorial radius. -/
noncomputable def a₀ : ℝ := (7012835795048333 / 1099511627776)
/-- The double of the polar radius. -/
noncomputable def b₀ : ℝ := (873665342361043 / 137438953472)
/-- The squared eccentricity. -/
noncomputable def e₀ : ℝ := (a₀ ^ 2 - b₀ ^ 2) / a₀ ^ 2

theorem const_a2 : NearF 1 25 26 (fsq R (some a₀)) (a₀ ^ 2) := by
  refine ⟨(682507743214755 / 16777216), by rw [a₀]; simp only [fsq, fmul, v_a2], ?_⟩
  rw [a₀]
  constructor <;> norm_num [abs_le]

theorem const_b2 : NearF 1 25 26 (fsq R (some b₀)) ((1 - e₀) * a₀ ^ 2) := by
  refine ⟨(5423509680062739 / 134217728), by rw [b₀]; simp only [fsq, fmul, v_b2], ?_⟩
  rw [e₀, a₀, b₀]
  constructor <;> norm_num [abs_le]

theorem const_d : NearF 6 18 19 (fsub R (fsq R (some a₀)) (fsq R (some b₀))) (e₀ * a₀ ^ 2) := by
  refine ⟨(36552265655301 / 134217728), by rw [a₀, b₀]; simp only [fsq, fmul, fsub, v_a2, v_b2, v_d], ?_⟩
  rw [e₀, a₀, b₀]
  constructor <;> norm_num [abs_le]

theorem const_e2_val : fdiv R (fsub R (fsq R (some a₀)) (fsq R (some b₀))) (fsq R (some a₀)) = some (7718207876587895 / 1152921504606846976) := by
  rw [a₀, b₀]
  simp (disch := norm_num) only [fsq, fmul, fsub, v_a2, v_b2, v_d, fdiv_val, v_e2]

theorem const_e2 : NearF 6 (-8) (-7) (fdiv R (fsub R (fsq R (some a₀)) (fsq R (some b₀))) (fsq R (some a₀))) e₀ := by
  refine ⟨(7718207876587895 / 1152921504606846976), const_e2_val, ?_⟩
  rw [e₀, a₀, b₀]
  constructor <;> norm_num [abs_le]

theorem const_e4 : NearF 11 (-15) (-14) (fmul R (fdiv R (fsub R (fsq R (some a₀)) (fsq R (some b₀))) (fsq R (some a₀)))
    (fdiv R (fsub R (fsq R (some a₀)) (fsq R (some b₀))) (fsq R (some a₀)))) (e₀ * e₀) := by
  refine ⟨(6613679917746687 / 147573952589676412928), by rw [const_e2_val]; simp only [fmul, v_e4], ?_⟩
  rw [e₀, a₀, b₀]
  constructor <;> norm_num [abs_le]

theorem const_k1 : NearF 1 (-1) 0 (fsub R (some 1) (fdiv R (fsub R (fsq R (some a₀)) (fsq R (some b₀))) (fsq R (some a₀)))) (1 - e₀) := by
  refine ⟨(8946900755705149 / 9007199254740992), by rw [const_e2_val]; simp only [fsub, v_k1], ?_⟩
  rw [e₀, a₀, b₀]
  constructor <;> norm_num [abs_le]

theorem const_ed : NearF 11 10 11 (fmul R (fdiv R (fsub R (fsq R (some a₀)) (fsq R (some b₀))) (fsq R (some a₀))) (fsub R (fsq R (some a₀)) (fsq R (some b₀))))
    (e₀ * (e₀ * a₀ ^ 2)) := by
  refine ⟨(4009137692945009 / 2199023255552), by rw [const_e2_val, a₀, b₀]; simp only [fsq, fmul, fsub, v_a2, v_b2, v_d, v_ed], ?_⟩
  rw [e₀, a₀, b₀]
  constructor <;> norm_num [abs_le]

theorem const_ep2 : ∃ v, fdiv R (fsub R (fsq R (some a₀)) (fsq R (some b₀))) (fsq R (some b₀)) = some v := by
  rw [a₀, b₀]
  simp (disch := norm_num) only [fsq, fmul, fsub, v_a2, v_b2, v_d, fdiv_val]
  exact ⟨_, rfl⟩

theorem e₀_bounds : 0 < e₀ ∧ e₀ < 0.0067 ∧ a₀ ^ 2 < 40680632 ∧ 40680631 < a₀ ^ 2 ∧ e₀ * (e₀ * a₀ ^ 2) < 1824 := by
  refine ⟨?_, ?_, ?_, ?_, ?_⟩ <;> norm_num [e₀, a₀, b₀]

/-- The exact radicand is bounded below. -/
theorem radicand_ge (a e r z : ℝ) (ha : 0 < a) (he : 0 ≤ e) (he1 : e < 1) (hr : 0 < r)
    (hG0 : 0 < r ^ 2 + (1 - e) * z ^ 2 - e * (e * a ^ 2)) {w : ℝ} (hw : 0 ≤ w) (hrz : r ^ 2 + z ^ 2 ≤ w ^ 2 * a ^ 2) {P Q : ℝ}
    (h : Coord.Heikkinen a (1 - e) e r z (r ^ 2 + (1 - e) * z ^ 2 - e * (e * a ^ 2)) P Q) :
    (r / (w + e)) ^ 2 ≤ 1 / 2 * a ^ 2 * (1 + 1 / Q) - P * (1 - e) * z ^ 2 / (Q * (1 + Q)) - 1 / 2 * P * r ^ 2 := by
  have hk0 : 0 < 1 - e := by linarith
  have hQ1 := h.Q1
  have hP := h.P0
  obtain ⟨ρ, σ, u, hρ, hu, hell, hru, hzu⟩ := Coord.geodetic_exists a (1 - e) e r z ha he rfl hk0 hr (by linarith)
  have hreρ : r - e * ρ = u * ρ := by rw [hru]; ring
  have hlt : e * ρ < r := by nlinarith [mul_pos hu hρ]
  have hf : ρ ^ 2 * (r - e * ρ) ^ 2 + (1 - e) * z ^ 2 * ρ ^ 2 = a ^ 2 * (r - e * ρ) ^ 2 := by
    rw [hreρ, hzu]; linear_combination (u ^ 2 * ρ ^ 2) * hell
  have hroot := Coord.heikkinen_root a (1 - e) e r z _ P Q ρ he rfl hk0.le hr (by ring) hG0 h hρ hlt hf
  rw [show (0.5 : ℝ) = 1 / 2 by norm_num] at hroot
  have hA : 0 ≤ P * e * r / (1 + Q) := by positivity
  have hA' : -P * e * r / (1 + Q) = -(P * e * r / (1 + Q)) := by ring
  rw [hA'] at hroot
  have hs : ρ ≤ Real.sqrt (1 / 2 * a ^ 2 * (1 + 1 / Q) - P * (1 - e) * z ^ 2 / (Q * (1 + Q)) - 1 / 2 * P * r ^ 2) := by linarith
  have h2 := (Real.le_sqrt' hρ).1 hs
  refine le_trans ?_ h2
  have huw : u ≤ w := by
    have h3 : u ^ 2 * a ^ 2 ≤ w ^ 2 * a ^ 2 := by
      have e1 : u ^ 2 * a ^ 2 = (r - e * ρ) ^ 2 + (1 - e) * z ^ 2 := by rw [hreρ, hzu]; linear_combination (-u ^ 2) * hell
      have e2 : (r - e * ρ) ^ 2 ≤ r ^ 2 := pow_le_pow_left₀ (by linarith) (by nlinarith) 2
      have e3 : 0 ≤ e * z ^ 2 := by positivity
      linarith
    exact (pow_le_pow_iff_left₀ hu.le hw two_ne_zero).1 (le_of_mul_le_mul_right h3 (by positivity))
  have hr' : r / (w + e) ≤ ρ := by
    rw [div_le_iff₀ (by linarith), hru]
    nlinarith
  exact pow_le_pow_left₀ (by positivity) hr' 2

/-- The exact radicand is at most `a²`. -/
theorem radicand_le {a k e r z G P Q : ℝ} (h : Coord.Heikkinen a k e r z G P Q) (hk0 : 0 ≤ k := by linarith) :
    1 / 2 * a ^ 2 * (1 + 1 / Q) - P * k * z ^ 2 / (Q * (1 + Q)) - 1 / 2 * P * r ^ 2 ≤ a ^ 2 := by
  have hQ := h.Q1
  have hP := h.P0
  have hq : 1 / Q ≤ 1 := by
    rw [div_le_one (by linarith)]
    exact hQ
  have h1 : 0 ≤ a ^ 2 * (1 - 1 / Q) := mul_nonneg (by positivity) (by linarith)
  have h2 : 0 ≤ P * k * z ^ 2 / (Q * (1 + Q)) := by positivity
  have h3 : 0 ≤ 1 / 2 * P * r ^ 2 := by positivity
  linarith

set_option maxHeartbeats 1000000 in
/-- `P`, `1 + Q` and the radicand of `r0` are near their exact values. -/
theorem radicand_strong (p : Platform) (hcube : ∀ x, (2 : ℝ) ^ (-300 : ℤ) ≤ x → x ≤ (2 : ℝ) ^ (300 : ℤ) → |p.cube x - x ^ 3| ≤ 4 / 2 ^ 52 * x ^ 3)
    (hcbrt : ∀ x, (2 : ℝ) ^ (-300 : ℤ) ≤ x → x ≤ (2 : ℝ) ^ (300 : ℤ) → |p.cbrt x - x ^ ((1 : ℝ) / 3)| ≤ 256 / 2 ^ 52 * x ^ ((1 : ℝ) / 3))
    {r z : ℝ} (hr1 : 1 ≤ r) (hr2 : r ≤ 50001) (hz1 : (2 : ℝ) ^ (-100 : ℤ) ≤ |z|) (hz2 : |z| ≤ 50001) (hrz : 3800 ≤ r ^ 2 + z ^ 2) :
    let c1 : F := some 1
    let a2 := fsq R (some a₀)
    let b2 := fsq R (some b₀)
    let e2 := fdiv R (fsub R a2 b2) a2
    let e4 := fmul R e2 e2
    let r2 := fsq R (some r)
    let z2 := fsq R (some z)
    let bigF := fmul R (fmul R (some 54) b2) z2
    let G := fsub R (fadd R r2 (fmul R (fsub R c1 e2) z2)) (fmul R e2 (fsub R a2 b2))
    let c := fdiv R (fmul R (fmul R e4 bigF) r2) (G.map p.cube)
    let s := (fadd R (fadd R c1 c) (fsqrt R (fadd R (fsq R c) (fmul R (some 2) c)))).map p.cbrt
    let P := fdiv R bigF (fmul R (fmul R (some 3) (fsq R (fadd R (fadd R s (fdiv R c1 s)) c1))) (fsq R G))
    let Q := fsqrt R (fadd R c1 (fmul R (fmul R (some 2) e4) P))
    let radicand := fsub R (fsub R (fmul R (fmul R (some (1 / 2)) a2) (fadd R c1 (fdiv R c1 Q)))
      (fdiv R (fmul R (fmul R P (fsub R c1 e2)) z2) (fmul R Q (fadd R c1 Q)))) (fmul R (fmul R (some (1 / 2)) P) r2)
    ∃ P' q' rad P₀ Q₀, P = some P' ∧ fadd R c1 Q = some q' ∧ radicand = some rad ∧ Near 920 (-300) 65 P' P₀ ∧ Near 936 0 28 q' (1 + Q₀) ∧
      Coord.Heikkinen a₀ (1 - e₀) e₀ r z (r ^ 2 + (1 - e₀) * z ^ 2 - e₀ * (e₀ * a₀ ^ 2)) P₀ Q₀ ∧
      |rad - (1 / 2 * a₀ ^ 2 * (1 + 1 / Q₀) - P₀ * (1 - e₀) * z ^ 2 / (Q₀ * (1 + Q₀)) - 1 / 2 * P₀ * r ^ 2)| ≤ 6 / 10 ^ 5 := by
  intro c1 a2 b2 e2 e4 r2 z2 bigF G c s P Q radicand
  obtain ⟨e0, e1, aa, aa', ed1⟩ := e₀_bounds
  have n_one : NearF 0 0 0 c1 1 := ⟨1, rfl, near_exact (by norm_num) (by norm_num)⟩
  have n_two : NearF 0 1 1 (some 2) 2 := ⟨2, rfl, near_exact (by norm_num) (by norm_num)⟩
  have n_three : NearF 0 1 2 (some 3) 3 := ⟨3, rfl, near_exact (by norm_num) (by norm_num)⟩
  have n_half : NearF 0 (-1) (-1) (some (1 / 2)) (1 / 2) := ⟨1 / 2, rfl, near_exact (by norm_num) (by norm_num)⟩
  have n_f54 : NearF 0 5 6 (some 54) 54 := ⟨54, rfl, near_exact (by norm_num) (by norm_num)⟩
  have n_a2 : NearF 1 25 26 a2 (a₀ ^ 2) := const_a2
  have n_b2 : NearF 1 25 26 b2 ((1 - e₀) * a₀ ^ 2) := const_b2
  have n_e2 : NearF 6 (-8) (-7) e2 e₀ := const_e2
  have n_e4 : NearF 11 (-15) (-14) e4 (e₀ * e₀) := const_e4
  have n_k1 : NearF 1 (-1) 0 (fsub R c1 e2) (1 - e₀) := const_k1
  have n_ed : NearF 11 10 11 (fmul R e2 (fsub R a2 b2)) (e₀ * (e₀ * a₀ ^ 2)) := const_ed
  have a0 : 0 < a₀ := by rw [a₀]; norm_num
  clear_value a2 b2 e2 e4
  have n_r2 : NearF 1 0 32 r2 (r ^ 2) := nearF_sq (n1 := 0) (l1 := 0) (h1 := 16) ⟨r, rfl, near_exact (by simpa using hr1) (hr2.trans (by norm_num))⟩ (by norm_num)
  have n_z2 : NearF 1 (-200) 32 z2 (z ^ 2) := by
    have h1 : NearF 1 (-200) 32 (fsq R (some |z|)) (|z| ^ 2) :=
      nearF_sq (n1 := 0) (l1 := -100) (h1 := 16) ⟨_, rfl, near_exact hz1 (hz2.trans (by norm_num))⟩ (by norm_num)
    rw [sq_abs] at h1
    have e : z2 = fsq R (some |z|) := by simp only [z2, fsq, fmul, abs_mul_abs_self]
    rw [e]
    exact h1
  clear_value r2 z2
  have hr2' : r ^ 2 ≤ 50001 ^ 2 := pow_le_pow_left₀ (by linarith) hr2 2
  have hz2' : z ^ 2 ≤ 50001 ^ 2 := by rw [← sq_abs]; exact pow_le_pow_left₀ (abs_nonneg z) hz2 2
  have hS : e₀ * (e₀ * a₀ ^ 2) ≤ (r ^ 2 + (1 - e₀) * z ^ 2) / 2 := by
    have : 0 ≤ (1 / 100 - e₀) * z ^ 2 := mul_nonneg (by linarith) (sq_nonneg z)
    have : 0 ≤ r ^ 2 := sq_nonneg r
    linarith
  have hG0 : 0 < r ^ 2 + (1 - e₀) * z ^ 2 - e₀ * (e₀ * a₀ ^ 2) := by
    have : 0 < e₀ * (e₀ * a₀ ^ 2) := by positivity
    linarith
  generalize hk : 1 - e₀ = k at *
  have hk0 : 0 < k := by linarith
  generalize e₀ = e at *
  generalize a₀ = a at *
  have n_x54b : NearF 2 (30) (32) (fmul R (some 54) b2) (54 * (k * a ^ 2)) := nearF_mul n_f54 n_b2 (by norm_num)
  have n_F : NearF 4 (-170) (64) bigF (54 * (k * a ^ 2) * z ^ 2) := nearF_mul n_x54b n_z2 (by norm_num)
  set F₀ := 54 * (k * a ^ 2) * z ^ 2 with hF₀
  have n_kz : NearF 3 (-201) (32) (fmul R (fsub R c1 e2) z2) (k * z ^ 2) := nearF_mul n_k1 n_z2 (by norm_num)
  have n_S : NearF 4 (0) (33) (fadd R r2 (fmul R (fsub R c1 e2) z2)) (r ^ 2 + k * z ^ 2) := nearF_add n_r2 n_kz (by norm_num)
  have n_G : NearF 20 (-1) (33) G (r ^ 2 + k * z ^ 2 - e * (e * a ^ 2)) := nearF_sub n_S n_ed hS (by norm_num)
  set G₀ := r ^ 2 + k * z ^ 2 - e * (e * a ^ 2) with hG₀
  have n_eF : NearF 16 (-185) (50) (fmul R e4 bigF) (e * e * F₀) := nearF_mul n_e4 n_F (by norm_num)
  have n_eFr : NearF 18 (-185) (82) (fmul R (fmul R e4 bigF) r2) (e * e * F₀ * r ^ 2) := nearF_mul n_eF n_r2 (by norm_num)
  have n_G3 : NearF 65 (-3) (99) (G.map p.cube) (G₀ ^ 3) := nearF_cube hcube n_G (by norm_num)
  have n_c : NearF 85 (-284) (85) c (e * e * F₀ * r ^ 2 / G₀ ^ 3) := nearF_div n_eFr n_G3 (by norm_num)
  set x := e * e * F₀ * r ^ 2 / G₀ ^ 3 with hx
  have n_cc : NearF 171 (-568) (170) (fsq R c) (x ^ 2) := nearF_sq n_c (by norm_num)
  have n_x2c : NearF 86 (-283) (86) (fmul R (some 2) c) (2 * x) := nearF_mul n_two n_c (by norm_num)
  have n_cc2 : NearF 172 (-283) (171) (fadd R (fsq R c) (fmul R (some 2) c)) (x ^ 2 + 2 * x) := nearF_add n_cc n_x2c (by norm_num)
  have n_rt : NearF 173 (-142) (86) (fsqrt R (fadd R (fsq R c) (fmul R (some 2) c))) (Real.sqrt (x ^ 2 + 2 * x)) := nearF_sqrt n_cc2 (by norm_num)
  have n_x1c : NearF 86 (0) (86) (fadd R c1 c) (1 + x) := nearF_add n_one n_c (by norm_num)
  have n_w : NearF 174 (0) (87) (fadd R (fadd R c1 c) (fsqrt R (fadd R (fsq R c) (fmul R (some 2) c)))) (1 + x + Real.sqrt (x ^ 2 + 2 * x)) := nearF_add n_x1c n_rt (by norm_num)
  have n_s : NearF 431 (0) (29) s ((1 + x + Real.sqrt (x ^ 2 + 2 * x)) ^ ((1 : ℝ) / 3)) := nearF_cbrt hcbrt n_w (by norm_num)
  set t := (1 + x + Real.sqrt (x ^ 2 + 2 * x)) ^ ((1 : ℝ) / 3) with ht
  have n_is : NearF 433 (-29) (0) (fdiv R c1 s) (1 / t) := nearF_div n_one n_s (by norm_num)
  have n_s1 : NearF 434 (0) (30) (fadd R s (fdiv R c1 s)) (t + 1 / t) := nearF_add n_s n_is (by norm_num)
  have n_s2 : NearF 435 (0) (31) (fadd R (fadd R s (fdiv R c1 s)) c1) (t + 1 / t + 1) := nearF_add n_s1 n_one (by norm_num)
  have n_s3 : NearF 871 (0) (62) (fsq R (fadd R (fadd R s (fdiv R c1 s)) c1)) ((t + 1 / t + 1) ^ 2) := nearF_sq n_s2 (by norm_num)
  have n_s4 : NearF 872 (1) (64) (fmul R (some 3) (fsq R (fadd R (fadd R s (fdiv R c1 s)) c1))) (3 * (t + 1 / t + 1) ^ 2) := nearF_mul n_three n_s3 (by norm_num)
  have n_GG : NearF 41 (-2) (66) (fsq R G) (G₀ ^ 2) := nearF_sq n_G (by norm_num)
  have n_s5 : NearF 914 (-1) (130) (fmul R (fmul R (some 3) (fsq R (fadd R (fadd R s (fdiv R c1 s)) c1))) (fsq R G)) (3 * (t + 1 / t + 1) ^ 2 * G₀ ^ 2) := nearF_mul n_s4 n_GG (by norm_num)
  have n_P : NearF 920 (-300) (65) P (F₀ / (3 * (t + 1 / t + 1) ^ 2 * G₀ ^ 2)) := nearF_div n_F n_s5 (by norm_num)
  set P₀ := F₀ / (3 * (t + 1 / t + 1) ^ 2 * G₀ ^ 2) with hP₀
  have n_x2e : NearF 12 (-14) (-13) (fmul R (some 2) e4) (2 * (e * e)) := nearF_mul n_two n_e4 (by norm_num)
  have n_x2eP : NearF 933 (-314) (52) (fmul R (fmul R (some 2) e4) P) (2 * (e * e) * P₀) := nearF_mul n_x2e n_P (by norm_num)
  have n_q : NearF 934 (0) (53) (fadd R c1 (fmul R (fmul R (some 2) e4) P)) (1 + 2 * (e * e) * P₀) := nearF_add n_one n_x2eP (by norm_num)
  have n_Q : NearF 935 (0) (27) Q (Real.sqrt (1 + 2 * (e * e) * P₀)) := nearF_sqrt n_q (by norm_num)
  set Q₀ := Real.sqrt (1 + 2 * (e * e) * P₀) with hQ₀
  have n_iQ : NearF 937 (-27) (0) (fdiv R c1 Q) (1 / Q₀) := nearF_div n_one n_Q (by norm_num)
  have n_oQ : NearF 938 (0) (1) (fadd R c1 (fdiv R c1 Q)) (1 + 1 / Q₀) := nearF_add n_one n_iQ (by norm_num)
  have n_ha : NearF 2 (24) (25) (fmul R (some (1 / 2)) a2) (1 / 2 * a ^ 2) := nearF_mul n_half n_a2 (by norm_num)
  have n_A : NearF 941 (24) (26) (fmul R (fmul R (some (1 / 2)) a2) (fadd R c1 (fdiv R c1 Q))) (1 / 2 * a ^ 2 * (1 + 1 / Q₀)) := nearF_mul n_ha n_oQ (by norm_num)
  have n_Pk : NearF 922 (-301) (65) (fmul R P (fsub R c1 e2)) (P₀ * k) := nearF_mul n_P n_k1 (by norm_num)
  have n_Pkz : NearF 924 (-501) (97) (fmul R (fmul R P (fsub R c1 e2)) z2) (P₀ * k * z ^ 2) := nearF_mul n_Pk n_z2 (by norm_num)
  have n_oq : NearF 936 (0) (28) (fadd R c1 Q) (1 + Q₀) := nearF_add n_one n_Q (by norm_num)
  have n_Qq : NearF 1872 (0) (55) (fmul R Q (fadd R c1 Q)) (Q₀ * (1 + Q₀)) := nearF_mul n_Q n_oq (by norm_num)
  have n_B : NearF 2798 (-556) (97) (fdiv R (fmul R (fmul R P (fsub R c1 e2)) z2) (fmul R Q (fadd R c1 Q))) (P₀ * k * z ^ 2 / (Q₀ * (1 + Q₀))) := nearF_div n_Pkz n_Qq (by norm_num)
  have n_hP : NearF 921 (-301) (64) (fmul R (some (1 / 2)) P) (1 / 2 * P₀) := nearF_mul n_half n_P (by norm_num)
  have n_C : NearF 923 (-301) (96) (fmul R (fmul R (some (1 / 2)) P) r2) (1 / 2 * P₀ * r ^ 2) := nearF_mul n_hP n_r2 (by norm_num)
  have hH : Coord.Heikkinen a (1 - e) e r z (r ^ 2 + (1 - e) * z ^ 2 - e * (e * a ^ 2)) P₀ Q₀ := by
    rw [hk]
    exact Coord.heikkinen_PQ a k e r z G₀ hk0.le hG0
  have hrad := radicand_ge a e r z a0 e0.le (by linarith) (by linarith) (by rw [hk]; exact hG0) (w := 56 / 5) (by norm_num)
    (by rw [show ((56 : ℝ) / 5) ^ 2 = 3136 / 25 by norm_num]; linarith) hH
  rw [hk] at hrad
  have hlow : (1 / 144 : ℝ) ≤ (r / (56 / 5 + e)) ^ 2 := by
    rw [show (1 / 144 : ℝ) = (1 / 12) ^ 2 by norm_num]
    refine pow_le_pow_left₀ (by norm_num) ?_ 2
    rw [div_le_div_iff₀ (by norm_num) (by linarith)]
    linarith
  have hAle : 1 / 2 * a ^ 2 * (1 + 1 / Q₀) ≤ a ^ 2 := by
    have hq : 1 / Q₀ ≤ 1 := by
      rw [div_le_one (by linarith [hH.Q1])]
      exact hH.Q1
    have : 0 ≤ a ^ 2 * (1 - 1 / Q₀) := mul_nonneg (by positivity) (by linarith)
    linarith
  obtain ⟨A', hA', nA⟩ := n_A
  obtain ⟨B', hB', nB⟩ := n_B
  obtain ⟨C', hC', nC⟩ := n_C
  obtain ⟨P', hP', nP⟩ := n_P
  obtain ⟨q', hq', nq⟩ := n_oq
  refine ⟨P', q', R (R (A' - B') - C'), P₀, Q₀, hP', hq', ?_, nP, nq, by rw [hk] at hH; exact hH, ?_⟩
  · simp only [radicand]
    rw [hA', hB', hC']
    rfl
  · have hA1 := nA.err
    have hB1 := nB.err
    have hC1 := nC.err
    have hB0 := nB.pos
    have hC0 := nC.pos
    generalize 1 / 2 * a ^ 2 * (1 + 1 / Q₀) = A at *
    generalize P₀ * k * z ^ 2 / (Q₀ * (1 + Q₀)) = B at *
    generalize 1 / 2 * P₀ * r ^ 2 = C at *
    have hA2 : A ≤ 40680632 := by linarith
    have hA3 : |A' - A| ≤ 1 / 10 ^ 5 := hA1.trans ((mul_le_mul_of_nonneg_left hA2 (by norm_num)).trans (by norm_num))
    have hB3 : |B' - B| ≤ 3 / 10 ^ 5 := hB1.trans ((mul_le_mul_of_nonneg_left (by linarith : B ≤ 40680632) (by norm_num)).trans (by norm_num))
    have hC3 : |C' - C| ≤ 1 / 10 ^ 5 := hC1.trans ((mul_le_mul_of_nonneg_left (by linarith : C ≤ 40680632) (by norm_num)).trans (by norm_num))
    rw [abs_le] at hA3 hB3 hC3
    have k1 := rnd_err R (x := A' - B') (k := 27) (by rw [abs_le]; constructor <;> norm_num <;> linarith) (by norm_num) (by norm_num)
    rw [abs_le] at k1
    norm_num at k1
    have k2 := rnd_err R (x := R (A' - B') - C') (k := 28) (by rw [abs_le]; constructor <;> norm_num <;> linarith) (by norm_num) (by norm_num)
    rw [abs_le] at k2
    norm_num at k2
    rw [abs_le]
    constructor <;> norm_num <;> linarith
/-- The radicand of `r0` is rounded to a number that is not negative, `P` and `1 + Q` to positive ones. -/
theorem radicand_near (p : Platform) (hcube : ∀ x, (2 : ℝ) ^ (-300 : ℤ) ≤ x → x ≤ (2 : ℝ) ^ (300 : ℤ) → |p.cube x - x ^ 3| ≤ 4 / 2 ^ 52 * x ^ 3)
    (hcbrt : ∀ x, (2 : ℝ) ^ (-300 : ℤ) ≤ x → x ≤ (2 : ℝ) ^ (300 : ℤ) → |p.cbrt x - x ^ ((1 : ℝ) / 3)| ≤ 256 / 2 ^ 52 * x ^ ((1 : ℝ) / 3))
    {r z : ℝ} (hr1 : 1 ≤ r) (hr2 : r ≤ 50001) (hz1 : (2 : ℝ) ^ (-100 : ℤ) ≤ |z|) (hz2 : |z| ≤ 50001) (hrz : 3800 ≤ r ^ 2 + z ^ 2) :
    let c1 : F := some 1
    let a2 := fsq R (some a₀)
    let b2 := fsq R (some b₀)
    let e2 := fdiv R (fsub R a2 b2) a2
    let e4 := fmul R e2 e2
    let r2 := fsq R (some r)
    let z2 := fsq R (some z)
    let bigF := fmul R (fmul R (some 54) b2) z2
    let G := fsub R (fadd R r2 (fmul R (fsub R c1 e2) z2)) (fmul R e2 (fsub R a2 b2))
    let c := fdiv R (fmul R (fmul R e4 bigF) r2) (G.map p.cube)
    let s := (fadd R (fadd R c1 c) (fsqrt R (fadd R (fsq R c) (fmul R (some 2) c)))).map p.cbrt
    let P := fdiv R bigF (fmul R (fmul R (some 3) (fsq R (fadd R (fadd R s (fdiv R c1 s)) c1))) (fsq R G))
    let Q := fsqrt R (fadd R c1 (fmul R (fmul R (some 2) e4) P))
    let radicand := fsub R (fsub R (fmul R (fmul R (some (1 / 2)) a2) (fadd R c1 (fdiv R c1 Q)))
      (fdiv R (fmul R (fmul R P (fsub R c1 e2)) z2) (fmul R Q (fadd R c1 Q)))) (fmul R (fmul R (some (1 / 2)) P) r2)
    ∃ P' q' rad, P = some P' ∧ fadd R c1 Q = some q' ∧ radicand = some rad ∧ |P'| ≤ 2 ^ 66 ∧ 1 / 2 ≤ q' ∧ 0 ≤ rad ∧ rad ≤ 2 ^ 28 := by
  intro c1 a2 b2 e2 e4 r2 z2 bigF G c s P Q radicand
  obtain ⟨P', q', rad, P₀, Q₀, hP, hq, hrad, nP, nq, hH, herr⟩ := radicand_strong (R := R) p hcube hcbrt hr1 hr2 hz1 hz2 hrz
  obtain ⟨e0, e1, aa, aa', ed1⟩ := e₀_bounds
  have a0 : 0 < a₀ := by rw [a₀]; norm_num
  refine ⟨P', q', rad, hP, hq, hrad, ?_, ?_, ?_⟩
  · have h1 := nP.pos' (by norm_num)
    have h2 := nP.pos
    rw [abs_of_pos (by linarith)]
    refine h1.2.trans ?_
    have := nP.hi
    rw [show (2 : ℝ) ^ (65 : ℤ) = 2 ^ 65 by norm_cast] at this
    linarith
  · have h1 := nq.pos' (by norm_num)
    have h2 := hH.Q1
    linarith
  · clear hP hq hrad
    have hr2' : r ^ 2 ≤ 50001 ^ 2 := pow_le_pow_left₀ (by linarith) hr2 2
    have hz2' : z ^ 2 ≤ 50001 ^ 2 := by rw [← sq_abs]; exact pow_le_pow_left₀ (abs_nonneg z) hz2 2
    have hz0 : 0 ≤ z ^ 2 := sq_nonneg z
    have hr0 : 0 ≤ r ^ 2 := sq_nonneg r
    have hk0 : 0 < 1 - e₀ := by linarith
    have hrad := radicand_ge a₀ e₀ r z a0 e0.le (by linarith) (by linarith) (by
      have : 0 ≤ (1 / 100 - e₀) * z ^ 2 := mul_nonneg (by linarith) hz0
      linarith) (w := 56 / 5) (by norm_num) (by rw [show ((56 : ℝ) / 5) ^ 2 = 3136 / 25 by norm_num]; linarith) hH
    have hlow : (1 / 144 : ℝ) ≤ (r / (56 / 5 + e₀)) ^ 2 := by
      rw [show (1 / 144 : ℝ) = (1 / 12) ^ 2 by norm_num]
      refine pow_le_pow_left₀ (by norm_num) ?_ 2
      rw [div_le_div_iff₀ (by norm_num) (by linarith)]
      linarith
    have hAle := radicand_le hH
    rw [abs_le] at herr
    constructor <;> norm_num at * <;> linarith

end ChaosMagPy.FloatGeod
