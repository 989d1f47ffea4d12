import Verif.Lemmas.FloatTable
import Verif.Lemmas.Rel
/-! The table of `legendre_poly` at the poles, exactly and in double precision. -/
namespace ChaosMagPy.FloatLegendre
open ChaosMagPy.Spec ChaosMagPy.Float ChaosMagPy.Legendre

variable (R : Rounding)

theorem r0 : R 0 = 0 := by simpa using rnd_int R (m := 0) (by norm_num)
theorem r1 : R 1 = 1 := by simpa using rnd_int R (m := 1) (by norm_num)
theorem r2 : R 2 = 2 := by simpa using rnd_int R (m := 2) (by norm_num)
theorem rn1 : R (-1) = -1 := by simpa using rnd_int R (m := -1) (by norm_num)

theorem r_nat {n : ℕ} (h : n ≤ 2 ^ 53) : R (n : ℝ) = n := by
  simpa using rnd_int R (m := (n : ℤ)) (by rw [abs_of_nonneg (by positivity)]; exact_mod_cast h)

theorem r_neg_nat {n : ℕ} (h : n ≤ 2 ^ 53) : R (-(n : ℝ)) = -n := by
  simpa using rnd_int R (m := -(n : ℤ)) (by rw [abs_neg, abs_of_nonneg (by positivity)]; exact_mod_cast h)

theorem fmul_zero (x : ℝ) : fmul R (some x) (some 0) = some 0 := by simp [fmul, r0]
theorem zero_fmul (x : ℝ) : fmul R (some 0) (some x) = some 0 := by simp [fmul, r0]
theorem fsub_zero_zero : fsub R (some 0) (some 0) = some 0 := by simp [fsub, r0]
theorem zero_fdiv {x : ℝ} (h : x ≠ 0) : fdiv R (some 0) (some x) = some 0 := by simp [fdiv, r0, h]

/-- Square roots of integers. -/
theorem root_ge {x : ℝ} (h1 : 1 ≤ x) (h2 : x ≤ 2 ^ 120) : 1 ≤ R (Real.sqrt x) := by
  have h3 : (1 : ℝ) ≤ Real.sqrt x := by rw [Real.one_le_sqrt]; exact h1
  have h4 : |Real.sqrt x| ≤ 2 ^ 60 := by
    rw [abs_of_nonneg (Real.sqrt_nonneg _)]
    apply Real.sqrt_le_iff.2
    exact ⟨by positivity, by rw [← pow_mul]; exact h2⟩
  have := rnd_mono R (x := 1) (big' (by norm_num)) (big h4) h3
  rwa [r1] at this

theorem root_ne {x : ℝ} (h1 : 1 ≤ x) (h2 : x ≤ 2 ^ 120) : R (Real.sqrt x) ≠ 0 := by linarith [root_ge R h1 h2]

section exact
variable (nmax : ℕ) {σ : ℝ} (hσ : σ = 1 ∨ σ = -1)
include hσ

/-- The exact table at the poles. -/
theorem fin_pole_zonal (h : 1 ≤ nmax) (n : ℕ) (hn : n ≤ nmax) : fin nmax σ 0 (n, 0) = σ ^ n := by
  have hs : σ * σ = 1 := by rcases hσ with rfl | rfl <;> norm_num
  suffices hk : ∀ k, (k ≤ nmax → fin nmax σ 0 (k, 0) = σ ^ k) ∧ (k + 1 ≤ nmax → fin nmax σ 0 (k + 1, 0) = σ ^ (k + 1)) from (hk n).1 hn
  intro k
  induction k with
  | zero =>
    refine ⟨fun _ => by rw [fin_00]; simp, fun _ => ?_⟩
    have := fin_sub nmax σ 0 0 (by omega)
    rw [fin_00] at this
    rw [this]; simp
  | succ k ih =>
    refine ⟨ih.2, fun hk => ?_⟩
    have := fin_rec nmax σ 0 0 k (by omega)
    simp only [zero_add] at this
    rw [this, ih.1 (by omega), ih.2 (by omega)]
    have e1 : Real.sqrt (((0 : ℕ) + (k : ℝ) + 1 + (0 : ℕ)) * ((0 : ℕ) + (k : ℝ) + 1 - (0 : ℕ))) = k + 1 := by
      rw [show (((0 : ℕ) + (k : ℝ) + 1 + (0 : ℕ)) * ((0 : ℕ) + (k : ℝ) + 1 - (0 : ℕ))) = ((k : ℝ) + 1) ^ 2 by push_cast; ring]
      exact Real.sqrt_sq (by positivity)
    have e2 : Real.sqrt (((0 : ℕ) + (k : ℝ) + 2 + (0 : ℕ)) * ((0 : ℕ) + (k : ℝ) + 2 - (0 : ℕ))) = k + 2 := by
      rw [show (((0 : ℕ) + (k : ℝ) + 2 + (0 : ℕ)) * ((0 : ℕ) + (k : ℝ) + 2 - (0 : ℕ))) = ((k : ℝ) + 2) ^ 2 by push_cast; ring]
      exact Real.sqrt_sq (by positivity)
    rw [e1, e2, div_eq_iff (by positivity)]
    rw [show k + 1 + 1 = k + 2 by omega, pow_succ, pow_add]
    push_cast
    linear_combination (2 * (k : ℝ) + 3 - (k + 2)) * σ ^ k * hs

theorem fin_pole_order (h : 1 ≤ nmax) (n m : ℕ) (hm : 1 ≤ m) (hmn : m ≤ n) (hn : n ≤ nmax) : fin nmax σ 0 (n, m) = 0 := by
  rw [fin_val nmax σ 0 n m h hmn hn]
  unfold S
  rw [zero_pow (by omega)]
  ring

end exact

section pole
variable (nmax : ℕ) {σ : ℝ} (hσ : σ = 1 ∨ σ = -1) (hmax : nmax ≤ 2 ^ 25)
include hσ

theorem r_sig (x : ℝ) {n : ℕ} (h : n ≤ 2 ^ 53) (hx : x = n ∨ x = -n) : R x = x := by
  rcases hx with rfl | rfl
  · exact r_nat R h
  · exact r_neg_nat R h

omit hσ in
theorem r_int' (x : ℝ) (m : ℤ) (h : |m| ≤ 2 ^ 53) (hx : x = m) : R x = x := by rw [hx]; exact rnd_int R h

include hmax

/-- Orders above zero. -/
theorem finF_pole_order (h : 1 ≤ nmax) (n m : ℕ) (hm : 1 ≤ m) (hmn : m ≤ n) (hn : n ≤ nmax) : finF R nmax σ 0 (n, m) = some 0 := by
  have rσ : R σ = σ := by rcases hσ with rfl | rfl; exacts [r1 R, rn1 R]
  have hdiag : ∀ m, 1 ≤ m → m ≤ nmax → finF R nmax σ 0 (m, m) = some 0 := by
    intro m h1 h2
    induction m, h1 using Nat.le_induction with
    | base => rw [finF_11, r0]
    | succ m h1 ih =>
      rw [finF_diag R nmax σ 0 m (by omega) (by omega), ih (by omega), fmul_zero, r0, fmul_zero, zero_fdiv]
      have hm0 : (m : ℝ) ≤ 33554432 := by exact_mod_cast (by omega : m ≤ 33554432)
      apply root_ne
      · have : (0 : ℝ) ≤ m := by positivity
        linarith
      · norm_num; linarith
  obtain ⟨k, rfl⟩ : ∃ k, n = m + k := ⟨n - m, by omega⟩
  suffices hk : ∀ k, (m + k ≤ nmax → finF R nmax σ 0 (m + k, m) = some 0) ∧ (m + k + 1 ≤ nmax → finF R nmax σ 0 (m + k + 1, m) = some 0) from (hk k).1 hn
  intro k
  induction k with
  | zero =>
    refine ⟨fun h2 => hdiag m hm h2, fun h2 => ?_⟩
    rw [add_zero, finF_sub R nmax σ 0 m (by omega), hdiag m hm (by omega), fmul_zero, fmul_zero]
  | succ k ih =>
    refine ⟨ih.2, fun h2 => ?_⟩
    rw [show m + (k + 1) + 1 = m + k + 2 by omega, finF_rec R nmax σ 0 m k (by omega), ih.1 (by omega), ih.2 (by omega)]
    rw [show fmul R (some (R (2 * (m + k : ℝ) + 3))) (some (R σ)) = some (R (R (2 * (m + k : ℝ) + 3) * R σ)) from rfl, fmul_zero, fmul_zero,
      fsub_zero_zero, zero_fdiv]
    have hb : (m : ℝ) + k + 2 ≤ 2 ^ 25 := by exact_mod_cast (by omega : m + k + 2 ≤ 2 ^ 25)
    have h0 : (0 : ℝ) ≤ m := by positivity
    have h1 : (0 : ℝ) ≤ k := by positivity
    norm_num at hb
    apply root_ne
    · nlinarith
    · norm_num; nlinarith

/-- Order zero. -/
theorem finF_pole_zonal (h : 1 ≤ nmax) (n : ℕ) (hn : n ≤ nmax) : finF R nmax σ 0 (n, 0) = some (σ ^ n) := by
  have rσ : R σ = σ := by rcases hσ with rfl | rfl; exacts [r1 R, rn1 R]
  have hs : σ * σ = 1 := by rcases hσ with rfl | rfl <;> norm_num
  have hpow : ∀ n : ℕ, σ ^ n = 1 ∨ σ ^ n = -1 := by
    intro n
    induction n with
    | zero => left; simp
    | succ n ih => rw [pow_succ]; rcases ih with e | e <;> rcases hσ with rfl | rfl <;> rw [e] <;> norm_num
  suffices hk : ∀ k, (k ≤ nmax → finF R nmax σ 0 (k, 0) = some (σ ^ k)) ∧ (k + 1 ≤ nmax → finF R nmax σ 0 (k + 1, 0) = some (σ ^ (k + 1))) from (hk n).1 hn
  intro k
  induction k with
  | zero =>
    refine ⟨fun _ => by rw [finF_00, r1]; simp, fun _ => ?_⟩
    have := finF_sub R nmax σ 0 0 (by omega)
    rw [finF_00] at this
    rw [this]
    simp [fmul, r1, rσ]
  | succ k ih =>
    refine ⟨ih.2, fun hk => ?_⟩
    have := finF_rec R nmax σ 0 0 k (by omega)
    simp only [zero_add] at this
    rw [this, ih.1 (by omega), ih.2 (by omega)]
    have e1 : Real.sqrt (((0 : ℕ) + (k : ℝ) + 1 + (0 : ℕ)) * ((0 : ℕ) + (k : ℝ) + 1 - (0 : ℕ))) = ((k + 1 : ℕ) : ℝ) := by
      rw [show (((0 : ℕ) + (k : ℝ) + 1 + (0 : ℕ)) * ((0 : ℕ) + (k : ℝ) + 1 - (0 : ℕ))) = (((k + 1 : ℕ) : ℝ)) ^ 2 by push_cast; ring]
      exact Real.sqrt_sq (by positivity)
    have e2 : Real.sqrt (((0 : ℕ) + (k : ℝ) + 2 + (0 : ℕ)) * ((0 : ℕ) + (k : ℝ) + 2 - (0 : ℕ))) = ((k + 2 : ℕ) : ℝ) := by
      rw [show (((0 : ℕ) + (k : ℝ) + 2 + (0 : ℕ)) * ((0 : ℕ) + (k : ℝ) + 2 - (0 : ℕ))) = (((k + 2 : ℕ) : ℝ)) ^ 2 by push_cast; ring]
      exact Real.sqrt_sq (by positivity)
    have e3 : 2 * (((0 : ℕ) : ℝ) + k) + 3 = ((2 * k + 3 : ℕ) : ℝ) := by push_cast; ring
    have b : k + 2 ≤ 2 ^ 25 := by omega
    rw [e1, e2, e3, r_nat R (by omega), r_nat R (by omega), r_nat R (by omega), rσ]
    have hne : ((k + 2 : ℕ) : ℝ) ≠ 0 := by positivity
    have p1 : R (((2 * k + 3 : ℕ) : ℝ) * σ) = ((2 * k + 3 : ℕ) : ℝ) * σ := by
      rcases hσ with rfl | rfl
      · rw [mul_one]; exact r_nat R (by omega)
      · rw [mul_neg_one]; exact r_neg_nat R (by omega)
    have p2 : R (((2 * k + 3 : ℕ) : ℝ) * σ * σ ^ (k + 1)) = ((2 * k + 3 : ℕ) : ℝ) * σ ^ k := by
      have : ((2 * k + 3 : ℕ) : ℝ) * σ * σ ^ (k + 1) = ((2 * k + 3 : ℕ) : ℝ) * σ ^ k := by
        rw [pow_succ]; linear_combination ((2 * k + 3 : ℕ) : ℝ) * σ ^ k * hs
      rw [this]
      rcases hpow k with e | e <;> rw [e]
      · rw [mul_one]; exact r_nat R (by omega)
      · rw [mul_neg_one]; exact r_neg_nat R (by omega)
    have p3 : R (((k + 1 : ℕ) : ℝ) * σ ^ k) = ((k + 1 : ℕ) : ℝ) * σ ^ k := by
      rcases hpow k with e | e <;> rw [e]
      · rw [mul_one]; exact r_nat R (by omega)
      · rw [mul_neg_one]; exact r_neg_nat R (by omega)
    have p4 : R (((2 * k + 3 : ℕ) : ℝ) * σ ^ k - ((k + 1 : ℕ) : ℝ) * σ ^ k) = ((k + 2 : ℕ) : ℝ) * σ ^ k := by
      have : ((2 * k + 3 : ℕ) : ℝ) * σ ^ k - ((k + 1 : ℕ) : ℝ) * σ ^ k = ((k + 2 : ℕ) : ℝ) * σ ^ k := by push_cast; ring
      rw [this]
      rcases hpow k with e | e <;> rw [e]
      · rw [mul_one]; exact r_nat R (by omega)
      · rw [mul_neg_one]; exact r_neg_nat R (by omega)
    have p5 : R (((k + 2 : ℕ) : ℝ) * σ ^ k / ((k + 2 : ℕ) : ℝ)) = σ ^ (k + 1 + 1) := by
      rw [mul_div_cancel_left₀ _ hne]
      have : σ ^ (k + 1 + 1) = σ ^ k := by rw [pow_succ, pow_succ, mul_assoc, hs, mul_one]
      rw [this]
      rcases hpow k with e | e <;> rw [e]
      · exact r1 R
      · exact rn1 R
    simp only [fmul, fsub, fdiv]
    rw [p1, p2, p3, p4, if_neg hne, p5]

/-- The derivatives. -/
theorem finF_pole_deriv (h : 1 ≤ nmax) (n m : ℕ) (hm1 : m ≠ 1) (hmn : m ≤ n) (h1 : 1 ≤ n) (hn : n ≤ nmax) : finF R nmax σ 0 (m, n + 1) = some 0 := by
  have ord := finF_pole_order R nmax hσ hmax h
  rcases Nat.eq_zero_or_pos m with rfl | hm0
  · rcases eq_or_lt_of_le h1 with rfl | h2
    · rw [finF_02, ord 1 1 le_rfl le_rfl h]; simp [fneg]
    · rw [finF_d0 R nmax σ 0 n h2 hn, ord n 1 le_rfl (by omega) hn, fneg, fmul_zero]
  · have hm2 : 2 ≤ m := by omega
    rcases eq_or_lt_of_le hmn with rfl | hlt
    · rw [finF_dn R nmax σ 0 m hm2 hn, ord m (m - 1) (by omega) (by omega) hn, fmul_zero, r2, zero_fdiv _ (by norm_num)]
    · rw [finF_dm R nmax σ 0 n m hm2 hlt hn, ord n (m - 1) (by omega) (by omega) hn, ord n (m + 1) (by omega) (by omega) hn, fmul_zero, fmul_zero,
        fsub_zero_zero, fmul_zero]

omit hσ in
omit hmax in
theorem half_double {q : ℝ} (hq : IsDouble q) (h : 1 ≤ q) : IsDouble (q / 2) := by
  obtain ⟨m, e, hm, h1, h2, rfl⟩ := hq
  refine ⟨m, e - 1, hm, ?_, by omega, ?_⟩
  · by_contra hc
    have he : e ≤ -1074 := by omega
    have : (2 : ℝ) ^ e ≤ (2 : ℝ) ^ (-53 : ℤ) := zpow_le_zpow_right₀ (by norm_num) (by omega)
    have hm' : |(m : ℝ)| < 2 ^ 53 := by exact_mod_cast hm
    have hp : (0 : ℝ) < (2 : ℝ) ^ e := by positivity
    have : (m : ℝ) * (2 : ℝ) ^ e < 2 ^ 53 * (2 : ℝ) ^ (-53 : ℤ) := by
      calc (m : ℝ) * (2 : ℝ) ^ e ≤ |(m : ℝ)| * (2 : ℝ) ^ e := mul_le_mul_of_nonneg_right (le_abs_self _) hp.le
        _ < 2 ^ 53 * (2 : ℝ) ^ e := mul_lt_mul_of_pos_right hm' hp
        _ ≤ 2 ^ 53 * (2 : ℝ) ^ (-53 : ℤ) := mul_le_mul_of_nonneg_left this (by positivity)
    norm_num at this
    linarith
  · rw [zpow_sub₀ (by norm_num)]
    ring

theorem finF_pole_deriv_one (h : 1 ≤ nmax) (n : ℕ) (h1 : 1 ≤ n) (hn : n ≤ nmax) :
    finF R nmax σ 0 (1, n + 1) = some (σ ^ n * (R (Real.sqrt (2 * ((n : ℝ) * n + n))) / 2)) := by
  have zon := finF_pole_zonal R nmax hσ hmax h
  have ord := finF_pole_order R nmax hσ hmax h
  have hpow : ∀ n : ℕ, σ ^ n = 1 ∨ σ ^ n = -1 := by
    intro n
    induction n with
    | zero => left; simp
    | succ n ih => rw [pow_succ]; rcases ih with e | e <;> rcases hσ with rfl | rfl <;> rw [e] <;> norm_num
  rcases eq_or_lt_of_le h1 with rfl | h2
  · rw [finF_12, zon 1 h]
    have : Real.sqrt (2 * (((1 : ℕ) : ℝ) * ((1 : ℕ) : ℝ) + ((1 : ℕ) : ℝ))) = 2 := by
      rw [show 2 * (((1 : ℕ) : ℝ) * ((1 : ℕ) : ℝ) + ((1 : ℕ) : ℝ)) = 2 ^ 2 by norm_num]
      exact Real.sqrt_sq (by norm_num)
    rw [this, r2]; norm_num
  · rw [finF_d1 R nmax σ 0 n h2 hn, zon n hn, ord n 2 (by norm_num) h2 hn, fmul_zero, r2]
    have hb : (n : ℝ) ≤ 33554432 := by exact_mod_cast (hn.trans hmax)
    have hn1 : (1 : ℝ) ≤ n := by exact_mod_cast h1
    have hx1 : (1 : ℝ) ≤ 2 * ((n : ℝ) * n + n) := by nlinarith
    have hx2 : 2 * ((n : ℝ) * n + n) ≤ 2 ^ 120 := by norm_num; nlinarith
    have hq := root_ge R hx1 hx2
    have hsb : |Real.sqrt (2 * ((n : ℝ) * n + n))| ≤ 2 ^ 60 := by
      rw [abs_of_nonneg (Real.sqrt_nonneg _)]
      exact Real.sqrt_le_iff.2 ⟨by positivity, by rw [← pow_mul]; exact hx2⟩
    have hd := (R.nearest _ (big hsb)).1
    have hq2 : R (Real.sqrt (2 * ((n : ℝ) * n + n))) ≤ 2 ^ 60 := by
      have := rnd_mono R (big hsb) (y := 2 ^ 60) (big (by norm_num)) ((le_abs_self _).trans hsb)
      rwa [rnd_double R (x := 2 ^ 60) (by simpa using double_of (m := 1) (e := 60) (by norm_num) (by norm_num) (by norm_num)) (big (by norm_num))] at this
    set q := R (Real.sqrt (2 * ((n : ℝ) * n + n)))
    have hqb : |q| ≤ 2 ^ 60 := by rw [abs_of_nonneg (by linarith)]; exact hq2
    have hqb2 : |q / 2| ≤ 2 ^ 60 := by rw [abs_of_nonneg (by linarith)]; linarith
    simp only [fmul, fsub, fdiv]
    rw [if_neg (by norm_num)]
    rcases hpow n with e | e <;> rw [e]
    · rw [mul_one, rnd_double R hd (big hqb), sub_zero, rnd_double R hd (big hqb), rnd_double R (half_double hd hq) (big hqb2), one_mul]
    · rw [mul_neg_one, sub_zero, rnd_double R (double_neg hd) (big (by rwa [abs_neg])), rnd_double R (double_neg hd) (big (by rwa [abs_neg])), neg_div,
        rnd_double R (double_neg (half_double hd hq)) (big (by rwa [abs_neg])), neg_one_mul]

end pole

end ChaosMagPy.FloatLegendre
