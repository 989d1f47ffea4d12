import Verif.Lemmas.Grow
import Verif.Lemmas.Majorant
import Verif.Lemmas.FloatPole
/-!
# Rounding errors of the Legendre table
-/
namespace ChaosMagPy.FloatLegendre
open ChaosMagPy.Spec ChaosMagPy.Float ChaosMagPy.Legendre Real

variable (R : Rounding) {w : ℝ} {K : ℕ} (g : Grow w K)

theorem low_one {A : ℝ} (h : 1 ≤ A) : (2 : ℝ)⁻¹ ^ 900 ≤ A := le_trans (pow_le_one₀ (by norm_num) (by norm_num)) h

theorem high_of {A : ℝ} (h : A ≤ 2 ^ 600) : A ≤ 2 ^ 990 := h.trans (pow_le_pow_right₀ (by norm_num) (by norm_num))

theorem high_small {A : ℝ} (h : A ≤ 2 ^ 60) : A ≤ 2 ^ 990 := h.trans (pow_le_pow_right₀ (by norm_num) (by norm_num))

theorem pow52 {n : ℕ} (h : n ≤ 250) : (5 / 2 : ℝ) ^ n ≤ 2 ^ 500 := by
  calc (5 / 2 : ℝ) ^ n ≤ 4 ^ n := by gcongr; norm_num
    _ ≤ 4 ^ 250 := pow_le_pow_right₀ (by norm_num) h
    _ = 2 ^ 500 := by rw [show (4 : ℝ) = 2 ^ 2 by norm_num, ← pow_mul]

theorem maj_high {m k : ℕ} (h : m + k ≤ 250) {q : ℝ} (h0 : 0 ≤ q) (hq : q ≤ 2 ^ 60) : q * maj m k ≤ 2 ^ 600 := by
  calc q * maj m k ≤ 2 ^ 60 * 2 ^ 500 := mul_le_mul hq ((maj_le m k).trans (pow52 h)) (maj_pos m k).le (by positivity)
    _ = 2 ^ 560 := by rw [← pow_add]
    _ ≤ 2 ^ 600 := pow_le_pow_right₀ (by norm_num) (by norm_num)

theorem sqrt_one_le {x : ℝ} (h : 1 ≤ x) : 1 ≤ √x := by rwa [Real.one_le_sqrt]

theorem sqrt_small {x : ℝ} (h2 : x ≤ 2 ^ 120) : √x ≤ 2 ^ 60 := by
  rw [Real.sqrt_le_left (by positivity)]
  linarith

include g in
theorem root_near (hK : 10 ≤ K) {x : ℝ} (h1 : 1 ≤ x) (h2 : x ≤ 2 ^ 120) : Nr w 1 (R √x) √x √x := by
  have h := g.exact (x := √x) 0
  rw [abs_of_nonneg (Real.sqrt_nonneg _)] at h
  exact g.rnd R h (by omega) (low_one (sqrt_one_le h1)) (high_small (sqrt_small h2))

include g in
theorem w_small (hK : 10 ≤ K) : w ^ 1 ≤ 3 / 2 := by
  have h := g.pow_le (k := 2) (by omega)
  have h1 := g.one_le
  rw [pow_one]
  nlinarith

include g in
theorem inv_near (hK : 10 ≤ K) {x : ℝ} (h1 : 1 ≤ x) (h2 : x ≤ 2 ^ 120) : 0 < R √x ∧ Nr w 3 (R √x)⁻¹ (√x)⁻¹ (√x)⁻¹ := by
  exact g.inv (lt_of_lt_of_le one_pos (sqrt_one_le h1)) (root_near R g hK h1 h2) (by omega) (w_small g hK)

section table
variable {nmax : ℕ} {c s c' s' : ℝ} (hc : Nr w 1 c' c 1) (hs : Nr w 1 s' s 1) (rc : R c' = c') (rs : R s' = s')
  (h1 : 1 ≤ nmax) (hmax : nmax ≤ 250) (hK : 8 * nmax + 20 ≤ K)
include g hc hs rc rs h1 hmax hK

theorem near_diag (m : ℕ) (hm : m ≤ nmax) : ∃ t, finF R nmax c' s' (m, m) = some t ∧ Nr w (8 * m) t (fin nmax c s (m, m)) 1 := by
  induction m with
  | zero =>
    refine ⟨1, by rw [finF_00, r1], ?_⟩
    rw [fin_00]
    simpa using g.exact (x := 1) 0
  | succ m ih =>
    obtain ⟨t, ht, hn⟩ := ih (by omega)
    by_cases h0 : m = 0
    · subst h0
      refine ⟨s', by rw [finF_11, rs], ?_⟩
      rw [fin_11]
      exact g.mono hs (by norm_num)
    · have hmr : (m : ℝ) ≤ 250 := by exact_mod_cast (by omega : m ≤ 250)
      have hm0 : (0 : ℝ) ≤ m := by positivity
      have b1 : (1 : ℝ) ≤ 2 * m + 1 := by linarith
      have b2 : (2 * m + 1 : ℝ) ≤ 2 ^ 120 := by linarith [show (501 : ℝ) ≤ 2 ^ 120 by norm_num]
      have b3 : (1 : ℝ) ≤ 2 * m + 2 := by linarith
      have b4 : (2 * m + 2 : ℝ) ≤ 2 ^ 120 := by linarith [show (502 : ℝ) ≤ 2 ^ 120 by norm_num]
      obtain ⟨hp, hi⟩ := inv_near R g (by omega) b3 b4
      have q1 := root_near R g (by omega) b1 b2
      have q2 := g.rnd R (g.mul q1 hn) (by omega) (low_one (by rw [mul_one]; exact sqrt_one_le b1)) (by rw [mul_one]; exact high_small (sqrt_small b2))
      have q3 := g.rnd R (g.mul hs q2) (by omega) (low_one (by rw [mul_one, one_mul]; exact sqrt_one_le b1))
        (by rw [mul_one, one_mul]; exact high_small (sqrt_small b2))
      have q4 := g.mul q3 hi
      have hle : 1 * (√(2 * (m : ℝ) + 1) * 1) * (√(2 * (m : ℝ) + 2))⁻¹ ≤ 1 := by
        rw [mul_one, one_mul, ← div_eq_mul_inv, div_le_one (lt_of_lt_of_le one_pos (sqrt_one_le b3))]
        exact Real.sqrt_le_sqrt (by linarith)
      have q5 := g.rnd R (g.enlarge q4 hle) (by omega) (low_one le_rfl) (high_small (by norm_num))
      rw [fin_diag nmax c s m (by omega) (by omega), div_eq_mul_inv]
      refine ⟨_, ?_, g.mono q5 (by omega)⟩
      rw [finF_diag R nmax c' s' m (by omega) (by omega), ht]
      simp only [fmul, fdiv]
      rw [if_neg hp.ne', rs, div_eq_mul_inv]

theorem near_pair (m k : ℕ) :
    (m + k ≤ nmax → ∃ t, finF R nmax c' s' (m + k, m) = some t ∧ Nr w (8 * (m + k)) t (fin nmax c s (m + k, m)) (maj m k)) ∧
    (m + k + 1 ≤ nmax → ∃ t, finF R nmax c' s' (m + k + 1, m) = some t ∧
      Nr w (8 * (m + k + 1)) t (fin nmax c s (m + k + 1, m)) (maj m (k + 1))) := by
  induction k with
  | zero =>
    refine ⟨fun h => near_diag R g hc hs rc rs h1 hmax hK m h, fun h => ?_⟩
    obtain ⟨t, ht, hn⟩ := near_diag R g hc hs rc rs h1 hmax hK m (by omega)
    rw [Nat.add_zero] at h ⊢
    have hmr : (m : ℝ) ≤ 250 := by exact_mod_cast (by omega : m ≤ 250)
    have hm0 : (0 : ℝ) ≤ m := by positivity
    have b1 : (1 : ℝ) ≤ 2 * m + 1 := by linarith
    have b2 : (2 * m + 1 : ℝ) ≤ 2 ^ 120 := by linarith [show (501 : ℝ) ≤ 2 ^ 120 by norm_num]
    have q1 := root_near R g (by omega) b1 b2
    have q2 := g.rnd R (g.mul q1 hn) (by omega) (low_one (by rw [mul_one]; exact sqrt_one_le b1)) (by rw [mul_one]; exact high_small (sqrt_small b2))
    have q3 := g.rnd R (g.mul hc q2) (by omega) (low_one (by rw [mul_one, one_mul]; exact sqrt_one_le b1))
      (by rw [mul_one, one_mul]; exact high_small (sqrt_small b2))
    rw [fin_sub nmax c s m (by omega)]
    refine ⟨_, ?_, g.enlarge (g.mono q3 (by omega)) (by rw [mul_one, one_mul]; exact maj_sub m)⟩
    rw [finF_sub R nmax c' s' m (by omega), ht]
    simp only [fmul]
    rw [rc]
  | succ k ih =>
    refine ⟨fun h => ih.2 h, fun h => ?_⟩
    obtain ⟨t, ht, hn⟩ := ih.1 (by omega)
    obtain ⟨t', ht', hn'⟩ := ih.2 (by omega)
    rw [show m + (k + 1) + 1 = m + k + 2 by ring] at h ⊢
    have hmk : ((m : ℝ) + k + 2) ≤ 250 := by exact_mod_cast (by omega : m + k + 2 ≤ 250)
    have hm0 : (0 : ℝ) ≤ m := by positivity
    have hk0 : (0 : ℝ) ≤ k := by positivity
    have b1 : (1 : ℝ) ≤ (m + k + 1 + m) * (m + k + 1 - m) := by nlinarith
    have b2 : (m + k + 1 + m : ℝ) * (m + k + 1 - m) ≤ 2 ^ 120 := by nlinarith [show (1000000 : ℝ) ≤ 2 ^ 120 by norm_num]
    have b3 : (1 : ℝ) ≤ (m + k + 2 + m) * (m + k + 2 - m) := by nlinarith
    have b4 : (m + k + 2 + m : ℝ) * (m + k + 2 - m) ≤ 2 ^ 120 := by nlinarith [show (1000000 : ℝ) ≤ 2 ^ 120 by norm_num]
    have he : (2 * (m + k : ℝ) + 3) ≤ 2 ^ 60 := by linarith [show (503 : ℝ) ≤ 2 ^ 60 by norm_num]
    have he1 : (1 : ℝ) ≤ 2 * (m + k : ℝ) + 3 := by linarith
    have re : R (2 * (m + k : ℝ) + 3) = 2 * (m + k : ℝ) + 3 := by
      have := r_nat R (n := 2 * (m + k) + 3) (by omega)
      push_cast at this
      exact this
    have hA1 : 1 ≤ (2 * (m + k : ℝ) + 3) * 1 * maj m (k + 1) := by nlinarith [maj_one_le m (k + 1)]
    have hA2 : (2 * (m + k : ℝ) + 3) * 1 * maj m (k + 1) ≤ 2 ^ 600 := by
      rw [mul_one]
      exact maj_high (by omega) (by linarith) he
    have hB1 : 1 ≤ √((m + k + 1 + m : ℝ) * (m + k + 1 - m)) * maj m k := by nlinarith [maj_one_le m k, sqrt_one_le b1]
    have hB2 : √((m + k + 1 + m : ℝ) * (m + k + 1 - m)) * maj m k ≤ 2 ^ 600 := maj_high (by omega) (Real.sqrt_nonneg _) (sqrt_small b2)
    have p0 := g.exact (x := 2 * (m + k : ℝ) + 3) 0
    rw [abs_of_nonneg (by linarith)] at p0
    have p1 := g.rnd R (g.mul p0 hc) (by omega) (low_one (by linarith)) (high_small (by linarith))
    have p2 := g.rnd R (g.mul p1 hn') (by omega) (low_one hA1) (high_of hA2)
    have p3 := g.rnd R (g.mul (root_near R g (by omega) b1 b2) hn) (by omega) (low_one hB1) (high_of hB2)
    have p4 := g.rnd R (g.sub p2 (g.mono p3 (by omega))) (by omega) (low_one (by linarith)) (by
      refine (add_le_add hA2 hB2).trans ?_
      rw [← two_mul, ← pow_succ']
      exact pow_le_pow_right₀ (by norm_num) (by norm_num))
    obtain ⟨hp, hi⟩ := inv_near R g (by omega) b3 b4
    have hrec := maj_rec m k
    have p5 := g.enlarge (B := maj m (k + 2)) (g.mul p4 hi) (by rw [mul_one]; exact hrec)
    have p6 := g.rnd R p5 (by omega) (low_one (maj_one_le _ _)) (high_of ((by
      have := maj_high (m := m) (k := k + 2) (by omega) zero_le_one (by norm_num)
      rwa [one_mul] at this)))
    rw [fin_rec nmax c s m k h, div_eq_mul_inv]
    refine ⟨_, ?_, g.mono p6 (by omega)⟩
    rw [finF_rec R nmax c' s' m k h, ht, ht']
    simp only [fmul, fsub, fdiv]
    rw [if_neg hp.ne', rc, re, div_eq_mul_inv]

/-- Values. -/
theorem near_val (n m : ℕ) (hm : m ≤ n) (hn : n ≤ nmax) :
    ∃ t, finF R nmax c' s' (n, m) = some t ∧ Nr w (8 * n) t (fin nmax c s (n, m)) ((5 / 2) ^ n) := by
  obtain ⟨t, ht, h⟩ := (near_pair R g hc hs rc rs h1 hmax hK m (n - m)).1 (by omega)
  rw [show m + (n - m) = n by omega] at ht h
  refine ⟨t, ht, g.enlarge h ?_⟩
  have := maj_le m (n - m)
  rwa [show m + (n - m) = n by omega] at this

omit hc hs rc rs h1 hmax in
theorem near_scaled {n k : ℕ} {q t y : ℝ} (hn : n ≤ nmax) (hmax : nmax ≤ 250) (hk : k ≤ 8 * n) (hq1 : 1 ≤ q) (hq2 : q ≤ 2 * ((n : ℝ) + 1) ^ 2)
    (h : Nr w k t y ((5 / 2) ^ n)) : Nr w (8 * n + 2) (R (R √q * t)) (√q * y) (√2 * (n + 1) * (5 / 2) ^ n) := by
  have hnr : (n : ℝ) ≤ 250 := by exact_mod_cast (by omega : n ≤ 250)
  have hn0 : (0 : ℝ) ≤ n := by positivity
  have hq3 : q ≤ 2 ^ 120 := hq2.trans (by nlinarith [show (1000000 : ℝ) ≤ 2 ^ 120 by norm_num])
  have hq : √q ≤ √2 * (n + 1) := by
    rw [Real.sqrt_le_left (by positivity), mul_pow, Real.sq_sqrt (by norm_num)]
    exact hq2
  have h5 : (1 : ℝ) ≤ (5 / 2) ^ n := one_le_pow₀ (by norm_num)
  have h6 : 1 ≤ √q * (5 / 2) ^ n := by nlinarith [sqrt_one_le hq1]
  have p := g.rnd R (g.mul (root_near R g (by omega) hq1 hq3) h) (by omega) (low_one h6) (high_of (by
    calc √q * (5 / 2) ^ n ≤ 2 ^ 60 * 2 ^ 500 := mul_le_mul (sqrt_small hq3) (pow52 (by omega)) (by positivity) (by positivity)
      _ = 2 ^ 560 := by rw [← pow_add]
      _ ≤ 2 ^ 600 := pow_le_pow_right₀ (by norm_num) (by norm_num)))
  exact g.enlarge (g.mono p (by omega)) (mul_le_mul_of_nonneg_right hq (by positivity))

omit g hc hs rc rs h1 hmax hK in
theorem sum_high {n : ℕ} (h : n ≤ 250) : 2 * (√2 * (n + 1) * (5 / 2 : ℝ) ^ n) ≤ 2 ^ 990 := by
  have hnr : (n : ℝ) ≤ 250 := by exact_mod_cast h
  have hn0 : (0 : ℝ) ≤ n := by positivity
  have h2 : √2 ≤ 2 := by rw [Real.sqrt_le_left (by norm_num)]; norm_num
  refine high_of ?_
  calc 2 * (√2 * (n + 1) * (5 / 2 : ℝ) ^ n) = (2 * (√2 * (n + 1))) * (5 / 2 : ℝ) ^ n := by ring
    _ ≤ 2 ^ 60 * 2 ^ 500 := mul_le_mul (by nlinarith [show (1100 : ℝ) ≤ 2 ^ 60 by norm_num]) (pow52 h) (by positivity) (by positivity)
    _ = 2 ^ 560 := by rw [← pow_add]
    _ ≤ 2 ^ 600 := pow_le_pow_right₀ (by norm_num) (by norm_num)

/-- Derivatives. -/
theorem near_deriv (n m : ℕ) (hn1 : 1 ≤ n) (hm : m ≤ n) (hn : n ≤ nmax) :
    ∃ t, finF R nmax c' s' (m, n + 1) = some t ∧ Nr w (8 * n + 4) t (fin nmax c s (m, n + 1)) (√2 * (n + 1) * (5 / 2) ^ n) := by
  have val := fun m hm => near_val R g hc hs rc rs h1 hmax hK n m hm hn
  have hnr : (n : ℝ) ≤ 250 := by exact_mod_cast (by omega : n ≤ 250)
  have hn1r : (1 : ℝ) ≤ n := by exact_mod_cast hn1
  have hs2 : 1 ≤ √2 := sqrt_one_le (by norm_num)
  have h5 : (1 : ℝ) ≤ (5 / 2) ^ n := one_le_pow₀ (by norm_num)
  have hA : 1 ≤ √2 * (n + 1) * (5 / 2 : ℝ) ^ n := by
    have : 1 ≤ √2 * ((n : ℝ) + 1) := by nlinarith
    nlinarith
  have hbig : (5 / 2 : ℝ) ^ n ≤ √2 * (n + 1) * (5 / 2 : ℝ) ^ n := by
    have : 1 ≤ √2 * ((n : ℝ) + 1) := by nlinarith
    nlinarith
  have hhigh := sum_high (n := n) (by omega)
  set A := √2 * (n + 1) * (5 / 2 : ℝ) ^ n with hAdef
  have hhigh1 : A ≤ 2 ^ 990 := le_trans (le_mul_of_one_le_left (by linarith) one_le_two) hhigh
  have hhigh2 : A + A ≤ 2 ^ 990 := by rw [← two_mul]; exact hhigh
  by_cases hn2 : n = 1
  · subst hn2
    rcases (by omega : m = 0 ∨ m = 1) with rfl | rfl
    · obtain ⟨t, ht, h⟩ := val 1 le_rfl
      refine ⟨-t, by rw [finF_02, ht]; rfl, ?_⟩
      have e : fin nmax c s (0, 1 + 1) = -fin nmax c s (1, 1) :=
        fin_eq nmax c s ⟨(0, 2), .neg (.read 1 1)⟩ (by simp [program])
      rw [e]
      exact g.neg (g.enlarge (g.mono h (by omega)) hbig)
    · obtain ⟨t, ht, h⟩ := val 0 (by omega)
      refine ⟨t, by rw [finF_12, ht], ?_⟩
      have e : fin nmax c s (1, 1 + 1) = fin nmax c s (1, 0) :=
        fin_eq nmax c s ⟨(1, 2), .read 1 0⟩ (by simp [program])
      rw [e]
      exact g.enlarge (g.mono h (by omega)) hbig
  have h2 : 2 ≤ n := by omega
  have h2r : (2 : ℝ) ≤ n := by exact_mod_cast h2
  have half : ∀ {x y : ℝ}, Nr w (8 * n + 3) x y (2 * A) → Nr w (8 * n + 4) (R (x / 2)) (y / 2) A := by
    intro x y h
    have e := g.exact (x := (2 : ℝ)⁻¹) 0
    rw [abs_of_pos (by norm_num)] at e
    have q := g.enlarge (B := A) (g.mul h e) (by linarith)
    have := g.rnd R q (by omega) (low_one hA) hhigh1
    rw [div_eq_mul_inv, div_eq_mul_inv]
    exact g.mono this (by omega)
  by_cases hm0 : m = 0
  · subst hm0
    obtain ⟨t, ht, h⟩ := val 1 (by omega)
    have e := fin_eq nmax c s _ (mem_deriv nmax c s h2 hn (a := ⟨(0, n + 1), .mul (.neg (.const
      (√(((n : ℝ) * n + n) / 2)))) (.read n 1)⟩) (by simp [derivBlock]))
    simp only [Expr.eval] at e
    have p := near_scaled R g hK hn hmax le_rfl (q := ((n : ℝ) * n + n) / 2) (by nlinarith) (by nlinarith) h
    have hroot : √(((n : ℝ) * n + n) / 2) ≤ √2 * (n + 1) := by
      rw [Real.sqrt_le_left (by positivity), mul_pow, Real.sq_sqrt (by norm_num)]
      nlinarith
    have q := g.rnd R (g.enlarge (B := A) (g.mul (g.neg (root_near R g (by omega) (x := ((n : ℝ) * n + n) / 2) (by nlinarith)
      (by nlinarith [show (1000000 : ℝ) ≤ 2 ^ 120 by norm_num]))) h) (mul_le_mul_of_nonneg_right hroot (by positivity))) (by omega) (low_one hA) hhigh1
    rw [e]
    refine ⟨_, ?_, g.mono q (by omega)⟩
    rw [finF_d0 R nmax c' s' n h2 hn, ht]
    rfl
  by_cases hm1 : m = 1
  · subst hm1
    obtain ⟨t, ht, h⟩ := val 0 (by omega)
    obtain ⟨t', ht', h'⟩ := val 2 (by omega)
    have e := fin_eq nmax c s _ (mem_deriv nmax c s h2 hn (a := ⟨(1, n + 1), .div (.sub (.mul (.const (√
      (2 * ((n : ℝ) * n + n)))) (.read n 0)) (.mul (.const (√((n : ℝ) * n + n - 2))) (.read n 2)))
      (.const 2)⟩) (by simp [derivBlock]))
    simp only [Expr.eval] at e
    have p := near_scaled R g hK hn hmax le_rfl (q := 2 * ((n : ℝ) * n + n)) (by nlinarith) (by nlinarith) h
    have p' := near_scaled R g hK hn hmax le_rfl (q := (n : ℝ) * n + n - 2) (by nlinarith) (by nlinarith) h'
    have q := g.rnd R (g.sub p p') (by omega) (low_one (by linarith)) hhigh2
    rw [← two_mul] at q
    rw [e]
    refine ⟨_, ?_, half q⟩
    rw [finF_d1 R nmax c' s' n h2 hn, ht, ht', r2]
    simp only [fmul, fsub, fdiv]
    rw [if_neg (by norm_num)]
  by_cases hmn : m = n
  · subst hmn
    obtain ⟨t, ht, h⟩ := val (m - 1) (by omega)
    have e := fin_eq nmax c s _ (mem_deriv nmax c s h2 hn (a := ⟨(m, m + 1), .div (.mul (.const
      (√(2 * m))) (.read m (m - 1))) (.const 2)⟩) (by simp [derivBlock]))
    simp only [Expr.eval] at e
    have p := near_scaled R g hK hn hmax le_rfl (q := 2 * (m : ℝ)) (by nlinarith) (by nlinarith) h
    rw [e]
    refine ⟨_, ?_, half (g.enlarge (g.mono p (by omega)) (by linarith))⟩
    rw [finF_dn R nmax c' s' m h2 hn, ht, r2]
    simp only [fmul, fdiv]
    rw [if_neg (by norm_num)]
  · have hm2 : 2 ≤ m := by omega
    have hmn' : m < n := by omega
    obtain ⟨t, ht, h⟩ := val (m - 1) (by omega)
    obtain ⟨t', ht', h'⟩ := val (m + 1) (by omega)
    have e := fin_eq nmax c s (derivStep n m) (mem_deriv nmax c s (by omega) hn (by
      simp only [derivBlock, List.mem_append, List.mem_map, mem_pyRange]
      exact Or.inl (Or.inr ⟨m, ⟨hm2, hmn'⟩, rfl⟩)))
    simp only [derivStep, Expr.eval] at e
    have hmr : (m : ℝ) + 1 ≤ n := by exact_mod_cast hmn'
    have hm2r : (2 : ℝ) ≤ m := by exact_mod_cast hm2
    have p := near_scaled R g hK hn hmax le_rfl (q := ((n : ℝ) + m) * ((n : ℝ) - m + 1)) (by nlinarith) (by nlinarith) h
    have p' := near_scaled R g hK hn hmax le_rfl (q := ((n : ℝ) + m + 1) * ((n : ℝ) - m)) (by nlinarith) (by nlinarith) h'
    have q := g.rnd R (g.sub p p') (by omega) (low_one (by linarith)) hhigh2
    rw [← two_mul] at q
    have r5 : R 0.5 = 0.5 := by
      have := rnd_double R (x := (0.5 : ℝ)) (by
        have := half_double one_double le_rfl
        rwa [show (1 : ℝ) / 2 = 0.5 by norm_num] at this) (big' (by rw [abs_of_pos (by norm_num)]; norm_num))
      exact this
    rw [e]
    have e2 : ∀ z : ℝ, (0.5 : ℝ) * z = z / 2 := fun z => by rw [div_eq_mul_inv, mul_comm]; norm_num
    rw [e2]
    refine ⟨_, ?_, half q⟩
    rw [finF_dm R nmax c' s' n m hm2 hmn' hn, ht, ht', r5]
    simp only [fmul, fsub, e2]

end table

end ChaosMagPy.FloatLegendre
