import Verif.Lemmas.FloatAngles
import Verif.Lemmas.SynthField
import Verif.Model.FloatSpectrum
/-!
# Rounding errors of the sums of `synth_values`
-/
namespace ChaosMagPy.FloatLegendre
open ChaosMagPy.Spec ChaosMagPy.Float ChaosMagPy.Legendre ChaosMagPy.Synth
open Real (sin cos sqrt)

variable (R : Rounding) {w : ℝ} {K : ℕ} (g : Grow w K)

/-! ### Sizes -/

theorem pow52' {n : ℕ} (h : n ≤ 250) : (5 / 2 : ℝ) ^ n ≤ 2 ^ 336 := by
  calc (5 / 2 : ℝ) ^ n ≤ (5 / 2) ^ (3 * 84) := pow_le_pow_right₀ (by norm_num) (by omega)
    _ = ((5 / 2) ^ 3) ^ 84 := by rw [pow_mul]
    _ ≤ 16 ^ 84 := by
      refine pow_le_pow_left₀ (by positivity) ?_ 84
      norm_num
    _ = 2 ^ 336 := by rw [show (16 : ℝ) = 2 ^ 4 by norm_num, ← pow_mul]

theorem zpow_size {ρ : ℝ} (h1 : 1 / 4 ≤ ρ) (h2 : ρ ≤ 4) {k : ℤ} (hk : k.natAbs ≤ 253) : (2 : ℝ)⁻¹ ^ 506 ≤ ρ ^ k ∧ ρ ^ k ≤ 2 ^ 506 := by
  have h0 : 0 < ρ := lt_of_lt_of_le (by norm_num) h1
  have key : ∀ {x : ℝ} {j : ℕ}, 1 / 4 ≤ x → x ≤ 4 → j ≤ 253 → (2 : ℝ)⁻¹ ^ 506 ≤ x ^ j ∧ x ^ j ≤ 2 ^ 506 := by
    intro x j a b hj
    have hx : 0 < x := lt_of_lt_of_le (by norm_num) a
    constructor
    · calc (2 : ℝ)⁻¹ ^ 506 = (1 / 4) ^ 253 := by rw [show (1 / 4 : ℝ) = 2⁻¹ ^ 2 by norm_num, ← pow_mul]
        _ ≤ (1 / 4) ^ j := pow_le_pow_of_le_one (by norm_num) (by norm_num) hj
        _ ≤ x ^ j := pow_le_pow_left₀ (by norm_num) a j
    · calc x ^ j ≤ 4 ^ j := pow_le_pow_left₀ hx.le b j
        _ ≤ 4 ^ 253 := pow_le_pow_right₀ (by norm_num) hj
        _ = 2 ^ 506 := by rw [show (4 : ℝ) = 2 ^ 2 by norm_num, ← pow_mul]
  obtain ⟨j, rfl | rfl⟩ := k.eq_nat_or_neg
  · rw [zpow_natCast]
    exact key h1 h2 (by simpa using hk)
  · rw [zpow_neg, zpow_natCast, ← inv_pow]
    refine key ?_ ?_ (by simpa using hk)
    · rw [one_div]
      exact inv_anti₀ h0 h2
    · rw [inv_le_comm₀ h0 (by norm_num)]
      linarith

theorem rpow_size {src : Source} {ρ : ℝ} (h1 : 1 / 4 ≤ ρ) (h2 : ρ ≤ 4) {n : ℕ} (hn1 : 1 ≤ n) (hn : n ≤ 251) :
    (2 : ℝ)⁻¹ ^ 506 ≤ rpow src ρ n ∧ rpow src ρ n ≤ 2 ^ 506 := by
  cases src with
  | internal => exact zpow_size h1 h2 (by omega)
  | external => exact zpow_size h1 h2 (by omega)

theorem low_mul {A B : ℝ} {a b : ℕ} (hA : (2 : ℝ)⁻¹ ^ a ≤ A) (hB : (2 : ℝ)⁻¹ ^ b ≤ B) (h : a + b ≤ 900) : (2 : ℝ)⁻¹ ^ 900 ≤ A * B := by
  calc (2 : ℝ)⁻¹ ^ 900 ≤ 2⁻¹ ^ (a + b) := pow_le_pow_of_le_one (by norm_num) (by norm_num) h
    _ = 2⁻¹ ^ a * 2⁻¹ ^ b := pow_add _ _ _
    _ ≤ A * B := mul_le_mul hA hB (by positivity) (le_trans (by positivity) hA)

theorem pow_mul_le {A B : ℝ} {a b : ℕ} (hA : A ≤ 2 ^ a) (hB : B ≤ 2 ^ b) (hB0 : 0 ≤ B) : A * B ≤ 2 ^ (a + b) := by
  rw [pow_add]
  exact mul_le_mul hA hB hB0 (by positivity)

include g in
theorem Nr_trans {j k : ℕ} {x y z A : ℝ} (h : Nr w j x y |y|) (h' : Nr w k y z A) : Nr w (j + k) x z A := by
  refine ⟨?_, h'.bound⟩
  have e1 := Near.err h
  have e2 := Near.err h'
  have e3 := Near.abs_le h'
  have h1 := g.pow_one_le j
  have e4 := abs_sub_le x y z
  rw [pow_add]
  nlinarith [mul_le_mul_of_nonneg_left e3 (by linarith : 0 ≤ w ^ j - 1)]

include g in
/-- Three factors. -/
theorem chain {k1 k2 k3 : ℕ} {x1 x2 x3 y1 y2 y3 A1 A2 A3 : ℝ} (h1 : Nr w k1 x1 y1 A1) (h2 : Nr w k2 x2 y2 A2) (h3 : Nr w k3 x3 y3 A3)
    (hk : k1 + k2 + k3 + 1 ≤ K) (l1 : 1 ≤ A1) (l2 : (2 : ℝ)⁻¹ ^ 506 ≤ A2) (l3 : (2 : ℝ)⁻¹ ^ 300 ≤ A3)
    (u1 : A1 ≤ 2 ^ 360) (u2 : A2 ≤ 2 ^ 506) (u3 : A3 ≤ 2 ^ 62) :
    Nr w (k1 + k2 + k3 + 2) (R (R (x1 * x2) * x3)) (y1 * y2 * y3) (A1 * A2 * A3) := by
  have p2 : 0 ≤ A2 := le_trans (by positivity) l2
  have p3 : 0 ≤ A3 := le_trans (by positivity) l3
  have l12 : (2 : ℝ)⁻¹ ^ 506 ≤ A1 * A2 := by nlinarith
  have u12 : A1 * A2 ≤ 2 ^ (360 + 506) := pow_mul_le u1 u2 p2
  have u123 : A1 * A2 * A3 ≤ 2 ^ (360 + 506 + 62) := pow_mul_le u12 u3 p3
  have q1 := g.rnd R (g.mul h1 h2) (by omega) (l12.trans' (pow_le_pow_of_le_one (by norm_num) (by norm_num) (by norm_num)))
    (u12.trans (pow_le_pow_right₀ (by norm_num) (by norm_num)))
  have q2 := g.rnd R (g.mul q1 h3) (by omega) (low_mul l12 l3 (by norm_num)) (u123.trans (pow_le_pow_right₀ (by norm_num) (by norm_num)))
  exact g.mono q2 (by omega)

/-! ### Invariant -/

section
variable (src : Source) (c : ℕ → ℝ) (nmin nmax M : ℕ) (ρ x y : ℝ)

/-- Terms of the three components. -/
noncomputable def tr (n m : ℕ) : ℝ := rfac src n * schmidt n m x * rpow src ρ n *
  (coefG c nmin M n m * cos (m * y) + coefH c nmin M n m * sin (m * y))
noncomputable def tt (n m : ℕ) : ℝ := -dS (cos x) (sin x) n m * rpow src ρ n *
  (coefG c nmin M n m * cos (m * y) + coefH c nmin M n m * sin (m * y))
noncomputable def tp (n m : ℕ) : ℝ := m * Synth.R n m x * rpow src ρ n *
  (coefG c nmin M n m * sin (m * y) - coefH c nmin M n m * cos (m * y))

/-- Their size. -/
noncomputable def amp (n m : ℕ) : ℝ := 2 * (n + 1) * (5 / 2) ^ n / sin x * rpow src ρ n * (|coefG c nmin M n m| + |coefH c nmin M n m| + 2⁻¹ ^ 300)

/-- What is known of the variables of the loops. -/
structure Acc (w : ℝ) (K : ℕ) (e : Env) (ρ' : ℝ) : Prop where
  grow : Grow w K
  int : e.internal = decide (src = .internal)
  coef : ∀ i, e.coeffs i = some (c i)
  size : ∀ i, |c i| ≤ 2 ^ 60
  val : ∀ n m, 1 ≤ n → m ≤ n → n ≤ nmax → ∃ t, e.T (n, m) = some t ∧ Nr w (8 * n) t (schmidt n m x) ((5 / 2) ^ n)
  der : ∀ n m, 1 ≤ n → m ≤ n → n ≤ nmax → ∃ t, e.T (m, n + 1) = some t ∧
    Nr w (8 * n + 4) t (dS (cos x) (sin x) n m) (sqrt 2 * (n + 1) * (5 / 2) ^ n)
  div : ∀ n m, 1 ≤ m → m ≤ n → n ≤ nmax → ∃ t, divPnm R e.T e.theta n m = some t ∧ Nr w (8 * n + 4) t (Synth.R n m x) ((5 / 2) ^ n / sin x)
  turn : ∀ m, 1 ≤ m → m ≤ nmax → Nr w m (e.cosine (R ((m : ℝ) * e.phi))) (cos (m * y)) 1 ∧ Nr w m (e.sine (R ((m : ℝ) * e.phi))) (sin (m * y)) 1
  radius : e.radius = some ρ'
  near : Nr w 1 ρ' ρ ρ
  lo : 1 / 4 ≤ ρ
  hi : ρ ≤ 4
  sin_lo : 2⁻¹ ^ 13 ≤ sin x
  deg : nmax ≤ 250
  first : 1 ≤ nmin
  ops : 13 * nmax + 30 ≤ K
  few : K ≤ 2 ^ 17

/-- State of the loops. -/
structure Inv (w : ℝ) (k n num : ℕ) (Br Bt Bp A : ℝ) (s : St) : Prop where
  ex : ∃ r t p q, s = ⟨⟨some r, some t, some p⟩, num, some q⟩ ∧ Nr w k r Br A ∧ Nr w k t Bt A ∧ Nr w k p Bp A ∧
    Nr w (4 * n + 7) q (rpow src ρ n) (rpow src ρ n)
  size : A ≤ k * 2 ^ 930

variable {R} {src c nmin nmax M ρ x y} {e : Env} {ρ' : ℝ} (acc : Acc R src c nmin nmax ρ x y w K e ρ')

/-- Factor of the size. -/
noncomputable def fac (x : ℝ) (n : ℕ) : ℝ := 2 * (n + 1) * (5 / 2) ^ n / sin x
/-- Size of the coefficients. -/
noncomputable def mag (c : ℕ → ℝ) (nmin M n m : ℕ) : ℝ := |coefG c nmin M n m| + |coefH c nmin M n m| + 2⁻¹ ^ 300

include acc

theorem Acc.sin_pos : 0 < sin x := lt_of_lt_of_le (by positivity) acc.sin_lo

theorem Acc.fac_bounds {n : ℕ} (hn1 : 1 ≤ n) (hn : n ≤ nmax) : 2 * ((n : ℝ) + 1) * (5 / 2) ^ n ≤ fac x n ∧ ((n : ℝ) + 1) * ((5 / 2) ^ n / sin x) ≤ fac x n ∧
    fac x n ≤ 2 ^ 360 := by
  have hs := acc.sin_pos
  have h1 := Real.sin_le_one x
  have hd := acc.deg
  have hnr : (n : ℝ) ≤ 250 := by exact_mod_cast (by omega : n ≤ 250)
  have h5 : (5 / 2 : ℝ) ^ n ≤ 2 ^ 336 := pow52' (by omega)
  have h50 : (0 : ℝ) < (5 / 2) ^ n := by positivity
  refine ⟨?_, ?_, ?_⟩
  · unfold fac
    rw [le_div_iff₀ hs]
    nlinarith [mul_pos (by positivity : (0 : ℝ) < 2 * ((n : ℝ) + 1)) h50]
  · unfold fac
    rw [mul_div_assoc]
    have : 0 < (5 / 2 : ℝ) ^ n / sin x := div_pos h50 hs
    nlinarith [(by positivity : (0 : ℝ) ≤ n)]
  · unfold fac
    have h2 : 2 * ((n : ℝ) + 1) * (5 / 2) ^ n ≤ 2 ^ (9 + 336) := pow_mul_le (by norm_num; linarith) h5 h50.le
    have h3 : (sin x)⁻¹ ≤ 2 ^ 13 := by
      rw [inv_le_comm₀ hs (by positivity)]
      rw [← inv_pow]
      exact acc.sin_lo
    rw [div_eq_mul_inv]
    exact (pow_mul_le h2 h3 (inv_pos.2 hs).le).trans (pow_le_pow_right₀ (by norm_num) (by norm_num))

theorem Acc.coefs (n m : ℕ) : |coefG c nmin M n m| ≤ 2 ^ 60 ∧ |coefH c nmin M n m| ≤ 2 ^ 60 := by
  constructor
  · exact acc.size _
  · unfold coefH
    split_ifs
    · rw [abs_zero]
      positivity
    · exact acc.size _

theorem Acc.mag_bounds (n m : ℕ) : (2 : ℝ)⁻¹ ^ 300 ≤ mag c nmin M n m ∧ mag c nmin M n m ≤ 2 ^ 62 := by
  obtain ⟨h1, h2⟩ := acc.coefs (M := M) n m
  have h3 : (2 : ℝ)⁻¹ ^ 300 ≤ 1 := pow_le_one₀ (by norm_num) (by norm_num)
  unfold mag
  constructor
  · linarith [abs_nonneg (coefG c nmin M n m), abs_nonneg (coefH c nmin M n m)]
  · refine (add_le_add (add_le_add h1 h2) h3).trans ?_
    norm_num

theorem Acc.rpow_bounds {n : ℕ} (hn1 : 1 ≤ n) (hn : n ≤ nmax + 1) : (2 : ℝ)⁻¹ ^ 506 ≤ rpow src ρ n ∧ rpow src ρ n ≤ 2 ^ 506 :=
  rpow_size acc.lo acc.hi hn1 (by have := acc.deg; omega)

theorem Acc.amp_bounds {n : ℕ} (m : ℕ) (hn1 : 1 ≤ n) (hn : n ≤ nmax) : (2 : ℝ)⁻¹ ^ 900 ≤ amp src c nmin M ρ x n m ∧ amp src c nmin M ρ x n m ≤ 2 ^ 930 := by
  obtain ⟨a1, a2⟩ := acc.rpow_bounds hn1 (by omega)
  obtain ⟨b1, b2⟩ := acc.mag_bounds (M := M) n m
  obtain ⟨f1, -, f3⟩ := acc.fac_bounds hn1 hn
  have f4 : 1 ≤ fac x n := by
    have : (1 : ℝ) ≤ (5 / 2) ^ n := one_le_pow₀ (by norm_num)
    have h0 : (0 : ℝ) ≤ n := by positivity
    nlinarith
  have h1 : (2 : ℝ)⁻¹ ^ 506 ≤ fac x n * rpow src ρ n := by nlinarith [(by positivity : (0 : ℝ) < 2⁻¹ ^ 506)]
  show (2 : ℝ)⁻¹ ^ 900 ≤ fac x n * rpow src ρ n * mag c nmin M n m ∧ fac x n * rpow src ρ n * mag c nmin M n m ≤ 2 ^ 930
  refine ⟨low_mul h1 b1 (by norm_num), ?_⟩
  refine (pow_mul_le (pow_mul_le f3 a2 (le_trans (by positivity) a1)) b2 (le_trans (by positivity) b1)).trans ?_
  exact pow_le_pow_right₀ (by norm_num) (by norm_num)

/-- One more term. -/
theorem Acc.added {k n : ℕ} (m : ℕ) {B Bx t tx A : ℝ} (hn1 : 1 ≤ n) (hn : n ≤ nmax) (hk : k ≤ K) (h : Nr w k B Bx A)
    (ht : Nr w k t tx (amp src c nmin M ρ x n m)) (hA : A ≤ k * 2 ^ 930) : Nr w (k + 1) (R (B + t)) (Bx + tx) (A + amp src c nmin M ρ x n m) := by
  obtain ⟨l, u⟩ := acc.amp_bounds (M := M) m hn1 hn
  refine acc.grow.rnd R (acc.grow.add h ht) hk (by linarith [h.nonneg.1]) ?_
  have hf := acc.few
  have hkr : (k : ℝ) + 1 ≤ 2 ^ 18 := by
    have : k + 1 ≤ 2 ^ 18 := by omega
    exact_mod_cast this
  calc A + amp src c nmin M ρ x n m ≤ k * 2 ^ 930 + 2 ^ 930 := add_le_add hA u
    _ = (k + 1) * 2 ^ 930 := by ring
    _ ≤ 2 ^ 18 * 2 ^ 930 := mul_le_mul_of_nonneg_right hkr (by positivity)
    _ ≤ 2 ^ 990 := by
      rw [← pow_add]
      exact pow_le_pow_right₀ (by norm_num) (by norm_num)

omit acc in
theorem size_step {k : ℕ} {A B : ℝ} (h : A ≤ k * 2 ^ 930) (h' : B ≤ 2 ^ 930) : A + B ≤ (k + 1 : ℕ) * 2 ^ 930 := by
  push_cast
  rw [add_mul, one_mul]
  exact add_le_add h h'

/-- The product of a number, a value and the radial factor. -/
theorem Acc.head {n m : ℕ} {j : ℕ} {u t y' q v vx : ℝ} (hn1 : 1 ≤ n) (hn : n ≤ nmax) (hu1 : 1 ≤ |u|) (hu : |u| ≤ n + 1) (ru : R u = u)
    (ht : Nr w (8 * n) t y' ((5 / 2) ^ n)) (hq : Nr w (4 * n + 7) q (rpow src ρ n) (rpow src ρ n)) (hj : j ≤ n + 2) (hv : Nr w j v vx (mag c nmin M n m)) :
    Nr w (13 * n + 16) (R (R (R (R u * t) * q) * v)) (u * y' * rpow src ρ n * vx) (amp src c nmin M ρ x n m) := by
  have g := acc.grow
  have ho := acc.ops
  obtain ⟨a1, a2⟩ := acc.rpow_bounds hn1 (by omega)
  obtain ⟨b1, b2⟩ := acc.mag_bounds (M := M) n m
  obtain ⟨f1, -, f3⟩ := acc.fac_bounds hn1 hn
  have h5 : (1 : ℝ) ≤ (5 / 2) ^ n := one_le_pow₀ (by norm_num)
  have hA : |u| * (5 / 2) ^ n ≤ fac x n := le_trans (by nlinarith) f1
  have hA1 : 1 ≤ |u| * (5 / 2 : ℝ) ^ n := by nlinarith
  have p := g.rnd R (g.mul (g.exact (x := u) 0) ht) (by omega) (low_one hA1) ((hA.trans f3).trans (pow_le_pow_right₀ (by norm_num) (by norm_num)))
  have p2 := chain R g p hq hv (by omega) hA1 a1 b1 (hA.trans f3) a2 b2
  rw [ru]
  refine g.enlarge (g.mono p2 (by omega)) ?_
  show _ ≤ fac x n * rpow src ρ n * mag c nmin M n m
  exact mul_le_mul_of_nonneg_right (mul_le_mul_of_nonneg_right hA (le_trans (by positivity) a1)) (le_trans (by positivity) b1)

theorem Acc.headT {n m : ℕ} {j : ℕ} {t y' q v vx : ℝ} (hn1 : 1 ≤ n) (hn : n ≤ nmax) (ht : Nr w (8 * n + 4) t y' (sqrt 2 * (n + 1) * (5 / 2) ^ n))
    (hq : Nr w (4 * n + 7) q (rpow src ρ n) (rpow src ρ n)) (hj : j ≤ n + 2) (hv : Nr w j v vx (mag c nmin M n m)) :
    Nr w (13 * n + 16) (R (R (-t * q) * v)) (-y' * rpow src ρ n * vx) (amp src c nmin M ρ x n m) := by
  have g := acc.grow
  have ho := acc.ops
  obtain ⟨a1, a2⟩ := acc.rpow_bounds hn1 (by omega)
  obtain ⟨b1, b2⟩ := acc.mag_bounds (M := M) n m
  obtain ⟨f1, -, f3⟩ := acc.fac_bounds hn1 hn
  have h5 : (1 : ℝ) ≤ (5 / 2) ^ n := one_le_pow₀ (by norm_num)
  have h2 : sqrt 2 ≤ 2 := by rw [Real.sqrt_le_left (by norm_num)]; norm_num
  have h21 : 1 ≤ sqrt 2 := sqrt_one_le (by norm_num)
  have hn0 : (0 : ℝ) ≤ n := by positivity
  have hA : sqrt 2 * (n + 1) * (5 / 2) ^ n ≤ fac x n := le_trans (by gcongr) f1
  have hA1 : 1 ≤ sqrt 2 * (n + 1) * (5 / 2 : ℝ) ^ n := by
    have : 1 ≤ sqrt 2 * ((n : ℝ) + 1) := by nlinarith
    nlinarith
  have p2 := chain R g (g.neg ht) hq hv (by omega) hA1 a1 b1 (hA.trans f3) a2 b2
  refine g.enlarge (g.mono p2 (by omega)) ?_
  show _ ≤ fac x n * rpow src ρ n * mag c nmin M n m
  exact mul_le_mul_of_nonneg_right (mul_le_mul_of_nonneg_right hA (le_trans (by positivity) a1)) (le_trans (by positivity) b1)

theorem Acc.headP {n m : ℕ} {j : ℕ} {t y' q v vx : ℝ} (hm1 : 1 ≤ m) (hm : m ≤ n) (hn : n ≤ nmax) (ht : Nr w (8 * n + 4) t y' ((5 / 2) ^ n / sin x))
    (hq : Nr w (4 * n + 7) q (rpow src ρ n) (rpow src ρ n)) (hj : j ≤ n + 2) (hv : Nr w j v vx (mag c nmin M n m)) :
    Nr w (13 * n + 16) (R (R (R (R (m : ℝ) * t) * q) * v)) (m * y' * rpow src ρ n * vx) (amp src c nmin M ρ x n m) := by
  have g := acc.grow
  have ho := acc.ops
  have hd := acc.deg
  obtain ⟨a1, a2⟩ := acc.rpow_bounds (n := n) (by omega) (by omega)
  obtain ⟨b1, b2⟩ := acc.mag_bounds (M := M) n m
  obtain ⟨-, f1, f3⟩ := acc.fac_bounds (n := n) (by omega) hn
  have h5 : (1 : ℝ) ≤ (5 / 2) ^ n := one_le_pow₀ (by norm_num)
  have hs := acc.sin_pos
  have h6 : 1 ≤ (5 / 2 : ℝ) ^ n / sin x := by
    rw [le_div_iff₀ hs]
    linarith [Real.sin_le_one x]
  have hm1r : (1 : ℝ) ≤ m := by exact_mod_cast hm1
  have hmr : (m : ℝ) ≤ n := by exact_mod_cast hm
  have hA : (m : ℝ) * ((5 / 2) ^ n / sin x) ≤ fac x n := le_trans (mul_le_mul_of_nonneg_right (by linarith) (by linarith)) f1
  have hA1 : 1 ≤ (m : ℝ) * ((5 / 2 : ℝ) ^ n / sin x) := by nlinarith
  have p0 := g.exact (x := (m : ℝ)) 0
  rw [abs_of_nonneg (by linarith)] at p0
  have p := g.rnd R (g.mul p0 ht) (by omega) (low_one hA1) ((hA.trans f3).trans (pow_le_pow_right₀ (by norm_num) (by norm_num)))
  have p2 := chain R g p hq hv (by omega) hA1 a1 b1 (hA.trans f3) a2 b2
  rw [r_nat R (n := m) (by omega)]
  refine g.enlarge (g.mono p2 (by omega)) ?_
  show _ ≤ fac x n * rpow src ρ n * mag c nmin M n m
  exact mul_le_mul_of_nonneg_right (mul_le_mul_of_nonneg_right hA (le_trans (by positivity) a1)) (le_trans (by positivity) b1)

theorem Acc.prod {m : ℕ} {a t y' : ℝ} (hm : m ≤ nmax) (ha : |a| ≤ 2 ^ 60) (ht : Nr w m t y' 1) : Nr w (m + 1) (R (a * t)) (a * y') (|a| + 2⁻¹ ^ 301) := by
  have g := acc.grow
  have ho := acc.ops
  have h3 : (2 : ℝ)⁻¹ ^ 301 ≤ 1 := pow_le_one₀ (by norm_num) (by norm_num)
  have h4 : (0 : ℝ) < 2⁻¹ ^ 301 := by positivity
  have p := g.enlarge (B := |a| + 2⁻¹ ^ 301) (g.mul (g.exact (x := a) 0) ht) (by rw [mul_one]; linarith)
  refine g.mono (g.rnd R p (by omega) ?_ ?_) (by omega)
  · refine le_trans (pow_le_pow_of_le_one (by norm_num) (by norm_num) (by norm_num : 301 ≤ 900)) ?_
    linarith [abs_nonneg a]
  · refine (add_le_add ha h3).trans ?_
    refine le_trans ?_ (pow_le_pow_right₀ one_le_two (by norm_num : 61 ≤ 990))
    norm_num

omit acc in
theorem half300 : (2 : ℝ)⁻¹ ^ 301 + 2⁻¹ ^ 301 = 2⁻¹ ^ 300 := by
  rw [← two_mul, show (301 : ℕ) = 300 + 1 from rfl, pow_succ]
  ring

theorem Acc.even {n m : ℕ} (hm1 : 1 ≤ m) (hm : m ≤ nmax) :
    Nr w (m + 2) (R (R (coefG c nmin M n m * e.cosine (R ((m : ℝ) * e.phi))) + R (coefH c nmin M n m * e.sine (R ((m : ℝ) * e.phi)))))
      (coefG c nmin M n m * cos (m * y) + coefH c nmin M n m * sin (m * y)) (mag c nmin M n m) := by
  obtain ⟨a1, a2⟩ := acc.coefs (M := M) n m
  obtain ⟨b1, b2⟩ := acc.mag_bounds (M := M) n m
  obtain ⟨t1, t2⟩ := acc.turn m hm1 hm
  have ho := acc.ops
  have p := acc.grow.add (acc.prod hm a1 t1) (acc.prod hm a2 t2)
  have e : |coefG c nmin M n m| + 2⁻¹ ^ 301 + (|coefH c nmin M n m| + 2⁻¹ ^ 301) = mag c nmin M n m := by
    unfold mag
    rw [← half300]
    ring
  rw [e] at p
  exact acc.grow.rnd R p (by omega) (b1.trans' (pow_le_pow_of_le_one (by norm_num) (by norm_num) (by norm_num)))
    (b2.trans (pow_le_pow_right₀ (by norm_num) (by norm_num)))

theorem Acc.odd {n m : ℕ} (hm1 : 1 ≤ m) (hm : m ≤ nmax) :
    Nr w (m + 2) (R (R (coefG c nmin M n m * e.sine (R ((m : ℝ) * e.phi))) - R (coefH c nmin M n m * e.cosine (R ((m : ℝ) * e.phi)))))
      (coefG c nmin M n m * sin (m * y) - coefH c nmin M n m * cos (m * y)) (mag c nmin M n m) := by
  obtain ⟨a1, a2⟩ := acc.coefs (M := M) n m
  obtain ⟨b1, b2⟩ := acc.mag_bounds (M := M) n m
  obtain ⟨t1, t2⟩ := acc.turn m hm1 hm
  have ho := acc.ops
  have p := acc.grow.sub (acc.prod hm a1 t2) (acc.prod hm a2 t1)
  have e : |coefG c nmin M n m| + 2⁻¹ ^ 301 + (|coefH c nmin M n m| + 2⁻¹ ^ 301) = mag c nmin M n m := by
    unfold mag
    rw [← half300]
    ring
  rw [e] at p
  exact acc.grow.rnd R p (by omega) (b1.trans' (pow_le_pow_of_le_one (by norm_num) (by norm_num) (by norm_num)))
    (b2.trans (pow_le_pow_right₀ (by norm_num) (by norm_num)))

/-- The terms with `m = 0`. -/
theorem Acc.zonal {k n : ℕ} {Br Bt Bp A : ℝ} {s : St} (hn1 : 1 ≤ n) (hn : n ≤ nmax) (hk : 13 * n + 16 ≤ k) (hkK : k ≤ K)
    (h : Inv src ρ w k n (coefStart nmin M n) Br Bt Bp A s) :
    Inv src ρ w (k + 1) n (coefStart nmin M n + 1) (Br + tr src c nmin M ρ x y n 0) (Bt + tt src c nmin M ρ x y n 0) (Bp + tp src c nmin M ρ x y n 0)
      (A + amp src c nmin M ρ x n 0) (zonalStep R e n s) := by
  obtain ⟨⟨r, t, p, q, rfl, hr, ht, hp, hq⟩, hsize⟩ := h
  have g := acc.grow
  have hd := acc.deg
  have hn1r : (1 : ℝ) ≤ n := by exact_mod_cast hn1
  obtain ⟨t1, ht1, v1⟩ := acc.val n 0 hn1 (by omega) hn
  obtain ⟨t2, ht2, v2⟩ := acc.der n 0 hn1 (by omega) hn
  obtain ⟨l, u⟩ := acc.amp_bounds (M := M) 0 hn1 hn
  have eG : coefG c nmin M n 0 = c (coefStart nmin M n) := by simp [coefG]
  have eH : coefH c nmin M n 0 = 0 := by simp [coefH]
  have hv : Nr w 0 (c (coefStart nmin M n)) (c (coefStart nmin M n)) (mag c nmin M n 0) := by
    refine g.enlarge (g.exact 0) ?_
    unfold mag
    rw [eG, eH]
    have : (0 : ℝ) < 2⁻¹ ^ 300 := by positivity
    simp only [abs_zero, add_zero]
    linarith
  have e1 : tr src c nmin M ρ x y n 0 = rfac src n * schmidt n 0 x * rpow src ρ n * c (coefStart nmin M n) := by
    unfold tr
    rw [eG, eH]
    simp
  have e2 : tt src c nmin M ρ x y n 0 = -dS (cos x) (sin x) n 0 * rpow src ρ n * c (coefStart nmin M n) := by
    unfold tt
    rw [eG, eH]
    simp
  have e3 : tp src c nmin M ρ x y n 0 = 0 := by simp [tp]
  have hT := acc.headT hn1 hn v2 hq (by omega) hv
  have hR : ∃ z, (if e.internal then fadd R (some r) (fmul R (fmul R (fmul R (some (R ((n : ℝ) + 1))) (some t1)) (some q)) (some (c (coefStart nmin M n))))
      else fadd R (some r) (fmul R (fmul R (fmul R (some (R (-(n : ℝ)))) (some t1)) (some q)) (some (c (coefStart nmin M n))))) = some (R (r + z)) ∧
      Nr w (13 * n + 16) z (tr src c nmin M ρ x y n 0) (amp src c nmin M ρ x n 0) := by
    rw [e1, acc.int]
    cases src with
    | internal =>
      refine ⟨R (R (R (R ((n : ℝ) + 1) * t1) * q) * c (coefStart nmin M n)), by simp only [decide_true, if_true, fmul, fadd], ?_⟩
      have ru : R ((n : ℝ) + 1) = (n : ℝ) + 1 := by
        have := r_nat R (n := n + 1) (by omega)
        push_cast at this
        exact this
      exact acc.head (u := (n : ℝ) + 1) hn1 hn (by rw [abs_of_nonneg (by linarith)]; linarith) (by rw [abs_of_nonneg (by linarith)]) ru v1 hq (by omega) hv
    | external =>
      refine ⟨R (R (R (R (-(n : ℝ)) * t1) * q) * c (coefStart nmin M n)), by simp only [reduceCtorEq, decide_false, Bool.false_eq_true, if_false, fmul, fadd], ?_⟩
      exact acc.head (u := -(n : ℝ)) hn1 hn (by rw [abs_neg, abs_of_nonneg (by linarith)]; linarith)
        (by rw [abs_neg, abs_of_nonneg (by linarith)]; linarith) (r_neg_nat R (by omega)) v1 hq (by omega) hv
  obtain ⟨z, hz, hz2⟩ := hR
  refine ⟨⟨R (r + z), R (t + R (R (-t2 * q) * c (coefStart nmin M n))), p, q, ?_, acc.added 0 hn1 hn hkK hr (g.mono hz2 hk) hsize, ?_, ?_, hq⟩,
    size_step hsize u⟩
  · unfold zonalStep
    simp only [acc.coef, ht1, ht2]
    rw [hz]
    rfl
  · rw [e2]
    exact acc.added 0 hn1 hn hkK ht (g.mono hT hk) hsize
  · rw [e3, add_zero]
    exact g.enlarge (g.mono hp (by omega)) (by linarith [(by positivity : (0 : ℝ) < 2⁻¹ ^ 900)])

/-- The terms with `m ≥ 1`. -/
theorem Acc.order {k n m : ℕ} {Br Bt Bp A : ℝ} {s : St} (hm1 : 1 ≤ m) (hm : m ≤ n) (hn : n ≤ nmax) (hk : 13 * n + 16 ≤ k) (hkK : k ≤ K)
    (h : Inv src ρ w k n (coefStart nmin M n + (2 * m - 1)) Br Bt Bp A s) :
    Inv src ρ w (k + 1) n (coefStart nmin M n + (2 * (m + 1) - 1)) (Br + tr src c nmin M ρ x y n m) (Bt + tt src c nmin M ρ x y n m)
      (Bp + tp src c nmin M ρ x y n m) (A + amp src c nmin M ρ x n m) (orderStep R e n s m) := by
  obtain ⟨⟨r, t, p, q, rfl, hr, ht, hp, hq⟩, hsize⟩ := h
  have g := acc.grow
  have hd := acc.deg
  have hn1 : 1 ≤ n := by omega
  have hn1r : (1 : ℝ) ≤ n := by exact_mod_cast hn1
  obtain ⟨t1, ht1, v1⟩ := acc.val n m hn1 hm hn
  obtain ⟨t2, ht2, v2⟩ := acc.der n m hn1 hm hn
  obtain ⟨t3, ht3, v3⟩ := acc.div n m hm1 hm hn
  obtain ⟨l, u⟩ := acc.amp_bounds (M := M) m hn1 hn
  have hne : m ≠ 0 := by omega
  have eG : coefG c nmin M n m = c (coefStart nmin M n + (2 * m - 1)) := by simp [coefG, hne]
  have eH : coefH c nmin M n m = c (coefStart nmin M n + (2 * m - 1) + 1) := by
    simp only [coefH, if_neg hne]
    congr 1
    omega
  have hE := acc.even (M := M) (n := n) hm1 (by omega)
  have hO := acc.odd (M := M) (n := n) hm1 (by omega)
  have hT := acc.headT hn1 hn v2 hq (by omega) hE
  have hP := acc.headP hm1 hm hn v3 hq (by omega) hO
  set E := R (R (coefG c nmin M n m * e.cosine (R ((m : ℝ) * e.phi))) + R (coefH c nmin M n m * e.sine (R ((m : ℝ) * e.phi)))) with hEd
  set O := R (R (coefG c nmin M n m * e.sine (R ((m : ℝ) * e.phi))) - R (coefH c nmin M n m * e.cosine (R ((m : ℝ) * e.phi)))) with hOd
  have hR : ∃ z, (if e.internal then fadd R (some r) (fmul R (fmul R (fmul R (some (R ((n : ℝ) + 1))) (some t1)) (some q)) (some E))
      else fadd R (some r) (fneg (fmul R (fmul R (fmul R (some (R (n : ℝ))) (some t1)) (some q)) (some E)))) = some (R (r + z)) ∧
      Nr w (13 * n + 16) z (tr src c nmin M ρ x y n m) (amp src c nmin M ρ x n m) := by
    rw [acc.int]
    unfold tr
    cases src with
    | internal =>
      refine ⟨R (R (R (R ((n : ℝ) + 1) * t1) * q) * E), by simp only [decide_true, if_true, fmul, fadd], ?_⟩
      have ru : R ((n : ℝ) + 1) = (n : ℝ) + 1 := by
        have := r_nat R (n := n + 1) (by omega)
        push_cast at this
        exact this
      exact acc.head (u := (n : ℝ) + 1) hn1 hn (by rw [abs_of_nonneg (by linarith)]; linarith) (by rw [abs_of_nonneg (by linarith)]) ru v1 hq (by omega) hE
    | external =>
      refine ⟨-R (R (R (R (n : ℝ) * t1) * q) * E), by simp only [reduceCtorEq, decide_false, Bool.false_eq_true, if_false, fmul, fadd, fneg], ?_⟩
      have := acc.head (u := (n : ℝ)) hn1 hn (by rw [abs_of_nonneg (by linarith)]; linarith)
        (by rw [abs_of_nonneg (by linarith)]; linarith) (r_nat R (by omega)) v1 hq (by omega) hE
      have := g.neg this
      simp only [rfac, neg_mul] at this ⊢
      exact this
  obtain ⟨z, hz, hz2⟩ := hR
  refine ⟨⟨R (r + z), R (t + R (R (-t2 * q) * E)), R (p + R (R (R (R (m : ℝ) * t3) * q) * O)), q, ?_, acc.added m hn1 hn hkK hr (g.mono hz2 hk) hsize,
    acc.added m hn1 hn hkK ht (g.mono hT hk) hsize, acc.added m hn1 hn hkK hp (g.mono hP hk) hsize, hq⟩, size_step hsize u⟩
  unfold orderStep
  simp only [acc.coef, ht1, ht2, ht3]
  rw [← eG, ← eH]
  have h1 : fadd R (fmul R (some (coefG c nmin M n m)) (some (e.cosine (R ((m : ℝ) * e.phi)))))
      (fmul R (some (coefH c nmin M n m)) (some (e.sine (R ((m : ℝ) * e.phi))))) = some E := rfl
  have h2 : fsub R (fmul R (some (coefG c nmin M n m)) (some (e.sine (R ((m : ℝ) * e.phi)))))
      (fmul R (some (coefH c nmin M n m)) (some (e.cosine (R ((m : ℝ) * e.phi))))) = some O := rfl
  rw [h1, h2, hz]
  have e4 : coefStart nmin M n + (2 * m - 1) + 2 = coefStart nmin M n + (2 * (m + 1) - 1) := by omega
  rw [e4]
  rfl

omit acc in
theorem foldl_inv {σ : Type} (f : σ → ℕ → σ) (P : ℕ → σ → Prop) (a b : ℕ) (h : a ≤ b) (s : σ) (h0 : P a s)
    (hstep : ∀ k s, a ≤ k → k < b → P k s → P (k + 1) (f s k)) : P b ((pyRange a b).foldl f s) := by
  obtain ⟨d, rfl⟩ := Nat.exists_eq_add_of_le h
  clear h
  unfold pyRange
  rw [Nat.add_sub_cancel_left]
  induction d with
  | zero => exact h0
  | succ d ih =>
    rw [List.range'_concat, List.foldl_append]
    simp only [List.foldl_cons, List.foldl_nil, one_mul]
    exact hstep (a + d) _ (by omega) (by omega) (ih (fun k s h1 h2 => hstep k s h1 (by omega)))

theorem Acc.inv_mono {j k n num : ℕ} {Br Bt Bp A : ℝ} {s : St} (h : Inv src ρ w j n num Br Bt Bp A s) (hjk : j ≤ k) : Inv src ρ w k n num Br Bt Bp A s := by
  obtain ⟨⟨r, t, p, q, e1, hr, ht, hp, hq⟩, hsize⟩ := h
  have g := acc.grow
  refine ⟨⟨r, t, p, q, e1, g.mono hr hjk, g.mono ht hjk, g.mono hp hjk, hq⟩, hsize.trans ?_⟩
  exact mul_le_mul_of_nonneg_right (by exact_mod_cast hjk) (by positivity)

/-- Change of the radial factor. -/
theorem Acc.factor {n : ℕ} {q : ℝ} (hn1 : 1 ≤ n) (hn : n ≤ nmax) (hq : Nr w (4 * n + 7) q (rpow src ρ n) (rpow src ρ n)) :
    ∃ q', (if e.internal then fdiv R (some q) e.radius else fmul R (some q) e.radius) = some q' ∧
      Nr w (4 * (n + 1) + 7) q' (rpow src ρ (n + 1)) (rpow src ρ (n + 1)) := by
  have g := acc.grow
  have ho := acc.ops
  have h0 : 0 < ρ := lt_of_lt_of_le (by norm_num) acc.lo
  obtain ⟨a1, a2⟩ := acc.rpow_bounds (n := n + 1) (by omega) (by omega)
  have l : (2 : ℝ)⁻¹ ^ 900 ≤ rpow src ρ (n + 1) := a1.trans' (pow_le_pow_of_le_one (by norm_num) (by norm_num) (by norm_num))
  have u : rpow src ρ (n + 1) ≤ 2 ^ 990 := a2.trans (pow_le_pow_right₀ (by norm_num) (by norm_num))
  rw [acc.int, acc.radius]
  cases src with
  | internal =>
    obtain ⟨hp, hi⟩ := g.inv h0 acc.near (by omega) (w_small g (by omega))
    have e1 : rpow .internal ρ n * ρ⁻¹ = rpow .internal ρ (n + 1) := by
      rw [← rnStep_eq .internal ρ h0.ne' n, ← div_eq_mul_inv]
      rfl
    have p := g.mul hq hi
    rw [e1] at p
    refine ⟨R (q * ρ'⁻¹), ?_, g.mono (g.rnd R p (by omega) l u) (by omega)⟩
    simp only [decide_true, if_true, fdiv]
    rw [if_neg hp.ne', div_eq_mul_inv]
  | external =>
    have e1 : rpow .external ρ n * ρ = rpow .external ρ (n + 1) := rnStep_eq .external ρ h0.ne' n
    have p := g.mul hq acc.near
    rw [e1] at p
    refine ⟨R (q * ρ'), ?_, g.mono (g.rnd R p (by omega) l u) (by omega)⟩
    simp only [reduceCtorEq, decide_false, Bool.false_eq_true, if_false, fmul]

/-- One degree. -/
theorem Acc.degree {k n : ℕ} {Br Bt Bp A : ℝ} {s : St} (hmin : nmin ≤ n) (hn : n ≤ nmax) (hk : 13 * n + 16 ≤ k) (hkK : k + (min n M + 1) ≤ K)
    (h : Inv src ρ w k n (coefStart nmin M n) Br Bt Bp A s) :
    Inv src ρ w (k + (min n M + 1)) (n + 1) (coefStart nmin M (n + 1)) (Br + ∑ m ∈ Finset.range (min n M + 1), tr src c nmin M ρ x y n m)
      (Bt + ∑ m ∈ Finset.range (min n M + 1), tt src c nmin M ρ x y n m) (Bp + ∑ m ∈ Finset.range (min n M + 1), tp src c nmin M ρ x y n m)
      (A + ∑ m ∈ Finset.range (min n M + 1), amp src c nmin M ρ x n m) (degreeStep R e M s n) := by
  have hn1 : 1 ≤ n := acc.first.trans hmin
  have h1 := acc.zonal hn1 hn hk (by omega) h
  have h2 := foldl_inv (orderStep R e n) (fun m s => Inv src ρ w (k + m) n (coefStart nmin M n + (2 * m - 1))
    (Br + ∑ j ∈ Finset.range m, tr src c nmin M ρ x y n j) (Bt + ∑ j ∈ Finset.range m, tt src c nmin M ρ x y n j)
    (Bp + ∑ j ∈ Finset.range m, tp src c nmin M ρ x y n j) (A + ∑ j ∈ Finset.range m, amp src c nmin M ρ x n j) s) 1 (min n M + 1) (by omega)
    (zonalStep R e n s) (by simpa using h1) (fun m s hm1 hm2 hi => by
      have := acc.order hm1 (by omega) hn (by omega) (by omega) hi
      simp only [Finset.sum_range_succ, ← add_assoc]
      exact this)
  obtain ⟨⟨r, t, p, q, e1, hr, ht, hp, hq⟩, hsize⟩ := h2
  obtain ⟨q', hq1, hq2⟩ := acc.factor hn1 hn hq
  refine ⟨⟨r, t, p, q', ?_, hr, ht, hp, hq2⟩, hsize⟩
  unfold degreeStep
  simp only
  rw [e1]
  simp only
  rw [hq1, coefStart_succ nmin M n hmin]
  congr 1

/-- All degrees. -/
theorem Acc.total {q : ℝ} (hmin : nmin ≤ nmax) (hops : 13 * nmax + 16 + (nmax + 1 - nmin) * (nmax + 1) ≤ K)
    (hq : Nr w (4 * nmin + 7) q (rpow src ρ nmin) (rpow src ρ nmin)) :
    ∃ r t p, field R e nmin nmax M (some q) = ⟨some r, some t, some p⟩ ∧
      Nr w (13 * nmax + 16 + (nmax + 1 - nmin) * (nmax + 1)) r (∑ n ∈ Finset.Icc nmin nmax, ∑ m ∈ Finset.range (min n M + 1), tr src c nmin M ρ x y n m)
        (∑ n ∈ Finset.Icc nmin nmax, ∑ m ∈ Finset.range (min n M + 1), amp src c nmin M ρ x n m) ∧
      Nr w (13 * nmax + 16 + (nmax + 1 - nmin) * (nmax + 1)) t (∑ n ∈ Finset.Icc nmin nmax, ∑ m ∈ Finset.range (min n M + 1), tt src c nmin M ρ x y n m)
        (∑ n ∈ Finset.Icc nmin nmax, ∑ m ∈ Finset.range (min n M + 1), amp src c nmin M ρ x n m) ∧
      Nr w (13 * nmax + 16 + (nmax + 1 - nmin) * (nmax + 1)) p (∑ n ∈ Finset.Icc nmin nmax, ∑ m ∈ Finset.range (min n M + 1), tp src c nmin M ρ x y n m)
        (∑ n ∈ Finset.Icc nmin nmax, ∑ m ∈ Finset.range (min n M + 1), amp src c nmin M ρ x n m) := by
  have g := acc.grow
  have hz : Nr w (13 * nmax + 16) 0 0 0 := by simpa using g.exact (x := 0) (13 * nmax + 16)
  have h := foldl_inv (degreeStep R e M) (fun n s => Inv src ρ w (13 * nmax + 16 + (n - nmin) * (nmax + 1)) n (coefStart nmin M n)
    (∑ k ∈ Finset.Ico nmin n, ∑ m ∈ Finset.range (min k M + 1), tr src c nmin M ρ x y k m)
    (∑ k ∈ Finset.Ico nmin n, ∑ m ∈ Finset.range (min k M + 1), tt src c nmin M ρ x y k m)
    (∑ k ∈ Finset.Ico nmin n, ∑ m ∈ Finset.range (min k M + 1), tp src c nmin M ρ x y k m)
    (∑ k ∈ Finset.Ico nmin n, ∑ m ∈ Finset.range (min k M + 1), amp src c nmin M ρ x k m) s) nmin (nmax + 1) (by omega)
    ⟨⟨some 0, some 0, some 0⟩, 0, some q⟩
    (by
      simp only [Finset.Ico_self, Finset.sum_empty, Nat.sub_self, zero_mul, add_zero, coefStart_self]
      exact ⟨⟨0, 0, 0, q, rfl, hz, hz, hz, hq⟩, by positivity⟩)
    (fun n s hn1 hn2 hi => by
      have hb : (n - nmin) * (nmax + 1) + (nmax + 1) = (n + 1 - nmin) * (nmax + 1) := by
        rw [show n + 1 - nmin = (n - nmin) + 1 by omega]
        ring
      have hb2 : (n + 1 - nmin) * (nmax + 1) ≤ (nmax + 1 - nmin) * (nmax + 1) := Nat.mul_le_mul_right _ (by omega)
      have hb3 : min n M ≤ n := min_le_left _ _
      have := acc.degree hn1 (by omega) (by omega) (by omega) hi
      simp only [Finset.sum_Ico_succ_top hn1]
      exact acc.inv_mono this (by omega))
  obtain ⟨⟨r, t, p, q', e1, hr, ht, hp, -⟩, -⟩ := h
  simp only [sum_Ico_Icc] at hr ht hp
  exact ⟨r, t, p, by unfold field; rw [e1], hr, ht, hp⟩

end

/-! ### The start -/

include g in
theorem Nr_pow {k : ℕ} {a b A : ℝ} (h : Nr w k a b A) (n : ℕ) : Nr w (n * k) (a ^ n) (b ^ n) (A ^ n) := by
  induction n with
  | zero => simpa using g.exact (x := 1) 0
  | succ n ih =>
    rw [pow_succ, pow_succ, pow_succ, show (n + 1) * k = n * k + k by ring]
    exact g.mul ih h

include g in
/-- Initial radial factor. -/
theorem init_near (P : FloatSpectrum.Power) {src : Source} {ρ ρ' : ℝ} {nmin : ℕ} (hmin : 1 ≤ nmin) (hmax : nmin ≤ 250) (hK : 2000 ≤ K) (h : Nr w 1 ρ' ρ ρ)
    (lo : 1 / 4 ≤ ρ) (hi : ρ ≤ 4) :
    ∃ q, rnInit (decide (src = .internal)) P.fn nmin ρ' = some q ∧ Nr w (4 * nmin + 7) q (rpow src ρ nmin) (rpow src ρ nmin) := by
  have h0 : 0 < ρ := lt_of_lt_of_le (by norm_num) lo
  obtain ⟨hp, hinv⟩ := g.inv h0 h (by omega) (w_small g (by omega))
  have main : ∀ k : ℤ, k.natAbs ≤ 252 → Nr w (3 * k.natAbs) (ρ' ^ k) (ρ ^ k) (ρ ^ k) := by
    intro k hk
    obtain ⟨j, rfl | rfl⟩ := k.eq_nat_or_neg
    · simp only [zpow_natCast, Int.natAbs_natCast]
      exact g.mono (Nr_pow g h j) (by omega)
    · simp only [zpow_neg, zpow_natCast, Int.natAbs_neg, Int.natAbs_natCast, ← inv_pow]
      exact g.mono (Nr_pow g hinv j) (by omega)
  have all : ∀ k : ℤ, k.natAbs ≤ 252 → Nr w (3 * k.natAbs + 1) (P.fn ρ' k) (ρ ^ k) (ρ ^ k) := by
    intro k hk
    obtain ⟨z1, z2⟩ := zpow_size lo hi (k := k) (by omega)
    have m := main k hk
    have hw : w ^ (3 * k.natAbs) ≤ 3 / 2 := by
      have h2 := g.pow_le (k := 2 * (3 * k.natAbs)) (by omega)
      rw [mul_comm, pow_mul] at h2
      have h3 := g.pow_one_le (3 * k.natAbs)
      nlinarith
    have herr := abs_le.1 (Near.err m)
    have hpk : 0 < ρ ^ k := zpow_pos h0 k
    have b1 : 2⁻¹ * ρ ^ k ≤ ρ' ^ k := by nlinarith [herr.1]
    have b2 : ρ' ^ k ≤ 2 * ρ ^ k := by nlinarith [herr.2]
    have hp' : 0 < ρ' ^ k := zpow_pos hp k
    obtain ⟨-, ha⟩ := P.accurate ρ' k hp (by
      rw [show (2 : ℝ) ^ (-900 : ℤ) = 2⁻¹ ^ 900 by
        rw [show (-900 : ℤ) = -((900 : ℕ) : ℤ) from rfl, zpow_neg, zpow_natCast, inv_pow]]
      refine le_trans ?_ b1
      calc (2 : ℝ)⁻¹ ^ 900 ≤ 2⁻¹ ^ (506 + 1) := pow_le_pow_of_le_one (by norm_num) (by norm_num) (by norm_num)
        _ = 2⁻¹ * 2⁻¹ ^ 506 := pow_succ' _ _
        _ ≤ 2⁻¹ * ρ ^ k := mul_le_mul_of_nonneg_left z1 (by norm_num)) (by
      refine b2.trans ?_
      calc 2 * ρ ^ k ≤ 2 * 2 ^ 506 := mul_le_mul_of_nonneg_left z2 (by norm_num)
        _ = 2 ^ 507 := (pow_succ' _ _).symm
        _ ≤ 2 ^ 900 := pow_le_pow_right₀ (by norm_num) (by norm_num))
    have f := g.of_rel (x := P.fn ρ' k) (y := ρ' ^ k) (by
      rw [abs_of_pos hp']
      refine ha.trans (mul_le_mul_of_nonneg_right ?_ hp'.le)
      have := g.ge
      refine le_trans ?_ (le_sub_iff_add_le'.2 this)
      norm_num)
    exact g.mono (Nr_trans g f m) (by omega)
  cases src with
  | internal =>
    refine ⟨P.fn ρ' (-((nmin : ℤ) + 2)), ?_, g.mono (all (-((nmin : ℤ) + 2)) (by omega)) (by omega)⟩
    unfold rnInit
    simp only [decide_true, if_true]
    rw [if_neg (fun h => hp.ne' h.1)]
  | external =>
    refine ⟨P.fn ρ' ((nmin : ℤ) - 1), ?_, g.mono (all ((nmin : ℤ) - 1) (by omega)) (by omega)⟩
    unfold rnInit
    simp only [reduceCtorEq, decide_false, Bool.false_eq_true, if_false]
    rw [if_neg (fun h => hp.ne' h.1)]

end ChaosMagPy.FloatLegendre
