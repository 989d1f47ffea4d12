import Verif.Lemmas.Near
import Verif.Model.FloatSpectrum
import Mathlib.Algebra.Order.BigOperators.Group.List
/-!
# Relative errors, sums of doubles in any order, roots of squares
-/
namespace ChaosMagPy.Float
open ChaosMagPy.Spec
open ChaosMagPy.FloatSpectrum

/-- `1 - 2^(-53)`. -/
noncomputable def vv : ℝ := 1 - uu

theorem uu_small : uu ≤ 1 / 2 ^ 53 := by unfold uu; norm_num
theorem uu_eq : uu = 1 / 2 ^ 53 := by unfold uu; norm_num
theorem vv_pos : 0 < vv := by unfold vv; rw [uu_eq]; norm_num
theorem vv_le : vv ≤ 1 := by unfold vv; linarith [uu_pos]
theorem vvp (k : ℕ) : 0 < vv ^ k := pow_pos vv_pos k
theorem vvp_le (k : ℕ) : vv ^ k ≤ 1 := pow_le_one₀ vv_pos.le vv_le
theorem vvp_anti {j k : ℕ} (h : j ≤ k) : vv ^ k ≤ vv ^ j := pow_le_pow_of_le_one vv_pos.le vv_le h

/-- `x` is `y` with the relative error of `k` roundings. -/
def Rel (k : ℕ) (x y : ℝ) : Prop := ∃ θ, x = θ * y ∧ vv ^ k ≤ θ ∧ θ * vv ^ k ≤ 1

theorem Rel.refl (x : ℝ) : Rel 0 x x := ⟨1, by ring, by simp, by simp⟩

theorem Rel.mono {j k : ℕ} {x y : ℝ} (h : Rel j x y) (hk : j ≤ k) : Rel k x y := by
  obtain ⟨θ, e, h1, h2⟩ := h
  have hθ : 0 < θ := (vvp j).trans_le h1
  exact ⟨θ, e, (vvp_anti hk).trans h1, (mul_le_mul_of_nonneg_left (vvp_anti hk) hθ.le).trans h2⟩

theorem Rel.mul {j k : ℕ} {x y x' y' : ℝ} (h : Rel j x y) (h' : Rel k x' y') : Rel (j + k) (x * x') (y * y') := by
  obtain ⟨θ, e, h1, h2⟩ := h
  obtain ⟨θ', e', h1', h2'⟩ := h'
  have hθ : 0 < θ := (vvp j).trans_le h1
  have hθ' : 0 < θ' := (vvp k).trans_le h1'
  refine ⟨θ * θ', by rw [e, e']; ring, ?_, ?_⟩
  · rw [pow_add]
    exact mul_le_mul h1 h1' (vvp k).le hθ.le
  · rw [pow_add, show θ * θ' * (vv ^ j * vv ^ k) = (θ * vv ^ j) * (θ' * vv ^ k) by ring]
    exact mul_le_one₀ h2 (mul_pos hθ' (vvp k)).le h2'

theorem Rel.trans {j k : ℕ} {x y z : ℝ} (h : Rel j x y) (h' : Rel k y z) : Rel (j + k) x z := by
  obtain ⟨θ, e, h1, h2⟩ := h
  have : Rel j θ 1 := ⟨θ, by ring, h1, h2⟩
  have := this.mul h'
  rwa [one_mul, ← e] at this

theorem Rel.inv {k : ℕ} {x y : ℝ} (h : Rel k x y) : Rel k x⁻¹ y⁻¹ := by
  obtain ⟨θ, e, h1, h2⟩ := h
  have hθ : 0 < θ := (vvp k).trans_le h1
  refine ⟨θ⁻¹, by rw [e, mul_inv], ?_, ?_⟩
  · rw [le_inv_comm₀ (vvp k) hθ, ← one_div, le_div_iff₀ (vvp k)]
    exact h2
  · rw [inv_mul_le_iff₀ hθ, mul_one]
    exact h1

theorem Rel.div {j k : ℕ} {x y x' y' : ℝ} (h : Rel j x y) (h' : Rel k x' y') : Rel (j + k) (x / x') (y / y') := by
  rw [div_eq_mul_inv, div_eq_mul_inv]
  exact h.mul h'.inv

theorem Rel.pow {k : ℕ} {x y : ℝ} (h : Rel k x y) (n : ℕ) : Rel (n * k) (x ^ n) (y ^ n) := by
  induction n with
  | zero => simpa using Rel.refl 1
  | succ n ih =>
    rw [pow_succ, pow_succ, show (n + 1) * k = n * k + k by ring]
    exact ih.mul h

theorem Rel.zpow {k : ℕ} {x y : ℝ} (h : Rel k x y) (n : ℤ) : Rel (n.natAbs * k) (x ^ n) (y ^ n) := by
  obtain ⟨m, rfl | rfl⟩ := n.eq_nat_or_neg
  · simpa using h.pow m
  · rw [zpow_neg, zpow_neg, zpow_natCast, zpow_natCast, Int.natAbs_neg, Int.natAbs_natCast]
    exact (h.pow m).inv

theorem Rel.sqrt {k : ℕ} {x y : ℝ} (h : Rel k x y) : Rel k (Real.sqrt x) (Real.sqrt y) := by
  obtain ⟨θ, e, h1, h2⟩ := h
  have hθ : 0 < θ := (vvp k).trans_le h1
  have hle : vv ^ k ≤ Real.sqrt (vv ^ k) := by
    apply Real.le_sqrt_of_sq_le
    nlinarith [vvp k, vvp_le k]
  refine ⟨Real.sqrt θ, by rw [e, Real.sqrt_mul hθ.le], ?_, ?_⟩
  · exact hle.trans (Real.sqrt_le_sqrt h1)
  · calc Real.sqrt θ * vv ^ k ≤ Real.sqrt θ * Real.sqrt (vv ^ k) := mul_le_mul_of_nonneg_left hle (Real.sqrt_nonneg _)
      _ = Real.sqrt (θ * vv ^ k) := (Real.sqrt_mul hθ.le _).symm
      _ ≤ 1 := by
        rw [Real.sqrt_le_iff]
        exact ⟨by norm_num, by linarith⟩

/-- The square root halves the number of roundings. -/
theorem Rel.sqrt' {k : ℕ} {x y : ℝ} (h : Rel (2 * k) x y) : Rel k (Real.sqrt x) (Real.sqrt y) := by
  obtain ⟨θ, e, h1, h2⟩ := h
  have hθ : 0 < θ := (vvp _).trans_le h1
  have hs : Real.sqrt (vv ^ (2 * k)) = vv ^ k := by rw [mul_comm, pow_mul, Real.sqrt_sq (vvp k).le]
  refine ⟨Real.sqrt θ, by rw [e, Real.sqrt_mul hθ.le], ?_, ?_⟩
  · rw [← hs]
    exact Real.sqrt_le_sqrt h1
  · rw [← hs, ← Real.sqrt_mul hθ.le, Real.sqrt_le_iff]
    exact ⟨by norm_num, by linarith⟩

/-- For positive values the relation is a pair of inequalities. -/
theorem rel_iff {k : ℕ} {x y : ℝ} (hy : 0 ≤ y) : Rel k x y ↔ vv ^ k * y ≤ x ∧ x * vv ^ k ≤ y := by
  constructor
  · rintro ⟨θ, rfl, h1, h2⟩
    refine ⟨mul_le_mul_of_nonneg_right h1 hy, ?_⟩
    nlinarith [mul_le_mul_of_nonneg_right h2 hy]
  · rintro ⟨h1, h2⟩
    rcases hy.eq_or_lt with h0 | h0
    · rw [← h0] at h1 h2
      have : x = 0 := by
        have := vvp k
        apply le_antisymm
        · by_contra hc
          push Not at hc
          nlinarith [mul_pos hc this]
        · simpa using h1
      rw [← h0, this]
      exact (Rel.refl 0).mono (Nat.zero_le k)
    · refine ⟨x / y, by field_simp, ?_, ?_⟩
      · rw [le_div_iff₀ h0]
        exact h1
      · rw [div_mul_eq_mul_div, div_le_one h0]
        exact h2

theorem Rel.add {k : ℕ} {x y x' y' : ℝ} (h : Rel k x y) (h' : Rel k x' y') (hy : 0 ≤ y) (hy' : 0 ≤ y') : Rel k (x + x') (y + y') := by
  rw [rel_iff hy] at h
  rw [rel_iff hy'] at h'
  rw [rel_iff (add_nonneg hy hy')]
  constructor <;> nlinarith [h.1, h.2, h'.1, h'.2]

theorem Rel.nonneg {k : ℕ} {x y : ℝ} (h : Rel k x y) (hy : 0 ≤ y) : 0 ≤ x := by
  obtain ⟨θ, rfl, h1, _⟩ := h
  exact mul_nonneg ((vvp k).trans_le h1).le hy

theorem Rel.pos {k : ℕ} {x y : ℝ} (h : Rel k x y) (hy : 0 < y) : 0 < x := by
  obtain ⟨θ, rfl, h1, _⟩ := h
  exact mul_pos ((vvp k).trans_le h1) hy

theorem Rel.zero_iff {k : ℕ} {x y : ℝ} (h : Rel k x y) : x = 0 ↔ y = 0 := by
  obtain ⟨θ, rfl, h1, _⟩ := h
  have := ((vvp k).trans_le h1).ne'
  simp [this]

theorem Rel.pos_iff {k : ℕ} {x y : ℝ} (h : Rel k x y) : 0 < x ↔ 0 < y := by
  obtain ⟨θ, rfl, h1, _⟩ := h
  have := (vvp k).trans_le h1
  exact mul_pos_iff_of_pos_left this

/-- `1 - k u ≤ (1-u)^k`. -/
theorem vvp_ge (k : ℕ) : 1 - k * uu ≤ vv ^ k := by
  have := one_add_mul_le_pow (a := -uu) (by rw [uu_eq]; norm_num) k
  unfold vv
  rw [← sub_eq_add_neg] at this
  linarith

theorem vvp_half {k : ℕ} (hk : k ≤ 2 ^ 26) : 1 / 2 ≤ vv ^ k := by
  refine le_trans ?_ (vvp_ge k)
  rw [uu_eq]
  have : (k : ℝ) ≤ 2 ^ 26 := by exact_mod_cast hk
  nlinarith

/-- The relative error in terms of the number of roundings. -/
theorem Rel.err {k : ℕ} {x y : ℝ} (h : Rel k x y) (hk : k ≤ 2 ^ 26) : |x - y| ≤ (k + 1) / 2 ^ 53 * |y| := by
  obtain ⟨θ, rfl, h1, h2⟩ := h
  have hθ : 0 < θ := (vvp k).trans_le h1
  have hg := vvp_ge k
  have hh := vvp_half hk
  have hu := uu_eq
  have hk' : (k : ℝ) ≤ 2 ^ 26 := by exact_mod_cast hk
  have hk0 : (0 : ℝ) ≤ k := Nat.cast_nonneg k
  have hb : |θ - 1| ≤ (k + 1) / 2 ^ 53 := by
    rw [abs_le]
    constructor
    · have : (k : ℝ) * uu ≤ (k + 1) / 2 ^ 53 := by rw [hu]; linarith
      linarith
    · have hθ2 : θ ≤ 1 + (k + 1) / 2 ^ 53 := by
        by_contra hc
        push Not at hc
        have h3 : (1 + (k + 1) / 2 ^ 53) * (1 - k * uu) ≤ θ * vv ^ k :=
          mul_le_mul hc.le hg (by rw [hu]; nlinarith) hθ.le
        have h4 : (1 : ℝ) < (1 + (k + 1) / 2 ^ 53) * (1 - k * uu) := by
          rw [hu]
          have : (k : ℝ) * (k + 1) ≤ 2 ^ 26 * (2 ^ 26 + 1) := by nlinarith
          have e : (1 + ((k : ℝ) + 1) / 2 ^ 53) * (1 - k * (1 / 2 ^ 53)) = 1 + 1 / 2 ^ 53 - k * (k + 1) / 2 ^ 106 := by ring
          rw [e]
          norm_num at this ⊢
          linarith
        linarith
      linarith
  rw [show θ * y - y = (θ - 1) * y by ring, abs_mul]
  exact mul_le_mul_of_nonneg_right hb (abs_nonneg y)

/-! ### Ranges -/

/-- `2^a ≤ x ≤ 2^b`. -/
def In (a b : ℤ) (x : ℝ) : Prop := (2 : ℝ) ^ a ≤ x ∧ x ≤ (2 : ℝ) ^ b

theorem In.pos {a b : ℤ} {x : ℝ} (h : In a b x) : 0 < x := lt_of_lt_of_le (by positivity) h.1

theorem In.mono {a b a' b' : ℤ} {x : ℝ} (h : In a b x) (ha : a' ≤ a) (hb : b ≤ b') : In a' b' x :=
  ⟨(zpow_le_zpow_right₀ (by norm_num) ha).trans h.1, h.2.trans (zpow_le_zpow_right₀ (by norm_num) hb)⟩

theorem In.mul {a b a' b' : ℤ} {x y : ℝ} (h : In a b x) (h' : In a' b' y) : In (a + a') (b + b') (x * y) := by
  unfold In
  rw [zpow_add₀ (by norm_num), zpow_add₀ (by norm_num)]
  exact ⟨mul_le_mul h.1 h'.1 (by positivity) h.pos.le, mul_le_mul h.2 h'.2 h'.pos.le (by positivity)⟩

theorem In.inv {a b : ℤ} {x : ℝ} (h : In a b x) : In (-b) (-a) x⁻¹ := by
  unfold In
  rw [zpow_neg, zpow_neg]
  exact ⟨inv_anti₀ h.pos h.2, inv_anti₀ (by positivity) h.1⟩

theorem In.div {a b a' b' : ℤ} {x y : ℝ} (h : In a b x) (h' : In a' b' y) : In (a - b') (b - a') (x / y) := by
  rw [div_eq_mul_inv, sub_eq_add_neg, sub_eq_add_neg]
  exact h.mul h'.inv

theorem In.sqrt {a b : ℤ} {x : ℝ} (h : In (2 * a) (2 * b) x) : In a b (Real.sqrt x) := by
  have e : ∀ c : ℤ, (2 : ℝ) ^ (2 * c) = ((2 : ℝ) ^ c) ^ 2 := by
    intro c
    rw [mul_comm, zpow_mul]
    rfl
  unfold In at h
  rw [e, e] at h
  exact ⟨Real.le_sqrt_of_sq_le h.1, Real.sqrt_le_iff.2 ⟨by positivity, h.2⟩⟩

theorem Rel.range {k : ℕ} {x y : ℝ} (h : Rel k x y) (hk : k ≤ 2 ^ 26) (hy : 0 ≤ y) : x ≤ 2 * y ∧ y ≤ 2 * x := by
  have h1 := (rel_iff hy).1 h
  have h3 := vvp_half hk
  have h4 := h.nonneg hy
  constructor <;> nlinarith [h1.1, h1.2]

theorem In.rel {a b : ℤ} {k : ℕ} {x y : ℝ} (h : In a b y) (hr : Rel k x y) (hk : k ≤ 2 ^ 26) : In (a - 1) (b + 1) x := by
  have := hr.range hk h.pos.le
  unfold In
  rw [zpow_sub_one₀ (by norm_num), zpow_add_one₀ (by norm_num)]
  constructor <;> linarith [h.1, h.2]

theorem In.nat {n k : ℕ} (h1 : 1 ≤ n) (h2 : n ≤ 2 ^ k) : In 0 k (n : ℝ) := by
  unfold In
  rw [zpow_zero, zpow_natCast]
  exact ⟨by exact_mod_cast h1, by exact_mod_cast h2⟩

variable (R : Rounding)

/-- One rounding in the range of the normal numbers. -/
theorem rnd_normal {x : ℝ} (h1 : (2 : ℝ) ^ (-1021 : ℤ) ≤ |x|) (h2 : |x| ≤ 2 ^ 1000) : |R x - x| ≤ uu * |x| := by
  obtain ⟨k, hk1, hk2⟩ := exists_mem_Ioc_zpow (y := (2 : ℝ)) (lt_of_lt_of_le (by positivity) h1) (by norm_num)
  have h3 : -1022 ≤ k := by
    by_contra hc
    have : (2 : ℝ) ^ (k + 1) ≤ (2 : ℝ) ^ (-1022 : ℤ) := zpow_le_zpow_right₀ (by norm_num) (by omega)
    have h4 : (2 : ℝ) ^ (-1022 : ℤ) < (2 : ℝ) ^ (-1021 : ℤ) := zpow_lt_zpow_right₀ (by norm_num) (by norm_num)
    linarith
  have h4 : k + 1 ≤ 1000 := by
    by_contra hc
    have : (2 : ℝ) ^ (1000 : ℤ) ≤ (2 : ℝ) ^ k := zpow_le_zpow_right₀ (by norm_num) (by omega)
    rw [show (2 : ℝ) ^ (1000 : ℤ) = 2 ^ 1000 from rfl] at this
    linarith
  have := rnd_err R hk2 (by omega) h4
  calc |R x - x| ≤ (2 : ℝ) ^ (k + 1 - 54) := this
    _ = uu * (2 : ℝ) ^ k := by unfold uu; rw [← zpow_add₀ (by norm_num)]; congr 1; ring
    _ ≤ uu * |x| := mul_le_mul_of_nonneg_left hk1.le uu_pos.le

theorem rel_of_err {x y : ℝ} (h : |x - y| ≤ uu * |y|) : Rel 1 x y := by
  by_cases hy : y = 0
  · rw [hy] at h ⊢
    rw [sub_zero, abs_zero, mul_zero] at h
    rw [abs_nonpos_iff.1 h]
    exact (Rel.refl 0).mono (by norm_num)
  · have hp := abs_pos.2 hy
    have e : |x / y - 1| ≤ uu := by
      rw [show x / y - 1 = (x - y) / y by field_simp, abs_div, div_le_iff₀ hp]
      exact h
    rw [abs_le] at e
    refine ⟨x / y, by field_simp, ?_, ?_⟩
    · rw [pow_one]; unfold vv; linarith
    · rw [pow_one]
      have h3 : x / y ≤ 1 + uu := by linarith
      have := uu_pos
      have h4 := mul_le_mul_of_nonneg_right h3 vv_pos.le
      unfold vv at *
      nlinarith

theorem rel_rnd {x : ℝ} (h : x = 0 ∨ (2 : ℝ) ^ (-1021 : ℤ) ≤ |x| ∧ |x| ≤ 2 ^ 1000) : Rel 1 (R x) x := by
  rcases h with rfl | ⟨h1, h2⟩
  · rw [rnd_double R double_zero (by simp)]
    exact (Rel.refl 0).mono (by norm_num)
  · exact rel_of_err (rnd_normal R h1 h2)

theorem In.rnd {a b : ℤ} {x : ℝ} (h : In a b x) (ha : -1021 ≤ a) (hb : b ≤ 1000) : Rel 1 (R x) x ∧ IsDouble (R x) := by
  have h' := h.mono ha hb
  have hle : |x| ≤ 2 ^ 1000 := by
    rw [abs_of_pos h.pos]
    exact h'.2
  exact ⟨rel_rnd R (Or.inr ⟨by rw [abs_of_pos h.pos]; exact h'.1, hle⟩), (R.nearest x hle).1⟩

theorem rnd_isDouble {x : ℝ} (h : |x| ≤ 2 ^ 1000) : IsDouble (R x) := (R.nearest x h).1

/-- A sum of doubles has no error by underflow. -/
theorem rnd_add {a b : ℝ} (ha : IsDouble a) (hb : IsDouble b) (h : |a + b| ≤ 2 ^ 1000) : |R (a + b) - (a + b)| ≤ uu * |a + b| := by
  by_cases hs : (2 : ℝ) ^ (-1021 : ℤ) ≤ |a + b|
  · exact rnd_normal R hs h
  · push Not at hs
    have mult : ∀ x, IsDouble x → ∃ m : ℤ, x = m * (2 : ℝ) ^ (-1074 : ℤ) := by
      rintro x ⟨m, e, hm, h1, h2, rfl⟩
      refine ⟨m * 2 ^ (e + 1074).toNat, ?_⟩
      push_cast
      rw [mul_assoc, ← zpow_natCast, ← zpow_add₀ (by norm_num), Int.toNat_of_nonneg (by omega)]
      congr 2
      ring
    obtain ⟨m, rfl⟩ := mult a ha
    obtain ⟨m', rfl⟩ := mult b hb
    have e : (m : ℝ) * (2 : ℝ) ^ (-1074 : ℤ) + m' * (2 : ℝ) ^ (-1074 : ℤ) = ((m + m' : ℤ) : ℝ) * (2 : ℝ) ^ (-1074 : ℤ) := by push_cast; ring
    rw [e] at h hs ⊢
    have hm : |m + m'| ≤ 2 ^ 53 := by
      have hp : (0 : ℝ) < (2 : ℝ) ^ (-1074 : ℤ) := by positivity
      rw [abs_mul, abs_of_pos hp, show (-1021 : ℤ) = (53 : ℕ) + (-1074) by norm_num, zpow_add₀ (by norm_num), zpow_natCast] at hs
      have := lt_of_mul_lt_mul_right hs hp.le
      have h2 : |m + m'| < 2 ^ 53 := by exact_mod_cast this
      exact h2.le
    rw [rnd_double R (double_of hm (by norm_num) (by norm_num)) h, sub_self, abs_zero]
    exact mul_nonneg uu_pos.le (abs_nonneg _)

theorem rel_add {a b : ℝ} (ha : IsDouble a) (hb : IsDouble b) (h : |a + b| ≤ 2 ^ 1000) : Rel 1 (R (a + b)) (a + b) := rel_of_err (rnd_add R ha hb h)

/-! ### Sums in any order -/

theorem half_sum {k : ℕ} (hk : k ≤ 2 ^ 26) : 1 ≤ 2 * vv ^ k := by linarith [vvp_half hk]

variable {R}

/-- `1 / (1 - 2^(-53))`. -/
noncomputable def ww : ℝ := vv⁻¹

theorem ww_ge : 1 + uu ≤ ww := by
  unfold ww
  rw [le_inv_comm₀ (by linarith [uu_pos]) vv_pos, ← one_div, le_div_iff₀ (by linarith [uu_pos])]
  unfold vv
  nlinarith [uu_pos]

theorem one_le_ww : 1 ≤ ww := by linarith [ww_ge, uu_pos]

theorem wwp_le {k : ℕ} (hk : k ≤ 2 ^ 26) : ww ^ k ≤ 2 := by
  unfold ww
  rw [inv_pow, inv_le_comm₀ (vvp k) (by norm_num)]
  have := vvp_half hk
  linarith

/-- Sums of doubles: the error is bounded by that of as many roundings as there are numbers, relative to the sum of the absolute values. -/
theorem added_err {l : List ℝ} {s : ℝ} (h : Added R l s) (hd : ∀ x ∈ l, IsDouble x) (hn : l.length ≤ 2 ^ 26) (hb : (l.map fun x => |x|).sum ≤ 2 ^ 990) :
    IsDouble s ∧ |s - l.sum| ≤ (ww ^ l.length - 1) * (l.map fun x => |x|).sum := by
  induction h with
  | zero => exact ⟨double_zero, by simp⟩
  | one x =>
    refine ⟨hd x (by simp), ?_⟩
    simp only [List.sum_singleton, sub_self, abs_zero, List.length_singleton, pow_one, List.map_cons, List.map_nil]
    exact mul_nonneg (by linarith [one_le_ww]) (abs_nonneg x)
  | perm hp _ ih =>
    rw [← (hp.map fun x => |x|).sum_eq] at hb ⊢
    rw [← hp.sum_eq, ← hp.length_eq]
    rw [← hp.length_eq] at hn
    exact ih (fun x hx => hd x (hp.mem_iff.1 hx)) hn hb
  | @add l l' a b h1 h2 ih1 ih2 =>
    simp only [List.length_append, List.map_append, List.sum_append] at hn hb ⊢
    have p1 : 0 ≤ (l.map fun x => |x|).sum := List.sum_nonneg (by simp)
    have p2 : 0 ≤ (l'.map fun x => |x|).sum := List.sum_nonneg (by simp)
    obtain ⟨d1, e1⟩ := ih1 (fun x hx => hd x (by simp [hx])) (by omega) (by linarith)
    obtain ⟨d2, e2⟩ := ih2 (fun x hx => hd x (by simp [hx])) (by omega) (by linarith)
    have sums : ∀ L : List ℝ, |L.sum| ≤ (L.map fun x => |x|).sum := by
      intro L
      induction L with
      | nil => simp
      | cons x L ih =>
        simp only [List.sum_cons, List.map_cons]
        exact (abs_add_le _ _).trans (by linarith)
    have s1 := sums l
    have s2 := sums l'
    set A := (l.map fun x => |x|).sum
    set B := (l'.map fun x => |x|).sum
    have a1 : |a| ≤ ww ^ l.length * A := by
      have := abs_sub_abs_le_abs_sub a l.sum
      linarith
    have a2 : |b| ≤ ww ^ l'.length * B := by
      have := abs_sub_abs_le_abs_sub b l'.sum
      linarith
    have w1 := wwp_le (k := l.length) (by omega)
    have w2 := wwp_le (k := l'.length) (by omega)
    have hab : |a + b| ≤ 2 ^ 1000 := by
      have h3 : |a + b| ≤ 2 * A + 2 * B := (abs_add_le a b).trans (by nlinarith)
      have h4 : (2 : ℝ) ^ 1000 = 2 ^ 10 * 2 ^ 990 := by rw [← pow_add]
      rw [h4]
      have h5 : (0 : ℝ) < 2 ^ 990 := by positivity
      clear h4
      generalize (2 : ℝ) ^ 990 = M at *
      linarith
    refine ⟨rnd_isDouble R hab, ?_⟩
    rcases Nat.eq_zero_or_pos l.length with z1 | z1
    · have : l = [] := List.length_eq_zero_iff.1 z1
      have hA : A = 0 := by simp [A, this]
      rw [hA, mul_zero] at a1
      have ha : a = 0 := abs_nonpos_iff.1 a1
      rw [ha, zero_add] at hab ⊢
      rw [rnd_double R d2 hab, this, hA]
      simpa using e2
    rcases Nat.eq_zero_or_pos l'.length with z2 | z2
    · have : l' = [] := List.length_eq_zero_iff.1 z2
      have hB : B = 0 := by simp [B, this]
      rw [hB, mul_zero] at a2
      have hb0 : b = 0 := abs_nonpos_iff.1 a2
      rw [hb0, add_zero] at hab ⊢
      rw [rnd_double R d1 hab, this, hB]
      simpa using e1
    have hr := rnd_add R d1 d2 hab
    have g1 : (1 + uu) * ww ^ l.length ≤ ww ^ (l.length + l'.length) := by
      have : ww ^ (l.length + 1) ≤ ww ^ (l.length + l'.length) := pow_le_pow_right₀ one_le_ww (by omega)
      refine le_trans ?_ this
      rw [pow_succ, mul_comm]
      exact mul_le_mul_of_nonneg_left ww_ge (pow_nonneg (by linarith [one_le_ww]) _)
    have g2 : (1 + uu) * ww ^ l'.length ≤ ww ^ (l.length + l'.length) := by
      have : ww ^ (l'.length + 1) ≤ ww ^ (l.length + l'.length) := pow_le_pow_right₀ one_le_ww (by omega)
      refine le_trans ?_ this
      rw [pow_succ, mul_comm]
      exact mul_le_mul_of_nonneg_left ww_ge (pow_nonneg (by linarith [one_le_ww]) _)
    have e : R (a + b) - (l.sum + l'.sum) = (R (a + b) - (a + b)) + ((a - l.sum) + (b - l'.sum)) := by ring
    rw [e]
    have t1 := abs_add_le (R (a + b) - (a + b)) ((a - l.sum) + (b - l'.sum))
    have t2 := abs_add_le (a - l.sum) (b - l'.sum)
    have t3 : uu * |a + b| ≤ uu * (ww ^ l.length * A + ww ^ l'.length * B) :=
      mul_le_mul_of_nonneg_left ((abs_add_le a b).trans (by linarith)) uu_pos.le
    have t4 := mul_le_mul_of_nonneg_right g1 p1
    have t5 := mul_le_mul_of_nonneg_right g2 p2
    nlinarith

/-- Sums of non-negative doubles have a small relative error. -/
theorem added_rel {l : List ℝ} {s : ℝ} (h : Added R l s) (hd : ∀ x ∈ l, IsDouble x ∧ 0 ≤ x) (hn : l.length ≤ 2 ^ 26) (hb : l.sum ≤ 2 ^ 990) :
    IsDouble s ∧ Rel l.length s l.sum := by
  induction h with
  | zero => exact ⟨double_zero, Rel.refl 0⟩
  | one x => exact ⟨(hd x (by simp)).1, by simpa using (Rel.refl x).mono (by norm_num)⟩
  | perm hp _ ih =>
    rw [← hp.sum_eq] at hb
    rw [← hp.sum_eq, ← hp.length_eq]
    rw [← hp.length_eq] at hn
    exact ih (fun x hx => hd x (hp.mem_iff.1 hx)) hn hb
  | @add l l' a b h1 h2 ih1 ih2 =>
    simp only [List.length_append, List.sum_append] at hn hb ⊢
    have p1 : 0 ≤ l.sum := List.sum_nonneg fun x hx => (hd x (by simp [hx])).2
    have p2 : 0 ≤ l'.sum := List.sum_nonneg fun x hx => (hd x (by simp [hx])).2
    obtain ⟨d1, e1⟩ := ih1 (fun x hx => hd x (by simp [hx])) (by omega) (by linarith)
    obtain ⟨d2, e2⟩ := ih2 (fun x hx => hd x (by simp [hx])) (by omega) (by linarith)
    have up : ∀ {k : ℕ} {x y : ℝ}, k ≤ 2 ^ 26 → 0 ≤ y → Rel k x y → x ≤ 2 * y := by
      intro k x y hk hy h
      have h2 := ((rel_iff hy).1 h).2
      have h3 := vvp_half hk
      have h4 := h.nonneg hy
      nlinarith
    have n1 := e1.nonneg p1
    have n2 := e2.nonneg p2
    have hab : |a + b| ≤ 2 ^ 1000 := by
      rw [abs_of_nonneg (by linarith)]
      have h3 := up (by omega) p1 e1
      have h5 := up (by omega) p2 e2
      have h4 : (2 : ℝ) ^ 1000 = 2 ^ 10 * 2 ^ 990 := by rw [← pow_add]
      rw [h4]
      have h5 : (0 : ℝ) < 2 ^ 990 := by positivity
      clear h4
      generalize (2 : ℝ) ^ 990 = M at *
      linarith
    refine ⟨rnd_isDouble R hab, ?_⟩
    rcases Nat.eq_zero_or_pos l.length with z1 | z1
    · have : l = [] := List.length_eq_zero_iff.1 z1
      have ha : a = 0 := by
        rw [this] at e1
        exact e1.zero_iff.2 rfl
      rw [ha, zero_add] at hab ⊢
      rw [rnd_double R d2 hab, this]
      simpa using e2
    rcases Nat.eq_zero_or_pos l'.length with z2 | z2
    · have : l' = [] := List.length_eq_zero_iff.1 z2
      have hb0 : b = 0 := by
        rw [this] at e2
        exact e2.zero_iff.2 rfl
      rw [hb0, add_zero] at hab ⊢
      rw [rnd_double R d1 hab, this]
      simpa using e1
    have hr := rel_add R d1 d2 hab
    have := hr.trans ((e1.mono (show l.length ≤ l.length + l'.length - 1 by omega)).add (e2.mono (show l'.length ≤ l.length + l'.length - 1 by omega)) p1 p2)
    exact this.mono (by omega)

/-! ### Roots of squares -/

/-- The square root of the square of a double is exact. -/
theorem sqrt_sq {x : ℝ} (hd : IsDouble x) (h1 : (2 : ℝ) ^ (-500 : ℤ) ≤ x) (h2 : x ≤ 2 ^ 499) : R (Real.sqrt (R (x * x))) = x := by
  have hx : 0 < x := lt_of_lt_of_le (by positivity) h1
  obtain ⟨k, hk1, hk2⟩ := exists_mem_Ico_zpow (y := (2 : ℝ)) hx (by norm_num)
  have hkl : -501 < k := by
    by_contra hc
    have : (2 : ℝ) ^ (k + 1) ≤ (2 : ℝ) ^ (-500 : ℤ) := zpow_le_zpow_right₀ (by norm_num) (by omega)
    linarith
  have hku : k ≤ 499 := by
    by_contra hc
    have : (2 : ℝ) ^ (500 : ℤ) ≤ (2 : ℝ) ^ k := zpow_le_zpow_right₀ (by norm_num) (by omega)
    have h3 : (2 : ℝ) ^ 499 < (2 : ℝ) ^ (500 : ℤ) := by
      rw [show (2 : ℝ) ^ (500 : ℤ) = 2 ^ 500 from rfl]
      exact pow_lt_pow_right₀ (by norm_num) (by norm_num)
    exact absurd (hk1.trans h2) (not_le.2 (h3.trans_le this))
  have hxx1 : (2 : ℝ) ^ (-1000 : ℤ) ≤ x * x := by
    have := mul_le_mul h1 h1 (by positivity) hx.le
    rwa [← zpow_add₀ (by norm_num)] at this
  have hxx2 : x * x ≤ 2 ^ 998 := by
    have := mul_le_mul h2 h2 hx.le (by positivity)
    rwa [← pow_add] at this
  have hb : |x * x| ≤ 2 ^ 1000 := by
    rw [abs_of_pos (by positivity)]
    exact hxx2.trans (pow_le_pow_right₀ (by norm_num) (by norm_num))
  have hxb : |x| ≤ 2 ^ 1000 := by
    rw [abs_of_pos hx]
    exact h2.trans (pow_le_pow_right₀ (by norm_num) (by norm_num))
  rcases hk1.eq_or_lt with he | hlt
  · have e : x * x = ((1 : ℤ) : ℝ) * (2 : ℝ) ^ (2 * k) := by
      rw [← he, ← zpow_add₀ (by norm_num)]
      push_cast
      rw [one_mul]
      congr 1
      ring
    have hdd : IsDouble (x * x) := by
      rw [e]
      obtain ⟨m, hm⟩ : ∃ m : ℤ, m = 2 * k := ⟨_, rfl⟩
      by_cases hc : 2 * k < 971
      · exact double_of (by norm_num) (by omega) hc
      · have : ((1 : ℤ) : ℝ) * (2 : ℝ) ^ (2 * k) = ((2 ^ 50 : ℤ) : ℝ) * (2 : ℝ) ^ (2 * k - 50) := by
          rw [show ((2 ^ 50 : ℤ) : ℝ) = (2 : ℝ) ^ (50 : ℤ) by norm_num, ← zpow_add₀ (by norm_num)]
          rw [Int.cast_one, one_mul]
          congr 1
          ring
        rw [this]
        exact double_of (by norm_num) (by omega) (by omega)
    rw [rnd_double R hdd hb, Real.sqrt_mul_self hx.le, rnd_double R hd hxb]
  · have hr := rnd_normal R (x := x * x) (by
      rw [abs_of_pos (by positivity)]
      exact le_trans (zpow_le_zpow_right₀ (by norm_num) (by norm_num)) hxx1) hb
    rw [abs_of_pos (show 0 < x * x by positivity)] at hr
    set y := R (x * x) with hy
    have hyl : (1 - uu) * (x * x) ≤ y := by
      have := (abs_le.1 hr).1
      linarith
    have hu := uu_eq
    have hu0 := uu_pos
    have hsq : (1 - uu) * x ≤ Real.sqrt y := by
      apply Real.le_sqrt_of_sq_le
      refine le_trans ?_ hyl
      have : (1 - uu) * (1 - uu) ≤ 1 - uu := by rw [hu]; norm_num
      nlinarith [mul_pos hx hx]
    have hyp : 0 ≤ y := le_trans (mul_nonneg (by rw [hu]; norm_num) (by positivity)) hyl
    have hs0 : 0 ≤ Real.sqrt y := Real.sqrt_nonneg y
    -- `x` is at most `2^k (2 - 2^(-52))`
    have hxu : x ≤ (2 : ℝ) ^ k * (2 - 2 * uu) := by
      obtain ⟨m, hm⟩ := double_multiple hd (k := k) (by rw [abs_of_pos hx]; exact hk1)
      have hp : (0 : ℝ) < (2 : ℝ) ^ (k - 52) := by positivity
      have hkk : (2 : ℝ) ^ k = 2 ^ 52 * (2 : ℝ) ^ (k - 52) := by
        rw [show k = (52 : ℕ) + (k - 52) by push_cast; ring, zpow_add₀ (by norm_num), zpow_natCast]
        congr 2
        push_cast
        ring
      have hm2 : m < 2 ^ 53 := by
        have : (m : ℝ) < 2 ^ 53 := by
          rw [zpow_add_one₀ (by norm_num), hkk, hm] at hk2
          have h3 : (m : ℝ) * (2 : ℝ) ^ (k - 52) < 2 ^ 53 * (2 : ℝ) ^ (k - 52) := by
            calc _ < _ := hk2
              _ = _ := by ring
          exact lt_of_mul_lt_mul_right h3 hp.le
        exact_mod_cast this
      have hm3 : (m : ℝ) ≤ 2 ^ 53 - 1 := by
        have : m ≤ 2 ^ 53 - 1 := by omega
        exact_mod_cast this
      rw [hkk, hm, hu]
      calc (m : ℝ) * (2 : ℝ) ^ (k - 52) ≤ (2 ^ 53 - 1) * (2 : ℝ) ^ (k - 52) := mul_le_mul_of_nonneg_right hm3 hp.le
        _ = _ := by ring
    have hkp : (0 : ℝ) < (2 : ℝ) ^ k := by positivity
    have hmain : |Real.sqrt y - x| < (2 : ℝ) ^ (k - 53) := by
      have e : (Real.sqrt y - x) * (Real.sqrt y + x) = y - x * x := by
        have := Real.mul_self_sqrt hyp
        nlinarith
      have hsum : 0 < Real.sqrt y + x := by linarith
      have e2 : |Real.sqrt y - x| * (Real.sqrt y + x) ≤ uu * (x * x) := by
        rw [← abs_of_pos hsum, ← abs_mul, e]
        exact hr
      have e3 : (2 : ℝ) ^ (k - 53) = uu * (2 : ℝ) ^ k := by
        unfold uu
        rw [← zpow_add₀ (by norm_num)]
        congr 1
        ring
      rw [e3]
      by_contra hc
      push Not at hc
      have h5 : uu * (2 : ℝ) ^ k * ((2 - uu) * x) ≤ uu * (x * x) := by
        refine le_trans ?_ e2
        exact mul_le_mul hc (by linarith) (mul_nonneg (by rw [hu]; norm_num) hx.le) (abs_nonneg _)
      have h6 : (2 : ℝ) ^ k * (2 - uu) ≤ x := by
        have h7 : (uu * x) * ((2 : ℝ) ^ k * (2 - uu)) ≤ (uu * x) * x := by linarith
        exact le_of_mul_le_mul_left h7 (mul_pos hu0 hx)
      nlinarith [mul_pos hkp hu0]
    refine rnd_eq R hd (k := k) (by rw [abs_of_pos hx]; exact hlt) ?_ hmain
    have hle : Real.sqrt y ≤ 2 * x := by
      have h8 := (abs_lt.1 hmain).2
      have h9 : (2 : ℝ) ^ (k - 53) ≤ (2 : ℝ) ^ k := zpow_le_zpow_right₀ (by norm_num) (by omega)
      linarith
    rw [abs_of_nonneg hs0]
    refine hle.trans ?_
    have h10 : (2 : ℝ) * 2 ^ 499 = 2 ^ 500 := by rw [← pow_succ']
    have h11 : (2 : ℝ) ^ 500 ≤ 2 ^ 1000 := pow_le_pow_right₀ (by norm_num) (by norm_num)
    rw [← h10] at h11
    exact (mul_le_mul_of_nonneg_left h2 (by norm_num)).trans h11

end ChaosMagPy.Float
