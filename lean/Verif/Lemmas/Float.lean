import Verif.Spec.Float
import Mathlib.Algebra.Order.Round
import Mathlib.Algebra.Order.Floor.Ring
import Mathlib.Data.Set.Finite.Lemmas
import Mathlib.Data.Set.Finite.Lattice
import Mathlib.Data.Finite.Prod
import Mathlib.Tactic.FieldSimp
import Mathlib.Order.Interval.Set.Fin
import Mathlib.Order.Interval.Finset.Defs
import Mathlib.Data.Int.Interval
import Mathlib.Data.Real.Archimedean
import Mathlib.Tactic.Linarith
import Mathlib.Tactic.NormNum
import Mathlib.Tactic.Ring
import Mathlib.Tactic.Positivity
import Mathlib.Tactic.Push
/-!
# Rounding to double precision
-/
namespace ChaosMagPy.Float
open ChaosMagPy.Spec

theorem doubles_finite : {x : ℝ | IsDouble x}.Finite := by
  refine Set.Finite.subset (Set.Finite.image (fun p : ℤ × ℤ => (p.1 : ℝ) * (2 : ℝ) ^ p.2) (Set.Finite.prod (Set.finite_Icc (-(2 ^ 53) : ℤ) (2 ^ 53)) (Set.finite_Icc (-1074 : ℤ) 971))) ?_
  rintro x ⟨m, e, hm, h1, h2, rfl⟩
  refine ⟨(m, e), ⟨⟨?_, ?_⟩, h1, h2⟩, rfl⟩
  · have := neg_abs_le m; simp only; omega
  · have := le_abs_self m; simp only; omega

theorem double_zero : IsDouble 0 := ⟨0, 0, by norm_num, by norm_num, by norm_num, by norm_num⟩

/-- There is a nearest double, so roundings exist. -/
theorem nearest_exists (x : ℝ) : ∃ r, IsDouble r ∧ ∀ y, IsDouble y → |r - x| ≤ |y - x| := by
  obtain ⟨r, hr, h⟩ := Set.exists_min_image {x : ℝ | IsDouble x} (fun r => |r - x|) doubles_finite ⟨0, double_zero⟩
  exact ⟨r, hr, h⟩

noncomputable instance : Inhabited Rounding := ⟨⟨fun x => (nearest_exists x).choose, fun x _ => (nearest_exists x).choose_spec⟩⟩

/-- Integer multiples of a power of two. -/
theorem double_of {m e : ℤ} (hm : |m| ≤ 2 ^ 53) (h1 : -1074 ≤ e) (h2 : e < 971) : IsDouble ((m : ℝ) * (2 : ℝ) ^ e) := by
  rcases lt_or_eq_of_le hm with h | h
  · exact ⟨m, e, h, h1, h2.le, rfl⟩
  · obtain ⟨s, hs, hs1⟩ : ∃ s : ℤ, m = s * 2 ^ 53 ∧ |s| = 1 := by
      rcases abs_cases m with ⟨h', -⟩ | ⟨h', -⟩
      · exact ⟨1, by omega, by norm_num⟩
      · exact ⟨-1, by omega, by norm_num⟩
    refine ⟨s * 2 ^ 52, e + 1, ?_, by omega, by omega, ?_⟩
    · rw [abs_mul, hs1]; norm_num
    · rw [hs, zpow_add₀ (by norm_num)]
      push_cast
      ring

theorem double_neg {x : ℝ} (h : IsDouble x) : IsDouble (-x) := by
  obtain ⟨m, e, h1, h2, h3, rfl⟩ := h
  exact ⟨-m, e, by rwa [abs_neg], h2, h3, by push_cast; ring⟩

theorem double_int {m : ℤ} (hm : |m| ≤ 2 ^ 53) : IsDouble (m : ℝ) := by
  have := double_of hm (e := 0) (by norm_num) (by norm_num)
  simpa using this

variable (R : Rounding)

theorem rnd_double {x : ℝ} (h : IsDouble x) (hx : |x| ≤ 2 ^ 1000) : R x = x := by
  have := (R.nearest x hx).2 x h
  rw [sub_self, abs_zero] at this
  have := abs_nonpos_iff.1 this
  linarith

theorem rnd_int {m : ℤ} (hm : |m| ≤ 2 ^ 53) : R (m : ℝ) = m := by
  refine rnd_double R (double_int hm) ?_
  have : (|(m : ℝ)|) ≤ 2 ^ 53 := by exact_mod_cast hm
  exact this.trans (pow_le_pow_right₀ (by norm_num) (by norm_num))

theorem rnd_mono {x y : ℝ} (hx : |x| ≤ 2 ^ 1000) (hy : |y| ≤ 2 ^ 1000) (h : x ≤ y) : R x ≤ R y := by
  by_contra hc
  push Not at hc
  obtain ⟨d1, n1⟩ := R.nearest x hx
  obtain ⟨d2, n2⟩ := R.nearest y hy
  have h1 := n1 _ d2
  have h2 := n2 _ d1
  rcases eq_or_lt_of_le h with rfl | hlt
  · exact lt_irrefl _ hc
  · rcases abs_cases (R x - x) with ⟨a1, b1⟩ | ⟨a1, b1⟩ <;> rcases abs_cases (R y - x) with ⟨a2, b2⟩ | ⟨a2, b2⟩ <;>
      rcases abs_cases (R y - y) with ⟨a3, b3⟩ | ⟨a3, b3⟩ <;> rcases abs_cases (R x - y) with ⟨a4, b4⟩ | ⟨a4, b4⟩ <;> linarith

theorem pow_le_max {k : ℤ} (hk : k ≤ 1000) : (2 : ℝ) ^ k ≤ 2 ^ 1000 := by
  have : (2 : ℝ) ^ k ≤ (2 : ℝ) ^ (1000 : ℤ) := zpow_le_zpow_right₀ (by norm_num) hk
  exact_mod_cast this

/-- Absolute error: half the spacing below `2^k`. -/
theorem rnd_err {x : ℝ} {k : ℤ} (h : |x| ≤ (2 : ℝ) ^ k) (h1 : -1021 ≤ k) (h2 : k ≤ 1000) : |R x - x| ≤ (2 : ℝ) ^ (k - 54) := by
  have hp : (0 : ℝ) < (2 : ℝ) ^ (k - 53) := by positivity
  have hk : (2 : ℝ) ^ k = 2 ^ 53 * (2 : ℝ) ^ (k - 53) := by
    rw [show k = 53 + (k - 53) by ring, zpow_add₀ (by norm_num), show (53 : ℤ) + (k - 53) - 53 = k - 53 by ring]
    norm_cast
  have hk2 : (2 : ℝ) ^ (k - 53) = 2 * (2 : ℝ) ^ (k - 54) := by
    rw [show k - 53 = 1 + (k - 54) by ring, zpow_add₀ (by norm_num)]
    norm_num
  have hm : |round (x / (2 : ℝ) ^ (k - 53))| ≤ 2 ^ 53 := by
    have hb : |x / (2 : ℝ) ^ (k - 53)| ≤ 2 ^ 53 := by
      rw [abs_div, abs_of_pos hp, div_le_iff₀ hp, ← hk]
      exact h
    have hb2 := abs_sub_round (x / (2 : ℝ) ^ (k - 53))
    have hlt : |(round (x / (2 : ℝ) ^ (k - 53)) : ℝ)| < 2 ^ 53 + 1 := by
      have := abs_sub_abs_le_abs_sub (round (x / (2 : ℝ) ^ (k - 53)) : ℝ) (x / (2 : ℝ) ^ (k - 53))
      rw [abs_sub_comm] at this
      linarith
    have : |round (x / (2 : ℝ) ^ (k - 53))| < 2 ^ 53 + 1 := by exact_mod_cast hlt
    omega
  have hd := double_of hm (e := k - 53) (by omega) (by omega)
  refine ((R.nearest x (h.trans (pow_le_max h2))).2 _ hd).trans ?_
  have hb2 := abs_sub_round (x / (2 : ℝ) ^ (k - 53))
  have e : (round (x / (2 : ℝ) ^ (k - 53)) : ℝ) * (2 : ℝ) ^ (k - 53) - x = -((x / (2 : ℝ) ^ (k - 53) - round (x / (2 : ℝ) ^ (k - 53))) * (2 : ℝ) ^ (k - 53)) := by
    field_simp
    ring
  rw [e, abs_neg, abs_mul, abs_of_pos hp]
  calc _ ≤ 1 / 2 * (2 : ℝ) ^ (k - 53) := mul_le_mul_of_nonneg_right hb2 hp.le
    _ = (2 : ℝ) ^ (k - 54) := by rw [hk2]; ring

/-- Doubles of size `2^k` and more are multiples of `2^(k-52)`. -/
theorem double_multiple {x : ℝ} (hx : IsDouble x) {k : ℤ} (h : (2 : ℝ) ^ k ≤ |x|) : ∃ m : ℤ, x = m * (2 : ℝ) ^ (k - 52) := by
  obtain ⟨m, e, hm, h1, h2, rfl⟩ := hx
  rcases le_or_gt (k - 52) e with he | he
  · obtain ⟨d, hd⟩ := Int.eq_ofNat_of_zero_le (sub_nonneg.2 he)
    refine ⟨m * 2 ^ d, ?_⟩
    rw [show e = (d : ℤ) + (k - 52) by omega, zpow_add₀ (by norm_num), zpow_natCast]
    push_cast
    ring
  · exfalso
    have h3 : (2 : ℝ) ^ (k - e) ≤ |(m : ℝ)| := by
      rw [abs_mul, abs_of_pos (by positivity : (0 : ℝ) < (2 : ℝ) ^ e)] at h
      rw [zpow_sub₀ (by norm_num), div_le_iff₀ (by positivity)]
      exact h
    have h4 : (2 : ℝ) ^ (53 : ℤ) ≤ (2 : ℝ) ^ (k - e) := zpow_le_zpow_right₀ (by norm_num) (by omega)
    have h5 : |(m : ℝ)| < 2 ^ 53 := by exact_mod_cast hm
    have h6 : (2 : ℝ) ^ (53 : ℤ) = 2 ^ 53 := by norm_cast
    linarith

/-- A number close to a double is rounded to it. -/
theorem rnd_eq {t x : ℝ} {k : ℤ} (ht : IsDouble t) (hk : (2 : ℝ) ^ k < |t|) (hb : |x| ≤ 2 ^ 1000) (hx : |x - t| < (2 : ℝ) ^ (k - 53)) : R x = t := by
  have hp : (0 : ℝ) < (2 : ℝ) ^ (k - 53) := by positivity
  have hk2 : (2 : ℝ) ^ (k - 52) = 2 * (2 : ℝ) ^ (k - 53) := by
    rw [show k - 52 = 1 + (k - 53) by ring, zpow_add₀ (by norm_num)]
    norm_num
  obtain ⟨d1, n1⟩ := R.nearest x hb
  have h1 := n1 t ht
  have h2 : |R x - t| < (2 : ℝ) ^ (k - 52) := by
    have : R x - t = (R x - x) + (x - t) := by ring
    rw [this, hk2]
    refine (abs_add_le _ _).trans_lt ?_
    rw [abs_sub_comm t x] at h1
    linarith
  obtain ⟨a, ha⟩ := double_multiple ht hk.le
  have hpow : (2 : ℝ) ^ k = 2 ^ 52 * (2 : ℝ) ^ (k - 52) := by
    rw [show k = 52 + (k - 52) by ring, zpow_add₀ (by norm_num), show (52 : ℤ) + (k - 52) - 52 = k - 52 by ring]
    norm_cast
  have hp2 : (0 : ℝ) < (2 : ℝ) ^ (k - 52) := by positivity
  have hge : (2 : ℝ) ^ k + (2 : ℝ) ^ (k - 52) ≤ |t| := by
    rw [ha, abs_mul, abs_of_pos hp2, hpow] at hk ⊢
    have h3 : ((2 ^ 52 : ℤ) : ℝ) < ((|a| : ℤ) : ℝ) := by rw [Int.cast_pow, Int.cast_abs]; exact lt_of_mul_lt_mul_right hk hp2.le
    have h4 : (2 ^ 52 : ℤ) + 1 ≤ |a| := by exact_mod_cast h3
    have h5 : ((2 ^ 52 : ℝ)) + 1 ≤ |(a : ℝ)| := by exact_mod_cast h4
    nlinarith
  have hr : (2 : ℝ) ^ k ≤ |R x| := by
    have := abs_sub_abs_le_abs_sub t (R x)
    rw [abs_sub_comm] at this
    linarith
  obtain ⟨b, hb'⟩ := double_multiple d1 hr
  rw [ha, hb', ← sub_mul, abs_mul, abs_of_pos hp2] at h2
  have h3 : |((b - a : ℤ) : ℝ)| < 1 := by
    push_cast
    exact (mul_lt_iff_lt_one_left hp2).1 h2
  have h4 : |b - a| < 1 := by exact_mod_cast h3
  have h5 : b - a = 0 := Int.abs_lt_one_iff.1 h4
  rw [hb', ha, show b = a by omega]

end ChaosMagPy.Float
