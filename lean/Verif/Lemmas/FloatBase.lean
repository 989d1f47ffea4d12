import Verif.Model.FloatBase
import Verif.Lemmas.FloatSun
/-!
# Vector products and norms in double precision
-/
namespace ChaosMagPy.FloatBase
open ChaosMagPy.Spec ChaosMagPy.Float ChaosMagPy.FloatLegendre ChaosMagPy.FloatGeod ChaosMagPy.FloatSun

variable (R : Rounding)

/-- Numbers as floats. -/
def fv (v : Fin 3 → ℝ) : FVec := fun i => some (v i)

/-- Error of a rounding relative to a bound. -/
theorem rnd_bound {x M : ℝ} (h1 : (2 : ℝ) ^ (-900 : ℤ) ≤ M) (h2 : M ≤ (2 : ℝ) ^ (900 : ℤ)) (h : |x| ≤ M) : |R x - x| ≤ M * (2 : ℝ) ^ (-53 : ℤ) := by
  have hM : 0 < M := lt_of_lt_of_le (by positivity) h1
  obtain ⟨k, ha, hb⟩ := exists_mem_Ioc_zpow hM (by norm_num : (1 : ℝ) < 2)
  have k1 : -902 < k := by
    by_contra hk
    have : (2 : ℝ) ^ (k + 1) < (2 : ℝ) ^ (-900 : ℤ) := zpow_lt_zpow_right₀ (by norm_num) (by omega)
    linarith
  have k2 : k < 900 := by
    by_contra hk
    have : (2 : ℝ) ^ (900 : ℤ) ≤ (2 : ℝ) ^ k := zpow_le_zpow_right₀ (by norm_num) (by omega)
    linarith
  refine (rnd_err R (h.trans hb) (by omega) (by omega)).trans ?_
  rw [show k + 1 - 54 = k + -53 by ring, zpow_add₀ (by norm_num)]
  exact mul_le_mul_of_nonneg_right ha.le (by positivity)

/-- The rounded sum of three rounded terms that are not negative. -/
theorem sum3_err {sum3 : F → F → F → F} (hs : IsSum3 R sum3) {a b c a' b' c' Q : ℝ} (h1 : (2 : ℝ) ^ (-200 : ℤ) ≤ Q) (h2 : Q ≤ (2 : ℝ) ^ (200 : ℤ)) (ha : 0 ≤ a) (hb : 0 ≤ b) (hc : 0 ≤ c)
    (hQ : a + b + c = Q) (ea : |a' - a| ≤ Q * (2 : ℝ) ^ (-53 : ℤ)) (eb : |b' - b| ≤ Q * (2 : ℝ) ^ (-53 : ℤ)) (ec : |c' - c| ≤ Q * (2 : ℝ) ^ (-53 : ℤ)) :
    ∃ S, sum3 (some a') (some b') (some c') = some S ∧ |S - Q| ≤ Q * (8 * (2 : ℝ) ^ (-53 : ℤ)) := by
  have key : ∀ {x y z x' y' z' : ℝ}, 0 ≤ x → 0 ≤ y → 0 ≤ z → x + y + z = Q → |x' - x| ≤ Q * (2 : ℝ) ^ (-53 : ℤ) → |y' - y| ≤ Q * (2 : ℝ) ^ (-53 : ℤ) →
      |z' - z| ≤ Q * (2 : ℝ) ^ (-53 : ℤ) → |R (R (x' + y') + z') - Q| ≤ Q * (8 * (2 : ℝ) ^ (-53 : ℤ)) := by
    intro x y z x' y' z' hx hy hz hq ex ey ez
    have b0 : (2 : ℝ) ^ (-900 : ℤ) ≤ 2 * Q := by
      have : (2 : ℝ) ^ (-900 : ℤ) ≤ (2 : ℝ) ^ (-200 : ℤ) := zpow_le_zpow_right₀ (by norm_num) (by norm_num)
      linarith [(by positivity : (0 : ℝ) < 2 ^ (-200 : ℤ))]
    have b1 : 2 * Q ≤ (2 : ℝ) ^ (900 : ℤ) := by
      refine (mul_le_mul_of_nonneg_left h2 (by norm_num)).trans ?_
      calc (2 : ℝ) * (2 : ℝ) ^ (200 : ℤ) = (2 : ℝ) ^ (1 + 200 : ℤ) := by rw [zpow_add₀ (by norm_num), zpow_one]
        _ ≤ _ := zpow_le_zpow_right₀ (by norm_num) (by norm_num)
    have hQ0 : 0 < Q := lt_of_lt_of_le (by positivity) h1
    clear h1 h2
    rw [abs_le] at ex ey ez
    norm_num at ex ey ez
    have r1 := rnd_bound R b0 b1 (x := x' + y') (by rw [abs_le]; constructor <;> linarith [ex.1, ex.2, ey.1, ey.2])
    rw [abs_le] at r1
    norm_num at r1
    have r2 := rnd_bound R b0 b1 (x := R (x' + y') + z') (by rw [abs_le]; constructor <;> linarith [ex.1, ex.2, ey.1, ey.2, ez.1, ez.2, r1.1, r1.2])
    rw [abs_le] at r2 ⊢
    norm_num at r2 ⊢
    constructor <;> linarith [ex.1, ex.2, ey.1, ey.2, ez.1, ez.2, r1.1, r1.2, r2.1, r2.2]
  rcases hs (some a') (some b') (some c') with h | h | h
  · exact ⟨_, h, key ha hb hc hQ ea eb ec⟩
  · refine ⟨_, h, ?_⟩
    have := key hb hc ha (by linarith) eb ec ea
    rwa [add_comm (R (b' + c'))] at this
  · exact ⟨_, h, key ha hc hb (by linarith) ea ec eb⟩

/-- Length. -/
noncomputable def len (v : Fin 3 → ℝ) : ℝ := Real.sqrt (dot v v)

theorem dot_self_nonneg (v : Fin 3 → ℝ) : 0 ≤ dot v v := by
  unfold dot
  nlinarith [sq_nonneg (v 0), sq_nonneg (v 1), sq_nonneg (v 2)]

theorem len_sq (v : Fin 3 → ℝ) : len v ^ 2 = dot v v := Real.sq_sqrt (dot_self_nonneg v)

theorem sq_le_dot (v : Fin 3 → ℝ) (i : Fin 3) : v i * v i ≤ dot v v := by
  unfold dot
  fin_cases i <;> simp only [Fin.mk_one, Fin.zero_eta, Fin.reduceFinMk] <;> nlinarith [sq_nonneg (v 0), sq_nonneg (v 1), sq_nonneg (v 2)]

theorem le_len (v : Fin 3 → ℝ) (i : Fin 3) : |v i| ≤ len v := by
  rw [len, ← Real.sqrt_sq_eq_abs]
  refine Real.sqrt_le_sqrt ?_
  rw [sq]
  exact sq_le_dot v i

/-- The computed norm. -/
theorem norm_err {sum3 : F → F → F → F} (hs : IsSum3 R sum3) {v : Fin 3 → ℝ} (h1 : (2 : ℝ) ^ (-90 : ℤ) ≤ len v) (h2 : len v ≤ (2 : ℝ) ^ (90 : ℤ)) :
    ∃ n, fnorm R sum3 (fv v) = some n ∧ |n - len v| ≤ len v * (12 / 10 ^ 16) := by
  have hN : 0 < len v := lt_of_lt_of_le (by positivity) h1
  have hQ := len_sq v
  have q1 : (2 : ℝ) ^ (-200 : ℤ) ≤ len v ^ 2 := by
    calc (2 : ℝ) ^ (-200 : ℤ) ≤ ((2 : ℝ) ^ (-90 : ℤ)) ^ 2 := by norm_num
      _ ≤ _ := pow_le_pow_left₀ (by positivity) h1 2
  have q2 : len v ^ 2 ≤ (2 : ℝ) ^ (200 : ℤ) := by
    calc len v ^ 2 ≤ ((2 : ℝ) ^ (90 : ℤ)) ^ 2 := pow_le_pow_left₀ hN.le h2 2
      _ ≤ _ := by norm_num
  have w1 : (2 : ℝ) ^ (-900 : ℤ) ≤ len v ^ 2 := le_trans (zpow_le_zpow_right₀ (by norm_num) (by norm_num)) q1
  have w2 : len v ^ 2 ≤ (2 : ℝ) ^ (900 : ℤ) := q2.trans (zpow_le_zpow_right₀ (by norm_num) (by norm_num))
  have e : ∀ i, |R (v i * v i) - v i * v i| ≤ len v ^ 2 * (2 : ℝ) ^ (-53 : ℤ) := fun i =>
    rnd_bound R w1 w2 (by rw [abs_of_nonneg (mul_self_nonneg _), hQ]; exact sq_le_dot v i)
  obtain ⟨S, hS, eS⟩ := sum3_err R hs q1 q2 (mul_self_nonneg (v 0)) (mul_self_nonneg (v 1)) (mul_self_nonneg (v 2)) (by rw [hQ, dot]) (e 0) (e 1) (e 2)
  have eS' := abs_le.1 eS
  have Q0 : 0 < len v ^ 2 := by positivity
  have S0 : 0 ≤ S := by
    clear q1 q2 w1 w2
    norm_num at eS'
    linarith [eS'.1]
  have hroot : Real.sqrt (len v ^ 2) = len v := Real.sqrt_sq hN.le
  have s1 := sqrt_err eS S0 hN hroot.ge
  rw [hroot] at s1
  have s2 : |Real.sqrt S - len v| ≤ len v * (8 * (2 : ℝ) ^ (-53 : ℤ)) := by
    refine s1.trans (le_of_eq ?_)
    field_simp
  refine ⟨R (Real.sqrt S), ?_, ?_⟩
  · show fsqrt R (sum3 (some (R (v 0 * v 0))) (some (R (v 1 * v 1))) (some (R (v 2 * v 2)))) = _
    rw [hS, fsqrt, if_neg (not_lt.2 S0)]
  · generalize Real.sqrt S = x at *
    generalize len v = N at *
    have b0 : (2 : ℝ) ^ (-900 : ℤ) ≤ 2 * N := by
      have : (2 : ℝ) ^ (-900 : ℤ) ≤ (2 : ℝ) ^ (-90 : ℤ) := zpow_le_zpow_right₀ (by norm_num) (by norm_num)
      linarith
    have b1 : 2 * N ≤ (2 : ℝ) ^ (900 : ℤ) := by
      refine (mul_le_mul_of_nonneg_left h2 (by norm_num)).trans ?_
      calc (2 : ℝ) * (2 : ℝ) ^ (90 : ℤ) = (2 : ℝ) ^ (1 + 90 : ℤ) := by rw [zpow_add₀ (by norm_num), zpow_one]
        _ ≤ _ := zpow_le_zpow_right₀ (by norm_num) (by norm_num)
    clear q1 q2 w1 w2 e eS eS' s1 hQ hS Q0
    rw [abs_le] at s2
    norm_num at s2
    have r := rnd_bound R b0 b1 (x := x) (by rw [abs_le]; constructor <;> linarith [s2.1, s2.2])
    rw [abs_le] at r ⊢
    norm_num at r ⊢
    constructor <;> linarith [s2.1, s2.2, r.1, r.2]

/-- The computed quotient of a component and the norm. -/
theorem quotient_err {x N n : ℝ} (hN : 0 < N) (hx : |x| ≤ N) (hn : |n - N| ≤ N * (12 / 10 ^ 16)) : n ≠ 0 ∧ |R (x / n) - x / N| ≤ 2 / 10 ^ 15 := by
  have hn' := abs_le.1 hn
  norm_num at hn'
  have hl : N * (99 / 100) ≤ n := by linarith [hn'.1]
  have n0 : 0 < n := by linarith
  have hz : |x / N| ≤ 1 := by rw [abs_div, abs_of_pos hN, div_le_one hN]; exact hx
  have d := div_err (x' := x) (x := x) (εx := 0) (by simp) hn hz (by positivity) hl hN.ne'
  have d' : |x / n - x / N| ≤ 13 / 10 ^ 16 := by
    refine d.trans ?_
    rw [div_le_iff₀ (by positivity)]
    norm_num
    linarith
  exact ⟨n0.ne', rstep R (k := 1) d' hz (by norm_num) (by norm_num) (by norm_num) (by norm_num)⟩

/-- The computed unit vector. -/
theorem normalize_err {sum3 : F → F → F → F} (hs : IsSum3 R sum3) {v : Fin 3 → ℝ} (h1 : (2 : ℝ) ^ (-90 : ℤ) ≤ len v) (h2 : len v ≤ (2 : ℝ) ^ (90 : ℤ)) :
    ∃ w, normalize R sum3 (fv v) = fv w ∧ ∀ i, |w i - v i / len v| ≤ 2 / 10 ^ 15 := by
  have hN : 0 < len v := lt_of_lt_of_le (by positivity) h1
  obtain ⟨n, hn, en⟩ := norm_err R hs h1 h2
  refine ⟨fun i => R (v i / n), ?_, fun i => (quotient_err R hN (le_len v i) en).2⟩
  funext i
  rw [normalize, hn, fv, fdiv, if_neg (quotient_err R hN (le_len v i) en).1, fv]

/-- The computed vector product. -/
theorem cross_err {u v a b : Fin 3 → ℝ} {ε ε' : ℝ} (h0 : 2 / 10 ^ 15 ≤ ε + ε') (h0' : 0 ≤ ε) (h0'' : 0 ≤ ε') (hε : ε ≤ 1 / 10 ^ 5) (hε' : ε' ≤ 1 / 10 ^ 5) (ha : ∀ i, |a i| ≤ 1) (hb : ∀ i, |b i| ≤ 1) (hu : ∀ i, |u i - a i| ≤ ε) (hv : ∀ i, |v i - b i| ≤ ε') :
    ∃ c, fcross R (fv u) (fv v) = fv c ∧ ∀ i, |c i - vecProd a b i| ≤ 5 / 2 * (ε + ε') := by
  have prod : ∀ i j, |R (u i * v j) - a i * b j| ≤ 11 / 10 * (ε + ε') := by
    intro i j
    have m := mul_err (hu i) (hv j) (ha i) (hb j)
    have m2 : ε * ε' ≤ 1 / 10 ^ 5 * ε' := mul_le_mul_of_nonneg_right hε h0''
    have bb : |a i * b j| ≤ 1 := by rw [abs_mul]; exact mul_le_one₀ (ha i) (abs_nonneg _) (hb j)
    refine rstep R (k := 1) m bb ?_ (by norm_num) (by norm_num) ?_
    · norm_num at *
      linarith
    · norm_num at *
      linarith
  have diff : ∀ i j k l, |R (R (u i * v j) - R (u k * v l)) - (a i * b j - a k * b l)| ≤ 5 / 2 * (ε + ε') := by
    intro i j k l
    have m := sub_err (prod i j) (prod k l)
    have bb : |a i * b j - a k * b l| ≤ 2 := by
      have h1 : |a i * b j| ≤ 1 := by rw [abs_mul]; exact mul_le_one₀ (ha i) (abs_nonneg _) (hb j)
      have h2 : |a k * b l| ≤ 1 := by rw [abs_mul]; exact mul_le_one₀ (ha k) (abs_nonneg _) (hb l)
      have := abs_sub (a i * b j) (a k * b l)
      linarith
    refine rstep R (k := 2) m bb ?_ (by norm_num) (by norm_num) ?_
    · norm_num at *
      linarith
    · norm_num at *
      linarith
  refine ⟨![R (R (u 1 * v 2) - R (u 2 * v 1)), R (R (u 2 * v 0) - R (u 0 * v 2)), R (R (u 0 * v 1) - R (u 1 * v 0))], ?_, ?_⟩
  · funext i
    fin_cases i <;> rfl
  · intro i
    fin_cases i
    · exact diff 1 2 2 1
    · exact diff 2 0 0 2
    · exact diff 0 1 1 0

end ChaosMagPy.FloatBase
