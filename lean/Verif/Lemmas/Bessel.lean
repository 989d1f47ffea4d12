import Verif.Lemmas.Radial
import Mathlib.Analysis.Complex.LocallyUniformLimit
import Mathlib.Analysis.SpecificLimits.Normed
/-!
# Solutions of `g'' = (1 + n(n+1)/z^2) g`: power series and closed forms
-/
namespace ChaosMagPy.QResponse
open Complex Filter Topology

/-- `g'' = (1 + n(n+1)/z^2) g` away from zero. -/
structure Radial (n : ℕ) (g g' : ℂ → ℂ) : Prop where
  hasDeriv : ∀ z, z ≠ 0 → HasDerivAt g (g' z) z
  equation : ∀ z, z ≠ 0 → HasDerivAt g' ((1 + (n : ℂ) * (n + 1) / z ^ 2) * g z) z

/-! ### Power series that converge everywhere -/

/-- Coefficients with infinite radius of convergence. -/
def Entire (c : ℕ → ℂ) : Prop := ∀ R : ℝ, 0 ≤ R → Summable fun j => ‖c j‖ * R ^ j

/-- Coefficients of the derivative. -/
def dcoef (c : ℕ → ℂ) (j : ℕ) : ℂ := (j + 1) * c (j + 1)

/-- The sum. -/
noncomputable def ps (c : ℕ → ℂ) (x : ℂ) : ℂ := ∑' j, c j * x ^ j

theorem Entire.summable {c : ℕ → ℂ} (h : Entire c) (x : ℂ) : Summable fun j => c j * x ^ j := by
  refine Summable.of_norm ?_
  have := h ‖x‖ (norm_nonneg x)
  simpa [norm_mul, norm_pow] using this

theorem Entire.hasSum {c : ℕ → ℂ} (h : Entire c) (x : ℂ) : HasSum (fun j => c j * x ^ j) (ps c x) := (h.summable x).hasSum

theorem Entire.dcoef {c : ℕ → ℂ} (h : Entire c) : Entire (dcoef c) := by
  intro R hR
  have h1 := (summable_nat_add_iff 1).2 (h (2 * (R + 1)) (by positivity))
  refine Summable.of_nonneg_of_le (fun j => by positivity) (fun j => ?_) h1
  unfold ChaosMagPy.QResponse.dcoef
  rw [norm_mul, mul_comm ‖_‖ ‖c (j + 1)‖, mul_assoc]
  refine mul_le_mul_of_nonneg_left ?_ (norm_nonneg _)
  have e : ‖((j : ℂ) + 1)‖ = (j : ℝ) + 1 := by
    have : ((j : ℂ) + 1) = ((j + 1 : ℕ) : ℂ) := by push_cast; rfl
    rw [this, Complex.norm_natCast]
    push_cast
    rfl
  rw [e, mul_pow]
  have h2 : (j : ℝ) + 1 ≤ 2 ^ (j + 1) := by
    have : (j + 1) < 2 ^ (j + 1) := Nat.lt_two_pow_self
    exact_mod_cast this.le
  have h3 : R ^ j ≤ (R + 1) ^ (j + 1) := (pow_le_pow_left₀ hR (by linarith) j).trans (pow_le_pow_right₀ (by linarith) (by omega))
  exact mul_le_mul h2 h3 (by positivity) (by positivity)

theorem Entire.hasDeriv {c : ℕ → ℂ} (h : Entire c) (x : ℂ) : HasDerivAt (ps c) (ps (ChaosMagPy.QResponse.dcoef c) x) x := by
  set R := ‖x‖ + 1
  have hR : 0 ≤ R := by positivity
  have hmem : x ∈ Metric.ball (0 : ℂ) R := by simp [R]
  have hsum := h R hR
  have hdiff : ∀ i : ℕ, DifferentiableOn ℂ (fun w : ℂ => c i * w ^ i) (Metric.ball 0 R) := fun i => by fun_prop
  have hle : ∀ (i : ℕ) (w : ℂ), w ∈ Metric.ball (0 : ℂ) R → ‖c i * w ^ i‖ ≤ ‖c i‖ * R ^ i := by
    intro i w hw
    rw [norm_mul, norm_pow]
    refine mul_le_mul_of_nonneg_left (pow_le_pow_left₀ (norm_nonneg _) ?_ _) (norm_nonneg _)
    simpa using (Metric.mem_ball.1 hw).le
  have hd := Complex.hasSum_deriv_of_summable_norm hsum hdiff Metric.isOpen_ball hle hmem
  have hda : DifferentiableAt ℂ (fun w => ∑' i, c i * w ^ i) x :=
    (Complex.differentiableOn_tsum_of_summable_norm hsum hdiff Metric.isOpen_ball hle).differentiableAt (Metric.isOpen_ball.mem_nhds hmem)
  have hder : deriv (fun w => ∑' i, c i * w ^ i) x = ps (ChaosMagPy.QResponse.dcoef c) x := by
    refine hd.unique ?_
    have hs := (h.dcoef).hasSum x
    have e : ∀ i : ℕ, deriv (fun w : ℂ => c i * w ^ i) x = c i * (i * x ^ (i - 1)) := by
      intro i
      exact ((hasDerivAt_pow i x).const_mul (c i)).deriv
    simp_rw [e]
    rw [← hasSum_nat_add_iff' 1]
    simp only [Finset.sum_range_one, Nat.cast_zero, zero_mul, mul_zero, sub_zero, Nat.add_sub_cancel]
    refine hs.congr_fun ?_
    intro i
    unfold ChaosMagPy.QResponse.dcoef
    push_cast
    ring
  rw [← hder]
  exact hda.hasDerivAt

theorem ps_zero (c : ℕ → ℂ) : ps c 0 = c 0 := by
  unfold ps
  rw [tsum_eq_single 0 (fun j hj => by simp [hj])]
  simp

theorem Entire.shift {c : ℕ → ℂ} (h : Entire c) (x : ℂ) : ps c x = c 0 + x * ∑' j, c (j + 1) * x ^ j := by
  unfold ps
  rw [(h.summable x).tsum_eq_zero_add, ← tsum_mul_left]
  congr 1
  · simp
  · exact tsum_congr fun j => by ring

/-! ### The Frobenius series -/

/-- `1 / (2i (2i + 2t - 1))` multiplied up. -/
noncomputable def frob (t : ℤ) : ℕ → ℂ
  | 0 => 1
  | j + 1 => frob t j / (2 * ((j : ℂ) + 1) * (2 * ((j : ℂ) + 1) + 2 * t - 1))

theorem odd_ne (t : ℤ) (j : ℕ) : (2 * ((j : ℂ) + 1) + 2 * t - 1) ≠ 0 := by
  have : (2 * ((j : ℂ) + 1) + 2 * t - 1) = ((2 * ((j : ℤ) + 1) + 2 * t - 1 : ℤ) : ℂ) := by push_cast; ring
  rw [this]
  exact_mod_cast (by omega : (2 * ((j : ℤ) + 1) + 2 * t - 1) ≠ 0)

theorem one_le_odd (t : ℤ) (j : ℕ) : 1 ≤ ‖(2 * ((j : ℂ) + 1) + 2 * t - 1)‖ := by
  have : (2 * ((j : ℂ) + 1) + 2 * t - 1) = ((2 * ((j : ℤ) + 1) + 2 * t - 1 : ℤ) : ℂ) := by push_cast; ring
  rw [this, Complex.norm_intCast]
  exact_mod_cast Int.one_le_abs (by omega : (2 * ((j : ℤ) + 1) + 2 * t - 1) ≠ 0)

theorem succ_ne (j : ℕ) : ((j : ℂ) + 1) ≠ 0 := Nat.cast_add_one_ne_zero j

theorem norm_succ (j : ℕ) : ‖(j : ℂ) + 1‖ = (j : ℝ) + 1 := by
  have : ((j : ℂ) + 1) = ((j + 1 : ℕ) : ℂ) := by push_cast; rfl
  rw [this, Complex.norm_natCast]
  push_cast
  rfl

theorem frob_succ (t : ℤ) (j : ℕ) : 2 * ((j : ℂ) + 1) * (2 * ((j : ℂ) + 1) + 2 * t - 1) * frob t (j + 1) = frob t j := by
  rw [frob]
  exact mul_div_cancel₀ _ (mul_ne_zero (mul_ne_zero two_ne_zero (succ_ne j)) (odd_ne t j))

theorem frob_ne (t : ℤ) (j : ℕ) : frob t j ≠ 0 := by
  induction j with
  | zero => exact one_ne_zero
  | succ j ih =>
    rw [frob]
    exact div_ne_zero ih (mul_ne_zero (mul_ne_zero two_ne_zero (succ_ne j)) (odd_ne t j))

/-- One step makes the coefficient smaller by `2(j+1)`. -/
theorem frob_step (t : ℤ) (j : ℕ) : ‖frob t (j + 1)‖ ≤ ‖frob t j‖ / (2 * ((j : ℝ) + 1)) := by
  rw [frob, norm_div, norm_mul, norm_mul, Complex.norm_two, norm_succ]
  exact div_le_div_of_nonneg_left (norm_nonneg _) (by positivity) (le_mul_of_one_le_right (by positivity) (one_le_odd t j))

theorem frob_entire (t : ℤ) : Entire (frob t) := by
  intro R hR
  have hle : ∀ j, ‖frob t j‖ * R ^ j ≤ R ^ j / j.factorial := by
    intro j
    induction j with
    | zero => simp [frob]
    | succ j ih =>
      have h1 := frob_step t j
      have hj : (0 : ℝ) < (j : ℝ) + 1 := by positivity
      calc ‖frob t (j + 1)‖ * R ^ (j + 1) ≤ ‖frob t j‖ / (2 * ((j : ℝ) + 1)) * R ^ (j + 1) := mul_le_mul_of_nonneg_right h1 (by positivity)
        _ = ‖frob t j‖ * R ^ j * (R / (2 * ((j : ℝ) + 1))) := by rw [pow_succ]; ring
        _ ≤ R ^ j / j.factorial * (R / ((j : ℝ) + 1)) := by
            refine mul_le_mul ih ?_ (by positivity) (by positivity)
            exact div_le_div_of_nonneg_left hR hj (by linarith)
        _ = R ^ (j + 1) / (j + 1).factorial := by
            rw [Nat.factorial_succ, pow_succ]
            push_cast
            field_simp
  exact Summable.of_nonneg_of_le (fun j => by positivity) hle (Real.summable_pow_div_factorial R)

/-- The sums of the series and their derivative with respect to `x = z^2`. -/
noncomputable def phi (t : ℤ) : ℂ → ℂ := ps (frob t)

noncomputable def dphi (t : ℤ) : ℂ → ℂ := ps (dcoef (frob t))

noncomputable def ddphi (t : ℤ) : ℂ → ℂ := ps (dcoef (dcoef (frob t)))

theorem phi_eq (t : ℤ) (x : ℂ) : (4 * t + 2) * dphi t x + 4 * x * ddphi t x = phi t x := by
  have h1 := ((frob_entire t).dcoef.hasSum x).mul_left (4 * (t : ℂ) + 2)
  have h2 := ((frob_entire t).dcoef.dcoef.hasSum x).mul_left (4 * x)
  have h3 : HasSum (fun j : ℕ => 4 * (j : ℂ) * (dcoef (frob t) j * x ^ j)) (4 * x * ddphi t x) := by
    rw [← hasSum_nat_add_iff' 1]
    simp only [Finset.sum_range_one, Nat.cast_zero, zero_mul, mul_zero, sub_zero]
    refine h2.congr_fun fun j => ?_
    show 4 * ((j + 1 : ℕ) : ℂ) * (dcoef (frob t) (j + 1) * x ^ (j + 1)) = 4 * x * (((j : ℂ) + 1) * dcoef (frob t) (j + 1) * x ^ j)
    push_cast
    ring
  refine ((h1.add h3).congr_fun fun j => ?_).unique ((frob_entire t).hasSum x)
  rw [dcoef]
  have := frob_succ t j
  rw [← this]
  ring

/-- The Frobenius solution `z^t phi(z^2)`. -/
noncomputable def frobG (t : ℤ) (z : ℂ) : ℂ := z ^ t * phi t (z ^ 2)

noncomputable def frobG' (t : ℤ) (z : ℂ) : ℂ := t * z ^ (t - 1) * phi t (z ^ 2) + 2 * z ^ (t + 1) * dphi t (z ^ 2)

theorem frob_radial (n : ℕ) (t : ℤ) (ht : t * (t - 1) = n * (n + 1)) : Radial n (frobG t) (frobG' t) := by
  have hx : ∀ z : ℂ, HasDerivAt (fun z : ℂ => z ^ 2) (2 * z) z := fun z => by simpa using hasDerivAt_pow 2 z
  have h1 : ∀ z : ℂ, HasDerivAt (fun z : ℂ => phi t (z ^ 2)) (dphi t (z ^ 2) * (2 * z)) z := fun z =>
    ((frob_entire t).hasDeriv (z ^ 2)).comp z (hx z)
  have h2 : ∀ z : ℂ, HasDerivAt (fun z : ℂ => dphi t (z ^ 2)) (ddphi t (z ^ 2) * (2 * z)) z := fun z =>
    ((frob_entire t).dcoef.hasDeriv (z ^ 2)).comp z (hx z)
  constructor
  · intro z hz
    refine ((hasDerivAt_zpow t z (Or.inl hz)).mul (h1 z)).congr_deriv ?_
    unfold frobG'
    rw [zpow_add_one₀ hz]
    ring
  · intro z hz
    have d := (((hasDerivAt_zpow (t - 1) z (Or.inl hz)).const_mul (t : ℂ)).mul (h1 z)).add
      (((hasDerivAt_zpow (t + 1) z (Or.inl hz)).const_mul 2).mul (h2 z))
    refine d.congr_deriv ?_
    have e := phi_eq t (z ^ 2)
    have htc : (t : ℂ) * (t - 1) = n * (n + 1) := by exact_mod_cast ht
    unfold frobG
    rw [← htc, ← e, show t - 1 - 1 = t - 2 by ring, show t + 1 - 1 = t by ring, zpow_add_one₀ hz, zpow_sub_one₀ hz,
      show t - 2 = t - (2 : ℕ) by norm_num, zpow_sub₀ hz, zpow_natCast]
    push_cast
    field_simp
    ring

/-! ### On a ray -/

/-- Coefficient of the radial equation in a uniform layer. -/
noncomputable def coef (n : ℕ) (k : ℂ) (r : ℝ) : ℂ := (n : ℂ) * (n + 1) / (r : ℂ) ^ 2 + k ^ 2

theorem Radial.sol {n : ℕ} {g g' : ℂ → ℂ} (h : Radial n g g') {k : ℂ} (hk : k ≠ 0) {r1 : ℝ} (h1 : 0 < r1) (r2 : ℝ) :
    Sol (coef n k) r1 r2 (fun r => g (k * r)) (fun r => k * g' (k * r)) := by
  have hlin : ∀ r : ℝ, HasDerivAt (fun r : ℝ => k * (r : ℂ)) k r := fun r => by
    simpa using ((hasDerivAt_id r).ofReal_comp).const_mul k
  have hd : ∀ r : ℝ, 0 < r → HasDerivAt (fun r : ℝ => g (k * r)) (k * g' (k * r)) r := fun r hr => by
    have hz : k * (r : ℂ) ≠ 0 := mul_ne_zero hk (by exact_mod_cast hr.ne')
    refine ((h.hasDeriv _ hz).comp r (hlin r)).congr_deriv ?_
    ring
  have he : ∀ r : ℝ, 0 < r → HasDerivAt (fun r : ℝ => k * g' (k * r)) (coef n k r * g (k * r)) r := fun r hr => by
    have hrc : (r : ℂ) ≠ 0 := by exact_mod_cast hr.ne'
    have hz : k * (r : ℂ) ≠ 0 := mul_ne_zero hk hrc
    refine (((h.equation _ hz).comp r (hlin r)).const_mul k).congr_deriv ?_
    unfold coef
    field_simp
    ring
  refine ⟨fun r hr => (hd r (h1.trans_le hr.1)).hasDerivWithinAt, fun r hr => (he r (h1.trans_le hr.1)).continuousAt.continuousWithinAt,
    ∅, Set.finite_empty, fun r hr _ => he r (h1.trans hr.1)⟩

/-- The Wronskian is constant on a ray. -/
theorem Radial.wronskian {n : ℕ} {g g' f f' : ℂ → ℂ} (hg : Radial n g g') (hf : Radial n f f') {k : ℂ} (hk : k ≠ 0) {r1 r2 : ℝ} (h1 : 0 < r1) (h2 : 0 < r2) :
    g (k * r2) * f' (k * r2) - g' (k * r2) * f (k * r2) = g (k * r1) * f' (k * r1) - g' (k * r1) * f (k * r1) := by
  have aux : ∀ {r1 r2 : ℝ}, 0 < r1 → r1 ≤ r2 →
      g (k * r2) * f' (k * r2) - g' (k * r2) * f (k * r2) = g (k * r1) * f' (k * r1) - g' (k * r1) * f (k * r1) := by
    intro r1 r2 h1 h12
    have := ChaosMagPy.QResponse.wronskian h12 (hg.sol hk h1 r2) (hf.sol hk h1 r2)
    refine mul_left_cancel₀ hk ?_
    linear_combination this
  rcases le_total r1 r2 with h | h
  · exact aux h1 h
  · exact (aux h2 h).symm

theorem frob_wronskian (n : ℕ) {z : ℂ} (hz : z ≠ 0) :
    frobG (n + 1) z * frobG' (-n) z - frobG' (n + 1) z * frobG (-n) z = -(2 * n + 1) := by
  have hr1 : Radial n (frobG (n + 1)) (frobG' (n + 1)) := frob_radial n _ (by ring)
  have hr2 : Radial n (frobG (-n)) (frobG' (-n)) := frob_radial n _ (by ring)
  set W : ℂ → ℂ := fun x => -(2 * n + 1) * (phi (n + 1) x * phi (-n) x) + 2 * x * (phi (n + 1) x * dphi (-n) x - dphi (n + 1) x * phi (-n) x) with hW
  have hWeq : ∀ y : ℂ, y ≠ 0 → frobG (n + 1) y * frobG' (-n) y - frobG' (n + 1) y * frobG (-n) y = W (y ^ 2) := by
    intro y hy
    simp only [frobG, frobG', hW]
    have e1 : y ^ ((n : ℤ) + 1) = y ^ n * y := by rw [zpow_add_one₀ hy, zpow_natCast]
    have e2 : y ^ (-(n : ℤ) - 1) = (y ^ n)⁻¹ * y⁻¹ := by rw [zpow_sub_one₀ hy, zpow_neg, zpow_natCast]
    have e3 : y ^ (-(n : ℤ) + 1) = (y ^ n)⁻¹ * y := by rw [zpow_add_one₀ hy, zpow_neg, zpow_natCast]
    have e4 : y ^ ((n : ℤ) + 1 - 1) = y ^ n := by rw [add_sub_cancel_right, zpow_natCast]
    have e5 : y ^ ((n : ℤ) + 1 + 1) = y ^ n * y * y := by rw [zpow_add_one₀ hy, e1]
    have e6 : y ^ (-(n : ℤ)) = (y ^ n)⁻¹ := by rw [zpow_neg, zpow_natCast]
    rw [e1, e2, e3, e4, e5, e6]
    have : y ^ n ≠ 0 := pow_ne_zero _ hy
    push_cast
    field_simp
    ring
  have hcont : Continuous W := by
    have c1 : Continuous (phi (n + 1)) := continuous_iff_continuousAt.2 fun x => ((frob_entire _).hasDeriv x).continuousAt
    have c2 : Continuous (phi (-n)) := continuous_iff_continuousAt.2 fun x => ((frob_entire _).hasDeriv x).continuousAt
    have c3 : Continuous (dphi (n + 1)) := continuous_iff_continuousAt.2 fun x => ((frob_entire _).dcoef.hasDeriv x).continuousAt
    have c4 : Continuous (dphi (-n)) := continuous_iff_continuousAt.2 fun x => ((frob_entire _).dcoef.hasDeriv x).continuousAt
    simp only [hW]
    fun_prop
  have hlim : Tendsto (fun r : ℝ => W ((z * r) ^ 2)) (𝓝[>] 0) (𝓝 (W 0)) := by
    have : Continuous fun r : ℝ => W ((z * r) ^ 2) := by fun_prop
    have h := this.tendsto 0
    simp only [ofReal_zero, mul_zero, ne_eq, OfNat.ofNat_ne_zero, not_false_eq_true, zero_pow] at h
    exact h.mono_left nhdsWithin_le_nhds
  have hconst : (fun r : ℝ => W ((z * r) ^ 2)) =ᶠ[𝓝[>] 0] fun _ => W (z ^ 2) := by
    filter_upwards [self_mem_nhdsWithin] with r hr
    have hr : (0 : ℝ) < r := hr
    have hzr : z * (r : ℂ) ≠ 0 := mul_ne_zero hz (by exact_mod_cast hr.ne')
    rw [← hWeq _ hzr, hr1.wronskian hr2 hz one_pos hr]
    simp only [ofReal_one, mul_one]
    exact hWeq z hz
  have := tendsto_nhds_unique (hlim.congr' hconst) tendsto_const_nhds
  rw [hWeq z hz, ← this]
  simp only [hW, phi, ps_zero, frob]
  ring

/-! ### Closed forms -/

/-- Coefficients of the closed form, `s = 1` or `-1`. -/
noncomputable def cc (n : ℕ) (s : ℂ) : ℕ → ℂ
  | 0 => 1 / 2
  | j + 1 => -s / 2 * ((n : ℂ) - j) * (n + j + 1) / (j + 1) * cc n s j

theorem cc_succ (n : ℕ) (s : ℂ) (j : ℕ) : 2 * ((j : ℂ) + 1) * cc n s (j + 1) = -s * ((n : ℂ) - j) * (n + j + 1) * cc n s j := by
  rw [cc]
  have := succ_ne j
  field_simp

/-- Polynomial in `x = 1/z`. -/
noncomputable def wS (n : ℕ) (s x : ℂ) : ℂ := ∑ j ∈ Finset.range (n + 1), cc n s j * x ^ j

noncomputable def dwS (n : ℕ) (s x : ℂ) : ℂ := -∑ j ∈ Finset.range (n + 1), j * cc n s j * x ^ (j + 1)

noncomputable def closedG (n : ℕ) (s z : ℂ) : ℂ := Complex.exp (s * z) * wS n s z⁻¹

noncomputable def closedG' (n : ℕ) (s z : ℂ) : ℂ := Complex.exp (s * z) * (s * wS n s z⁻¹ + dwS n s z⁻¹)

theorem closed_radial (n : ℕ) (s : ℂ) (hs : s ^ 2 = 1) : Radial n (closedG n s) (closedG' n s) := by
  have hexp : ∀ z : ℂ, HasDerivAt (fun z => Complex.exp (s * z)) (Complex.exp (s * z) * s) z := fun z => by
    simpa using ((hasDerivAt_id z).const_mul s).cexp
  have hpow : ∀ (j : ℕ) (z : ℂ), z ≠ 0 → HasDerivAt (fun z : ℂ => z⁻¹ ^ j) (-(j * z⁻¹ ^ (j + 1))) z := by
    intro j z hz
    cases j with
    | zero => simpa using hasDerivAt_const z (1 : ℂ)
    | succ j =>
      refine ((hasDerivAt_inv hz).pow (j + 1)).congr_deriv ?_
      push_cast
      rw [inv_pow, inv_pow]
      field_simp
      ring
  have hw : ∀ z : ℂ, z ≠ 0 → HasDerivAt (fun z => wS n s z⁻¹) (dwS n s z⁻¹) z := by
    intro z hz
    have := HasDerivAt.fun_sum (u := Finset.range (n + 1)) fun j _ => (hpow j z hz).const_mul (cc n s j)
    refine this.congr_deriv ?_
    unfold dwS
    rw [← Finset.sum_neg_distrib]
    exact Finset.sum_congr rfl fun j _ => by ring
  have hdw : ∀ z : ℂ, z ≠ 0 → HasDerivAt (fun z => dwS n s z⁻¹) (∑ j ∈ Finset.range (n + 1), j * (j + 1) * cc n s j * z⁻¹ ^ (j + 2)) z := by
    intro z hz
    have := (HasDerivAt.fun_sum (u := Finset.range (n + 1)) fun j _ => (hpow (j + 1) z hz).const_mul ((j : ℂ) * cc n s j)).fun_neg
    refine this.congr_deriv ?_
    rw [← Finset.sum_neg_distrib]
    exact Finset.sum_congr rfl fun j _ => by push_cast; ring
  have hode : ∀ x : ℂ, (∑ j ∈ Finset.range (n + 1), (j : ℂ) * (j + 1) * cc n s j * x ^ (j + 2)) + 2 * s * dwS n s x = (n : ℂ) * (n + 1) * x ^ 2 * wS n s x := by
    intro x
    have e1 : 2 * s * dwS n s x = -∑ j ∈ Finset.range n, 2 * s * ((j : ℂ) + 1) * cc n s (j + 1) * x ^ (j + 2) := by
      unfold dwS
      rw [Finset.sum_range_succ', mul_neg, mul_add, Finset.mul_sum]
      simp only [Nat.cast_zero, zero_mul, mul_zero, add_zero]
      congr 1
      exact Finset.sum_congr rfl fun j _ => by push_cast; ring
    have e2 : ∀ j ∈ Finset.range n, 2 * s * ((j : ℂ) + 1) * cc n s (j + 1) * x ^ (j + 2) = ((j : ℂ) * (j + 1) - n * (n + 1)) * cc n s j * x ^ (j + 2) := by
      intro j _
      have := cc_succ n s j
      linear_combination s * x ^ (j + 2) * this + (-((n : ℂ) - j) * (n + j + 1) * cc n s j * x ^ (j + 2)) * hs
    rw [e1, Finset.sum_congr rfl e2]
    unfold wS
    rw [Finset.mul_sum, Finset.sum_range_succ, Finset.sum_range_succ (fun j => (n : ℂ) * (n + 1) * x ^ 2 * (cc n s j * x ^ j))]
    have e3 : ∑ j ∈ Finset.range n, (n : ℂ) * (n + 1) * x ^ 2 * (cc n s j * x ^ j) =
        (∑ j ∈ Finset.range n, (j : ℂ) * (j + 1) * cc n s j * x ^ (j + 2)) - ∑ j ∈ Finset.range n, ((j : ℂ) * (j + 1) - n * (n + 1)) * cc n s j * x ^ (j + 2) := by
      rw [← Finset.sum_sub_distrib]
      exact Finset.sum_congr rfl fun j _ => by ring
    rw [e3]
    ring
  constructor
  · intro z hz
    refine ((hexp z).mul (hw z hz)).congr_deriv ?_
    unfold closedG'
    ring
  · intro z hz
    refine ((hexp z).mul (((hw z hz).const_mul s).add (hdw z hz))).congr_deriv ?_
    have e := hode z⁻¹
    unfold closedG
    have ez : (n : ℂ) * (n + 1) / z ^ 2 = n * (n + 1) * z⁻¹ ^ 2 := by rw [inv_pow]; rfl
    rw [ez]
    simp only [Pi.add_apply]
    linear_combination Complex.exp (s * z) * e + Complex.exp (s * z) * wS n s z⁻¹ * hs

theorem wS_cont (n : ℕ) (s : ℂ) : Continuous (wS n s) := by unfold wS; fun_prop

theorem dwS_cont (n : ℕ) (s : ℂ) : Continuous (dwS n s) := by unfold dwS; fun_prop

theorem wS_zero (n : ℕ) (s : ℂ) : wS n s 0 = 1 / 2 := by
  unfold wS
  rw [Finset.sum_range_succ']
  simp [cc]

theorem dwS_zero (n : ℕ) (s : ℂ) : dwS n s 0 = 0 := by
  unfold dwS
  simp

theorem ray_inv (z : ℂ) : Tendsto (fun r : ℝ => (z * (r : ℂ))⁻¹) atTop (𝓝 0) := by
  have h := (tendsto_inv_atTop_zero (𝕜 := ℝ))
  have h2 : Tendsto (fun r : ℝ => z⁻¹ * ((r⁻¹ : ℝ) : ℂ)) atTop (𝓝 (z⁻¹ * ((0 : ℝ) : ℂ))) :=
    ((Complex.continuous_ofReal.tendsto 0).comp h).const_mul _
  simp only [ofReal_zero, mul_zero] at h2
  refine h2.congr fun r => ?_
  rw [mul_inv]
  push_cast
  rfl

theorem closed_wronskian (n : ℕ) {z : ℂ} (hz : z ≠ 0) :
    closedG n 1 z * closedG' n (-1) z - closedG' n 1 z * closedG n (-1) z = -(1 / 2) := by
  have hr1 := closed_radial n 1 (by norm_num)
  have hr2 := closed_radial n (-1) (by norm_num)
  set W : ℂ → ℂ := fun x => wS n 1 x * (-1 * wS n (-1) x + dwS n (-1) x) - (1 * wS n 1 x + dwS n 1 x) * wS n (-1) x with hW
  have hWeq : ∀ y : ℂ, closedG n 1 y * closedG' n (-1) y - closedG' n 1 y * closedG n (-1) y = W y⁻¹ := by
    intro y
    have he : Complex.exp (1 * y) * Complex.exp (-1 * y) = 1 := by rw [← Complex.exp_add]; simp
    simp only [closedG, closedG', hW]
    linear_combination (wS n 1 y⁻¹ * (-1 * wS n (-1) y⁻¹ + dwS n (-1) y⁻¹) - (1 * wS n 1 y⁻¹ + dwS n 1 y⁻¹) * wS n (-1) y⁻¹) * he
  have hcont : Continuous W := by
    have := wS_cont n 1
    have := wS_cont n (-1)
    have := dwS_cont n 1
    have := dwS_cont n (-1)
    simp only [hW]
    fun_prop
  have hlim : Tendsto (fun r : ℝ => W (z * r)⁻¹) atTop (𝓝 (W 0)) := (hcont.tendsto 0).comp (ray_inv z)
  have hconst : (fun r : ℝ => W (z * r)⁻¹) =ᶠ[atTop] fun _ => W z⁻¹ := by
    filter_upwards [eventually_gt_atTop (0 : ℝ)] with r hr
    rw [← hWeq, hr1.wronskian hr2 hz one_pos hr]
    simp only [ofReal_one, mul_one]
    exact hWeq z
  have := tendsto_nhds_unique (hlim.congr' hconst) tendsto_const_nhds
  rw [hWeq z, ← this]
  simp only [hW, wS_zero, dwS_zero]
  norm_num

/-! ### No zeros on the rays of the code -/

theorem coef_re (n : ℕ) (hn : 1 ≤ n) {k : ℂ} (hk : 0 ≤ (k ^ 2).re) {r : ℝ} (hr : 0 < r) : 0 < (coef n k r).re := by
  have e : (coef n k r).re = (n : ℝ) * (n + 1) / r ^ 2 + (k ^ 2).re := by
    unfold coef
    rw [Complex.add_re]
    congr 1
    have : (n : ℂ) * (n + 1) / (r : ℂ) ^ 2 = (((n : ℝ) * (n + 1) / r ^ 2 : ℝ) : ℂ) := by push_cast; rfl
    rw [this, Complex.ofReal_re]
  rw [e]
  have : (1 : ℝ) ≤ n := by exact_mod_cast hn
  positivity

theorem coef_cont (n : ℕ) (k : ℂ) {r1 r2 : ℝ} (h1 : 0 < r1) : ContinuousOn (fun r => (coef n k r).re) (Set.Icc r1 r2) := by
  refine Complex.continuous_re.comp_continuousOn ?_
  unfold coef
  refine ContinuousOn.add (ContinuousOn.div continuousOn_const (by fun_prop) fun r hr => ?_) continuousOn_const
  have : r ≠ 0 := (h1.trans_le hr.1).ne'
  exact pow_ne_zero _ (by exact_mod_cast this)

/-- A solution with the same energy at two radii is zero between them. -/
theorem energy_flat {n : ℕ} (hn : 1 ≤ n) {k : ℂ} (hk : 0 ≤ (k ^ 2).re) {r1 r2 : ℝ} (h1 : 0 < r1) (h12 : r1 < r2) {u du : ℝ → ℂ} (hu : Sol (coef n k) r1 r2 u du)
    (he : energyRe u du r2 ≤ energyRe u du r1) : ∀ x ∈ Set.Icc r1 r2, u x = 0 ∧ du x = 0 := by
  intro x hx
  by_contra hne
  have : u x ≠ 0 ∨ du x ≠ 0 := by
    by_contra h
    push Not at h
    exact hne h
  have := energyRe_lt h12 hu (coef_cont n k h1) (fun r hr => coef_re n hn hk (h1.trans_le hr.1)) ⟨x, hx, this⟩
  linarith

/-- The regular solution. -/
theorem frob_pos {n : ℕ} (hn : 1 ≤ n) {k : ℂ} (hk0 : k ≠ 0) (hk : 0 ≤ (k ^ 2).re) {r : ℝ} (hr : 0 < r) : frobG (n + 1) (k * r) ≠ 0 := by
  intro h0
  have hrad : Radial n (frobG (n + 1)) (frobG' (n + 1)) := frob_radial n _ (by ring)
  set u : ℝ → ℂ := fun r => frobG (n + 1) (k * r) with hu
  set du : ℝ → ℂ := fun r => k * frobG' (n + 1) (k * r) with hdu
  have hsol : ∀ {r1 : ℝ}, 0 < r1 → ∀ r2, Sol (coef n k) r1 r2 u du := fun h1 r2 => hrad.sol hk0 h1 r2
  have hcu : Continuous u := by
    have c1 : Continuous (phi (n + 1)) := continuous_iff_continuousAt.2 fun x => ((frob_entire _).hasDeriv x).continuousAt
    have e : u = fun r : ℝ => (k * r) ^ (n + 1) * phi (n + 1) ((k * r) ^ 2) := by
      funext r
      simp only [hu, frobG]
      congr 1
    rw [e]
    fun_prop
  have hcdu : Continuous du := by
    have c1 : Continuous (phi (n + 1)) := continuous_iff_continuousAt.2 fun x => ((frob_entire _).hasDeriv x).continuousAt
    have c3 : Continuous (dphi (n + 1)) := continuous_iff_continuousAt.2 fun x => ((frob_entire _).dcoef.hasDeriv x).continuousAt
    have e : du = fun r : ℝ => k * ((n + 1) * (k * r) ^ n * phi (n + 1) ((k * r) ^ 2) + 2 * (k * r) ^ (n + 2) * dphi (n + 1) ((k * r) ^ 2)) := by
      funext r
      simp only [hdu, frobG']
      rw [show (n : ℤ) + 1 - 1 = (n : ℕ) by ring, show (n : ℤ) + 1 + 1 = ((n + 2 : ℕ) : ℤ) by push_cast; ring, zpow_natCast, zpow_natCast]
      push_cast
      rfl
    rw [e]
    fun_prop
  have hE : Tendsto (energyRe u du) (𝓝[>] 0) (𝓝 0) := by
    have hc : Continuous (energyRe u du) := by
      unfold energyRe
      exact Complex.continuous_re.comp ((Complex.continuous_conj.comp hcu).mul hcdu)
    have := hc.tendsto 0
    have e : energyRe u du 0 = 0 := by
      have : u 0 = 0 := by
        simp only [hu, frobG, ofReal_zero, mul_zero]
        rw [zero_zpow _ (by omega), zero_mul]
      simp [energyRe, this]
    rw [e] at this
    exact this.mono_left nhdsWithin_le_nhds
  have hr0 : energyRe u du r = 0 := by
    have : u r = 0 := h0
    simp [energyRe, this]
  have hnn : ∀ x, 0 < x → x ≤ r → 0 ≤ energyRe u du x := by
    intro x hx hxr
    have hle : ∀ᶠ y in 𝓝[>] (0 : ℝ), energyRe u du y ≤ energyRe u du x := by
      filter_upwards [Ioo_mem_nhdsGT hx] with y hy
      exact energyRe_mono hy.2.le (hsol hy.1 x) fun z hz => (coef_re n hn hk (hy.1.trans hz.1)).le
    exact le_of_tendsto hE hle
  have hzero : ∀ x, 0 < x → x < r → u x = 0 := by
    intro x hx hxr
    exact (energy_flat hn hk hx hxr (hsol hx r) (by rw [hr0]; exact hnn x hx hxr.le) x ⟨le_rfl, hxr.le⟩).1
  have hphi : Tendsto (fun x : ℝ => phi (n + 1) ((k * x) ^ 2)) (𝓝[>] 0) (𝓝 1) := by
    have c1 : Continuous (phi (n + 1)) := continuous_iff_continuousAt.2 fun x => ((frob_entire _).hasDeriv x).continuousAt
    have : Continuous fun x : ℝ => phi (n + 1) ((k * x) ^ 2) := by fun_prop
    have h := this.tendsto 0
    simp only [ofReal_zero, mul_zero, ne_eq, OfNat.ofNat_ne_zero, not_false_eq_true, zero_pow] at h
    rw [phi, ps_zero] at h
    exact h.mono_left nhdsWithin_le_nhds
  have hev : (fun x : ℝ => phi (n + 1) ((k * x) ^ 2)) =ᶠ[𝓝[>] 0] fun _ => 0 := by
    filter_upwards [Ioo_mem_nhdsGT hr] with x hx
    have := hzero x hx.1 hx.2
    simp only [hu, frobG] at this
    exact (mul_eq_zero.1 this).resolve_left (zpow_ne_zero _ (mul_ne_zero hk0 (by exact_mod_cast hx.1.ne')))
  exact zero_ne_one (tendsto_nhds_unique (tendsto_const_nhds.congr' hev.symm) hphi)

/-- The decaying solution. -/
theorem decay_pos {n : ℕ} (hn : 1 ≤ n) {k : ℂ} (hkre : 0 < k.re) (hk : 0 ≤ (k ^ 2).re) {r : ℝ} (hr : 0 < r) : closedG n (-1) (k * r) ≠ 0 := by
  intro h0
  have hk0 : k ≠ 0 := by rintro rfl; simp at hkre
  have hrad := closed_radial n (-1) (by norm_num)
  set u : ℝ → ℂ := fun r => closedG n (-1) (k * r) with hu
  set du : ℝ → ℂ := fun r => k * closedG' n (-1) (k * r) with hdu
  have hsol : ∀ {r1 : ℝ}, 0 < r1 → ∀ r2, Sol (coef n k) r1 r2 u du := fun h1 r2 => hrad.sol hk0 h1 r2
  have hexp : Tendsto (fun x : ℝ => Complex.exp (-1 * (k * x))) atTop (𝓝 0) := by
    rw [tendsto_zero_iff_norm_tendsto_zero]
    have e : ∀ x : ℝ, ‖Complex.exp (-1 * (k * x))‖ = Real.exp (-(k.re * x)) := by
      intro x
      rw [Complex.norm_exp]
      congr 1
      simp
    simp_rw [e]
    exact Real.tendsto_exp_neg_atTop_nhds_zero.comp (tendsto_id.const_mul_atTop hkre)
  have hw : Tendsto (fun x : ℝ => wS n (-1) (k * x)⁻¹) atTop (𝓝 (1 / 2)) := by
    have := ((wS_cont n (-1)).tendsto 0).comp (ray_inv k)
    rwa [wS_zero] at this
  have hdw : Tendsto (fun x : ℝ => dwS n (-1) (k * x)⁻¹) atTop (𝓝 0) := by
    have := ((dwS_cont n (-1)).tendsto 0).comp (ray_inv k)
    rwa [dwS_zero] at this
  have hE : Tendsto (energyRe u du) atTop (𝓝 0) := by
    have t1 : Tendsto u atTop (𝓝 0) := by
      have := hexp.mul hw
      rwa [zero_mul] at this
    have t2 : Tendsto du atTop (𝓝 0) := by
      have := (hexp.mul ((hw.const_mul (-1)).add hdw)).const_mul k
      rwa [zero_mul, mul_zero] at this
    have t3 := (Complex.continuous_re.tendsto 0).comp
      ((by simpa using ((Complex.continuous_conj.tendsto 0).comp t1).mul t2) : Tendsto (fun x => (starRingEnd ℂ) (u x) * du x) atTop (𝓝 0))
    exact t3
  have hr0 : energyRe u du r = 0 := by
    have : u r = 0 := h0
    simp [energyRe, this]
  have hnn : ∀ x, r ≤ x → energyRe u du x ≤ 0 := by
    intro x hx
    have hle : ∀ᶠ y in atTop, energyRe u du x ≤ energyRe u du y := by
      filter_upwards [eventually_ge_atTop x] with y hy
      exact energyRe_mono hy (hsol (hr.trans_le hx) y) fun z hz => (coef_re n hn hk ((hr.trans_le hx).trans hz.1)).le
    exact ge_of_tendsto hE hle
  have hzero : ∀ x, r < x → u x = 0 := by
    intro x hx
    exact (energy_flat hn hk hr hx (hsol hr x) (by rw [hr0]; exact hnn x hx.le) x ⟨hx.le, le_rfl⟩).1
  have hev : (fun x : ℝ => wS n (-1) (k * x)⁻¹) =ᶠ[atTop] fun _ => 0 := by
    filter_upwards [eventually_gt_atTop r] with x hx
    exact (mul_eq_zero.1 (hzero x hx)).resolve_left (Complex.exp_ne_zero _)
  have := tendsto_nhds_unique (tendsto_const_nhds.congr' hev.symm) hw
  norm_num at this

/-- The regular closed form. -/
noncomputable def regG (n : ℕ) (z : ℂ) : ℂ := closedG n 1 z - (-1) ^ n * closedG n (-1) z

noncomputable def regG' (n : ℕ) (z : ℂ) : ℂ := closedG' n 1 z - (-1) ^ n * closedG' n (-1) z

theorem reg_radial (n : ℕ) : Radial n (regG n) (regG' n) := by
  have h1 := closed_radial n 1 (by norm_num)
  have h2 := closed_radial n (-1) (by norm_num)
  refine ⟨fun z hz => (h1.hasDeriv z hz).sub ((h2.hasDeriv z hz).const_mul _), fun z hz => ?_⟩
  refine ((h1.equation z hz).sub ((h2.equation z hz).const_mul _)).congr_deriv ?_
  unfold regG
  ring

theorem cc_neg (n : ℕ) (s : ℂ) (j : ℕ) : cc n (-s) j = (-1) ^ j * cc n s j := by
  induction j with
  | zero => simp [cc]
  | succ j ih => rw [cc, cc, ih]; ring

theorem closed_neg (n : ℕ) (s z : ℂ) : closedG n s (-z) = closedG n (-s) z ∧ closedG' n s (-z) = -closedG' n (-s) z := by
  have e1 : ∀ x, wS n s (-x) = wS n (-s) x := fun x => by
    unfold wS
    refine Finset.sum_congr rfl fun j _ => ?_
    rw [cc_neg, neg_pow x]
    ring
  have e2 : ∀ x, dwS n s (-x) = -dwS n (-s) x := fun x => by
    unfold dwS
    rw [neg_neg, ← Finset.sum_neg_distrib]
    refine Finset.sum_congr rfl fun j _ => ?_
    rw [cc_neg, neg_pow x]
    ring
  unfold closedG closedG'
  rw [inv_neg, e1, e2, mul_neg, neg_mul]
  exact ⟨rfl, by ring⟩

theorem reg_neg (n : ℕ) (z : ℂ) : regG n (-z) = -(-1) ^ n * regG n z ∧ regG' n (-z) = (-1) ^ n * regG' n z := by
  have h : ((-1 : ℂ) ^ n) * (-1) ^ n = 1 := by rw [← mul_pow]; norm_num
  unfold regG regG'
  rw [(closed_neg n 1 z).1, (closed_neg n 1 z).2, (closed_neg n (-1) z).1, (closed_neg n (-1) z).2, neg_neg]
  constructor
  · linear_combination (-closedG n (-1) z) * h
  · linear_combination closedG' n (-1) z * h

theorem frob_neg (n : ℕ) {z : ℂ} (hz : z ≠ 0) : frobG (n + 1) (-z) = -(-1) ^ n * frobG (n + 1) z ∧ frobG' (n + 1) (-z) = (-1) ^ n * frobG' (n + 1) z := by
  have e1 : (-z) ^ ((n : ℤ) + 1) = -(-1) ^ n * z ^ ((n : ℤ) + 1) := by
    rw [show (n : ℤ) + 1 = ((n + 1 : ℕ) : ℤ) by push_cast; ring, zpow_natCast, zpow_natCast, neg_pow]
    ring
  have e2 : (-z) ^ ((n : ℤ) + 1 - 1) = (-1) ^ n * z ^ ((n : ℤ) + 1 - 1) := by
    rw [show (n : ℤ) + 1 - 1 = (n : ℕ) by ring, zpow_natCast, zpow_natCast, neg_pow]
  have e3 : (-z) ^ ((n : ℤ) + 1 + 1) = (-1) ^ n * z ^ ((n : ℤ) + 1 + 1) := by
    rw [show (n : ℤ) + 1 + 1 = ((n + 2 : ℕ) : ℤ) by push_cast; ring, zpow_natCast, zpow_natCast, neg_pow]
    ring
  unfold frobG frobG'
  rw [e1, e2, e3, neg_sq]
  exact ⟨by ring, by ring⟩

/-- The Wronskian is the same at `z` and `-z`. -/
theorem Radial.wronskian_neg {n : ℕ} {g g' f f' : ℂ → ℂ} (hg : Radial n g g') (hf : Radial n f f') {z : ℂ} (hz : z ≠ 0) :
    g (-z) * f' (-z) - g' (-z) * f (-z) = g z * f' z - g' z * f z := by
  set W : ℂ → ℂ := fun y => g y * f' y - g' y * f y with hW
  have hd : ∀ y, y ≠ 0 → HasDerivAt W 0 y := by
    intro y hy
    refine (((hg.hasDeriv y hy).mul (hf.equation y hy)).sub ((hg.equation y hy).mul (hf.hasDeriv y hy))).congr_deriv ?_
    ring
  have hpath : ∀ θ : ℝ, HasDerivAt (fun θ : ℝ => W (z * Complex.exp ((θ : ℂ) * Complex.I))) 0 θ := by
    intro θ
    have h1 : HasDerivAt (fun θ : ℝ => z * Complex.exp ((θ : ℂ) * Complex.I)) (z * (Complex.exp ((θ : ℂ) * Complex.I) * Complex.I)) θ := by
      have := (((hasDerivAt_id θ).ofReal_comp).mul_const Complex.I).cexp.const_mul z
      simpa using this
    refine ((hd _ (mul_ne_zero hz (Complex.exp_ne_zero _))).comp θ h1).congr_deriv ?_
    ring
  have := is_const_of_deriv_eq_zero (fun θ => (hpath θ).differentiableAt) (fun θ => (hpath θ).deriv) Real.pi 0
  simp only [Complex.exp_pi_mul_I, ofReal_zero, zero_mul, Complex.exp_zero, mul_one, mul_neg] at this
  exact this

theorem reg_pos {n : ℕ} (hn : 1 ≤ n) {k : ℂ} (hk0 : k ≠ 0) (hk : 0 ≤ (k ^ 2).re) {r : ℝ} (hr : 0 < r) : regG n (k * r) ≠ 0 := by
  intro h0
  have hz : k * (r : ℂ) ≠ 0 := mul_ne_zero hk0 (by exact_mod_cast hr.ne')
  have hS := frob_pos hn hk0 hk hr
  have hfr : Radial n (frobG (n + 1)) (frobG' (n + 1)) := frob_radial n _ (by ring)
  have hW := (reg_radial n).wronskian_neg hfr hz
  have h : ((-1 : ℂ) ^ n) * (-1) ^ n = 1 := by rw [← mul_pow]; norm_num
  rw [(reg_neg n _).1, (reg_neg n _).2, (frob_neg n hz).1, (frob_neg n hz).2, h0] at hW
  have h1 : regG' n (k * r) * frobG (n + 1) (k * r) = 0 := by
    linear_combination hW / 2 - regG' n (k * r) * frobG (n + 1) (k * r) * h / 2
  have h2 := (mul_eq_zero.1 h1).resolve_right hS
  have h3 := closed_wronskian n hz
  unfold regG at h0
  unfold regG' at h2
  have : (-(1 / 2) : ℂ) = 0 := by
    rw [← h3]
    linear_combination closedG' n (-1) (k * r) * h0 - closedG n (-1) (k * r) * h2
  norm_num at this

end ChaosMagPy.QResponse
