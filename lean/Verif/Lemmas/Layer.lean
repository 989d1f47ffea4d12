import Verif.Lemmas.Bessel
/-!
# The layers of constant conductivity: the computed functions and their limits
-/
namespace ChaosMagPy.QResponse
open Complex Filter Topology

/-! ### The power series of the code -/

theorem after_eq (n : ℕ) (z : ℂ) (i : ℕ) :
    (Series.after n z i).dp = frob (n + 1) i * (z ^ 2) ^ i ∧ (Series.after n z i).dq = frob (-n) i * (z ^ 2) ^ i ∧
    (Series.after n z i).p = ∑ j ∈ Finset.range (i + 1), frob (n + 1) j * (z ^ 2) ^ j ∧
    (Series.after n z i).q = ∑ j ∈ Finset.range (i + 1), frob (-n) j * (z ^ 2) ^ j ∧
    (Series.after n z i).pd = ∑ j ∈ Finset.range (i + 1), (2 * (j : ℂ) + n) * (frob (n + 1) j * (z ^ 2) ^ j) ∧
    (Series.after n z i).qd = ∑ j ∈ Finset.range (i + 1), (2 * (j : ℂ) - n - 1) * (frob (-n) j * (z ^ 2) ^ j) := by
  induction i with
  | zero =>
    simp only [Series.after, Series.init, frob, Nat.zero_add, Finset.sum_range_one, pow_zero, Nat.cast_zero]
    refine ⟨by ring, by ring, by ring, by ring, by ring, by ring⟩
  | succ i ih =>
    obtain ⟨h1, h2, h3, h4, h5, h6⟩ := ih
    have o1 := odd_ne ((n : ℤ) + 1) i
    have o2 := odd_ne (-(n : ℤ)) i
    have o3 := succ_ne i
    have e1 : (Series.after n z (i + 1)).dp = frob (n + 1) (i + 1) * (z ^ 2) ^ (i + 1) := by
      simp only [Series.after, Series.step, h1, frob]
      push_cast at o1 ⊢
      have o4 : (2 * ((i : ℂ) + 1) + 1 + 2 * n) ≠ 0 := by convert o1 using 1; ring
      rw [show (2 * ((i : ℂ) + 1) + 2 * ((n : ℂ) + 1) - 1) = 2 * ((i : ℂ) + 1) + 1 + 2 * n by ring]
      field_simp
      ring
    have e2 : (Series.after n z (i + 1)).dq = frob (-n) (i + 1) * (z ^ 2) ^ (i + 1) := by
      simp only [Series.after, Series.step, h2, frob]
      push_cast at o2 ⊢
      have o4 : (2 * ((i : ℂ) + 1) - 1 - 2 * n) ≠ 0 := by convert o2 using 1; ring
      rw [show (2 * ((i : ℂ) + 1) + 2 * (-(n : ℂ)) - 1) = 2 * ((i : ℂ) + 1) - 1 - 2 * n by ring]
      field_simp
      ring
    refine ⟨e1, e2, ?_, ?_, ?_, ?_⟩
    · rw [Finset.sum_range_succ, ← h3, ← e1]; rfl
    · rw [Finset.sum_range_succ, ← h4, ← e2]; rfl
    · rw [Finset.sum_range_succ, ← h5, ← e1]
      have : (Series.after n z (i + 1)).pd = (Series.after n z i).pd + (Series.after n z (i + 1)).dp * (2 * ((i + 1 : ℕ) : ℂ) + n) := rfl
      rw [this]
      ring
    · rw [Finset.sum_range_succ, ← h6, ← e2]
      have : (Series.after n z (i + 1)).qd = (Series.after n z i).qd + (Series.after n z (i + 1)).dq * (2 * ((i + 1 : ℕ) : ℂ) - n - 1) := rfl
      rw [this]
      ring

theorem hasSum_weighted (t : ℤ) (x c : ℂ) :
    HasSum (fun j : ℕ => (2 * (j : ℂ) + c) * (frob t j * x ^ j)) (c * phi t x + 2 * x * dphi t x) := by
  have h1 := ((frob_entire t).hasSum x).mul_left c
  have h2 := ((frob_entire t).dcoef.hasSum x).mul_left (2 * x)
  have h3 : HasSum (fun j : ℕ => 2 * (j : ℂ) * (frob t j * x ^ j)) (2 * x * dphi t x) := by
    rw [← hasSum_nat_add_iff' 1]
    simp only [Finset.sum_range_one, Nat.cast_zero, zero_mul, mul_zero, sub_zero]
    refine h2.congr_fun fun j => ?_
    unfold dcoef
    push_cast
    ring
  refine (h1.add h3).congr_fun fun j => ?_
  ring

/-- The limits of the running variables. -/
theorem after_lim (n : ℕ) (z : ℂ) :
    Tendsto (fun i => (Series.after n z i).dp) atTop (𝓝 0) ∧ Tendsto (fun i => (Series.after n z i).dq) atTop (𝓝 0) ∧
    Tendsto (fun i => (Series.after n z i).p) atTop (𝓝 (phi (n + 1) (z ^ 2))) ∧
    Tendsto (fun i => (Series.after n z i).q) atTop (𝓝 (phi (-n) (z ^ 2))) ∧
    Tendsto (fun i => (Series.after n z i).pd) atTop (𝓝 (n * phi (n + 1) (z ^ 2) + 2 * z ^ 2 * dphi (n + 1) (z ^ 2))) ∧
    Tendsto (fun i => (Series.after n z i).qd) atTop (𝓝 ((-n - 1) * phi (-n) (z ^ 2) + 2 * z ^ 2 * dphi (-n) (z ^ 2))) := by
  have hsh : ∀ {f : ℕ → ℂ} {l : ℂ}, HasSum f l → Tendsto (fun i => ∑ j ∈ Finset.range (i + 1), f j) atTop (𝓝 l) := fun h =>
    (tendsto_add_atTop_iff_nat 1).2 h.tendsto_sum_nat
  refine ⟨?_, ?_, ?_, ?_, ?_, ?_⟩
  · simp_rw [fun i => (after_eq n z i).1]
    exact ((frob_entire _).summable _).tendsto_atTop_zero
  · simp_rw [fun i => (after_eq n z i).2.1]
    exact ((frob_entire _).summable _).tendsto_atTop_zero
  · simp_rw [fun i => (after_eq n z i).2.2.1]
    exact hsh ((frob_entire _).hasSum _)
  · simp_rw [fun i => (after_eq n z i).2.2.2.1]
    exact hsh ((frob_entire _).hasSum _)
  · simp_rw [fun i => (after_eq n z i).2.2.2.2.1]
    exact hsh (hasSum_weighted _ _ _)
  · simp_rw [fun i => (after_eq n z i).2.2.2.2.2]
    refine hsh ((hasSum_weighted (-n) (z ^ 2) (-n - 1)).congr_fun fun j => ?_)
    ring

/-- The loop ends. -/
theorem loop_exists (n : ℕ) (z : ℂ) {eps : ℝ} (he : 0 < eps) :
    ∃ i, ¬ (‖(Series.after n z i).dp‖ > eps ∨ ‖(Series.after n z i).dq‖ > eps) := by
  obtain ⟨h1, h2, -⟩ := after_lim n z
  have e1 := (tendsto_zero_iff_norm_tendsto_zero.1 h1).eventually_le_const he
  have e2 := (tendsto_zero_iff_norm_tendsto_zero.1 h2).eventually_le_const he
  obtain ⟨i, hi1, hi2⟩ := (e1.and e2).exists
  exact ⟨i, by push Not; exact ⟨hi1, hi2⟩⟩

open Classical in
/-- Number of passes. -/
noncomputable def passes (n : ℕ) (z : ℂ) (eps : ℝ) : ℕ :=
  if h : ∃ i, ¬ (‖(Series.after n z i).dp‖ > eps ∨ ‖(Series.after n z i).dq‖ > eps) then Nat.find h else 0

theorem loop_eq (n : ℕ) (z : ℂ) {eps : ℝ} (he : 0 < eps) : Series.loop eps n z = some (Series.after n z (passes n z eps)) := by
  unfold Series.loop passes
  rw [dif_pos (loop_exists n z he), dif_pos (loop_exists n z he)]

theorem passes_tendsto (n : ℕ) {z : ℂ} (hz : z ≠ 0) : Tendsto (passes n z) (𝓝[>] 0) atTop := by
  rw [tendsto_atTop]
  intro m
  have hpos : ∀ i, 0 < ‖(Series.after n z i).dp‖ := fun i => by
    rw [(after_eq n z i).1]
    exact norm_pos_iff.2 (mul_ne_zero (frob_ne _ _) (pow_ne_zero _ (pow_ne_zero _ hz)))
  have hall : ∀ᶠ eps in 𝓝[>] (0 : ℝ), ∀ i ∈ Finset.range m, eps < ‖(Series.after n z i).dp‖ := by
    rw [Filter.eventually_all_finset]
    intro i _
    filter_upwards [Ioo_mem_nhdsGT (hpos i)] with eps he
    exact he.2
  filter_upwards [hall, self_mem_nhdsWithin] with eps h1 h2
  have h2 : 0 < eps := h2
  unfold passes
  rw [dif_pos (loop_exists n z h2)]
  rw [Nat.le_find_iff]
  intro i hi
  rw [not_not]
  exact Or.inl (h1 i (Finset.mem_range.2 hi))

/-! ### Pairs of functions -/

/-- The two functions `g/z` and their derivatives. -/
noncomputable def pairOf (g g' f f' : ℂ → ℂ) (z : ℂ) : Pair :=
  { p := g z / z, q := f z / z, pd := g' z / z - g z / z ^ 2, qd := f' z / z - f z / z ^ 2 }

/-- The functions of the power series branch. -/
noncomputable def smallP (n : ℕ) (z : ℂ) : ℂ := frobG (n + 1) z / n.factorial
noncomputable def smallP' (n : ℕ) (z : ℂ) : ℂ := frobG' (n + 1) z / n.factorial
noncomputable def smallQ (n : ℕ) (z : ℂ) : ℂ :=
  (-1) ^ (n + 1) * Real.pi / 2 * (frobG (n + 1) z / n.factorial - (-1) ^ n * n.factorial / (2 * n + 1) * frobG (-n) z)
noncomputable def smallQ' (n : ℕ) (z : ℂ) : ℂ :=
  (-1) ^ (n + 1) * Real.pi / 2 * (frobG' (n + 1) z / n.factorial - (-1) ^ n * n.factorial / (2 * n + 1) * frobG' (-n) z)

theorem small_radial (n : ℕ) : Radial n (smallP n) (smallP' n) ∧ Radial n (smallQ n) (smallQ' n) := by
  have h1 : Radial n (frobG (n + 1)) (frobG' (n + 1)) := frob_radial n _ (by ring)
  have h2 : Radial n (frobG (-n)) (frobG' (-n)) := frob_radial n _ (by ring)
  refine ⟨⟨fun z hz => (h1.hasDeriv z hz).div_const _, fun z hz => ?_⟩,
    ⟨fun z hz => (((h1.hasDeriv z hz).div_const _).sub ((h2.hasDeriv z hz).const_mul _)).const_mul _, fun z hz => ?_⟩⟩
  · refine ((h1.equation z hz).div_const _).congr_deriv ?_
    unfold smallP
    ring
  · refine ((((h1.equation z hz).div_const _).sub ((h2.equation z hz).const_mul _)).const_mul _).congr_deriv ?_
    unfold smallQ
    ring

theorem small_wronskian (n : ℕ) {z : ℂ} (hz : z ≠ 0) : smallP n z * smallQ' n z - smallP' n z * smallQ n z ≠ 0 := by
  have h := frob_wronskian n hz
  have e : smallP n z * smallQ' n z - smallP' n z * smallQ n z = -(Real.pi / 2) := by
    have hn : (n.factorial : ℂ) ≠ 0 := by exact_mod_cast n.factorial_ne_zero
    have h2 : (2 * (n : ℂ) + 1) ≠ 0 := by exact_mod_cast (by omega : 2 * n + 1 ≠ 0)
    have h3 : ((-1 : ℂ) ^ n) * (-1) ^ n = 1 := by rw [← mul_pow]; norm_num
    unfold smallP smallP' smallQ smallQ'
    have h4 : (-1 : ℂ) ^ (n + 1) = -(-1) ^ n := by ring
    rw [h4]
    field_simp
    linear_combination (n.factorial : ℂ) ^ 2 * ((-1 : ℂ) ^ n * (-1) ^ n) * h - (n.factorial : ℂ) ^ 2 * (2 * n + 1) * h3
  rw [e]
  have := Real.pi_ne_zero
  simp [this]

/-- The variables of the code tend to the functions. -/
theorem small_lim (n : ℕ) {z : ℂ} (hz : z ≠ 0) :
    Tendsto (fun i => (smallPair n z (Series.after n z i)).p) atTop (𝓝 (pairOf (smallP n) (smallP' n) (smallQ n) (smallQ' n) z).p) ∧
    Tendsto (fun i => (smallPair n z (Series.after n z i)).q) atTop (𝓝 (pairOf (smallP n) (smallP' n) (smallQ n) (smallQ' n) z).q) ∧
    Tendsto (fun i => (smallPair n z (Series.after n z i)).pd) atTop (𝓝 (pairOf (smallP n) (smallP' n) (smallQ n) (smallQ' n) z).pd) ∧
    Tendsto (fun i => (smallPair n z (Series.after n z i)).qd) atTop (𝓝 (pairOf (smallP n) (smallP' n) (smallQ n) (smallQ' n) z).qd) := by
  obtain ⟨-, -, h1, h2, h3, h4⟩ := after_lim n z
  have l1 := (h1.mul_const (z ^ n)).div_const (n.factorial : ℂ)
  have l2 := (h2.mul_const (z ^ (-(n : ℤ) - 1))).mul_const ((-1) ^ n * n.factorial / (2 * n + 1) : ℂ)
  have l3 := (h3.mul_const (z ^ ((n : ℤ) - 1))).div_const (n.factorial : ℂ)
  have l4 := (h4.mul_const (z ^ (-(n : ℤ) - 2))).mul_const ((-1) ^ n * n.factorial / (2 * n + 1) : ℂ)
  have e1 : z ^ ((n : ℤ) + 1) = z ^ n * z := by rw [zpow_add_one₀ hz, zpow_natCast]
  have e2 : z ^ ((n : ℤ) - 1) = z ^ n / z := by rw [zpow_sub_one₀ hz, zpow_natCast]; rfl
  have e3 : z ^ (-(n : ℤ)) = (z ^ n)⁻¹ := by rw [zpow_neg, zpow_natCast]
  have e4 : z ^ (-(n : ℤ) - 1) = (z ^ n)⁻¹ / z := by rw [zpow_sub_one₀ hz, e3]; rfl
  have e5 : z ^ (-(n : ℤ) + 1) = (z ^ n)⁻¹ * z := by rw [zpow_add_one₀ hz, e3]
  have e6 : z ^ ((n : ℤ) + 1 - 1) = z ^ n := by rw [add_sub_cancel_right, zpow_natCast]
  have e7 : z ^ ((n : ℤ) + 1 + 1) = z ^ n * z * z := by rw [zpow_add_one₀ hz, e1]
  have e8 : z ^ (-(n : ℤ) - 2) = (z ^ n)⁻¹ / z ^ 2 := by
    rw [show -(n : ℤ) - 2 = -(n : ℤ) - (2 : ℕ) by norm_num, zpow_sub₀ hz, e3, zpow_natCast]
  have hzn : z ^ n ≠ 0 := pow_ne_zero _ hz
  have hf : (n.factorial : ℂ) ≠ 0 := by exact_mod_cast n.factorial_ne_zero
  have h2n : (2 * (n : ℂ) + 1) ≠ 0 := by exact_mod_cast (by omega : 2 * n + 1 ≠ 0)
  have r1 : (pairOf (smallP n) (smallP' n) (smallQ n) (smallQ' n) z).p = phi (n + 1) (z ^ 2) * z ^ n / n.factorial := by
    simp only [pairOf, smallP, frobG, e1]
    field_simp
  have r3 : (pairOf (smallP n) (smallP' n) (smallQ n) (smallQ' n) z).pd =
      (n * phi (n + 1) (z ^ 2) + 2 * z ^ 2 * dphi (n + 1) (z ^ 2)) * z ^ ((n : ℤ) - 1) / n.factorial := by
    simp only [pairOf, smallP, smallP', frobG, frobG', e1, e2, e6, e7]
    push_cast
    field_simp
    ring
  have r2 : (pairOf (smallP n) (smallP' n) (smallQ n) (smallQ' n) z).q = (-1) ^ (n + 1) * Real.pi / 2 * (phi (n + 1) (z ^ 2) * z ^ n / n.factorial -
      phi (-n) (z ^ 2) * z ^ (-(n : ℤ) - 1) * ((-1) ^ n * n.factorial / (2 * n + 1))) := by
    simp only [pairOf, smallQ, frobG, e1, e3, e4]
    field_simp
  have r4 : (pairOf (smallP n) (smallP' n) (smallQ n) (smallQ' n) z).qd = (-1) ^ (n + 1) * Real.pi / 2 *
      ((n * phi (n + 1) (z ^ 2) + 2 * z ^ 2 * dphi (n + 1) (z ^ 2)) * z ^ ((n : ℤ) - 1) / n.factorial -
      ((-n - 1) * phi (-n) (z ^ 2) + 2 * z ^ 2 * dphi (-n) (z ^ 2)) * z ^ (-(n : ℤ) - 2) * ((-1) ^ n * n.factorial / (2 * n + 1))) := by
    simp only [pairOf, smallQ, smallQ', frobG, frobG', e1, e2, e3, e4, e5, e6, e7, e8]
    push_cast
    field_simp
    ring
  rw [r1, r2, r3, r4]
  exact ⟨l1, (l1.sub l2).const_mul _, l3, (l3.sub l4).const_mul _⟩

/-! ### Large arguments -/

theorem sums_eq (n : ℕ) {z : ℂ} (hz : z ≠ 0) (m : ℕ) :
    (List.range' 1 m).foldl (Sums.step n (2 * z)) { rm := 1, rp := 1, rmd := 1, rpd := 1, d := 1, sg := 1 } =
      { rm := 2 * ∑ j ∈ Finset.range (m + 1), cc n 1 j * z⁻¹ ^ j
        rp := 2 * ∑ j ∈ Finset.range (m + 1), cc n (-1) j * z⁻¹ ^ j
        rmd := 2 * ∑ j ∈ Finset.range (m + 1), (j + 1) * cc n 1 j * z⁻¹ ^ j
        rpd := 2 * ∑ j ∈ Finset.range (m + 1), (j + 1) * cc n (-1) j * z⁻¹ ^ j
        d := 2 * cc n (-1) m * z⁻¹ ^ m
        sg := (-1) ^ m } := by
  have hc : ∀ j, cc n 1 j = (-1) ^ j * cc n (-1) j := fun j => by
    have := cc_neg n (-1) j
    rwa [neg_neg] at this
  induction m with
  | zero => simp [cc]
  | succ m ih =>
    rw [List.range'_1_concat, List.foldl_append, ih]
    have hm := succ_ne m
    have hd : 2 * cc n (-1) m * z⁻¹ ^ m * ((n : ℂ) + 1 - ((1 + m : ℕ) : ℂ)) * (n + ((1 + m : ℕ) : ℂ)) / ((1 + m : ℕ) : ℂ) / (2 * z) =
        2 * cc n (-1) (m + 1) * z⁻¹ ^ (m + 1) := by
      rw [cc]
      have hm' : (1 + (m : ℂ)) ≠ 0 := by rw [add_comm]; exact hm
      push_cast
      rw [pow_succ]
      field_simp
      ring
    simp only [List.foldl_cons, List.foldl_nil, Sums.step, hd, Sums.mk.injEq]
    refine ⟨?_, ?_, ?_, ?_, trivial, by ring⟩
    · rw [Finset.sum_range_succ _ (m + 1), hc (m + 1)]; ring
    · rw [Finset.sum_range_succ _ (m + 1)]; ring
    · rw [Finset.sum_range_succ _ (m + 1), hc (m + 1)]; push_cast; ring
    · rw [Finset.sum_range_succ _ (m + 1)]; push_cast; ring

theorem weighted_eq (n : ℕ) (s : ℂ) {z : ℂ} (hz : z ≠ 0) :
    ∑ j ∈ Finset.range (n + 1), ((j : ℂ) + 1) * cc n s j * z⁻¹ ^ j = wS n s z⁻¹ - z * dwS n s z⁻¹ := by
  unfold wS dwS
  rw [mul_neg, sub_neg_eq_add, Finset.mul_sum, ← Finset.sum_add_distrib]
  refine Finset.sum_congr rfl fun j _ => ?_
  rw [pow_succ]
  field_simp
  ring

/-- The pair for large arguments: the functions without their exponential factor. -/
theorem large_eq (n : ℕ) {z : ℂ} (hz : z ≠ 0) :
    largePair n z = { p := Complex.exp (-z) * (regG n z / z), q := Complex.exp z * (Real.pi * closedG n (-1) z / z)
                      pd := Complex.exp (-z) * (regG' n z / z - regG n z / z ^ 2)
                      qd := Complex.exp z * (Real.pi * closedG' n (-1) z / z - Real.pi * closedG n (-1) z / z ^ 2) } := by
  unfold largePair
  simp only [sums_eq n hz n, weighted_eq n _ hz]
  have h1 : ∑ j ∈ Finset.range (n + 1), cc n 1 j * z⁻¹ ^ j = wS n 1 z⁻¹ := rfl
  have h2 : ∑ j ∈ Finset.range (n + 1), cc n (-1) j * z⁻¹ ^ j = wS n (-1) z⁻¹ := rfl
  rw [h1, h2]
  unfold regG regG' closedG closedG'
  have e1 : Complex.exp (-2 * z) = Complex.exp (-z) * Complex.exp (-z) := by rw [← Complex.exp_add]; congr 1; ring
  have e2 : Complex.exp (1 * z) = Complex.exp z := by rw [one_mul]
  have e3 : Complex.exp (-1 * z) = Complex.exp (-z) := by rw [neg_one_mul]
  have e4 : Complex.exp z * Complex.exp (-z) = 1 := by rw [← Complex.exp_add, add_neg_cancel, Complex.exp_zero]
  rw [e1, e2, e3]
  generalize Complex.exp (-z) = E at *
  have hE : E ≠ 0 := by rintro rfl; simp at e4
  have hEz : Complex.exp z = 1 / E := by field_simp; exact e4
  rw [hEz]
  simp only [Pair.mk.injEq]
  refine ⟨?_, ?_, ?_, ?_⟩
  · field_simp
  · field_simp
  · field_simp
    ring
  · field_simp
    ring

end ChaosMagPy.QResponse
