import Verif.Lemmas.MeanSquare
import Verif.Lemmas.Rotation
import Verif.Props.Spectrum
import Verif.Props.Synth
/-!
# C47: the power spectrum is the mean square of the field over the sphere
-/
namespace ChaosMagPy.Spectrum
open ChaosMagPy.Spec ChaosMagPy.Synth
open ChaosMagPy.Legendre (dS hasDerivAt_schmidt)

theorem coefG_gauss (c : ℕ → ℝ) {K n : ℕ} (hn : 1 ≤ n) (hK : n ≤ K) (m : ℕ) : coefG c 1 K n m = gaussG c n m := by
  have h : 1 ≤ n ^ 2 := Nat.one_le_pow _ _ hn
  unfold coefG gaussG gaussPos
  rw [Analysis.coefStart_full n hn K hK]
  by_cases h0 : m = 0
  · subst h0; simp
  · rw [if_neg h0, if_neg (by omega), if_pos (by omega)]
    congr 1
    omega

theorem coefH_gauss (c : ℕ → ℝ) {K n : ℕ} (hn : 1 ≤ n) (hK : n ≤ K) (m : ℕ) : coefH c 1 K n m = gaussH c n m := by
  have h : 1 ≤ n ^ 2 := Nat.one_le_pow _ _ hn
  unfold coefH gaussH gaussPos
  rw [Analysis.coefStart_full n hn K hK]
  by_cases h0 : m = 0
  · subst h0; simp
  · rw [if_neg h0, if_neg h0, if_neg (by omega), if_neg (by omega)]
    congr 1
    omega

theorem sphereMean_congr (f g : ℝ → ℝ → ℝ) (h : ∀ x y, Real.sin x ≠ 0 → f x y = g x y) : sphereMean f = sphereMean g := by
  unfold sphereMean
  congr 1
  apply intervalIntegral.integral_congr
  intro x _
  by_cases hs : Real.sin x = 0
  · simp [hs]
  · simp only [h x _ hs]

/-- Mean square of `-∇V` for the potential of an internal or external source. -/
theorem mean_pot (src : Source) (a : ℝ) (ha : 0 < a) (c : ℕ → ℝ) (K : ℕ) (r : ℝ) (hr : 0 < r) :
    sphereMean (gradSq (pot src a c 1 K K) r) =
      ∑ n ∈ Finset.Icc 1 K, ((rfac src n * rpow src (r / a) n) ^ 2 + n * (n + 1) * rpow src (r / a) n ^ 2) / (2 * n + 1) * degreePower c n := by
  have e : ∀ n ∈ Finset.Icc 1 K, ((rfac src n * rpow src (r / a) n) ^ 2 + n * (n + 1) * rpow src (r / a) n ^ 2) / (2 * n + 1) * degreePower c n =
      ((rfac src n * rpow src (r / a) n) ^ 2 + n * (n + 1) * rpow src (r / a) n ^ 2) / (2 * n + 1) *
        ∑ m ∈ Finset.range (n + 1), (coefG c 1 K n m ^ 2 + coefH c 1 K n m ^ 2) := by
    intro n hn
    rw [Finset.mem_Icc] at hn
    unfold degreePower
    simp only [coefG_gauss c hn.1 hn.2, coefH_gauss c hn.1 hn.2]
  rw [Finset.sum_congr rfl e, ← MeanSquare.mean_core K (fun n => rfac src n * rpow src (r / a) n) (fun n => rpow src (r / a) n)
    (fun n m => coefG c 1 K n m) (fun n m => coefH c 1 K n m) (fun n => by simp [coefH])]
  apply sphereMean_congr
  intro x y hs
  obtain ⟨d1, d2, d3⟩ := field_gradient src a ha c 1 K K r x y hr
  unfold gradSq
  rw [d1.deriv, d2.deriv, d3.deriv]
  have e2 : -(r * fieldT src a c 1 K K r x y) / r = -fieldT src a c 1 K K r x y := by field_simp
  have e3 : -(r * Real.sin x * fieldP src a c 1 K K r x y) / (r * Real.sin x) = -fieldP src a c 1 K K r x y := by field_simp
  rw [e2, e3, neg_sq, neg_sq, neg_sq]
  have hmin : ∀ n ∈ Finset.Icc 1 K, min n K = n := fun n hn => min_eq_left (Finset.mem_Icc.1 hn).2
  congr 1
  · congr 1
    · congr 1
      unfold fieldR
      apply Finset.sum_congr rfl
      intro n hn
      rw [hmin n hn]
      apply Finset.sum_congr rfl
      intro m _
      ring
    · rw [← neg_sq]
      congr 1
      unfold fieldT
      rw [← Finset.sum_neg_distrib]
      apply Finset.sum_congr rfl
      intro n hn
      rw [hmin n hn, ← Finset.sum_neg_distrib]
      apply Finset.sum_congr rfl
      intro m _
      ring
  · congr 1
    unfold fieldP
    apply Finset.sum_congr rfl
    intro n hn
    rw [hmin n hn]
    apply Finset.sum_congr rfl
    intro m _
    ring

theorem mean_internal (a : ℝ) (ha : 0 < a) (c : ℕ → ℝ) (K : ℕ) (r : ℝ) (hr : 0 < r) :
    sphereMean (gradSq (potInt a c 1 K K) r) = ∑ n ∈ Finset.Icc 1 K, factorInternal a r n * degreePower c n := by
  have h := mean_pot .internal a ha c K r hr
  change sphereMean (gradSq (potInt a c 1 K K) r) = _ at h
  rw [h]
  apply Finset.sum_congr rfl
  intro n _
  congr 1
  unfold factorInternal
  simp only [rfac, rpow]
  have e : (r / a) ^ (-((n : ℤ) + 2)) = (a / r) ^ (n + 2) := by
    rw [zpow_neg, ← inv_zpow, inv_div]
    exact_mod_cast rfl
  rw [e]
  have : (2 * (n : ℝ) + 1) ≠ 0 := by positivity
  rw [show 2 * n + 4 = (n + 2) * 2 by ring, pow_mul (a / r)]
  field_simp
  ring

theorem mean_external (a : ℝ) (ha : 0 < a) (c : ℕ → ℝ) (K : ℕ) (r : ℝ) (hr : 0 < r) :
    sphereMean (gradSq (potExt a c 1 K K) r) = ∑ n ∈ Finset.Icc 1 K, factorExternal a r n * degreePower c n := by
  have h := mean_pot .external a ha c K r hr
  change sphereMean (gradSq (potExt a c 1 K K) r) = _ at h
  rw [h]
  apply Finset.sum_congr rfl
  intro n hn
  rw [Finset.mem_Icc] at hn
  congr 1
  unfold factorExternal
  simp only [rfac, rpow]
  have e : (r / a) ^ ((n : ℤ) - 1) = (r / a) ^ (n - 1) := by
    rw [show (n : ℤ) - 1 = ((n - 1 : ℕ) : ℤ) by omega, zpow_natCast]
  rw [e]
  have : (2 * (n : ℝ) + 1) ≠ 0 := by positivity
  rw [show 2 * n - 2 = (n - 1) * 2 by omega, pow_mul (r / a)]
  field_simp
  ring

theorem mean_toroidal (c : ℕ → ℝ) (K : ℕ) :
    sphereMean (toroidalSq (toroidalScalar c K)) = ∑ n ∈ Finset.Icc 1 K, factorToroidal n * degreePower c n := by
  have e : ∀ n ∈ Finset.Icc 1 K, factorToroidal n * degreePower c n =
      ((0 : ℝ) ^ 2 + n * (n + 1) * 1 ^ 2) / (2 * n + 1) *
        ∑ m ∈ Finset.range (n + 1), (coefG c 1 K n m ^ 2 + coefH c 1 K n m ^ 2) := by
    intro n hn
    rw [Finset.mem_Icc] at hn
    unfold degreePower factorToroidal
    simp only [coefG_gauss c hn.1 hn.2, coefH_gauss c hn.1 hn.2]
    ring
  rw [Finset.sum_congr rfl e, ← MeanSquare.mean_core K (fun n => 0) (fun n => 1)
    (fun n m => coefG c 1 K n m) (fun n m => coefH c 1 K n m) (fun n => by simp [coefH])]
  apply sphereMean_congr
  intro x y hs
  have d1 : HasDerivAt (fun φ' => toroidalScalar c K x φ') (∑ n ∈ Finset.Icc 1 K, ∑ m ∈ Finset.range (n + 1),
      (-(1 * (m * R n m x) * (-coefH c 1 K n m * Real.cos (m * y) + coefG c 1 K n m * Real.sin (m * y)))) * Real.sin x) y := by
    unfold toroidalScalar
    apply HasDerivAt.fun_sum
    intro n _
    apply HasDerivAt.fun_sum
    intro m _
    unfold surfaceTerm
    have hl : HasDerivAt (fun φ' : ℝ => (m : ℝ) * φ') m y := by simpa using (hasDerivAt_id y).const_mul (m : ℝ)
    refine ((((hl.cos).const_mul (coefG c 1 K n m)).add ((hl.sin).const_mul (coefH c 1 K n m))).mul_const _).congr_deriv ?_
    by_cases h0 : m = 0
    · subst h0; simp
    · rw [← R_mul_sin n m (by omega) x]
      ring
  have d2 : HasDerivAt (fun θ' => toroidalScalar c K θ' y) (∑ n ∈ Finset.Icc 1 K, ∑ m ∈ Finset.range (n + 1),
      1 * dS (Real.cos x) (Real.sin x) n m * (coefG c 1 K n m * Real.cos (m * y) + coefH c 1 K n m * Real.sin (m * y))) x := by
    unfold toroidalScalar
    apply HasDerivAt.fun_sum
    intro n _
    apply HasDerivAt.fun_sum
    intro m _
    unfold surfaceTerm
    exact ((hasDerivAt_schmidt n m x).const_mul _).congr_deriv (by ring)
  unfold toroidalSq
  rw [d1.deriv, d2.deriv]
  simp only [← Finset.sum_mul]
  rw [mul_div_assoc, div_self hs, mul_one]
  simp only [Finset.sum_neg_distrib, neg_sq, zero_mul, Finset.sum_const_zero]
  ring

/-- **C47** (mean square). The definition in the documentation: the entries of the spectrum sum to the mean over the sphere of
radius `r` of the squared magnitude of the field, which is minus the gradient of the potential (internal, external) or the
toroidal field of the scalar. -/
theorem C47_mean_square (a : ℝ) (ha : 0 < a) (dim N : ℕ) (h1 : N * (N + 2) ≤ dim) (h2 : dim < (N + 1) * (N + 3)) (c : ℕ → ℝ)
    (r : ℝ) (hr : 0 < r) (nmax : Option ℕ) :
    ∃ Wi We Wt : List ℝ,
      powerSpectrum a dim c (some r) (nmax.map (fun n : ℕ => (n : ℤ))) (some "internal") = .ok (Wi.map some) ∧
      powerSpectrum a dim c (some r) (nmax.map (fun n : ℕ => (n : ℤ))) (some "external") = .ok (We.map some) ∧
      powerSpectrum a dim c (some r) (nmax.map (fun n : ℕ => (n : ℤ))) (some "toroidal") = .ok (Wt.map some) ∧
      Wi.sum = sphereMean (gradSq (potInt a c 1 (min (nmax.getD N) N) (min (nmax.getD N) N)) r) ∧
      We.sum = sphereMean (gradSq (potExt a c 1 (min (nmax.getD N) N) (min (nmax.getD N) N)) r) ∧
      Wt.sum = sphereMean (toroidalSq (toroidalScalar c (min (nmax.getD N) N))) := by
  have key : ∀ source : String, source = "internal" ∨ source = "external" ∨ source = "toroidal" → ∃ W : List ℝ,
      powerSpectrum a dim c (some r) (nmax.map (fun n : ℕ => (n : ℤ))) (some source) = .ok (W.map some) ∧
      W.sum = ∑ n ∈ Finset.Icc 1 (min (nmax.getD N) N), docFactor source a r n * degreePower c n := by
    intro source hs
    obtain ⟨W, e1, e2, e3⟩ := C47_degree a dim N h1 h2 c r hr.ne' nmax source hs
    generalize min (nmax.getD N) N = K at e2 e3 ⊢
    refine ⟨(List.range K).map (fun i => docFactor source a r (i + 1) * degreePower c (i + 1)), ?_, ?_⟩
    · rw [e1]
      congr 1
      apply List.ext_getElem?
      intro i
      by_cases h : i < K
      · have := e3 (i + 1) (by omega) (by omega)
        rw [Nat.add_sub_cancel] at this
        rw [this, List.map_map, List.getElem?_map, List.getElem?_range h]
        rfl
      · rw [List.getElem?_eq_none (by omega), List.getElem?_eq_none (by simp; omega)]
    · have gen : ∀ (f : ℕ → ℝ) (k : ℕ), ((List.range k).map fun i => f (i + 1)).sum = ∑ n ∈ Finset.Icc 1 k, f n := by
        intro f k
        induction k with
        | zero => simp
        | succ k ih => rw [List.range_succ, List.map_append, List.sum_append, ih, Finset.sum_Icc_succ_top (by omega)]; simp
      exact gen (fun n => docFactor source a r n * degreePower c n) K
  obtain ⟨Wi, a1, b1⟩ := key "internal" (Or.inl rfl)
  obtain ⟨We, a2, b2⟩ := key "external" (Or.inr (Or.inl rfl))
  obtain ⟨Wt, a3, b3⟩ := key "toroidal" (Or.inr (Or.inr rfl))
  refine ⟨Wi, We, Wt, a1, a2, a3, ?_, ?_, ?_⟩
  · rw [b1, mean_internal a ha c _ r hr]
    rfl
  · rw [b2, mean_external a ha c _ r hr]
    rfl
  · rw [b3, mean_toroidal c _]
    rfl

theorem degreePower_only (c : ℕ → ℝ) {n k : ℕ} (hn : 1 ≤ n) (hk : 1 ≤ k) : degreePower (onlyDegree n c) k = if k = n then degreePower c n else 0 := by
  have pos : ∀ m ∈ Finset.range (k + 1), (gaussG (onlyDegree n c) k m = if k = n then gaussG c n m else 0) ∧
      (gaussH (onlyDegree n c) k m = if k = n then gaussH c n m else 0) := by
    intro m hm
    rw [Finset.mem_range] at hm
    have hsq : 1 ≤ k ^ 2 := Nat.one_le_pow _ _ hk
    have hb : ∀ i, k ^ 2 ≤ i + 1 → i + 1 < (k + 1) ^ 2 → onlyDegree n c i = if k = n then c i else 0 := by
      intro i h1 h2
      unfold onlyDegree
      by_cases h : k = n
      · subst h
        rw [if_pos ⟨h1, h2⟩, if_pos rfl]
      · rw [if_neg h, if_neg]
        rintro ⟨h3, h4⟩
        rcases Nat.lt_or_gt_of_ne h with h5 | h5
        · have := Nat.pow_le_pow_left (by omega : k + 1 ≤ n) 2
          omega
        · have := Nat.pow_le_pow_left (by omega : n + 1 ≤ k) 2
          omega
    have hexp : (k + 1) ^ 2 = k ^ 2 + 2 * k + 1 := by ring
    constructor
    · unfold gaussG
      have : k ^ 2 ≤ gaussPos k m + 1 ∧ gaussPos k m + 1 < (k + 1) ^ 2 := by
        unfold gaussPos
        split_ifs <;> omega
      rw [hb _ this.1 this.2]
      split_ifs with h
      · rw [h]
      · rfl
    · unfold gaussH
      by_cases h0 : m = 0
      · simp [h0]
      rw [if_neg h0, if_neg h0]
      have : k ^ 2 ≤ gaussPos k (-(m : ℤ)) + 1 ∧ gaussPos k (-(m : ℤ)) + 1 < (k + 1) ^ 2 := by
        unfold gaussPos
        split_ifs <;> omega
      rw [hb _ this.1 this.2]
      split_ifs with h
      · rw [h]
      · rfl
  unfold degreePower
  rw [Finset.sum_congr rfl (fun m hm => by rw [(pos m hm).1, (pos m hm).2])]
  split_ifs with h
  · rw [h]
  · simp

/-- **C47** (mean square by degree). Entry `n` of the spectrum is the mean square of the field of the coefficients of degree `n`. -/
theorem C47_mean_square_degree (a : ℝ) (ha : 0 < a) (dim N : ℕ) (h1 : N * (N + 2) ≤ dim) (h2 : dim < (N + 1) * (N + 3)) (c : ℕ → ℝ)
    (r : ℝ) (hr : 0 < r) :
    ∃ Wi We Wt : List (Option ℝ),
      powerSpectrum a dim c (some r) none (some "internal") = .ok Wi ∧
      powerSpectrum a dim c (some r) none (some "external") = .ok We ∧
      powerSpectrum a dim c (some r) none (some "toroidal") = .ok Wt ∧
      Wi.length = N ∧ We.length = N ∧ Wt.length = N ∧ ∀ n, 1 ≤ n → n ≤ N →
        Wi[n - 1]? = some (some (sphereMean (gradSq (potInt a (onlyDegree n c) 1 N N) r))) ∧
        We[n - 1]? = some (some (sphereMean (gradSq (potExt a (onlyDegree n c) 1 N N) r))) ∧
        Wt[n - 1]? = some (some (sphereMean (toroidalSq (toroidalScalar (onlyDegree n c) N)))) := by
  obtain ⟨Wi, a1, l1, b1⟩ := C47_degree a dim N h1 h2 c r hr.ne' none "internal" (Or.inl rfl)
  obtain ⟨We, a2, l2, b2⟩ := C47_degree a dim N h1 h2 c r hr.ne' none "external" (Or.inr (Or.inl rfl))
  obtain ⟨Wt, a3, l3, b3⟩ := C47_degree a dim N h1 h2 c r hr.ne' none "toroidal" (Or.inr (Or.inr rfl))
  simp only [Option.getD_none, min_self] at l1 l2 l3 b1 b2 b3
  refine ⟨Wi, We, Wt, a1, a2, a3, l1, l2, l3, ?_⟩
  intro n hn hle
  have pick : ∀ f : ℕ → ℝ, ∑ k ∈ Finset.Icc 1 N, f k * degreePower (onlyDegree n c) k = f n * degreePower c n := by
    intro f
    rw [Finset.sum_eq_single n]
    · rw [degreePower_only c hn hn, if_pos rfl]
    · intro k hk hkn
      rw [degreePower_only c hn (Finset.mem_Icc.1 hk).1, if_neg hkn, mul_zero]
    · intro h
      exact absurd (Finset.mem_Icc.2 ⟨hn, hle⟩) h
  rw [b1 n hn hle, b2 n hn hle, b3 n hn hle, mean_internal a ha _ N r hr, mean_external a ha _ N r hr, mean_toroidal, pick, pick, pick]
  exact ⟨rfl, rfl, rfl⟩

/-- An axial dipole: the mean square at the reference surface is `2 g²`. -/
example (a : ℝ) (ha : 0 < a) (g : ℝ) : sphereMean (gradSq (potInt a (fun i => if i = 0 then g else 0) 1 1 1) a) = 2 * g ^ 2 := by
  rw [mean_internal a ha _ 1 a ha]
  simp [factorInternal, degreePower, gaussG, gaussH, gaussPos, ha.ne', Finset.sum_range_succ]
  norm_num

end ChaosMagPy.Spectrum
