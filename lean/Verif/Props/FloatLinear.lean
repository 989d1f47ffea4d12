import Verif.Props.FloatPP
/-!
# C88: linear extrapolation in double precision
-/
namespace ChaosMagPy.PPoly
open ChaosMagPy.Spec
open ChaosMagPy.Float (uu tiny uu_pos tiny_pos Near)

/-- As `rB_succ`, with a larger error by underflow. -/
theorem rB_succ' {σ s B a A : ℝ} (hσ : 2 ≤ σ) (hs0 : 0 ≤ s) (hs : s ≤ σ) (hB : 1 ≤ B) (ha0 : 0 ≤ a) (ha : a ≤ B) (hA : 0 ≤ A) (q : ℕ) :
    (1 + uu) * (rB σ B A q + ((1 + uu) * ((1 + uu) * (a * zB σ s q) + 16 * tiny) + tiny)) + tiny ≤ rB σ B (A + a * s ^ q) (q + 1) := by
  have hσ1 : 1 ≤ σ := by linarith
  have h1 := v_pow_le hσ1 hs0 hs q
  have h2 := one_le_Y hσ1 q
  have h3 := tiny_small
  have h4 := tiny_pos
  have hu := uu_pos
  have hv := v_small
  have hzdef : zB σ s q = (1 + uu) ^ (2 * q) * s ^ q + tiny * ((8 * σ) ^ q - 1) := rfl
  unfold rB
  generalize hv' : (1 : ℝ) + uu = v at *
  have hv1 : 1 ≤ v := by linarith
  have e2 : (8 * σ) ^ (q + 1) = 8 * σ * (8 * σ) ^ q := by ring
  rw [e2, hzdef]
  generalize hY : (8 * σ) ^ q = Y at *
  have hm1 : v * (v ^ (2 * q + 3) * A) ≤ v * (v * (v ^ (2 * q + 3) * A)) := by
    have : 0 ≤ v * (v ^ (2 * q + 3) * A) := by positivity
    nlinarith
  have hm2 : v ^ 3 * a * (v ^ (2 * q) * s ^ q) ≤ v ^ 2 * (v ^ 3 * a * (v ^ (2 * q) * s ^ q)) := by
    have : 0 ≤ v ^ 3 * a * (v ^ (2 * q) * s ^ q) := by positivity
    have : (1 : ℝ) ≤ v ^ 2 := one_le_pow₀ hv1
    nlinarith
  have v3 : v ^ 3 ≤ 1.004 := by
    calc v ^ 3 ≤ 1.001 ^ 3 := pow_le_pow_left₀ (by linarith) hv 3
      _ ≤ 1.004 := by norm_num
  have v2 : v ^ 2 ≤ 1.003 := by
    calc v ^ 2 ≤ 1.001 ^ 2 := pow_le_pow_left₀ (by linarith) hv 2
      _ ≤ 1.003 := by norm_num
  have key : v * (8 * B * (Y - 1)) + v ^ 3 * a * (Y - 1) + 16 * v ^ 2 + v + 1 ≤ 8 * B * (8 * σ * Y - 1) := by
    have hBY : 1 ≤ B * Y := by nlinarith
    have hY1 : 0 ≤ Y - 1 := by linarith
    have a1 : v * (8 * B * (Y - 1)) ≤ 1.001 * (8 * B * (Y - 1)) := mul_le_mul_of_nonneg_right hv (by positivity)
    have a3 : v ^ 3 * a * (Y - 1) ≤ 1.004 * B * (Y - 1) := by
      apply mul_le_mul_of_nonneg_right _ hY1
      exact mul_le_mul v3 ha ha0 (by norm_num)
    have a4 : 2 * (B * Y) ≤ B * (σ * Y) := by nlinarith
    have a5 : B ≤ B * Y := by nlinarith
    nlinarith
  have ht := mul_le_mul_of_nonneg_left key h4.le
  have e3 : v * (v ^ (2 * q + 3) * A + tiny * (8 * B * (Y - 1)) + (v * (v * (a * (v ^ (2 * q) * s ^ q + tiny * (Y - 1))) + 16 * tiny) + tiny)) + tiny =
      v * (v ^ (2 * q + 3) * A) + v ^ 3 * a * (v ^ (2 * q) * s ^ q) + tiny * (v * (8 * B * (Y - 1)) + v ^ 3 * a * (Y - 1) + 16 * v ^ 2 + v + 1) := by ring
  have e1 : v ^ (2 * (q + 1) + 3) * (A + a * s ^ q) = v * (v * (v ^ (2 * q + 3) * A)) + v ^ 2 * (v ^ 3 * a * (v ^ (2 * q) * s ^ q)) := by ring
  rw [e3, e1]
  linarith

/-- The loop of `evaluate_poly1` for the first derivative. -/
theorem loop1_near (R : Rounding) {σ s sh B : ℝ} (hσ : 2 ≤ σ) (hs : |s| ≤ σ) (hB : 1 ≤ B) (k : ℕ) (hk16 : k ≤ 16) (c : ℕ → ℝ) (hc : ∀ i < k, |c i| * 16 ≤ B)
    (hsh : Near sh s |s| ((1 + uu) * |s| + tiny)) (hO : 32 * B * (8 * σ) ^ k ≤ 2 ^ 1000) (q : ℕ) (hq : q + 1 ≤ k) :
    Near ((List.range (q + 1)).foldl (termF R k c 1 sh) (0, 1)).1 (∑ p ∈ Finset.range q, c (k - 1 - (p + 1)) * ((p + 1 : ℕ) : ℝ) * s ^ p)
        (∑ p ∈ Finset.range q, |c (k - 1 - (p + 1)) * ((p + 1 : ℕ) : ℝ)| * |s| ^ p)
        (rB σ B (∑ p ∈ Finset.range q, |c (k - 1 - (p + 1)) * ((p + 1 : ℕ) : ℝ)| * |s| ^ p) q) ∧
      (q + 1 < k → Near ((List.range (q + 1)).foldl (termF R k c 1 sh) (0, 1)).2 (s ^ q) (|s| ^ q) (zB σ |s| q)) := by
  have hs0 := abs_nonneg s
  have hσ1 : 1 ≤ σ := by linarith
  induction q with
  | zero =>
    refine ⟨⟨by simp [rB, termF], by simp⟩, fun _ => ⟨by simp [zB, termF], by simp⟩⟩
  | succ q ih =>
    obtain ⟨ih1, ih2⟩ := ih (by omega)
    have ih2 := ih2 (by omega)
    rw [List.range_succ, List.foldl_append, List.foldl_cons, List.foldl_nil]
    generalize (List.range (q + 1)).foldl (termF R k c 1 sh) (0, 1) = a at *
    have hY : (8 * σ) ^ (q + 1) ≤ (8 * σ) ^ k := pow_le_pow_right₀ (by linarith) (by omega)
    have hYq : (8 * σ) ^ (q + 1) = 8 * σ * (8 * σ) ^ q := by ring
    have h1Y := one_le_Y hσ1 q
    have hO' : 32 * B * (8 * σ * (8 * σ) ^ q) ≤ 2 ^ 1000 := by
      rw [← hYq]
      exact (mul_le_mul_of_nonneg_left hY (by linarith)).trans hO
    have hz := zB_le hσ1 hs0 hs q
    have hz0 := zB_nonneg hσ1 hs0 q
    have ha := hc (k - 1 - (q + 1)) (by omega)
    have hv := v_small
    have hu := uu_pos
    have h3 := tiny_small
    have h4 := tiny_pos
    have hm0 : (0 : ℝ) ≤ ((q + 1 : ℕ) : ℝ) := Nat.cast_nonneg _
    have hm1 : ((q + 1 : ℕ) : ℝ) ≤ 16 := by exact_mod_cast (by omega : q + 1 ≤ 16)
    have habs : |c (k - 1 - (q + 1)) * ((q + 1 : ℕ) : ℝ)| = |c (k - 1 - (q + 1))| * ((q + 1 : ℕ) : ℝ) := by rw [abs_mul, Nat.abs_cast]
    have hcB : ∀ p < k - 1, |c (k - 1 - (p + 1)) * ((p + 1 : ℕ) : ℝ)| ≤ B := by
      intro p hp
      rw [abs_mul, Nat.abs_cast]
      refine le_trans ?_ (hc (k - 1 - (p + 1)) (by omega))
      apply mul_le_mul_of_nonneg_left _ (abs_nonneg _)
      exact_mod_cast (by omega : p + 1 ≤ 16)
    have hA0 : 0 ≤ ∑ p ∈ Finset.range q, |c (k - 1 - (p + 1)) * ((p + 1 : ℕ) : ℝ)| * |s| ^ p := Finset.sum_nonneg fun _ _ => by positivity
    have hr := rB_le hσ1 hB q hA0 (terms_le hσ1 hs0 hs hB (fun p => c (k - 1 - (p + 1)) * ((p + 1 : ℕ) : ℝ)) (k - 1) hcB q (by omega))
    have hcq := hcB q (by omega)
    rw [habs] at hcq
    have hBY : (8 * σ) ^ q ≤ B * (8 * σ) ^ q := by nlinarith
    have hσY : B * (8 * σ) ^ q ≤ B * (σ * (8 * σ) ^ q) := by
      apply mul_le_mul_of_nonneg_left _ (by linarith)
      nlinarith
    have hcB' : |c (k - 1 - (q + 1))| ≤ B := by nlinarith [abs_nonneg (c (k - 1 - (q + 1)))]
    generalize hcc : |c (k - 1 - (q + 1))| = C at *
    have hC0 : 0 ≤ C := by rw [← hcc]; exact abs_nonneg _
    generalize hmq : ((q + 1 : ℕ) : ℝ) = m at *
    have hm : Near m m m m := ⟨by simp, by rw [abs_of_nonneg hm0]⟩
    have hcn : Near (c (k - 1 - (q + 1))) (c (k - 1 - (q + 1))) C C := hcc ▸ Near.exact _
    have b1 : C * zB σ |s| q ≤ B * (2 * (8 * σ) ^ q) := mul_le_mul hcB' hz hz0 (by linarith)
    have b2 : C * m * zB σ |s| q ≤ B * (2 * (8 * σ) ^ q) := mul_le_mul hcq hz hz0 (by linarith)
    have n1 := (hcn.mul ih2).rnd R (le_trans (by nlinarith) hO')
    have b3 : ((1 + uu) * (C * zB σ |s| q) + tiny) * m ≤ (1 + uu) * (C * m * zB σ |s| q) + 16 * tiny := by nlinarith
    have n2 := ((n1.mul hm).mono b3).rnd R (le_trans (by nlinarith) hO')
    have b4 : (1 + uu) * ((1 + uu) * (C * m * zB σ |s| q) + 16 * tiny) + tiny ≤ 4 * (B * (8 * σ) ^ q) := by
      have hX0 : 0 ≤ C * m * zB σ |s| q := by positivity
      generalize C * m * zB σ |s| q = X at *
      have c1 : (1 + uu) * X ≤ 1.001 * X := mul_le_mul_of_nonneg_right hv hX0
      have c2 : (1 + uu) * ((1 + uu) * X + 16 * tiny) ≤ 1.001 * (1.001 * X + 16 * 0.001) := mul_le_mul hv (by linarith) (by positivity) (by norm_num)
      have c3 : 1 ≤ B * (8 * σ) ^ q := h1Y.trans hBY
      linarith
    have n3 := (ih1.add n2).rnd R (le_trans (by nlinarith) hO')
    constructor
    · have ht : (termF R k c 1 sh a (q + 1)).1 = R (a.1 + R (R (c (k - 1 - (q + 1)) * a.2) * ((q + 1 : ℕ) : ℝ))) := by
        unfold termF
        rw [if_neg (by omega), Nat.descFactorial_one]
      rw [ht, Finset.sum_range_succ, Finset.sum_range_succ, hmq, habs, mul_right_comm _ m]
      rw [mul_right_comm C, ] at n3
      have := n3.mono (rB_succ' hσ hs0 hs hB (mul_nonneg hC0 hm0) hcq hA0 q)
      exact this
    · intro hq'
      have ht : (termF R k c 1 sh a (q + 1)).2 = R (a.2 * sh) := by
        unfold termF
        rw [if_neg (by omega)]
        simp only
        rw [if_pos (by omega)]
      rw [ht, pow_succ, pow_succ]
      have b5 : (1 + uu) * |s| + tiny ≤ 1.1 * σ := by nlinarith
      have b6 : zB σ |s| q * ((1 + uu) * |s| + tiny) ≤ 2 * (8 * σ) ^ q * (1.1 * σ) := mul_le_mul hz b5 (by positivity) (by positivity)
      exact ((ih2.mul hsh).rnd R (le_trans (by nlinarith) hO')).mono (zB_succ hσ1 hs0 hs q)

set_option exponentiation.threshold 2000 in
/-- The first derivative by SciPy's evaluation. -/
theorem evalPoly1_near (R : Rounding) (k : ℕ) (hk : 2 ≤ k) (hk16 : k ≤ 16) (c : ℕ → ℝ) (hc : ∀ i < k, |c i| ≤ 2 ^ 80) (s sh : ℝ) (hs : |s| ≤ 2 ^ 24) (hsh : Near sh s |s| ((1 + uu) * |s| + tiny)) :
    Near (evalPolyF R k c 1 sh) (evalPoly k c 1 s) (magnitude k c 1 s) (rB (2 ^ 24) (2 ^ 100) (magnitude k c 1 s) (k - 1)) ∧ magnitude k c 1 s ≤ 2 ^ 100 * (2 * 2 ^ 24) ^ (k - 1) := by
  obtain ⟨e1, e2⟩ := deriv_terms k 1 (by omega) c s
  have hO : 32 * (2 : ℝ) ^ 100 * (8 * 2 ^ 24) ^ k ≤ 2 ^ 1000 := by
    calc 32 * (2 : ℝ) ^ 100 * (8 * 2 ^ 24) ^ k ≤ 32 * (2 : ℝ) ^ 100 * (8 * 2 ^ 24) ^ 16 := by
          apply mul_le_mul_of_nonneg_left _ (by norm_num)
          exact pow_le_pow_right₀ (by norm_num) hk16
      _ ≤ 2 ^ 1000 := by norm_num
  have h := (loop1_near R (σ := 2 ^ 24) (B := 2 ^ 100) (by norm_num) hs (by norm_num) k hk16 c (fun i hi => by
    have := hc i hi
    calc |c i| * 16 ≤ 2 ^ 80 * 16 := mul_le_mul_of_nonneg_right this (by norm_num)
      _ ≤ 2 ^ 100 := by norm_num) hsh hO (k - 1) (by omega)).1
  rw [show k - 1 + 1 = k by omega] at h
  have i1 : ∀ p < k - 1, k - 1 - 1 - p = k - 1 - (p + 1) := fun p hp => by omega
  have i2 : ∀ p < k - 1, k - 1 - (k - 1 - 1 - p) = p + 1 := fun p hp => by omega
  have f1 : evalPoly k c 1 s = ∑ p ∈ Finset.range (k - 1), c (k - 1 - (p + 1)) * ((p + 1 : ℕ) : ℝ) * s ^ p := by
    rw [e1]
    unfold evalPoly
    apply Finset.sum_congr rfl
    intro p hp
    rw [Finset.mem_range] at hp
    simp only
    rw [if_pos (Nat.zero_le _), i2 p hp, i1 p hp, Nat.descFactorial_one]
    simp
  have f2 : magnitude k c 1 s = ∑ p ∈ Finset.range (k - 1), |c (k - 1 - (p + 1)) * ((p + 1 : ℕ) : ℝ)| * |s| ^ p := by
    rw [e2]
    apply Finset.sum_congr rfl
    intro p hp
    rw [Finset.mem_range] at hp
    rw [i2 p hp, i1 p hp, Nat.descFactorial_one]
  rw [f1, f2]
  refine ⟨h, terms_le (by norm_num) (abs_nonneg s) hs (by norm_num) (fun p => c (k - 1 - (p + 1)) * ((p + 1 : ℕ) : ℝ)) (k - 1) ?_ (k - 1) le_rfl⟩
  intro p hp
  rw [abs_mul, Nat.abs_cast]
  calc |c (k - 1 - (p + 1))| * ((p + 1 : ℕ) : ℝ) ≤ 2 ^ 80 * 16 := by
        apply mul_le_mul (hc _ (by omega)) _ (Nat.cast_nonneg _) (by norm_num)
        exact_mod_cast (by omega : p + 1 ≤ 16)
    _ ≤ 2 ^ 100 := by norm_num

set_option exponentiation.threshold 2000 in
theorem tidy {x y M : ℝ} {k' : ℕ} (hk' : k' ≤ 16) (h : Near x y M (rB (2 ^ 24) (2 ^ 100) M k')) (hM : M ≤ 2 ^ 100 * (2 * 2 ^ 24) ^ k') :
    Near x y M ((1 + uu) ^ 35 * M + tiny * 2 ^ 540) ∧ M ≤ 2 ^ 500 := by
  have hM0 := h.nonneg.1
  have hu := uu_pos
  have ht := tiny_pos
  constructor
  · refine h.mono ?_
    unfold rB
    apply add_le_add
    · exact mul_le_mul_of_nonneg_right (pow_le_pow_right₀ (by linarith) (by omega)) hM0
    · apply mul_le_mul_of_nonneg_left _ ht.le
      calc 8 * (2 : ℝ) ^ 100 * ((8 * 2 ^ 24) ^ k' - 1) ≤ 8 * (2 : ℝ) ^ 100 * (8 * 2 ^ 24) ^ 16 := by
            apply mul_le_mul_of_nonneg_left _ (by norm_num)
            have : (8 * (2 : ℝ) ^ 24) ^ k' ≤ (8 * 2 ^ 24) ^ 16 := pow_le_pow_right₀ (by norm_num) hk'
            linarith
        _ ≤ 2 ^ 540 := by norm_num
  · refine hM.trans ?_
    calc (2 : ℝ) ^ 100 * (2 * 2 ^ 24) ^ k' ≤ 2 ^ 100 * (2 * 2 ^ 24) ^ 16 := by
          apply mul_le_mul_of_nonneg_left _ (by norm_num)
          exact pow_le_pow_right₀ (by norm_num) hk'
      _ = 2 ^ 500 := by norm_num

theorem v35 : (1 + uu) ^ 35 ≤ 2 := by unfold uu; norm_num

set_option exponentiation.threshold 2000 in
theorem tiny_540 : tiny * 2 ^ 540 ≤ 1 := by
  unfold tiny
  rw [show (2 : ℝ) ^ 540 = (2 : ℝ) ^ (540 : ℤ) from rfl, ← zpow_add₀ (by norm_num)]
  exact zpow_le_one_of_nonpos₀ (by norm_num) (by norm_num)

set_option exponentiation.threshold 2000 in
theorem tidy_abs {x y M : ℝ} (h : Near x y M ((1 + uu) ^ 35 * M + tiny * 2 ^ 540)) (hM : M ≤ 2 ^ 500) : |x| ≤ 2 ^ 502 := by
  refine h.abs_le.trans ?_
  have h1 : (1 + uu) ^ 35 * M ≤ 2 * 2 ^ 500 := mul_le_mul v35 hM h.nonneg.1 (by norm_num)
  have h2 := tiny_540
  calc (1 + uu) ^ 35 * M + tiny * 2 ^ 540 ≤ 2 * 2 ^ 500 + 1 := add_le_add h1 h2
    _ ≤ 2 ^ 502 := by norm_num

/-- A linear polynomial. -/
theorem evalPoly_linear (k : ℕ) (hk : 2 ≤ k) (bin : ℕ → ℝ) (hz : ∀ i, i < k - 2 → bin i = 0) (τ : ℝ) :
    evalPoly k bin 0 τ = bin (k - 1) + bin (k - 2) * τ ∧ ∑ p ∈ Finset.range k, |bin (k - 1 - p)| * |τ| ^ p = |bin (k - 1)| + |bin (k - 2)| * |τ| := by
  obtain ⟨n, rfl⟩ : ∃ n, k = n + 2 := ⟨k - 2, by omega⟩
  have h0 : ∀ q ∈ Finset.range n, bin (n + 2 - 1 - (q + 1 + 1)) = 0 := by
    intro q hq
    rw [Finset.mem_range] at hq
    exact hz _ (by omega)
  have e1 : n + 2 - 1 - 0 = n + 2 - 1 := rfl
  have e2 : n + 2 - 1 - (0 + 1) = n + 2 - 2 := by omega
  constructor
  · unfold evalPoly
    rw [Finset.sum_range_succ', Finset.sum_range_succ', Finset.sum_eq_zero, e1, e2]
    · simp [add_comm]
    · intro q hq
      rw [h0 q hq]
      simp
  · rw [Finset.sum_range_succ', Finset.sum_range_succ', Finset.sum_eq_zero, e1, e2]
    · simp [add_comm]
    · intro q hq
      rw [h0 q hq]
      simp

set_option exponentiation.threshold 2000 in
set_option maxHeartbeats 1000000 in
/-- Evaluation of an added linear piece. -/
theorem linear_near (R : Rounding) (k : ℕ) (hk : 2 ≤ k) (hk16 : k ≤ 16) (bin : ℕ → ℝ) (hz : ∀ i, i < k - 2 → bin i = 0) {y0 y1 M0 M1 τ : ℝ}
    (h0 : Near (bin (k - 1)) y0 M0 ((1 + uu) ^ 35 * M0 + tiny * 2 ^ 540)) (hM0 : M0 ≤ 2 ^ 500) (h1 : Near (bin (k - 2)) y1 M1 ((1 + uu) ^ 35 * M1 + tiny * 2 ^ 540)) (hM1 : M1 ≤ 2 ^ 500)
    (hτ : |τ| ≤ 2 ^ 24) : |R (evalPolyF R k bin 0 (R τ)) - (y0 + y1 * τ)| ≤ 2 ^ (-46 : ℤ) * (M0 + M1 * |τ|) + 2 ^ (-100 : ℤ) := by
  have hO : 32 * (2 : ℝ) ^ 502 * (8 * 2 ^ 24) ^ k ≤ 2 ^ 1000 := by
    calc 32 * (2 : ℝ) ^ 502 * (8 * 2 ^ 24) ^ k ≤ 32 * (2 : ℝ) ^ 502 * (8 * 2 ^ 24) ^ 16 := by
          apply mul_le_mul_of_nonneg_left _ (by norm_num)
          exact pow_le_pow_right₀ (by norm_num) hk16
      _ ≤ 2 ^ 1000 := by norm_num
  have hb : ∀ i < k, |bin i| ≤ 2 ^ 502 := by
    intro i hi
    by_cases a : i = k - 1
    · rw [a]; exact tidy_abs h0 hM0
    · by_cases a2 : i = k - 2
      · rw [a2]; exact tidy_abs h1 hM1
      · rw [hz i (by omega), abs_zero]; positivity
  have hE := evalPoly_near R (σ := 2 ^ 24) (B := 2 ^ 502) (by norm_num) hτ (by norm_num) k bin bin hb (fun i _ => near_self _)
    ((Near.exact τ).rnd R (hτ.trans (by norm_num))) hO
  obtain ⟨e1, e2⟩ := evalPoly_linear k hk bin hz τ
  rw [e1, e2] at hE
  have hw := h0.add (h1.mul (Near.exact τ))
  have hA0 := h0.nonneg.1
  have hA1 := h1.nonneg.1
  have hu := uu_pos
  have ht := tiny_pos
  -- magnitudes
  set M := M0 + M1 * |τ| with hM
  set F : ℝ := tiny * 2 ^ 540 + tiny * 2 ^ 540 * |τ| with hF
  have eP : (1 + uu) ^ 35 * M0 + tiny * 2 ^ 540 + ((1 + uu) ^ 35 * M1 + tiny * 2 ^ 540) * |τ| = (1 + uu) ^ 35 * M + F := by rw [hM, hF]; ring
  rw [eP] at hw
  have hM00 : 0 ≤ M := hw.nonneg.1
  have hF0 : 0 ≤ F := by positivity
  have hFle : F ≤ tiny * 2 ^ 565 := by
    have : F = tiny * (2 ^ 540 * (1 + |τ|)) := by rw [hF]; ring
    rw [this]
    apply mul_le_mul_of_nonneg_left _ ht.le
    calc (2 : ℝ) ^ 540 * (1 + |τ|) ≤ 2 ^ 540 * (1 + 2 ^ 24) := by
          apply mul_le_mul_of_nonneg_left _ (by norm_num)
          linarith
      _ ≤ 2 ^ 565 := by norm_num
  set A := |bin (k - 1)| + |bin (k - 2)| * |τ| with hA
  have hAle : A ≤ (1 + uu) ^ 35 * M + F := by
    rw [← eP]
    exact add_le_add h0.abs_le (mul_le_mul_of_nonneg_right h1.abs_le (abs_nonneg _))
  have hA00 : 0 ≤ A := by positivity
  set G : ℝ := 8 * 2 ^ 502 * ((8 * 2 ^ 24) ^ k - 1) with hG
  have hGle : G ≤ 2 ^ 940 := by
    calc G ≤ 8 * 2 ^ 502 * (8 * 2 ^ 24) ^ 16 := by
          apply mul_le_mul_of_nonneg_left _ (by norm_num)
          have : (8 * (2 : ℝ) ^ 24) ^ k ≤ (8 * 2 ^ 24) ^ 16 := pow_le_pow_right₀ (by norm_num) hk16
          linarith
      _ ≤ 2 ^ 940 := by norm_num
  have hV : (1 + uu) ^ (2 * k + 3) ≤ (1 + uu) ^ 35 := pow_le_pow_right₀ (by linarith) (by omega)
  have hV1 : 1 ≤ (1 + uu) ^ (2 * k + 3) := one_le_pow₀ (by linarith)
  have hrB : rB (2 ^ 24) (2 ^ 502) A k = (1 + uu) ^ (2 * k + 3) * A + tiny * G := rfl
  rw [hrB] at hE
  have hN : Near (evalPolyF R k bin 0 (R τ)) (y0 + y1 * τ) M ((1 + uu) ^ 35 * ((1 + uu) ^ 35 * M + F) + tiny * G) := by
    refine ⟨?_, hw.bound⟩
    have a1 := hE.err
    have a2 := hw.err
    have a3 := abs_sub_le (evalPolyF R k bin 0 (R τ)) (bin (k - 1) + bin (k - 2) * τ) (y0 + y1 * τ)
    have a4 : ((1 + uu) ^ (2 * k + 3) - 1) * A ≤ ((1 + uu) ^ 35 - 1) * ((1 + uu) ^ 35 * M + F) :=
      mul_le_mul (by linarith) hAle hA00 (by linarith)
    generalize tiny * G = u1 at *
    generalize (1 + uu) ^ 35 * M + F = P at *
    linarith
  have hsum : (1 + uu) ^ 35 * ((1 + uu) ^ 35 * M + F) + tiny * G ≤ (1 + uu) ^ 70 * M + tiny * 2 ^ 941 := by
    have b1 : (1 + uu) ^ 35 * ((1 + uu) ^ 35 * M + F) = (1 + uu) ^ 70 * M + (1 + uu) ^ 35 * F := by ring
    have b2 : (1 + uu) ^ 35 * F ≤ 2 * (tiny * 2 ^ 565) := mul_le_mul v35 hFle hF0 (by norm_num)
    have b3 : tiny * G ≤ tiny * 2 ^ 940 := mul_le_mul_of_nonneg_left hGle ht.le
    have b4 : 2 * (tiny * 2 ^ 565) + tiny * 2 ^ 940 ≤ tiny * 2 ^ 941 := by
      have : 2 * (tiny * (2 : ℝ) ^ 565) + tiny * 2 ^ 940 = tiny * (2 * 2 ^ 565 + 2 ^ 940) := by ring
      rw [this]
      exact mul_le_mul_of_nonneg_left (by norm_num) ht.le
    rw [b1, add_assoc]
    exact add_le_add le_rfl ((add_le_add b2 b3).trans b4)
  have hT : tiny * (2 : ℝ) ^ 941 ≤ 2 ^ (-113 : ℤ) := by
    unfold tiny
    rw [show (2 : ℝ) ^ 941 = (2 : ℝ) ^ (941 : ℤ) from rfl, ← zpow_add₀ (by norm_num)]
    norm_num
  have hT1 : tiny ≤ (2 : ℝ) ^ (-113 : ℤ) := by
    unfold tiny
    exact zpow_le_zpow_right₀ (by norm_num) (by norm_num)
  have hMle : M ≤ 2 ^ 525 := by
    calc M ≤ 2 ^ 500 + 2 ^ 500 * 2 ^ 24 := add_le_add hM0 (mul_le_mul hM1 hτ (abs_nonneg _) (by norm_num))
      _ ≤ 2 ^ 525 := by norm_num
  have hV70 : (1 + uu) ^ 70 ≤ 2 := by unfold uu; norm_num
  have hV71 : (1 + uu) ^ 71 ≤ 1 + 2 ^ (-46 : ℤ) := by unfold uu; norm_num
  have hfin := ((hN.mono hsum).rnd R (by
    calc (1 + uu) ^ 70 * M + tiny * 2 ^ 941 ≤ 2 * 2 ^ 525 + 2 ^ (-113 : ℤ) := add_le_add (mul_le_mul hV70 hMle hM00 (by norm_num)) hT
      _ ≤ 2 ^ 1000 := by norm_num)).err
  refine hfin.trans ?_
  have hv2 : 1 + uu ≤ 2 := by linarith [v_small]
  have c1 : (1 + uu) * (tiny * 2 ^ 941) + tiny ≤ 2 ^ (-100 : ℤ) := by
    calc (1 + uu) * (tiny * 2 ^ 941) + tiny ≤ 2 * 2 ^ (-113 : ℤ) + 2 ^ (-113 : ℤ) := add_le_add (mul_le_mul hv2 hT (by positivity) (by norm_num)) hT1
      _ ≤ 2 ^ (-100 : ℤ) := by norm_num
  have c2 : (1 + uu) * ((1 + uu) ^ 70 * M + tiny * 2 ^ 941) + tiny - M = ((1 + uu) ^ 71 - 1) * M + ((1 + uu) * (tiny * 2 ^ 941) + tiny) := by ring
  rw [c2]
  exact add_le_add (mul_le_mul_of_nonneg_right (by linarith) hM00) c1

set_option exponentiation.threshold 2000 in
/-- Rounding a second time changes nothing. -/
theorem rnd_idem (R : Rounding) {x : ℝ} (h : |x| ≤ 2 ^ 1000) : R (R x) = R x := by
  have hd2 : IsDouble ((2 : ℝ) ^ 1000) := by
    have := Float.double_of (m := 2 ^ 52) (e := 948) (by norm_num) (by norm_num) (by norm_num)
    have e : ((2 ^ 52 : ℤ) : ℝ) * (2 : ℝ) ^ (948 : ℤ) = 2 ^ 1000 := by
      rw [show (2 : ℝ) ^ (948 : ℤ) = (2 : ℝ) ^ (948 : ℕ) from rfl, Int.cast_pow, Int.cast_ofNat, ← pow_add]
    rw [e] at this
    exact this
  have hp1 : |(2 : ℝ) ^ 1000| ≤ 2 ^ 1000 := by rw [abs_of_nonneg (by positivity)]
  have hm1 : |-(2 : ℝ) ^ 1000| ≤ 2 ^ 1000 := by rw [abs_neg]; exact hp1
  have hup := Float.rnd_mono R h hp1 (abs_le.1 h).2
  have hlo := Float.rnd_mono R hm1 h (abs_le.1 h).1
  rw [Float.rnd_double R hd2 hp1] at hup
  rw [Float.rnd_double R (Float.double_neg hd2) hm1] at hlo
  exact Float.rnd_double R (R.nearest _ h).1 (abs_le.2 ⟨hlo, hup⟩)

set_option exponentiation.threshold 2000 in
/-- The slope, per year. -/
theorem slope_near (R : Rounding) {x y M : ℝ} (h : Near x y M ((1 + uu) ^ 35 * M + tiny * 2 ^ 540)) (hM : M ≤ 2 ^ 500) :
    |R (R x * 365.25 ^ 1) - y * 365.25| ≤ 2 ^ (-46 : ℤ) * (M * 365.25) + 2 ^ (-100 : ℤ) := by
  have hu := uu_pos
  have ht := tiny_pos
  have hM0 := h.nonneg.1
  have hD : Near ((365.25 : ℝ) ^ 1) 365.25 365.25 365.25 := ⟨by norm_num, by norm_num⟩
  have hP : (1 + uu) ^ 35 * M + tiny * 2 ^ 540 ≤ 2 ^ 502 := by
    calc (1 + uu) ^ 35 * M + tiny * 2 ^ 540 ≤ 2 * 2 ^ 500 + 1 := add_le_add (mul_le_mul v35 hM hM0 (by norm_num)) tiny_540
      _ ≤ 2 ^ 502 := by norm_num
  have n1 := h.rnd R (hP.trans (by norm_num))
  have e1 : (1 + uu) * ((1 + uu) ^ 35 * M + tiny * 2 ^ 540) + tiny ≤ (1 + uu) ^ 36 * M + tiny * 2 ^ 542 := by
    have b1 : (1 + uu) * ((1 + uu) ^ 35 * M + tiny * 2 ^ 540) + tiny = (1 + uu) ^ 36 * M + tiny * ((1 + uu) * 2 ^ 540 + 1) := by ring
    rw [b1]
    apply add_le_add le_rfl (mul_le_mul_of_nonneg_left _ ht.le)
    calc (1 + uu) * (2 : ℝ) ^ 540 + 1 ≤ 2 * 2 ^ 540 + 1 := by
          have := mul_le_mul_of_nonneg_right (show 1 + uu ≤ 2 by linarith [v_small]) (show (0 : ℝ) ≤ 2 ^ 540 by positivity)
          exact add_le_add this le_rfl
      _ ≤ 2 ^ 542 := by norm_num
  have hT : tiny * (2 : ℝ) ^ 542 ≤ 2 ^ (-512 : ℤ) := by
    unfold tiny
    rw [show (2 : ℝ) ^ 542 = (2 : ℝ) ^ (542 : ℤ) from rfl, ← zpow_add₀ (by norm_num)]
    norm_num
  have hT1 : tiny ≤ (2 : ℝ) ^ (-512 : ℤ) := by
    unfold tiny
    exact zpow_le_zpow_right₀ (by norm_num) (by norm_num)
  have hV36 : (1 + uu) ^ 36 ≤ 2 := by unfold uu; norm_num
  have hV37 : (1 + uu) ^ 37 ≤ 1 + 2 ^ (-46 : ℤ) := by unfold uu; norm_num
  have n2 := (n1.mono e1).mul hD
  have hfin := (n2.rnd R (by
    calc ((1 + uu) ^ 36 * M + tiny * 2 ^ 542) * 365.25 ≤ (2 * 2 ^ 500 + 2 ^ (-512 : ℤ)) * 365.25 := by
          apply mul_le_mul_of_nonneg_right _ (by norm_num)
          exact add_le_add (mul_le_mul hV36 hM hM0 (by norm_num)) hT
      _ ≤ 2 ^ 1000 := by norm_num)).err
  refine hfin.trans ?_
  have hv2 : 1 + uu ≤ 2 := by linarith [v_small]
  have c1 : (1 + uu) * (tiny * 2 ^ 542) * 365.25 + tiny ≤ 2 ^ (-100 : ℤ) := by
    calc (1 + uu) * (tiny * 2 ^ 542) * 365.25 + tiny ≤ 2 * 2 ^ (-512 : ℤ) * 365.25 + 2 ^ (-512 : ℤ) := by
          apply add_le_add _ hT1
          apply mul_le_mul_of_nonneg_right _ (by norm_num)
          exact mul_le_mul hv2 hT (by positivity) (by norm_num)
      _ ≤ 2 ^ (-100 : ℤ) := by norm_num
  have c2 : (1 + uu) * (((1 + uu) ^ 36 * M + tiny * 2 ^ 542) * 365.25) + tiny - M * 365.25 = ((1 + uu) ^ 37 - 1) * (M * 365.25) + ((1 + uu) * (tiny * 2 ^ 542) * 365.25 + tiny) := by ring
  rw [c2]
  exact add_le_add (mul_le_mul_of_nonneg_right (by linarith) (by positivity)) c1

section
variable {b : Base} {c : ℕ → ℕ → ℕ → ℝ}

set_option exponentiation.threshold 2000 in
set_option maxHeartbeats 1000000 in
/-- **C88**, the default (`'linear'`) extrapolation in double precision: for models of order 2 to 16, coefficients up to `2^80` in absolute value and times and break points within `2^23` days, the
value at a time outside the model interval differs from that of the tangent at the nearer end by at most `2^-46` times the sum of the magnitudes of the terms, plus `2^-100`; the first derivative
differs likewise from the slope of the tangent, per year, and all higher derivatives are exactly zero. -/
theorem C88_linear (R : Rounding) (hb : Proper b c) (horder : 2 ≤ b.order) (hord : b.order ≤ 16) (times : List ℝ) (dim der : Option ℕ) (e : Option Extrap)
    (he : e = none ∨ e = some (.str "linear") ∨ e = some (.bool true)) (hc : ∀ i j d, i < b.order → j + 1 < b.breaks.length → d < b.dim → |c i j d| ≤ 2 ^ 80)
    (hx : ∀ x ∈ b.breaks, |x| ≤ 2 ^ 23) (i : ℕ) (t x : ℝ) (j : ℕ) (hi : times[i]? = some t) (ht : |t| ≤ 2 ^ 23) (hn : NearEnd b t x j) :
    ∃ rows v, b.synthCoeffsF R times dim der e = .ok (columns b dim, rows) ∧ rows[i]? = some (some v) ∧ ∀ d < b.dim,
      (dOrder der = 0 → |v d - (piece b c j d x + deriv (piece b c j d) x * (t - x))| ≤
        2 ^ (-46 : ℤ) * (magnitude b.order (fun i => c i j d) 0 (x - b.breaks.getD j 0) + magnitude b.order (fun i => c i j d) 1 (x - b.breaks.getD j 0) * |t - x|) + 2 ^ (-100 : ℤ)) ∧
      (dOrder der = 1 → |v d - deriv (piece b c j d) x * 365.25| ≤ 2 ^ (-46 : ℤ) * (magnitude b.order (fun i => c i j d) 1 (x - b.breaks.getD j 0) * 365.25) + 2 ^ (-100 : ℤ)) ∧
      (2 ≤ dOrder der → v d = 0) := by
  have hd : Known (option e) ∧ documentedOrder b.order (option e) = 2 := by
    have h2 : min 2 (b.order : ℤ) = 2 := by omega
    rcases he with rfl | rfl | rfl
    · exact ⟨by simp [Known, option], h2⟩
    · exact ⟨by simp [Known, option], h2⟩
    · exact ⟨trivial, h2⟩
  have hne : times ≠ [] := by rintro rfl; simp at hi
  have hlen := hb.len
  have hneb : b.breaks ≠ [] := by rintro h; rw [h] at hlen; simp at hlen
  have hout : Outside b times := by
    refine ⟨t, List.mem_of_getElem? hi, ?_⟩
    rcases hn with h | h
    · exact Or.inl h.1
    · exact Or.inr h.1
  have hpj : IsPiece b.breaks j x := by
    rcases hn with ⟨-, -, h⟩ | ⟨-, rfl, rfl⟩
    · exact h
    · exact isPiece_last hb
  have hj1 := hpj.1
  have hR0 : R 0 = 0 := Float.rnd_double R Float.double_zero (by rw [abs_zero]; positivity)
  have hmem : ∀ m, m < b.breaks.length → |b.breaks.getD m 0| ≤ 2 ^ 23 := by
    intro m hm
    rw [List.getD_eq_getElem?_getD, List.getElem?_eq_getElem hm, Option.getD_some]
    exact hx _ (List.getElem_mem hm)
  have hx23 : |x| ≤ 2 ^ 23 := by
    rcases hn with ⟨-, rfl, -⟩ | ⟨-, rfl, -⟩
    · rw [first_eq]; exact hmem 0 (by omega)
    · rw [last_eq _ hneb]; exact hmem _ (by omega)
  have hs : |x - b.breaks.getD j 0| ≤ 2 ^ 24 := by
    have a1 := abs_le.1 (hmem j (by omega))
    have a2 := abs_le.1 hx23
    rw [abs_le]
    constructor <;> linarith [a1.1, a1.2, a2.1, a2.2]
  have hτ : |t - x| ≤ 2 ^ 24 := by
    have a1 := abs_le.1 ht
    have a2 := abs_le.1 hx23
    rw [abs_le]
    constructor <;> linarith [a1.1, a1.2, a2.1, a2.2]
  -- value and slope at the end
  set w : ℕ → ℕ → ℝ := fun nu d => evalPolyF R b.order (fun i => c i j d) nu (R (x - b.breaks.getD j 0)) with hw
  have hsh : Near (R (x - b.breaks.getD j 0)) (x - b.breaks.getD j 0) |x - b.breaks.getD j 0| ((1 + uu) * |x - b.breaks.getD j 0| + tiny) :=
    (Near.exact _).rnd R (hs.trans (by norm_num))
  have hex : ∀ nu d, evalPoly b.order (fun i => c i j d) nu (x - b.breaks.getD j 0) = iteratedDeriv nu (piece b c j d) x := by
    intro nu d
    rw [← evalPoly_iteratedDeriv]
    rfl
  have hw0 : ∀ d < b.dim, Near (w 0 d) (piece b c j d x) (magnitude b.order (fun i => c i j d) 0 (x - b.breaks.getD j 0))
      ((1 + uu) ^ 35 * magnitude b.order (fun i => c i j d) 0 (x - b.breaks.getD j 0) + tiny * 2 ^ 540) ∧ magnitude b.order (fun i => c i j d) 0 (x - b.breaks.getD j 0) ≤ 2 ^ 500 := by
    intro d hd
    obtain ⟨k', hk', hnear, hm⟩ := derivativeF_near R (pp b c) b.order rfl (by omega) hord 0 (by omega) j d (fun i => c i j d) (fun i => rfl)
      (fun i hi => hc i j d hi hj1 hd) (x - b.breaks.getD j 0) (R (x - b.breaks.getD j 0)) hs hsh
    rw [hex 0 d, iteratedDeriv_zero] at hnear
    exact tidy hk' hnear hm
  have hw1 : ∀ d < b.dim, Near (w 1 d) (deriv (piece b c j d) x) (magnitude b.order (fun i => c i j d) 1 (x - b.breaks.getD j 0))
      ((1 + uu) ^ 35 * magnitude b.order (fun i => c i j d) 1 (x - b.breaks.getD j 0) + tiny * 2 ^ 540) ∧ magnitude b.order (fun i => c i j d) 1 (x - b.breaks.getD j 0) ≤ 2 ^ 500 := by
    intro d hd
    obtain ⟨hnear, hm⟩ := evalPoly1_near R b.order horder hord (fun i => c i j d) (fun i hi => hc i j d hi hj1 hd) (x - b.breaks.getD j 0) (R (x - b.breaks.getD j 0)) hs hsh
    rw [hex 1 d, iteratedDeriv_one] at hnear
    exact tidy (by omega) hnear hm
  -- the added pieces
  have hbl : x = first b.breaks → ∀ i d, i < b.order → b.order - 1 - i < 2 → extensionBinF R (pp b c) 2 (first b.breaks) i d = w (b.order - 1 - i) d := by
    intro hxf i d hi hi2
    unfold extensionBinF
    simp only
    rw [if_pos ⟨show i < b.order from hi, show b.order - 1 - i < 2 from hi2⟩]
    have hev : (pp b c).evalF R true (b.order - 1 - i) (first b.breaks) = some (w (b.order - 1 - i)) := by
      unfold PP.evalF
      rw [← hxf, show (pp b c).x = b.breaks from rfl, findInterval_piece _ hb.sorted true j x hpj, Option.map_some]
      rfl
    rw [show (pp b c).k = b.order from rfl, hev]
  have hbr : x = last b.breaks → ∀ i d, i < b.order → b.order - 1 - i < 2 → extensionBinF R (leftF R (pp b c) 2) 2 (last b.breaks) i d = w (b.order - 1 - i) d := by
    intro hxl i d hi hi2
    have hjl : j = b.breaks.length - 2 := by
      rcases hn with ⟨-, h, -⟩ | ⟨-, -, h⟩
      · exact absurd (h.symm.trans hxl) hb.span.ne
      · exact h
    unfold extensionBinF
    simp only
    rw [if_pos ⟨show i < b.order from hi, show b.order - 1 - i < 2 from hi2⟩]
    have hev : (leftF R (pp b c) 2).evalF R true (b.order - 1 - i) (last b.breaks) = some (w (b.order - 1 - i)) := by
      unfold PP.evalF
      rw [leftF_interval R hb 2, Option.map_some, hw]
      congr 1
      funext d
      have e1 : (leftF R (pp b c) 2).x.getD (b.breaks.length - 1) 0 = b.breaks.getD j 0 := by
        simp only [leftF, pp]
        rw [hjl, show b.breaks.length - 1 = b.breaks.length - 2 + 1 by omega, List.getD_cons_succ]
      have e2 : (fun i => (leftF R (pp b c) 2).c i (b.breaks.length - 1) d) = fun i => c i j d := by
        funext i
        simp only [leftF, pp]
        rw [if_neg (by omega), hjl, show b.breaks.length - 1 - 1 = b.breaks.length - 2 by omega]
      rw [e1, e2, hxl]
      rfl
    rw [show (leftF R (pp b c) 2).k = b.order from rfl, hev]
  have hbz : ∀ (p : PP) (y : ℝ) i d, p.k = b.order → i < b.order - 2 → extensionBinF R p 2 y i d = 0 := by
    intro p y i d hp hi
    unfold extensionBinF
    simp only
    rw [if_neg (by omega)]
  have hp := prepareF_on R hb times (option e) hne hout hd.1 (by rw [hd.2]; norm_num)
  rw [hd.2] at hp
  have hF := rowsF_of_prepare R hb times dim der e hp
  obtain ⟨bin, j', hj', hxj, hcj, hbw, hbz'⟩ : ∃ (bin : ℕ → ℕ → ℝ) (j' : ℕ), findInterval (extended (pp b c) (extensionBinF R (pp b c) 2 (first b.breaks))
      (extensionBinF R (leftF R (pp b c) 2) 2 (last b.breaks))).x true t = some j' ∧
      (extended (pp b c) (extensionBinF R (pp b c) 2 (first b.breaks)) (extensionBinF R (leftF R (pp b c) 2) 2 (last b.breaks))).x.getD j' 0 = x ∧
      (∀ i d, (extended (pp b c) (extensionBinF R (pp b c) 2 (first b.breaks)) (extensionBinF R (leftF R (pp b c) 2) 2 (last b.breaks))).c i j' d = bin i d) ∧
      (∀ i d, i < b.order → b.order - 1 - i < 2 → bin i d = w (b.order - 1 - i) d) ∧ (∀ i d, i < b.order - 2 → bin i d = 0) := by
    rcases hn with ⟨ht, hxf, -⟩ | ⟨ht, hxl, hjl⟩
    · refine ⟨extensionBinF R (pp b c) 2 (first b.breaks), 0, extended_left_interval hb _ _ t ht, ?_, ?_, ?_, ?_⟩
      · rw [hxf]; rfl
      · intro i d; rfl
      · exact hbl hxf
      · exact fun i d hi => hbz _ _ i d rfl hi
    · refine ⟨extensionBinF R (leftF R (pp b c) 2) 2 (last b.breaks), b.breaks.length, (extended_right_interval hb _ _ t ht.le).1, ?_, ?_, ?_, ?_⟩
      · rw [(extended_right_interval hb _ _ t ht.le).2, hxl]
      · intro i d
        simp only [extended]
        rw [show (pp b c).x = b.breaks from rfl, if_neg (by omega), if_neg (lt_irrefl _)]
      · exact hbr hxl
      · exact fun i d hi => hbz _ _ i d rfl hi
  set P := extended (pp b c) (extensionBinF R (pp b c) 2 (first b.breaks)) (extensionBinF R (leftF R (pp b c) 2) 2 (last b.breaks)) with hP
  have hPk : P.k = b.order := rfl
  have hb0 : ∀ d, bin (b.order - 1) d = w 0 d := by
    intro d
    rw [hbw _ _ (by omega) (by omega), Nat.sub_self]
  have hb1 : ∀ d, bin (b.order - 2) d = w 1 d := by
    intro d
    rw [hbw _ _ (by omega) (by omega), show b.order - 1 - (b.order - 2) = 1 by omega]
  refine ⟨_, fun d => R (evalPolyF R (P.derivativeF R (dOrder der)).k (fun i => (P.derivativeF R (dOrder der)).c i j' d) 0 (R (t - x)) * (365.25 : ℝ) ^ dOrder der), hF, ?_, ?_⟩
  · rw [row_get hi]
    simp only [show (2 : ℤ).toNat = 2 from rfl]
    unfold PP.evalF
    rw [derivativeF_x, ← hP, hj', Option.map_some, Option.map_some, hxj]
  · intro d hdd
    obtain ⟨n0, m0⟩ := hw0 d hdd
    obtain ⟨n1, m1⟩ := hw1 d hdd
    refine ⟨?_, ?_, ?_⟩
    · intro h0
      rw [h0]
      simp only [PP.derivativeF, if_true, hcj, hPk, pow_zero, mul_one]
      rw [← hb0] at n0
      rw [← hb1] at n1
      exact linear_near R b.order horder hord (fun i => bin i d) (fun i hi => hbz' i d hi) n0 m0 n1 m1 hτ
    · intro h1
      have hv : evalPolyF R (P.derivativeF R (dOrder der)).k (fun i => (P.derivativeF R (dOrder der)).c i j' d) 0 (R (t - x)) = R (w 1 d) := by
        have hw1b : |w 1 d| ≤ 2 ^ 1000 := (tidy_abs n1 m1).trans (by norm_num)
        have hid := rnd_idem R hw1b
        rw [h1]
        unfold PP.derivativeF
        rw [if_neg (by omega), if_neg (by omega)]
        simp only [hcj, hPk]
        have hlast : R (bin (b.order - 1 - 1) d * ((b.order - 1 - (b.order - 1 - 1)).descFactorial 1 : ℝ)) = R (w 1 d) := by
          rw [show b.order - 1 - (b.order - 1 - 1) = 1 by omega, show b.order - 1 - 1 = b.order - 2 by omega, hb1]
          simp
        rw [loop_const R (b.order - 1) _ _ (by omega) (Or.inl fun i hi => by rw [hbz' i d (by omega), zero_mul, hR0]) (by rw [hlast, hid, hid]), hlast, hid]
      simp only [hv]
      rw [h1]
      exact slope_near R n1 m1
    · intro h2
      have hz : evalPolyF R (P.derivativeF R (dOrder der)).k (fun i => (P.derivativeF R (dOrder der)).c i j' d) 0 (R (t - x)) = 0 := by
        have hall : ∀ i < (P.derivativeF R (dOrder der)).k, (P.derivativeF R (dOrder der)).c i j' d = 0 := by
          intro i hi
          unfold PP.derivativeF at hi ⊢
          rw [if_neg (by omega)] at hi ⊢
          by_cases hk : P.k ≤ dOrder der
          · rw [if_pos hk]
          · rw [if_neg hk] at hi ⊢
            simp only at hi ⊢
            rw [hcj, hbz' i d (by omega), zero_mul, hR0]
        have hk0 : 0 < (P.derivativeF R (dOrder der)).k := by
          unfold PP.derivativeF
          rw [if_neg (by omega)]
          split_ifs with hk
          · exact Nat.one_pos
          · simp only; omega
        have hc0 := hall ((P.derivativeF R (dOrder der)).k - 1) (by omega)
        rw [loop_const R _ _ _ hk0 (Or.inl fun i hi => hall i (by omega)) (by rw [hc0, hR0, hR0]), hc0, hR0]
      simp only [hz, zero_mul, hR0]

end

end ChaosMagPy.PPoly
