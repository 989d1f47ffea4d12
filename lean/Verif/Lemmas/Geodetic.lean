import Verif.Lemmas.Coord
import Mathlib.Topology.Order.IntermediateValue
import Mathlib.Topology.Algebra.Polynomial
/-!
# Heikkinen's closed solution

`e` stands for the squared eccentricity, `k = 1 - e`, `(r, z)` is a point of the meridional plane. A point above the ellipse is
`r = (u + e) ρ`, `z = u σ` with `ρ² + k σ² = a²`, where `(ρ, k σ)` is its foot point.
-/
namespace ChaosMagPy.Coord

/-- The cubic that the number `s` solves. -/
theorem heikkinen_s (c : ℝ) (hc : 0 ≤ c) :
    let s := (1 + c + Real.sqrt (c ^ 2 + 2 * c)) ^ ((1 : ℝ) / 3)
    0 < s ∧ 3 ≤ s + 1 / s + 1 ∧ (s + 1 / s + 1) ^ 2 * ((s + 1 / s + 1) - 3) = 2 * c := by
  intro s
  have hq : Real.sqrt (c ^ 2 + 2 * c) ^ 2 = c ^ 2 + 2 * c := Real.sq_sqrt (by positivity)
  have hq0 : 0 ≤ Real.sqrt (c ^ 2 + 2 * c) := Real.sqrt_nonneg _
  set q := Real.sqrt (c ^ 2 + 2 * c) with hqdef
  have hw : 0 < 1 + c + q := by positivity
  have hs : 0 < s := Real.rpow_pos_of_pos hw _
  have hs3 : s ^ 3 = 1 + c + q := by
    show ((1 + c + q) ^ ((1 : ℝ) / 3)) ^ 3 = _
    rw [← Real.rpow_natCast, ← Real.rpow_mul hw.le]
    norm_num
  have hi3 : (1 / s) ^ 3 = 1 + c - q := by
    rw [div_pow, one_pow, hs3, div_eq_iff hw.ne']
    linear_combination hq
  have hss : s * (1 / s) = 1 := by field_simp
  have ht : 0 < 1 / s := by positivity
  generalize 1 / s = t at hi3 hss ht ⊢
  refine ⟨hs, ?_, ?_⟩
  · nlinarith [sq_nonneg (s - t)]
  · linear_combination hs3 + hi3 + (3 * s + 3 * t) * hss

/-- The quantities `P` and `Q` of the algorithm. -/
structure Heikkinen (a k e r z G P Q : ℝ) : Prop where
  P0 : 0 ≤ P
  Q1 : 1 ≤ Q
  Q2 : Q ^ 2 = 1 + 2 * e ^ 2 * P
  cubic : P * (G + 2 * e ^ 2 * r ^ 2 * P) ^ 2 = 2 * k * a ^ 2 * z ^ 2

theorem heikkinen_PQ (a k e r z G : ℝ) (hk : 0 ≤ k) (hG : 0 < G) :
    let F := 54 * (k * a ^ 2) * z ^ 2
    let c := e * e * F * r ^ 2 / G ^ 3
    let s := (1 + c + Real.sqrt (c ^ 2 + 2 * c)) ^ ((1 : ℝ) / 3)
    let P := F / (3 * (s + 1 / s + 1) ^ 2 * G ^ 2)
    Heikkinen a k e r z G P (Real.sqrt (1 + 2 * (e * e) * P)) := by
  intro F c s P
  have hF : 0 ≤ F := by positivity
  have hee : 0 ≤ e * e := mul_self_nonneg e
  have hc : 0 ≤ c := by positivity
  obtain ⟨hs, ht3, hcub⟩ := heikkinen_s c hc
  have hP : 0 ≤ P := by positivity
  have h1 : 0 ≤ 2 * (e * e) * P := by positivity
  refine ⟨hP, ?_, ?_, ?_⟩
  · rw [Real.le_sqrt (by norm_num) (by linarith)]
    linarith
  · rw [Real.sq_sqrt (by linarith)]; ring
  · change (s + 1 / s + 1) ^ 2 * ((s + 1 / s + 1) - 3) = 2 * c at hcub
    change 3 ≤ s + 1 / s + 1 at ht3
    generalize hK : s + 1 / s + 1 = K at hcub ht3
    have hK0 : 0 < K := by linarith
    have hPdef : P * (3 * K ^ 2 * G ^ 2) = F := by
      show F / (3 * (s + 1 / s + 1) ^ 2 * G ^ 2) * _ = F
      rw [hK]
      field_simp
    have hcdef : c * G ^ 3 = e * e * F * r ^ 2 := by
      show e * e * F * r ^ 2 / G ^ 3 * G ^ 3 = _
      field_simp
    -- G + 2 e² r² P = K G / 3
    have hM : G + 2 * e ^ 2 * r ^ 2 * P = K * G / 3 := by
      have h : K ^ 2 * G ^ 2 * (3 * (G + 2 * e ^ 2 * r ^ 2 * P) - K * G) = 0 := by
        linear_combination 2 * e ^ 2 * r ^ 2 * hPdef - G ^ 3 * hcub - 2 * hcdef
      have h2 : K ^ 2 * G ^ 2 ≠ 0 := by positivity
      have := (mul_eq_zero.1 h).resolve_left h2
      linarith
    rw [hM]
    have : P * (K * G / 3) ^ 2 = F / 27 := by linear_combination hPdef / 27
    rw [this]
    show 54 * (k * a ^ 2) * z ^ 2 / 27 = _
    ring

set_option maxHeartbeats 1000000 in
/-- The quartic factorises; the second factor is positive at the solution, so the solution is the root of the first one. -/
theorem heikkinen_root (a k e r z G P Q ρ : ℝ) (he : 0 ≤ e) (hk : k = 1 - e) (hk0 : 0 ≤ k) (hr : 0 < r)
    (hG : G = r ^ 2 + k * z ^ 2 - e ^ 2 * a ^ 2) (hG0 : 0 < G) (h : Heikkinen a k e r z G P Q)
    (hρ : 0 < ρ) (hρr : e * ρ < r) (hf : ρ ^ 2 * (r - e * ρ) ^ 2 + k * z ^ 2 * ρ ^ 2 = a ^ 2 * (r - e * ρ) ^ 2) :
    -P * e * r / (1 + Q) + Real.sqrt (0.5 * a ^ 2 * (1 + 1 / Q) - P * k * z ^ 2 / (Q * (1 + Q)) - 0.5 * P * r ^ 2) = ρ := by
  obtain ⟨hP, hQ1, hQ2, hcub⟩ := h
  have hQ : 0 < Q := by linarith
  have hQ' : 0 < 1 + Q := by linarith
  set M := G + 2 * e ^ 2 * r ^ 2 * P with hM
  have hM0 : 0 < M := by positivity
  have hMe : M = k * z ^ 2 - e ^ 2 * a ^ 2 + Q ^ 2 * r ^ 2 := by rw [hM, hG, hQ2]; ring
  set A := P * e * r / (1 + Q) with hA
  set D := 0.5 * a ^ 2 * (1 + 1 / Q) - P * k * z ^ 2 / (Q * (1 + Q)) - 0.5 * P * r ^ 2 with hD
  have hA' : A * (1 + Q) = P * e * r := by rw [hA]; field_simp
  have heA : 2 * e * A = (Q - 1) * r := by
    have : (1 + Q) * (2 * e * A - (Q - 1) * r) = 0 := by linear_combination 2 * e * hA' - r * hQ2
    linarith [(mul_eq_zero.1 this).resolve_left hQ'.ne']
  -- constant terms
  have hX : 2 * Q * (1 + Q) * (A ^ 2 - D) = 2 * P * M - 2 * a ^ 2 * (1 + Q) := by
    have hDD : 2 * Q * (1 + Q) * D = a ^ 2 * (Q + 1) ^ 2 - 2 * P * k * z ^ 2 - Q * (1 + Q) * P * r ^ 2 := by
      rw [hD]; field_simp; ring
    have hAA : 2 * (1 + Q) * A ^ 2 = P * (Q - 1) * r ^ 2 := by
      linear_combination 2 * A * hA' + P * r * heA
    rw [hMe]
    linear_combination Q * hAA - hDD + (-a ^ 2) * hQ2
  set C := ((1 + Q) * M + 2 * e ^ 2 * a ^ 2) / (2 * Q) with hC
  have hC' : 2 * Q * C = (1 + Q) * M + 2 * e ^ 2 * a ^ 2 := by rw [hC]; field_simp
  -- the factorisation at ρ
  have hprod : ((ρ + A) ^ 2 - D) * (e ^ 2 * ρ ^ 2 - e * (1 + Q) * r * ρ + C) = 0 := by
    have c0 : (A ^ 2 - D) * C = -a ^ 2 * r ^ 2 := by
      have : 4 * Q ^ 2 * (1 + Q) * ((A ^ 2 - D) * C + a ^ 2 * r ^ 2) = 0 := by
        have e1 : 4 * Q ^ 2 * (1 + Q) * ((A ^ 2 - D) * C) = (2 * P * M - 2 * a ^ 2 * (1 + Q)) * ((1 + Q) * M + 2 * e ^ 2 * a ^ 2) := by
          rw [← hX, ← hC']; ring
        have e2 : P * M ^ 2 = 2 * k * a ^ 2 * z ^ 2 := hcub
        have e3 : (2 * P * M - 2 * a ^ 2 * (1 + Q)) * ((1 + Q) * M + 2 * e ^ 2 * a ^ 2) = -(4 * Q ^ 2 * (1 + Q) * (a ^ 2 * r ^ 2)) := by
          linear_combination 2 * (1 + Q) * e2 - 2 * a ^ 2 * M * hQ2 + (-4 * (1 + Q) * a ^ 2) * hMe
        linear_combination e1 + e3
      have := (mul_eq_zero.1 this).resolve_left (by positivity)
      linarith
    have c1 : 2 * A * C - (A ^ 2 - D) * (e * (1 + Q) * r) = 2 * a ^ 2 * e * r := by
      have : 2 * Q * (1 + Q) * (2 * A * C - (A ^ 2 - D) * (e * (1 + Q) * r) - 2 * a ^ 2 * e * r) = 0 := by
        linear_combination (2 * (1 + Q) * A) * hC' - (e * (1 + Q) * r) * hX + (2 * ((1 + Q) * M + 2 * e ^ 2 * a ^ 2)) * hA' + (-2 * a ^ 2 * e * r) * hQ2
      have := (mul_eq_zero.1 this).resolve_left (by positivity)
      linarith
    have c2 : e ^ 2 * (A ^ 2 - D) - 2 * A * (e * (1 + Q) * r) + C = G := by
      have : 2 * Q * (1 + Q) * (e ^ 2 * (A ^ 2 - D) - 2 * A * (e * (1 + Q) * r) + C - G) = 0 := by
        have hG' : G = M - (Q ^ 2 - 1) * r ^ 2 := by rw [hM, hQ2]; ring
        rw [hG']
        linear_combination e ^ 2 * hX + (1 + Q) * hC' - 2 * Q * (1 + Q) ^ 2 * r * heA - M * hQ2
      have := (mul_eq_zero.1 this).resolve_left (by positivity)
      linarith
    have c3 : 2 * A * e ^ 2 - e * (1 + Q) * r = -2 * e * r := by linear_combination e * heA
    have : ((ρ + A) ^ 2 - D) * (e ^ 2 * ρ ^ 2 - e * (1 + Q) * r * ρ + C) =
        e ^ 2 * ρ ^ 4 + (2 * A * e ^ 2 - e * (1 + Q) * r) * ρ ^ 3 + (e ^ 2 * (A ^ 2 - D) - 2 * A * (e * (1 + Q) * r) + C) * ρ ^ 2 +
          (2 * A * C - (A ^ 2 - D) * (e * (1 + Q) * r)) * ρ + (A ^ 2 - D) * C := by ring
    rw [this, c0, c1, c2, c3, hG]
    linear_combination hf
  have hpos : 0 < e ^ 2 * ρ ^ 2 - e * (1 + Q) * r * ρ + C := by
    have hend : 0 ≤ e ^ 2 * 0 + (r ^ 2 - (1 + Q) * r ^ 2 + C) := by
      have : 2 * Q * (r ^ 2 - (1 + Q) * r ^ 2 + C) = (Q - 1) * M + 2 * k * z ^ 2 := by
        linear_combination hC' + 2 * hMe
      have h0 : 0 ≤ (Q - 1) * M + 2 * k * z ^ 2 := by
        have : 0 ≤ Q - 1 := by linarith
        positivity
      rw [← this] at h0
      have := nonneg_of_mul_nonneg_right h0 (by positivity : (0 : ℝ) < 2 * Q)
      linarith
    have hdec : 0 < (r - e * ρ) * (Q * r - e * ρ) := by
      apply mul_pos (by linarith)
      nlinarith
    have heq : e ^ 2 * ρ ^ 2 - e * (1 + Q) * r * ρ + C = (r - e * ρ) * (Q * r - e * ρ) + (r ^ 2 - (1 + Q) * r ^ 2 + C) := by ring
    rw [heq]
    linarith
  have hroot := (mul_eq_zero.1 hprod).resolve_right hpos.ne'
  have hA0 : 0 ≤ A := by positivity
  have hDe : D = (ρ + A) ^ 2 := by linarith
  rw [hDe, Real.sqrt_sq (by linarith)]
  have : -P * e * r / (1 + Q) = -A := by rw [hA]; ring
  rw [this]
  ring

/-- Every point of the right half plane outside of a small ellipse about the centre is above the ellipse (or inside, with the
foot point on the same side). -/
theorem geodetic_exists (a k e r z : ℝ) (ha : 0 < a) (he : 0 ≤ e) (hk : k = 1 - e) (hk0 : 0 < k) (hr : 0 < r)
    (hG0 : 0 < r ^ 2 + k * z ^ 2 - e ^ 2 * a ^ 2) :
    ∃ ρ σ u : ℝ, 0 < ρ ∧ 0 < u ∧ ρ ^ 2 + k * σ ^ 2 = a ^ 2 ∧ r = (u + e) * ρ ∧ z = u * σ := by
  -- it is enough to find the root of the quartic
  suffices h : ∃ ρ : ℝ, 0 < ρ ∧ e * ρ < r ∧ ρ ^ 2 * (r - e * ρ) ^ 2 + k * z ^ 2 * ρ ^ 2 = a ^ 2 * (r - e * ρ) ^ 2 by
    obtain ⟨ρ, h1, h2, h3⟩ := h
    have hu : 0 < r - e * ρ := by linarith
    refine ⟨ρ, z * ρ / (r - e * ρ), (r - e * ρ) / ρ, h1, by positivity, ?_, ?_, ?_⟩
    · have : (z * ρ / (r - e * ρ)) ^ 2 * (r - e * ρ) ^ 2 = (z * ρ) ^ 2 := by
        rw [div_pow, div_mul_cancel₀ _ (by positivity)]
      have h4 : (r - e * ρ) ^ 2 * (ρ ^ 2 + k * (z * ρ / (r - e * ρ)) ^ 2 - a ^ 2) = 0 := by linear_combination h3 + k * this
      have := (mul_eq_zero.1 h4).resolve_left (by positivity)
      linarith
    · field_simp
      ring
    · field_simp
  by_cases hz : z = 0
  · refine ⟨a, ha, ?_, by rw [hz]; ring⟩
    rw [hz] at hG0
    nlinarith [mul_nonneg he ha.le]
  rcases he.eq_or_lt with he0 | he0
  · subst he0
    have hS : 0 < r ^ 2 + k * z ^ 2 := by positivity
    refine ⟨a * r / Real.sqrt (r ^ 2 + k * z ^ 2), by positivity, by simpa using hr, ?_⟩
    have h2 : (a * r / Real.sqrt (r ^ 2 + k * z ^ 2)) ^ 2 = a ^ 2 * r ^ 2 / (r ^ 2 + k * z ^ 2) := by
      rw [div_pow, Real.sq_sqrt hS.le]; ring
    rw [h2]
    field_simp
    ring
  · have hz2 : 0 < z ^ 2 := by positivity
    let f : ℝ → ℝ := fun x => x ^ 2 * (r - e * x) ^ 2 + k * z ^ 2 * x ^ 2 - a ^ 2 * (r - e * x) ^ 2
    have hcont : ContinuousOn f (Set.Icc 0 (r / e)) := by
      apply Continuous.continuousOn
      fun_prop
    have hb : (0 : ℝ) ≤ r / e := by positivity
    have h0 : f 0 < 0 := by
      show (0 : ℝ) ^ 2 * _ + _ - _ < 0
      have : 0 < a ^ 2 * r ^ 2 := by positivity
      nlinarith
    have h1 : 0 < f (r / e) := by
      show 0 < (r / e) ^ 2 * (r - e * (r / e)) ^ 2 + k * z ^ 2 * (r / e) ^ 2 - a ^ 2 * (r - e * (r / e)) ^ 2
      have : r - e * (r / e) = 0 := by field_simp; ring
      rw [this]
      have : 0 < k * z ^ 2 * (r / e) ^ 2 := by positivity
      nlinarith
    obtain ⟨ρ, ⟨hρ0, hρ1⟩, hρ⟩ := intermediate_value_Ioo hb hcont ⟨h0, h1⟩
    refine ⟨ρ, hρ0, ?_, ?_⟩
    · rw [lt_div_iff₀ he0] at hρ1
      linarith
    · have : ρ ^ 2 * (r - e * ρ) ^ 2 + k * z ^ 2 * ρ ^ 2 - a ^ 2 * (r - e * ρ) ^ 2 = 0 := hρ
      linarith

end ChaosMagPy.Coord
