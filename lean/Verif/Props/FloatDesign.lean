import Verif.Lemmas.FloatDesign
import Verif.Props.FloatField
/-!
# C94: accuracy of the design matrices of `design_gauss` in double precision
-/
namespace ChaosMagPy.FloatLegendre
open ChaosMagPy.Spec ChaosMagPy.Float ChaosMagPy.Legendre ChaosMagPy.Synth

variable (R : Rounding)

/-- The model of which only coefficient `k` is not zero, but one. -/
def unitModel (k : ℕ) : ℕ → ℝ := fun i => if i = k then 1 else 0

/-- Bound of the error of an entry in a column of degree `n`; `radial` is the dependence on the radius, `s` the sine of the colatitude. -/
noncomputable def entryBound (n : ℕ) (radial s : ℝ) : ℝ := n * 2⁻¹ ^ 40 / s ^ 3 * ((n + 1) * (5 / 2) ^ n * radial)

/-- The coefficients of a unit model. -/
theorem unit_coefs {nmin M n j : ℕ} (hn : nmin ≤ n) (hj : j < 2 * min n M + 1) :
    (∀ n' m, nmin ≤ n' → m ≤ min n' M → ¬ (n' = n ∧ m = (j + 1) / 2) → coefG (unitModel (coefStart nmin M n + j)) nmin M n' m = 0 ∧ coefH (unitModel (coefStart nmin M n + j)) nmin M n' m = 0) ∧
    coefG (unitModel (coefStart nmin M n + j)) nmin M n ((j + 1) / 2) = (if j % 2 = 1 ∨ j = 0 then 1 else 0) ∧
    coefH (unitModel (coefStart nmin M n + j)) nmin M n ((j + 1) / 2) = (if j % 2 = 1 ∨ j = 0 then 0 else 1) := by
  refine ⟨?_, ?_, ?_⟩
  · intro n' m h1 hm hne
    have hk : ∀ l, l < 2 * min n' M + 1 → (n' = n → l ≠ j) → unitModel (coefStart nmin M n + j) (coefStart nmin M n' + l) = 0 := by
      intro l hl hlj
      unfold unitModel
      rw [if_neg]
      intro he
      rcases Nat.lt_trichotomy n' n with h | h | h
      · have e1 := coefStart_next nmin M h1
        have e2 := coefStart_mono nmin M (show n' + 1 ≤ n by omega)
        omega
      · subst h
        exact hlj rfl (by omega)
      · have e1 := coefStart_next nmin M hn
        have e2 := coefStart_mono nmin M (show n + 1 ≤ n' by omega)
        omega
    constructor
    · unfold coefG
      apply hk
      · split_ifs <;> omega
      · intro h
        split_ifs with h0
        · intro h3; apply hne; exact ⟨h, by omega⟩
        · intro h3; apply hne; exact ⟨h, by omega⟩
    · unfold coefH
      split_ifs with h0
      · rfl
      · apply hk
        · omega
        · intro h h3
          apply hne
          exact ⟨h, by omega⟩
  · unfold coefG unitModel
    by_cases h : j % 2 = 1 ∨ j = 0
    · rw [if_pos h, if_pos]
      split_ifs <;> omega
    · rw [if_neg h, if_neg]
      split_ifs <;> omega
  · unfold coefH unitModel
    by_cases h : j % 2 = 1 ∨ j = 0
    · rw [if_pos h]
      split_ifs with h0 h1
      · rfl
      · omega
      · rfl
    · rw [if_neg h, if_neg (by omega), if_pos (by omega)]

theorem unit_sum {nmin nmax M n j : ℕ} (hn : nmin ≤ n) (hnm : n ≤ nmax) (hj : j < 2 * min n M + 1) (F : ℕ → ℕ → ℝ → ℝ → ℝ) (hF : ∀ n m, F n m 0 0 = 0) :
    ∑ n' ∈ Finset.Icc nmin nmax, ∑ m ∈ Finset.range (min n' M + 1), F n' m (coefG (unitModel (coefStart nmin M n + j)) nmin M n' m) (coefH (unitModel (coefStart nmin M n + j)) nmin M n' m) =
      F n ((j + 1) / 2) (if j % 2 = 1 ∨ j = 0 then 1 else 0) (if j % 2 = 1 ∨ j = 0 then 0 else 1) := by
  obtain ⟨z, e1, e2⟩ := unit_coefs hn hj
  rw [Finset.sum_eq_single n, Finset.sum_eq_single ((j + 1) / 2), e1, e2]
  · intro m hm hne
    rw [Finset.mem_range] at hm
    obtain ⟨a, b⟩ := z n m hn (by omega) (fun h => hne h.2)
    rw [a, b, hF]
  · intro h
    exact absurd (Finset.mem_range.2 (by omega)) h
  · intro n' hn' hne
    rw [Finset.mem_Icc] at hn'
    apply Finset.sum_eq_zero
    intro m hm
    rw [Finset.mem_range] at hm
    obtain ⟨a, b⟩ := z n' m hn'.1 (by omega) (fun h => hne h.1)
    rw [a, b, hF]
  · intro h
    exact absurd (Finset.mem_Icc.2 ⟨hn, hnm⟩) h

/-- The field of a unit model. -/
theorem unit_field (src : Source) (a : ℝ) {nmin nmax M n j : ℕ} (hn : nmin ≤ n) (hnm : n ≤ nmax) (hj : j < 2 * min n M + 1) (r x y : ℝ) :
    fieldR src a (unitModel (coefStart nmin M n + j)) nmin nmax M r x y = exR src (r / a) x y n j ∧
    fieldT src a (unitModel (coefStart nmin M n + j)) nmin nmax M r x y = exT src (r / a) x y n j ∧
    fieldP src a (unitModel (coefStart nmin M n + j)) nmin nmax M r x y = exP src (r / a) x y n j := by
  refine ⟨?_, ?_, ?_⟩
  · refine (unit_sum hn hnm hj (fun n m g h => rfac src n * schmidt n m x * rpow src (r / a) n * (g * Real.cos (m * y) + h * Real.sin (m * y))) (by simp)).trans ?_
    unfold exR cs
    split_ifs <;> simp
  · refine (unit_sum hn hnm hj (fun n m g h => -dS (Real.cos x) (Real.sin x) n m * rpow src (r / a) n * (g * Real.cos (m * y) + h * Real.sin (m * y))) (by simp)).trans ?_
    unfold exT cs
    split_ifs <;> simp
  · refine (unit_sum hn hnm hj (fun n m g h => m * Synth.R n m x * rpow src (r / a) n * (g * Real.sin (m * y) - h * Real.cos (m * y))) (by simp)).trans ?_
    unfold exP sn
    split_ifs <;> simp

theorem design_accuracy {C Sn : ℝ → ℝ} (hC : IsCosine C) (hS : IsSine Sn) (P : FloatSpectrum.Power) (src : Source) {a : ℝ} (ha : 0 < a) {nmin nmax M : ℕ}
    (h1 : 1 ≤ nmin) (h2 : nmin ≤ nmax) (hmax : nmax ≤ 250) {r θ φ : ℝ} (hr1 : a / 4 ≤ r) (hr2 : r ≤ 4 * a)
    (h0 : 0 ≤ θ) (h180 : θ ≤ 180) (hs : 2⁻¹ ^ 13 ≤ Real.sin (rad θ)) (hφ : |φ| ≤ 360) :
    ∃ A, designPointF R C Sn P.fn a (decide (src = .internal)) nmin nmax M r θ φ = .ok A ∧
      ∀ n k, nmin ≤ n → n ≤ nmax → coefStart nmin M n ≤ k → k < coefStart nmin M (n + 1) →
        ∃ ar at' ap, A.radius k = some ar ∧ A.theta k = some at' ∧ A.phi k = some ap ∧
          |ar - fieldR src a (unitModel k) nmin nmax M r (rad θ) (rad φ)| ≤ entryBound n (rpow src (r / a) n) (Real.sin (rad θ)) ∧
          |at' - fieldT src a (unitModel k) nmin nmax M r (rad θ) (rad φ)| ≤ entryBound n (rpow src (r / a) n) (Real.sin (rad θ)) ∧
          |ap - fieldP src a (unitModel k) nmin nmax M r (rad θ) (rad φ)| ≤ entryBound n (rpow src (r / a) n) (Real.sin (rad θ)) := by
  have hpos : 0 < Real.sin (rad θ) := lt_of_lt_of_le (by positivity) hs
  have hle := Real.sin_le_one (rad θ)
  set s := Real.sin (rad θ) with hsd
  set ε := (2 : ℝ)⁻¹ ^ 47 / s ^ 2 with hε
  have hs2 : 0 < s ^ 2 := by positivity
  have e1 : (2 : ℝ)⁻¹ ^ 47 ≤ ε := by
    rw [hε, le_div_iff₀ hs2]
    have : s ^ 2 ≤ 1 := by nlinarith
    nlinarith [(by positivity : (0 : ℝ) < 2⁻¹ ^ 47)]
  have e2 : ε ≤ 2⁻¹ ^ 21 := by
    rw [hε, div_le_iff₀ hs2]
    have : ((2 : ℝ)⁻¹ ^ 13) ^ 2 ≤ s ^ 2 := pow_le_pow_left₀ (by positivity) hs 2
    calc (2 : ℝ)⁻¹ ^ 47 = 2⁻¹ ^ 21 * (2⁻¹ ^ 13) ^ 2 := by norm_num
      _ ≤ 2⁻¹ ^ 21 * s ^ 2 := mul_le_mul_of_nonneg_left this (by positivity)
  have hε0 : 0 ≤ ε := (by positivity : (0 : ℝ) ≤ 2⁻¹ ^ 47).trans e1
  have g : Grow (1 + ε) 66300 := grow_of (by norm_num at e1 ⊢; linarith) (by norm_num at e2 ⊢; linarith)
  have e3 : (2 : ℝ)⁻¹ ^ 48 / s ≤ ε := by
    rw [hε, div_le_div_iff₀ hpos hs2]
    have : (2 : ℝ)⁻¹ ^ 48 ≤ 2⁻¹ ^ 47 := by norm_num
    nlinarith [(by positivity : (0 : ℝ) < 2⁻¹ ^ 47), mul_pos hpos hpos]
  have e4 : (2 : ℝ)⁻¹ ^ 48 / s ≤ ε * s := by
    rw [hε, div_le_iff₀ hpos]
    rw [show (2 : ℝ)⁻¹ ^ 47 / s ^ 2 * s * s = 2⁻¹ ^ 47 by field_simp]
    norm_num
  obtain ⟨n1, n2, n3, n4⟩ := colat_near R hC h0 h180 g hpos (by linarith)
  have hn1 : 1 ≤ nmax := h1.trans h2
  obtain ⟨hθ0, hθ180⟩ := ends hpos
  have hsn : Nr (1 + ε) 1 (sine R (C (radians R θ))) s s := by
    refine g.of_err ((sin_err R hC h0 h180 hpos).trans ?_) (by rw [abs_of_pos hpos])
    rw [add_sub_cancel_left]
    exact e4
  obtain ⟨sp, sinv⟩ := g.inv hpos hsn (by norm_num) (w_small g (by norm_num))
  have hρ1 : 1 / 4 ≤ r / a := by rw [le_div_iff₀ ha]; linarith
  have hρ2 : r / a ≤ 4 := by rw [div_le_iff₀ ha]; linarith
  have hρ0 : 0 < r / a := lt_of_lt_of_le (by norm_num) hρ1
  have hρ : Nr (1 + ε) 1 (R (r / a)) (r / a) (r / a) := by
    have h := g.exact (x := r / a) 0
    rw [abs_of_pos hρ0] at h
    refine g.rnd R h (by norm_num) ?_ (high_small (by linarith [show (4 : ℝ) ≤ 2 ^ 60 by norm_num]))
    refine le_trans ?_ hρ1
    calc (2 : ℝ)⁻¹ ^ 900 ≤ 2⁻¹ ^ 2 := pow_le_pow_of_le_one (by norm_num) (by norm_num) (by norm_num)
      _ = 1 / 4 := by norm_num
  set e : Env := ⟨decide (src = .internal), some (R (r / a)), θ, radians R φ, fun _ => some 0, finF R nmax (C (radians R θ)) (sine R (C (radians R θ))),
    C, Sn⟩ with he
  have acc : Acc R src (fun _ => 0) nmin nmax (r / a) (rad θ) (rad φ) (1 + ε) 66300 e (R (r / a)) :=
    { grow := g
      int := rfl
      coef := fun _ => rfl
      size := fun _ => by rw [abs_zero]; positivity
      val := fun n m h1' hm hn => by
        obtain ⟨t, ht, hh⟩ := near_val R g n1 n2 n3 n4 hn1 hmax (by omega) n m hm hn
        refine ⟨t, ht, ?_⟩
        rw [schmidt_eq, ← fin_val nmax _ _ n m hn1 hm hn]
        exact hh
      der := fun n m h1' hm hn => by
        obtain ⟨t, ht, hh⟩ := near_deriv R g n1 n2 n3 n4 hn1 hmax (by omega) n m h1' hm hn
        refine ⟨t, ht, ?_⟩
        rw [← fin_deriv nmax _ _ (Real.sin_sq _) n m hn1 hm hn]
        exact hh
      div := fun n m hm1 hm hn => by
        obtain ⟨t, ht, hh⟩ := near_val R g n1 n2 n3 n4 hn1 hmax (by omega) n m hm hn
        rw [fin_val nmax _ _ n m hn1 hm hn, ← schmidt_eq] at hh
        have e5 : schmidt n m (rad θ) * s⁻¹ = Synth.R n m (rad θ) := by
          rw [← R_mul_sin n m hm1, ← hsd]
          field_simp
        have p := g.mul hh sinv
        rw [e5, ← div_eq_mul_inv] at p
        have hA1 : 1 ≤ (5 / 2 : ℝ) ^ n / s := by
          rw [le_div_iff₀ hpos]
          linarith [(one_le_pow₀ (by norm_num) : (1 : ℝ) ≤ (5 / 2) ^ n)]
        have hA2 : (5 / 2 : ℝ) ^ n / s ≤ 2 ^ 990 := by
          have h3 : s⁻¹ ≤ 2 ^ 13 := by
            rw [inv_le_comm₀ hpos (by positivity), ← inv_pow]
            exact hs
          rw [div_eq_mul_inv]
          exact (pow_mul_le (pow52' (by omega)) h3 (inv_pos.2 hpos).le).trans (pow_le_pow_right₀ (by norm_num) (by norm_num))
        refine ⟨_, ?_, g.rnd R p (by omega) (low_one hA1) hA2⟩
        show divPnm R (finF R nmax (C (radians R θ)) (sine R (C (radians R θ)))) θ n m = _
        unfold divPnm
        rw [if_neg (by rintro (h | h); exacts [hθ0 h, hθ180 h]), finF_11, n4, ht]
        simp only [fdiv]
        rw [if_neg sp.ne', div_eq_mul_inv]
      turn := fun m hm1 hm => by
        have hw : 1 + (2 : ℝ)⁻¹ ^ 47 ≤ 1 + ε := by linarith
        exact ⟨turn_near R g (f' := C) hC.err Real.abs_cos_sub_cos_le Real.abs_cos_le_one hm1 (by omega) hφ hw,
          turn_near R g (f' := Sn) hS.err Real.abs_sin_sub_sin_le Real.abs_sin_le_one hm1 (by omega) hφ hw⟩
      radius := rfl
      near := hρ
      lo := hρ1
      hi := hρ2
      sin_lo := hs
      deg := hmax
      first := h1
      ops := by omega
      few := by norm_num }
  obtain ⟨q, hq1, hq2⟩ := init_near g P (src := src) h1 (by omega) (by norm_num) hρ hρ1 hρ2
  refine ⟨((pyRange nmin (nmax + 1)).foldl (designDegree R e M) ⟨⟨fun _ => some 0, fun _ => some 0, fun _ => some 0⟩, 0, some q⟩).A, ?_, ?_⟩
  · unfold designPointF
    rw [legendrePolyF_ok R C nmax θ hn1]
    simp only
    rw [hq1]
  intro n k hn hnm hk1 hk2
  obtain ⟨j, rfl⟩ := Nat.exists_eq_add_of_le hk1
  rw [coefStart_next nmin M hn] at hk2
  have hj : j < 2 * min n M + 1 := by omega
  obtain ⟨ar, at', ap, a1, a2, a3, n1, n2, n3⟩ := acc.dall h2 hq2 hn hnm hj
  obtain ⟨f1, f2, f3⟩ := unit_field src a hn hnm hj r (rad θ) (rad φ)
  have hn1' : 1 ≤ n := h1.trans hn
  have hnr : (1 : ℝ) ≤ n := by exact_mod_cast hn1'
  have hkε : 2 * (((13 * n + 16 : ℕ) : ℝ) * ε) ≤ 1 := by
    have hk2 : ((13 * n + 16 : ℕ) : ℝ) ≤ 66300 := by
      have : 13 * n + 16 ≤ 66300 := by omega
      exact_mod_cast this
    have := mul_le_mul hk2 e2 hε0 (by norm_num)
    norm_num at this ⊢
    linarith
  have fin : ∀ {b v : ℝ}, Nr (1 + ε) (13 * n + 16) b v (fac (rad θ) n * rpow src (r / a) n) → |b - v| ≤ entryBound n (rpow src (r / a) n) s := by
    intro b v h
    refine (Nr.final hε0 hkε h).trans ?_
    have hA := h.nonneg.1
    have eA : fac (rad θ) n * rpow src (r / a) n = 2 / s * ((n + 1) * (5 / 2) ^ n * rpow src (r / a) n) := by
      unfold fac
      rw [← hsd]
      ring
    rw [eA] at hA ⊢
    unfold entryBound
    set Sm := ((n : ℝ) + 1) * (5 / 2) ^ n * rpow src (r / a) n
    have hSm : 0 ≤ Sm := by
      have : 0 < 2 / s := by positivity
      exact nonneg_of_mul_nonneg_right hA this
    have e6 : (n : ℝ) * 2⁻¹ ^ 40 / s ^ 3 * Sm = (128 * n) * (ε / s * Sm) := by
      rw [hε, show (2 : ℝ)⁻¹ ^ 40 = 128 * 2⁻¹ ^ 47 by norm_num]
      generalize (2 : ℝ)⁻¹ ^ 47 = u
      field_simp
    have e7 : 2 * (((13 * n + 16 : ℕ) : ℝ) * ε) * (2 / s * Sm) = (4 * (13 * n + 16)) * (ε / s * Sm) := by
      push_cast
      ring
    rw [e6, e7]
    refine mul_le_mul_of_nonneg_right ?_ (mul_nonneg (div_nonneg hε0 hpos.le) hSm)
    linarith
  rw [f1, f2, f3]
  exact ⟨ar, at', ap, a1, a2, a3, fin n1, fin n2, fin n3⟩

/-- **C94, internal sources.** For degrees up to 250, radii between a quarter and four times the reference radius, colatitudes with a sine of at least
`2^-13` and azimuths from -360 to 360 degrees, the entries of the design matrices in column `k` differ from the components of minus the gradient of the potential
of the model with coefficient `k` one and all others zero by at most `n 2^-40 (n+1) (5/2)^n (a/r)^(n+2) / sin^3`, where `n` is the degree of coefficient `k`. -/
theorem C94_internal {C Sn : ℝ → ℝ} (hC : IsCosine C) (hS : IsSine Sn) (P : FloatSpectrum.Power) {a : ℝ} (ha : 0 < a) {nmin nmax M : ℕ}
    (h1 : 1 ≤ nmin) (h2 : nmin ≤ nmax) (hmax : nmax ≤ 250) {r θ φ : ℝ} (hr1 : a / 4 ≤ r) (hr2 : r ≤ 4 * a)
    (h0 : 0 ≤ θ) (h180 : θ ≤ 180) (hs : 2⁻¹ ^ 13 ≤ Real.sin (rad θ)) (hφ : |φ| ≤ 360) :
    ∃ A, designPointF R C Sn P.fn a true nmin nmax M r θ φ = .ok A ∧
      ∀ n k, nmin ≤ n → n ≤ nmax → coefStart nmin M n ≤ k → k < coefStart nmin M (n + 1) →
        ∃ ar at' ap Br Bt Bp, A.radius k = some ar ∧ A.theta k = some at' ∧ A.phi k = some ap ∧
          HasDerivAt (fun r' => potInt a (unitModel k) nmin nmax M r' (rad θ) (rad φ)) (-Br) r ∧
          HasDerivAt (fun x => potInt a (unitModel k) nmin nmax M r x (rad φ)) (-(r * Bt)) (rad θ) ∧
          HasDerivAt (fun y => potInt a (unitModel k) nmin nmax M r (rad θ) y) (-(r * Real.sin (rad θ) * Bp)) (rad φ) ∧
          |ar - Br| ≤ entryBound n ((a / r) ^ (n + 2)) (Real.sin (rad θ)) ∧ |at' - Bt| ≤ entryBound n ((a / r) ^ (n + 2)) (Real.sin (rad θ)) ∧
          |ap - Bp| ≤ entryBound n ((a / r) ^ (n + 2)) (Real.sin (rad θ)) := by
  obtain ⟨A, e, h⟩ := design_accuracy R hC hS P .internal ha h1 h2 hmax (M := M) hr1 hr2 h0 h180 hs hφ
  refine ⟨A, e, fun n k a1 a2 a3 a4 => ?_⟩
  obtain ⟨ar, at', ap, b1, b2, b3, hb⟩ := h n k a1 a2 a3 a4
  obtain ⟨d1, d2, d3⟩ := field_gradient .internal a ha (unitModel k) nmin nmax M r (rad θ) (rad φ) (by linarith)
  have he : rpow .internal (r / a) n = (a / r) ^ (n + 2) := by
    show (r / a) ^ (-((n : ℤ) + 2)) = _
    rw [zpow_neg, ← inv_zpow, inv_div]
    exact_mod_cast rfl
  rw [he] at hb
  exact ⟨ar, at', ap, _, _, _, b1, b2, b3, d1, d2, d3, hb⟩

/-- **C94, external sources.** -/
theorem C94_external {C Sn : ℝ → ℝ} (hC : IsCosine C) (hS : IsSine Sn) (P : FloatSpectrum.Power) {a : ℝ} (ha : 0 < a) {nmin nmax M : ℕ}
    (h1 : 1 ≤ nmin) (h2 : nmin ≤ nmax) (hmax : nmax ≤ 250) {r θ φ : ℝ} (hr1 : a / 4 ≤ r) (hr2 : r ≤ 4 * a)
    (h0 : 0 ≤ θ) (h180 : θ ≤ 180) (hs : 2⁻¹ ^ 13 ≤ Real.sin (rad θ)) (hφ : |φ| ≤ 360) :
    ∃ A, designPointF R C Sn P.fn a false nmin nmax M r θ φ = .ok A ∧
      ∀ n k, nmin ≤ n → n ≤ nmax → coefStart nmin M n ≤ k → k < coefStart nmin M (n + 1) →
        ∃ ar at' ap Br Bt Bp, A.radius k = some ar ∧ A.theta k = some at' ∧ A.phi k = some ap ∧
          HasDerivAt (fun r' => potExt a (unitModel k) nmin nmax M r' (rad θ) (rad φ)) (-Br) r ∧
          HasDerivAt (fun x => potExt a (unitModel k) nmin nmax M r x (rad φ)) (-(r * Bt)) (rad θ) ∧
          HasDerivAt (fun y => potExt a (unitModel k) nmin nmax M r (rad θ) y) (-(r * Real.sin (rad θ) * Bp)) (rad φ) ∧
          |ar - Br| ≤ entryBound n ((r / a) ^ (n - 1)) (Real.sin (rad θ)) ∧ |at' - Bt| ≤ entryBound n ((r / a) ^ (n - 1)) (Real.sin (rad θ)) ∧
          |ap - Bp| ≤ entryBound n ((r / a) ^ (n - 1)) (Real.sin (rad θ)) := by
  obtain ⟨A, e, h⟩ := design_accuracy R hC hS P .external ha h1 h2 hmax (M := M) hr1 hr2 h0 h180 hs hφ
  refine ⟨A, e, fun n k a1 a2 a3 a4 => ?_⟩
  obtain ⟨ar, at', ap, b1, b2, b3, hb⟩ := h n k a1 a2 a3 a4
  obtain ⟨d1, d2, d3⟩ := field_gradient .external a ha (unitModel k) nmin nmax M r (rad θ) (rad φ) (by linarith)
  have he : rpow .external (r / a) n = (r / a) ^ (n - 1) := by
    show (r / a) ^ ((n : ℤ) - 1) = _
    rw [show ((n : ℤ) - 1) = ((n - 1 : ℕ) : ℤ) by omega]
    exact zpow_natCast _ _
  rw [he] at hb
  exact ⟨ar, at', ap, _, _, _, b1, b2, b3, d1, d2, d3, hb⟩

end ChaosMagPy.FloatLegendre
