import Verif.Lemmas.FloatField
import Verif.Props.FloatAccuracy
import Verif.Props.Synth
/-!
# C93: accuracy of the field values of `synth_values` in double precision
-/
namespace ChaosMagPy.FloatLegendre
open ChaosMagPy.Spec ChaosMagPy.Float ChaosMagPy.Legendre ChaosMagPy.Synth

variable (R : Rounding)

/-- Bound of the error of the three components at a point: sum over the terms of the expansion, `radial n` is the dependence on the radius. -/
noncomputable def errorBound (c : ℕ → ℝ) (nmin nmax mmax : ℕ) (radial : ℕ → ℝ) (s : ℝ) : ℝ :=
  nmax ^ 2 * 2⁻¹ ^ 40 / s ^ 3 * ∑ n ∈ Finset.Icc nmin nmax, ∑ m ∈ Finset.range (min n mmax + 1),
    (n + 1) * (5 / 2) ^ n * radial n * (|coefG c nmin mmax n m| + |coefH c nmin mmax n m| + 2⁻¹ ^ 300)

/-- Bound of the three components. -/
noncomputable def fieldSize (c : ℕ → ℝ) (nmin nmax mmax : ℕ) (radial : ℕ → ℝ) (s : ℝ) : ℝ :=
  2 / s * ∑ n ∈ Finset.Icc nmin nmax, ∑ m ∈ Finset.range (min n mmax + 1),
    (n + 1) * (5 / 2) ^ n * radial n * (|coefG c nmin mmax n m| + |coefH c nmin mmax n m| + 2⁻¹ ^ 300)

theorem ends {θ : ℝ} (hs : 0 < Real.sin (rad θ)) : θ ≠ 0 ∧ θ ≠ 180 := by
  constructor
  · rintro rfl
    rw [rad_0, Real.sin_zero] at hs
    exact lt_irrefl _ hs
  · rintro rfl
    rw [rad_180, Real.sin_pi] at hs
    exact lt_irrefl _ hs

theorem field_accuracy {C Sn : ℝ → ℝ} (hC : IsCosine C) (hS : IsSine Sn) (P : FloatSpectrum.Power) (src : Source) {a : ℝ} (ha : 0 < a) {nmin nmax M : ℕ}
    (h1 : 1 ≤ nmin) (h2 : nmin ≤ nmax) (hmax : nmax ≤ 250) {c : ℕ → ℝ} (hc : ∀ i, |c i| ≤ 2 ^ 60) {r θ φ : ℝ} (hr1 : a / 4 ≤ r) (hr2 : r ≤ 4 * a)
    (h0 : 0 ≤ θ) (h180 : θ ≤ 180) (hs : 2⁻¹ ^ 13 ≤ Real.sin (rad θ)) (hφ : |φ| ≤ 360) :
    ∃ br bt bp, synthPoint R C Sn P.fn a (decide (src = .internal)) nmin nmax M (fun i => some (c i)) r θ φ = .ok ⟨some br, some bt, some bp⟩ ∧
      (|br - fieldR src a c nmin nmax M r (rad θ) (rad φ)| ≤ errorBound c nmin nmax M (rpow src (r / a)) (Real.sin (rad θ)) ∧
      |bt - fieldT src a c nmin nmax M r (rad θ) (rad φ)| ≤ errorBound c nmin nmax M (rpow src (r / a)) (Real.sin (rad θ)) ∧
      |bp - fieldP src a c nmin nmax M r (rad θ) (rad φ)| ≤ errorBound c nmin nmax M (rpow src (r / a)) (Real.sin (rad θ))) ∧
      |fieldR src a c nmin nmax M r (rad θ) (rad φ)| ≤ fieldSize c nmin nmax M (rpow src (r / a)) (Real.sin (rad θ)) ∧
      |fieldT src a c nmin nmax M r (rad θ) (rad φ)| ≤ fieldSize c nmin nmax M (rpow src (r / a)) (Real.sin (rad θ)) ∧
      |fieldP src a c nmin nmax M r (rad θ) (rad φ)| ≤ fieldSize c nmin nmax M (rpow src (r / a)) (Real.sin (rad θ)) := by
  have hpos : 0 < Real.sin (rad θ) := lt_of_lt_of_le (by positivity) hs
  have hle := Real.sin_le_one (rad θ)
  set s := Real.sin (rad θ) with hsd
  set ε := (2 : ℝ)⁻¹ ^ 47 / s ^ 2 with hε
  have hs2 : 0 < s ^ 2 := by positivity
  have e1 : (2 : ℝ)⁻¹ ^ 47 ≤ ε := by
    rw [hε, le_div_iff₀ hs2]
    have : s ^ 2 ≤ 1 := by nlinarith
    nlinarith [(by positivity : (0 : ℝ) < 2⁻¹ ^ 47)]
  have e2 : ε ≤ 2⁻¹ ^ 21 := by
    rw [hε, div_le_iff₀ hs2]
    have : ((2 : ℝ)⁻¹ ^ 13) ^ 2 ≤ s ^ 2 := pow_le_pow_left₀ (by positivity) hs 2
    calc (2 : ℝ)⁻¹ ^ 47 = 2⁻¹ ^ 21 * (2⁻¹ ^ 13) ^ 2 := by norm_num
      _ ≤ 2⁻¹ ^ 21 * s ^ 2 := mul_le_mul_of_nonneg_left this (by positivity)
  have hε0 : 0 ≤ ε := (by positivity : (0 : ℝ) ≤ 2⁻¹ ^ 47).trans e1
  have g : Grow (1 + ε) 66300 := grow_of (by norm_num at e1 ⊢; linarith) (by norm_num at e2 ⊢; linarith)
  have e3 : (2 : ℝ)⁻¹ ^ 48 / s ≤ ε := by
    rw [hε, div_le_div_iff₀ hpos hs2]
    have : (2 : ℝ)⁻¹ ^ 48 ≤ 2⁻¹ ^ 47 := by norm_num
    nlinarith [(by positivity : (0 : ℝ) < 2⁻¹ ^ 47), mul_pos hpos hpos]
  have e4 : (2 : ℝ)⁻¹ ^ 48 / s ≤ ε * s := by
    rw [hε, div_le_iff₀ hpos]
    rw [show (2 : ℝ)⁻¹ ^ 47 / s ^ 2 * s * s = 2⁻¹ ^ 47 by field_simp]
    norm_num
  obtain ⟨n1, n2, n3, n4⟩ := colat_near R hC h0 h180 g hpos (by linarith)
  have hn1 : 1 ≤ nmax := h1.trans h2
  obtain ⟨hθ0, hθ180⟩ := ends hpos
  have hsn : Nr (1 + ε) 1 (sine R (C (radians R θ))) s s := by
    refine g.of_err ((sin_err R hC h0 h180 hpos).trans ?_) (by rw [abs_of_pos hpos])
    rw [add_sub_cancel_left]
    exact e4
  obtain ⟨sp, sinv⟩ := g.inv hpos hsn (by norm_num) (w_small g (by norm_num))
  have hρ1 : 1 / 4 ≤ r / a := by rw [le_div_iff₀ ha]; linarith
  have hρ2 : r / a ≤ 4 := by rw [div_le_iff₀ ha]; linarith
  have hρ0 : 0 < r / a := lt_of_lt_of_le (by norm_num) hρ1
  have hρ : Nr (1 + ε) 1 (R (r / a)) (r / a) (r / a) := by
    have h := g.exact (x := r / a) 0
    rw [abs_of_pos hρ0] at h
    refine g.rnd R h (by norm_num) ?_ (high_small (by linarith [show (4 : ℝ) ≤ 2 ^ 60 by norm_num]))
    refine le_trans ?_ hρ1
    calc (2 : ℝ)⁻¹ ^ 900 ≤ 2⁻¹ ^ 2 := pow_le_pow_of_le_one (by norm_num) (by norm_num) (by norm_num)
      _ = 1 / 4 := by norm_num
  set e : Env := ⟨decide (src = .internal), some (R (r / a)), θ, radians R φ, fun i => some (c i), finF R nmax (C (radians R θ)) (sine R (C (radians R θ))),
    C, Sn⟩ with he
  have acc : Acc R src c nmin nmax (r / a) (rad θ) (rad φ) (1 + ε) 66300 e (R (r / a)) :=
    { grow := g
      int := rfl
      coef := fun _ => rfl
      size := hc
      val := fun n m h1' hm hn => by
        obtain ⟨t, ht, hh⟩ := near_val R g n1 n2 n3 n4 hn1 hmax (by omega) n m hm hn
        refine ⟨t, ht, ?_⟩
        rw [schmidt_eq, ← fin_val nmax _ _ n m hn1 hm hn]
        exact hh
      der := fun n m h1' hm hn => by
        obtain ⟨t, ht, hh⟩ := near_deriv R g n1 n2 n3 n4 hn1 hmax (by omega) n m h1' hm hn
        refine ⟨t, ht, ?_⟩
        rw [← fin_deriv nmax _ _ (Real.sin_sq _) n m hn1 hm hn]
        exact hh
      div := fun n m hm1 hm hn => by
        obtain ⟨t, ht, hh⟩ := near_val R g n1 n2 n3 n4 hn1 hmax (by omega) n m hm hn
        rw [fin_val nmax _ _ n m hn1 hm hn, ← schmidt_eq] at hh
        have e5 : schmidt n m (rad θ) * s⁻¹ = Synth.R n m (rad θ) := by
          rw [← R_mul_sin n m hm1, ← hsd]
          field_simp
        have p := g.mul hh sinv
        rw [e5, ← div_eq_mul_inv] at p
        have hA1 : 1 ≤ (5 / 2 : ℝ) ^ n / s := by
          rw [le_div_iff₀ hpos]
          linarith [(one_le_pow₀ (by norm_num) : (1 : ℝ) ≤ (5 / 2) ^ n)]
        have hA2 : (5 / 2 : ℝ) ^ n / s ≤ 2 ^ 990 := by
          have h3 : s⁻¹ ≤ 2 ^ 13 := by
            rw [inv_le_comm₀ hpos (by positivity), ← inv_pow]
            exact hs
          rw [div_eq_mul_inv]
          exact (pow_mul_le (pow52' (by omega)) h3 (inv_pos.2 hpos).le).trans (pow_le_pow_right₀ (by norm_num) (by norm_num))
        refine ⟨_, ?_, g.rnd R p (by omega) (low_one hA1) hA2⟩
        show divPnm R (finF R nmax (C (radians R θ)) (sine R (C (radians R θ)))) θ n m = _
        unfold divPnm
        rw [if_neg (by rintro (h | h); exacts [hθ0 h, hθ180 h]), finF_11, n4, ht]
        simp only [fdiv]
        rw [if_neg sp.ne', div_eq_mul_inv]
      turn := fun m hm1 hm => by
        have hw : 1 + (2 : ℝ)⁻¹ ^ 47 ≤ 1 + ε := by linarith
        exact ⟨turn_near R g (f' := C) hC.err Real.abs_cos_sub_cos_le Real.abs_cos_le_one hm1 (by omega) hφ hw,
          turn_near R g (f' := Sn) hS.err Real.abs_sin_sub_sin_le Real.abs_sin_le_one hm1 (by omega) hφ hw⟩
      radius := rfl
      near := hρ
      lo := hρ1
      hi := hρ2
      sin_lo := hs
      deg := hmax
      first := h1
      ops := by omega
      few := by norm_num }
  have hcount : (nmax + 1 - nmin) * (nmax + 1) ≤ nmax * (nmax + 1) := Nat.mul_le_mul_right _ (by omega)
  have hcount2 : nmax * (nmax + 1) ≤ 250 * 251 := Nat.mul_le_mul (by omega) (by omega)
  obtain ⟨q, hq1, hq2⟩ := init_near g P (src := src) h1 (by omega) (by norm_num) hρ hρ1 hρ2
  obtain ⟨br, bt, bp, hf, k1, k2, k3⟩ := acc.total (M := M) h2 (by omega) hq2
  refine ⟨br, bt, bp, ?_, ?_⟩
  · unfold synthPoint
    rw [legendrePolyF_ok R C nmax θ hn1]
    simp only
    rw [hq1, ← he, hf]
  have hk : ((13 * nmax + 16 + (nmax + 1 - nmin) * (nmax + 1) : ℕ) : ℝ) ≤ 31 * (nmax : ℝ) ^ 2 := by
    have : 13 * nmax + 16 + (nmax + 1 - nmin) * (nmax + 1) ≤ 31 * nmax ^ 2 := by
      refine le_trans (Nat.add_le_add_left hcount _) ?_
      nlinarith
    exact_mod_cast this
  have hnr : (nmax : ℝ) ≤ 250 := by exact_mod_cast hmax
  set k := 13 * nmax + 16 + (nmax + 1 - nmin) * (nmax + 1)
  have hkε : 2 * ((k : ℝ) * ε) ≤ 1 := by
    have hk2 : (k : ℝ) ≤ 66300 := by
      have : k ≤ 66300 := by omega
      exact_mod_cast this
    have := mul_le_mul hk2 e2 hε0 (by norm_num)
    norm_num at this
    linarith
  have eA : (∑ n ∈ Finset.Icc nmin nmax, ∑ m ∈ Finset.range (min n M + 1), amp src c nmin M (r / a) (rad θ) n m) =
      2 / s * ∑ n ∈ Finset.Icc nmin nmax, ∑ m ∈ Finset.range (min n M + 1),
        (n + 1) * (5 / 2) ^ n * rpow src (r / a) n * (|coefG c nmin M n m| + |coefH c nmin M n m| + 2⁻¹ ^ 300) := by
    rw [sum2_mul]
    refine Finset.sum_congr rfl fun n _ => Finset.sum_congr rfl fun m _ => ?_
    unfold amp
    rw [← hsd]
    ring
  have fin : ∀ {b v : ℝ}, Nr (1 + ε) k b v (∑ n ∈ Finset.Icc nmin nmax, ∑ m ∈ Finset.range (min n M + 1), amp src c nmin M (r / a) (rad θ) n m) →
      |b - v| ≤ errorBound c nmin nmax M (rpow src (r / a)) s := by
    intro b v h
    refine (Nr.final hε0 hkε h).trans ?_
    have hA := h.nonneg.1
    rw [eA] at hA ⊢
    unfold errorBound
    set Sm := ∑ n ∈ Finset.Icc nmin nmax, ∑ m ∈ Finset.range (min n M + 1),
          (n + 1) * (5 / 2) ^ n * rpow src (r / a) n * (|coefG c nmin M n m| + |coefH c nmin M n m| + 2⁻¹ ^ 300)
    have hSm : 0 ≤ Sm := by
      have : 0 < 2 / s := by positivity
      exact nonneg_of_mul_nonneg_right hA this
    have e6 : (nmax : ℝ) ^ 2 * 2⁻¹ ^ 40 / s ^ 3 * Sm = (128 * nmax ^ 2) * (ε / s * Sm) := by
      rw [hε, show (2 : ℝ)⁻¹ ^ 40 = 128 * 2⁻¹ ^ 47 by norm_num]
      generalize (2 : ℝ)⁻¹ ^ 47 = u
      field_simp
    have e7 : 2 * (k * ε) * (2 / s * Sm) = (4 * k) * (ε / s * Sm) := by ring
    rw [e6, e7]
    refine mul_le_mul_of_nonneg_right ?_ (mul_nonneg (div_nonneg hε0 hpos.le) hSm)
    nlinarith
  have size : ∀ {b v : ℝ}, Nr (1 + ε) k b v (∑ n ∈ Finset.Icc nmin nmax, ∑ m ∈ Finset.range (min n M + 1), amp src c nmin M (r / a) (rad θ) n m) →
      |v| ≤ fieldSize c nmin nmax M (rpow src (r / a)) s := fun h => h.bound.trans (le_of_eq eA)
  exact ⟨⟨fin k1, fin k2, fin k3⟩, size k1, size k2, size k3⟩

/-- **C93, internal sources.** For degrees up to 250, coefficients up to `2^60` (that is, any given in nT or T), radii between a quarter and four
times the reference radius, colatitudes with a sine of at least `2^-13` (0.007 degrees from the poles) and azimuths from -360 to 360 degrees the
components returned by `synth_values` differ from minus the gradient of the potential by at most `errorBound`: relative to the sizes of the terms of
the expansion, `nmax^2 2^-40 (5/2)^n / sin^3`. -/
theorem C93_internal {C Sn : ℝ → ℝ} (hC : IsCosine C) (hS : IsSine Sn) (P : FloatSpectrum.Power) {a : ℝ} (ha : 0 < a) {nmin nmax M : ℕ}
    (h1 : 1 ≤ nmin) (h2 : nmin ≤ nmax) (hmax : nmax ≤ 250) {c : ℕ → ℝ} (hc : ∀ i, |c i| ≤ 2 ^ 60) {r θ φ : ℝ} (hr1 : a / 4 ≤ r) (hr2 : r ≤ 4 * a)
    (h0 : 0 ≤ θ) (h180 : θ ≤ 180) (hs : 2⁻¹ ^ 13 ≤ Real.sin (rad θ)) (hφ : |φ| ≤ 360) :
    ∃ br bt bp Br Bt Bp, synthPoint R C Sn P.fn a true nmin nmax M (fun i => some (c i)) r θ φ = .ok ⟨some br, some bt, some bp⟩ ∧
      HasDerivAt (fun r' => potInt a c nmin nmax M r' (rad θ) (rad φ)) (-Br) r ∧
      HasDerivAt (fun x => potInt a c nmin nmax M r x (rad φ)) (-(r * Bt)) (rad θ) ∧
      HasDerivAt (fun y => potInt a c nmin nmax M r (rad θ) y) (-(r * Real.sin (rad θ) * Bp)) (rad φ) ∧
      |br - Br| ≤ errorBound c nmin nmax M (fun n => (a / r) ^ (n + 2)) (Real.sin (rad θ)) ∧
      |bt - Bt| ≤ errorBound c nmin nmax M (fun n => (a / r) ^ (n + 2)) (Real.sin (rad θ)) ∧
      |bp - Bp| ≤ errorBound c nmin nmax M (fun n => (a / r) ^ (n + 2)) (Real.sin (rad θ)) := by
  obtain ⟨br, bt, bp, e, k, -⟩ := field_accuracy R hC hS P .internal ha h1 h2 hmax (M := M) hc hr1 hr2 h0 h180 hs hφ
  obtain ⟨d1, d2, d3⟩ := field_gradient .internal a ha c nmin nmax M r (rad θ) (rad φ) (by linarith)
  have hb : rpow .internal (r / a) = fun n => (a / r) ^ (n + 2) := by
    funext n
    show (r / a) ^ (-((n : ℤ) + 2)) = _
    rw [zpow_neg, ← inv_zpow, inv_div]
    exact_mod_cast rfl
  rw [hb] at k
  exact ⟨br, bt, bp, _, _, _, e, d1, d2, d3, k⟩

/-- **C93, external sources.** -/
theorem C93_external {C Sn : ℝ → ℝ} (hC : IsCosine C) (hS : IsSine Sn) (P : FloatSpectrum.Power) {a : ℝ} (ha : 0 < a) {nmin nmax M : ℕ}
    (h1 : 1 ≤ nmin) (h2 : nmin ≤ nmax) (hmax : nmax ≤ 250) {c : ℕ → ℝ} (hc : ∀ i, |c i| ≤ 2 ^ 60) {r θ φ : ℝ} (hr1 : a / 4 ≤ r) (hr2 : r ≤ 4 * a)
    (h0 : 0 ≤ θ) (h180 : θ ≤ 180) (hs : 2⁻¹ ^ 13 ≤ Real.sin (rad θ)) (hφ : |φ| ≤ 360) :
    ∃ br bt bp Br Bt Bp, synthPoint R C Sn P.fn a false nmin nmax M (fun i => some (c i)) r θ φ = .ok ⟨some br, some bt, some bp⟩ ∧
      HasDerivAt (fun r' => potExt a c nmin nmax M r' (rad θ) (rad φ)) (-Br) r ∧
      HasDerivAt (fun x => potExt a c nmin nmax M r x (rad φ)) (-(r * Bt)) (rad θ) ∧
      HasDerivAt (fun y => potExt a c nmin nmax M r (rad θ) y) (-(r * Real.sin (rad θ) * Bp)) (rad φ) ∧
      |br - Br| ≤ errorBound c nmin nmax M (fun n => (r / a) ^ (n - 1)) (Real.sin (rad θ)) ∧
      |bt - Bt| ≤ errorBound c nmin nmax M (fun n => (r / a) ^ (n - 1)) (Real.sin (rad θ)) ∧
      |bp - Bp| ≤ errorBound c nmin nmax M (fun n => (r / a) ^ (n - 1)) (Real.sin (rad θ)) := by
  obtain ⟨br, bt, bp, e, k, -⟩ := field_accuracy R hC hS P .external ha h1 h2 hmax (M := M) hc hr1 hr2 h0 h180 hs hφ
  obtain ⟨d1, d2, d3⟩ := field_gradient .external a ha c nmin nmax M r (rad θ) (rad φ) (by linarith)
  have hb : errorBound c nmin nmax M (rpow .external (r / a)) (Real.sin (rad θ)) =
      errorBound c nmin nmax M (fun n => (r / a) ^ (n - 1)) (Real.sin (rad θ)) := by
    unfold errorBound
    congr 1
    refine Finset.sum_congr rfl fun n hn => Finset.sum_congr rfl fun m _ => ?_
    have hn1 : 1 ≤ n := h1.trans (Finset.mem_Icc.1 hn).1
    have : rpow .external (r / a) n = (r / a) ^ (n - 1) := by
      show (r / a) ^ ((n : ℤ) - 1) = _
      rw [show ((n : ℤ) - 1) = ((n - 1 : ℕ) : ℤ) by omega]
      exact zpow_natCast _ _
    rw [this]
  rw [hb] at k
  exact ⟨br, bt, bp, _, _, _, e, d1, d2, d3, k⟩

end ChaosMagPy.FloatLegendre
