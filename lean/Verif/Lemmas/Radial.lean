import Verif.Lemmas.Induction
import Mathlib.MeasureTheory.Integral.IntervalIntegral.Basic
/-!
# The radial induction equation on an interval: Wronskians and energy
-/
namespace ChaosMagPy.QResponse
open Complex Filter Topology

/-- `u'' = c u` on an interval up to a finite set, with continuous `u'`. -/
structure Sol (c : ℝ → ℂ) (r1 r2 : ℝ) (u du : ℝ → ℂ) : Prop where
  hasDeriv : ∀ r ∈ Set.Icc r1 r2, HasDerivWithinAt u (du r) (Set.Icc r1 r2) r
  continuous : ContinuousOn du (Set.Icc r1 r2)
  equation : ∃ S : Set ℝ, S.Finite ∧ ∀ r ∈ Set.Ioo r1 r2, r ∉ S → HasDerivAt du (c r * u r) r

theorem Sol.cont {c : ℝ → ℂ} {r1 r2 : ℝ} {u du : ℝ → ℂ} (h : Sol c r1 r2 u du) : ContinuousOn u (Set.Icc r1 r2) :=
  fun r hr => (h.hasDeriv r hr).continuousWithinAt

theorem Sol.sub {c : ℝ → ℂ} {r1 r2 s1 s2 : ℝ} {u du : ℝ → ℂ} (h : Sol c r1 r2 u du) (h1 : r1 ≤ s1) (h2 : s2 ≤ r2) : Sol c s1 s2 u du := by
  obtain ⟨a, b, S, hS, e⟩ := h
  refine ⟨fun r hr => (a r ⟨h1.trans hr.1, hr.2.trans h2⟩).mono (Set.Icc_subset_Icc h1 h2), b.mono (Set.Icc_subset_Icc h1 h2), S, hS, fun r hr hrs => ?_⟩
  exact e r ⟨h1.trans_lt hr.1, hr.2.trans_le h2⟩ hrs

/-- Wronskian of two solutions. -/
theorem wronskian {c : ℝ → ℂ} {r1 r2 : ℝ} (h12 : r1 ≤ r2) {u du v dv : ℝ → ℂ} (hu : Sol c r1 r2 u du) (hv : Sol c r1 r2 v dv) :
    u r2 * dv r2 - du r2 * v r2 = u r1 * dv r1 - du r1 * v r1 := by
  obtain ⟨S, hS, e⟩ := hu.equation
  obtain ⟨S', hS', e'⟩ := hv.equation
  have := MeasureTheory.integral_eq_of_hasDerivAt_off_countable_of_le (fun r => u r * dv r - du r * v r) (fun _ => 0) h12 (hS.union hS').countable
    ((hu.cont.mul hv.continuous).sub (hu.continuous.mul hv.cont)) (fun x hx => by
      have hx1 := hx.1
      have d1 := (hu.hasDeriv x ⟨hx1.1.le, hx1.2.le⟩).hasDerivAt (Icc_mem_nhds hx1.1 hx1.2)
      have d2 := (hv.hasDeriv x ⟨hx1.1.le, hx1.2.le⟩).hasDerivAt (Icc_mem_nhds hx1.1 hx1.2)
      have d3 := e x hx1 fun hc => hx.2 (Or.inl hc)
      have d4 := e' x hx1 fun hc => hx.2 (Or.inr hc)
      refine ((d1.mul d4).sub (d3.mul d2)).congr_deriv ?_
      ring) (by simp)
  simp only [intervalIntegral.integral_zero] at this
  exact sub_eq_zero.1 this.symm

/-- A continuous function whose derivative is not negative up to finitely many points is monotone. -/
theorem mono_off_finite {f f' : ℝ → ℝ} {S : Set ℝ} (hS : S.Finite) {a b : ℝ} (hab : a ≤ b) (hc : ContinuousOn f (Set.Icc a b))
    (hd : ∀ x ∈ Set.Ioo a b, x ∉ S → HasDerivAt f (f' x) x) (hp : ∀ x ∈ Set.Ioo a b, x ∉ S → 0 ≤ f' x) : f a ≤ f b := by
  induction S, hS using Set.Finite.induction_on generalizing a b with
  | empty =>
    refine monotoneOn_of_deriv_nonneg (convex_Icc a b) hc ?_ ?_ ⟨le_rfl, hab⟩ ⟨hab, le_rfl⟩ hab
    · rw [interior_Icc]
      exact fun x hx => (hd x hx (by simp)).differentiableAt.differentiableWithinAt
    · rw [interior_Icc]
      intro x hx
      rw [(hd x hx (by simp)).deriv]
      exact hp x hx (by simp)
  | insert hxS hS ih =>
    rename_i y S
    by_cases hy : y ∈ Set.Ioo a b
    · refine (ih hy.1.le (hc.mono (Set.Icc_subset_Icc_right hy.2.le)) (fun x hx hxs => ?_) fun x hx hxs => ?_).trans
        (ih hy.2.le (hc.mono (Set.Icc_subset_Icc_left hy.1.le)) (fun x hx hxs => ?_) fun x hx hxs => ?_)
      · exact hd x ⟨hx.1, hx.2.trans hy.2⟩ (by simp [hxs, hx.2.ne])
      · exact hp x ⟨hx.1, hx.2.trans hy.2⟩ (by simp [hxs, hx.2.ne])
      · exact hd x ⟨hy.1.trans hx.1, hx.2⟩ (by simp [hxs, hx.1.ne'])
      · exact hp x ⟨hy.1.trans hx.1, hx.2⟩ (by simp [hxs, hx.1.ne'])
    · have hne : ∀ x ∈ Set.Ioo a b, x ∉ S → x ∉ insert y S := fun x hx hxs hc => by
        rcases hc with rfl | hc
        · exact hy hx
        · exact hxs hc
      exact ih hab hc (fun x hx hxs => hd x hx (hne x hx hxs)) fun x hx hxs => hp x hx (hne x hx hxs)

/-- `Re(conj(u) u')`. -/
noncomputable def energyRe (u du : ℝ → ℂ) (r : ℝ) : ℝ := ((starRingEnd ℂ) (u r) * du r).re

/-- `Im(conj(u) u')`. -/
noncomputable def energyIm (u du : ℝ → ℂ) (r : ℝ) : ℝ := ((starRingEnd ℂ) (u r) * du r).im

theorem energyDeriv {c : ℝ → ℂ} {r1 r2 : ℝ} {u du : ℝ → ℂ} (hu : Sol c r1 r2 u du) :
    ∃ S : Set ℝ, S.Finite ∧ ∀ r ∈ Set.Ioo r1 r2, r ∉ S → HasDerivAt (fun r => (starRingEnd ℂ) (u r) * du r)
      (((Complex.normSq (du r) + (c r).re * Complex.normSq (u r) : ℝ) : ℂ) + ((c r).im * Complex.normSq (u r) : ℝ) * Complex.I) r := by
  obtain ⟨S, hS, e⟩ := hu.equation
  refine ⟨S, hS, fun r hr hrs => ?_⟩
  have d1 := (hu.hasDeriv r ⟨hr.1.le, hr.2.le⟩).hasDerivAt (Icc_mem_nhds hr.1 hr.2)
  have d2 := e r hr hrs
  refine (d1.star.mul d2).congr_deriv ?_
  apply Complex.ext
  · simp [Complex.normSq_apply]; ring
  · simp [Complex.normSq_apply]; ring

theorem energy_cont {c : ℝ → ℂ} {r1 r2 : ℝ} {u du : ℝ → ℂ} (hu : Sol c r1 r2 u du) :
    ContinuousOn (fun r => (starRingEnd ℂ) (u r) * du r) (Set.Icc r1 r2) :=
  (Complex.continuous_conj.comp_continuousOn hu.cont).mul hu.continuous

theorem energyRe_mono {c : ℝ → ℂ} {r1 r2 : ℝ} (h12 : r1 ≤ r2) {u du : ℝ → ℂ} (hu : Sol c r1 r2 u du) (hc : ∀ r ∈ Set.Ioo r1 r2, 0 ≤ (c r).re) :
    energyRe u du r1 ≤ energyRe u du r2 := by
  obtain ⟨S, hS, e⟩ := energyDeriv hu
  refine mono_off_finite hS h12 (Complex.continuous_re.comp_continuousOn (energy_cont hu))
    (fun x hx hxs => Complex.reCLM.hasFDerivAt.comp_hasDerivAt x (e x hx hxs)) fun x hx hxs => ?_
  have := mul_nonneg (hc x hx) (Complex.normSq_nonneg (u x))
  have := Complex.normSq_nonneg (du x)
  simp
  linarith

theorem energyIm_mono {c : ℝ → ℂ} {r1 r2 : ℝ} (h12 : r1 ≤ r2) {u du : ℝ → ℂ} (hu : Sol c r1 r2 u du) (hc : ∀ r ∈ Set.Ioo r1 r2, 0 ≤ (c r).im) :
    energyIm u du r1 ≤ energyIm u du r2 := by
  obtain ⟨S, hS, e⟩ := energyDeriv hu
  refine mono_off_finite hS h12 (Complex.continuous_im.comp_continuousOn (energy_cont hu))
    (fun x hx hxs => Complex.imCLM.hasFDerivAt.comp_hasDerivAt x (e x hx hxs)) fun x hx hxs => ?_
  have := mul_nonneg (hc x hx) (Complex.normSq_nonneg (u x))
  simp
  linarith

/-- The energy grows strictly unless the solution is zero. -/
theorem energyRe_lt {c : ℝ → ℂ} {r1 r2 : ℝ} (h12 : r1 < r2) {u du : ℝ → ℂ} (hu : Sol c r1 r2 u du)
    (hcc : ContinuousOn (fun r => (c r).re) (Set.Icc r1 r2)) (hc : ∀ r ∈ Set.Icc r1 r2, 0 < (c r).re)
    (hx : ∃ x ∈ Set.Icc r1 r2, u x ≠ 0 ∨ du x ≠ 0) : energyRe u du r1 < energyRe u du r2 := by
  obtain ⟨S, hS, e⟩ := energyDeriv hu
  set g : ℝ → ℝ := fun r => Complex.normSq (du r) + (c r).re * Complex.normSq (u r) with hg
  have hgc : ContinuousOn g (Set.Icc r1 r2) :=
    (Complex.continuous_normSq.comp_continuousOn hu.continuous).add (hcc.mul (Complex.continuous_normSq.comp_continuousOn hu.cont))
  have hint : IntervalIntegrable g MeasureTheory.volume r1 r2 := by
    apply ContinuousOn.intervalIntegrable
    rwa [Set.uIcc_of_le h12.le]
  have := MeasureTheory.integral_eq_of_hasDerivAt_off_countable_of_le (fun r => energyRe u du r) g h12.le hS.countable
    (Complex.continuous_re.comp_continuousOn (energy_cont hu)) (fun x hx => by
      have := Complex.reCLM.hasFDerivAt.comp_hasDerivAt x (e x hx.1 hx.2)
      refine this.congr_deriv ?_
      simp [hg]) hint
  have hpos : 0 < ∫ x in r1..r2, g x := by
    obtain ⟨x, hx, hne⟩ := hx
    have hnn : ∀ y ∈ Set.Icc r1 r2, 0 ≤ (c y).re * Complex.normSq (u y) := fun y hy => mul_nonneg (hc y hy).le (Complex.normSq_nonneg _)
    refine intervalIntegral.integral_pos h12 hgc (fun y hy => ?_) ⟨x, hx, ?_⟩
    · exact add_nonneg (Complex.normSq_nonneg _) (hnn y ⟨hy.1.le, hy.2⟩)
    · rcases hne with hne | hne
      · have := mul_pos (hc x hx) (Complex.normSq_pos.2 hne)
        have := Complex.normSq_nonneg (du x)
        simp only [hg]
        linarith
      · have := Complex.normSq_pos.2 hne
        have := hnn x hx
        simp only [hg]
        linarith
  linarith

end ChaosMagPy.QResponse
