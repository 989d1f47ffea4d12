import Verif.Model.Fourier
import Mathlib.RingTheory.RootsOfUnity.Complex
import Mathlib.Algebra.Order.BigOperators.Group.Finset
import Mathlib.Analysis.Complex.Norm
import Mathlib.Tactic.LinearCombination
import Mathlib.Algebra.BigOperators.Field
/-!
# C44: Fourier expansion of the rotation matrices
-/
namespace ChaosMagPy.Fourier

/-- The real part of one Fourier component times its harmonic at sample `j`. -/
noncomputable def comp (N : ℕ) (x : ℕ → ℝ) (j k : ℕ) : ℝ :=
  (∑ n ∈ Finset.range N, x n * Real.cos (2 * Real.pi * k * ((j : ℝ) - n) / N)) / N

theorem expi (y : ℝ) : Complex.exp (Complex.I * y) = ⟨Real.cos y, Real.sin y⟩ := by
  rw [mul_comm, Complex.exp_mul_I]
  apply Complex.ext <;> simp [Complex.cos_ofReal_re, Complex.sin_ofReal_re, Complex.cos_ofReal_im, Complex.sin_ofReal_im]

/-- Product of a component and a harmonic at any phase. -/
theorem dft_mul_re (N : ℕ) (x : ℕ → ℝ) (k : ℕ) (s : ℝ) :
    (dft N x k * (⟨Real.cos (2 * Real.pi * k * s / N), Real.sin (2 * Real.pi * k * s / N)⟩ : ℂ)).re =
      (∑ n ∈ Finset.range N, x n * Real.cos (2 * Real.pi * k * (s - n) / N)) / N := by
  rw [← expi, dft, div_mul_eq_mul_div, Finset.sum_mul]
  have : ∀ n ∈ Finset.range N, (x n : ℂ) * Complex.exp (-(2 * Real.pi * Complex.I * k * n) / N) *
      Complex.exp (Complex.I * ((2 * Real.pi * k * s / N : ℝ) : ℂ)) =
      (x n : ℂ) * Complex.exp (Complex.I * ((2 * Real.pi * k * (s - n) / N : ℝ) : ℂ)) := by
    intro n _
    rw [mul_assoc, ← Complex.exp_add]
    congr 2
    push_cast
    ring
  rw [Finset.sum_congr rfl this, ← Complex.ofReal_natCast, Complex.div_ofReal_re, Complex.re_sum]
  congr 1
  apply Finset.sum_congr rfl
  intro n _
  rw [expi, Complex.re_ofReal_mul]

theorem cos_sum (N : ℕ) (hN : 0 < N) (d : ℤ) (hd : ¬ (N : ℤ) ∣ d) :
    ∑ k ∈ Finset.range N, Real.cos (2 * Real.pi * k * d / N) = 0 := by
  have hz : (Complex.exp (2 * Real.pi * Complex.I * (d / N))) ^ N = 1 := by
    rw [← Complex.exp_nat_mul, show (N : ℂ) * (2 * Real.pi * Complex.I * (d / N)) = d * (2 * Real.pi * Complex.I) by
      have : (N : ℂ) ≠ 0 := by exact_mod_cast hN.ne'
      field_simp]
    exact Complex.exp_int_mul_two_pi_mul_I d
  have hne : Complex.exp (2 * Real.pi * Complex.I * (d / N)) ≠ 1 := by
    intro h
    rw [Complex.exp_eq_one_iff] at h
    obtain ⟨m, hm⟩ := h
    apply hd
    refine ⟨m, ?_⟩
    have hpi : (2 * Real.pi * Complex.I : ℂ) ≠ 0 := Complex.two_pi_I_ne_zero
    have hN' : (N : ℂ) ≠ 0 := by exact_mod_cast hN.ne'
    have h1 : (2 * Real.pi * Complex.I : ℂ) * (d / N) = (2 * Real.pi * Complex.I) * m := by rw [hm]; ring
    have h2 := mul_left_cancel₀ hpi h1
    rw [div_eq_iff hN'] at h2
    have : (d : ℂ) = ((N * m : ℤ) : ℂ) := by rw [h2]; push_cast; ring
    exact_mod_cast this
  have hg : ∑ k ∈ Finset.range N, (Complex.exp (2 * Real.pi * Complex.I * (d / N))) ^ k = 0 := by
    have := mul_geom_sum (Complex.exp (2 * Real.pi * Complex.I * (d / N))) N
    rw [hz, sub_self] at this
    exact (mul_eq_zero.1 this).resolve_left (sub_ne_zero.2 hne)
  have hre := congrArg Complex.re hg
  rw [Complex.re_sum, Complex.zero_re] at hre
  rw [← hre]
  apply Finset.sum_congr rfl
  intro k _
  rw [← Complex.exp_nat_mul, show (k : ℂ) * (2 * Real.pi * Complex.I * (d / N)) = Complex.I * ((2 * Real.pi * k * d / N : ℝ) : ℂ) by
    push_cast; ring, expi]

/-- The full sum of the components gives the sample. -/
theorem comp_sum (N : ℕ) (hN : 0 < N) (x : ℕ → ℝ) (j : ℕ) (hj : j < N) : ∑ k ∈ Finset.range N, comp N x j k = x j := by
  unfold comp
  rw [← Finset.sum_div, Finset.sum_comm]
  have hN' : (N : ℝ) ≠ 0 := by exact_mod_cast hN.ne'
  rw [div_eq_iff hN', Finset.sum_eq_single j]
  · simp [mul_comm]
  · intro n hn hne
    rw [Finset.mem_range] at hn
    rw [← Finset.mul_sum]
    have hd : ¬ (N : ℤ) ∣ ((j : ℤ) - n) := by
      intro hdvd
      have h1 : |(j : ℤ) - n| < N := by
        rw [abs_lt]
        constructor <;> omega
      have := Int.eq_zero_of_abs_lt_dvd hdvd h1
      omega
    have := cos_sum N hN ((j : ℤ) - n) hd
    push_cast at this
    rw [this, mul_zero]
  · intro h
    exact absurd (Finset.mem_range.2 hj) h

/-- Components of mirrored frequencies agree. -/
theorem comp_mirror (N : ℕ) (hN : 0 < N) (x : ℕ → ℝ) (j k : ℕ) (hk : k ≤ N) : comp N x j (N - k) = comp N x j k := by
  unfold comp
  congr 1
  apply Finset.sum_congr rfl
  intro n _
  congr 1
  have hN' : (N : ℝ) ≠ 0 := by exact_mod_cast hN.ne'
  have : 2 * Real.pi * ((N - k : ℕ) : ℝ) * ((j : ℝ) - n) / N = -(2 * Real.pi * k * ((j : ℝ) - n) / N) + ((j : ℤ) - n : ℤ) * (2 * Real.pi) := by
    rw [Nat.cast_sub hk]
    push_cast
    field_simp
    ring
  rw [this, Real.cos_add_int_mul_two_pi, Real.cos_neg]

/-- Sum over the half spectrum. -/
theorem half_sum (N : ℕ) (hN : 0 < N) (x : ℕ → ℝ) (j : ℕ) (hj : j < N) :
    2 * ∑ k ∈ Finset.range (halfLen N), comp N x j k = x j + comp N x j 0 + (if N % 2 = 0 then comp N x j (N / 2) else 0) := by
  have hfull := comp_sum N hN x j hj
  unfold halfLen
  have hsplit : N = (N / 2 + 1) + (N - (N / 2 + 1)) := by omega
  rw [hsplit, Finset.sum_range_add, ← hsplit] at hfull
  have hm : ∑ i ∈ Finset.range (N - (N / 2 + 1)), comp N x j (N / 2 + 1 + i) =
      ∑ i ∈ Finset.range (N - (N / 2 + 1)), comp N x j (i + 1) := by
    rw [← Finset.sum_range_reflect]
    apply Finset.sum_congr rfl
    intro i hi
    rw [Finset.mem_range] at hi
    rw [← comp_mirror N hN x j (i + 1) (by omega)]
    congr 1
    omega
  rw [hm] at hfull
  rw [Finset.sum_range_succ'] at hfull ⊢
  split_ifs with he
  · have e : N / 2 = (N - (N / 2 + 1)) + 1 := by omega
    rw [e, Finset.sum_range_succ, ← e] at hfull ⊢
    linarith
  · have e : N / 2 = N - (N / 2 + 1) := by omega
    rw [← e] at hfull
    linarith

theorem comp_zero (N : ℕ) (x : ℕ → ℝ) (j : ℕ) : comp N x j 0 = (∑ n ∈ Finset.range N, x n) / N := by
  unfold comp
  simp

/-- The component at the Nyquist frequency. -/
theorem comp_nyquist (N : ℕ) (hN : 0 < N) (he : N % 2 = 0) (x : ℕ → ℝ) (j : ℕ) :
    comp N x j (N / 2) = (-1) ^ j * ((∑ n ∈ Finset.range N, (-1) ^ n * x n) / N) := by
  unfold comp
  rw [← mul_div_assoc, Finset.mul_sum]
  congr 1
  apply Finset.sum_congr rfl
  intro n _
  have hN' : (N : ℝ) ≠ 0 := by exact_mod_cast hN.ne'
  have h2 : ((N / 2 : ℕ) : ℝ) = (N : ℝ) / 2 := by
    rw [eq_div_iff (by norm_num)]
    exact_mod_cast Nat.div_mul_cancel (Nat.dvd_of_mod_eq_zero he)
  have : 2 * Real.pi * ((N / 2 : ℕ) : ℝ) * ((j : ℝ) - n) / N = (j : ℝ) * Real.pi - n * Real.pi := by
    rw [h2]
    field_simp
  rw [this, Real.cos_sub, Real.sin_nat_mul_pi, zero_mul, add_zero, Real.cos_nat_mul_pi, Real.cos_nat_mul_pi]
  ring

/-! ### The program -/

theorem list_sum_range (l : List ℕ) (f : ℕ → ℂ) : ∑ q ∈ Finset.range l.length, f (l.getD q 0) = (l.map f).sum := by
  induction l with
  | nil => simp
  | cons a l ih =>
    rw [List.length_cons, Finset.sum_range_succ', List.map_cons, List.sum_cons, ← ih, add_comm]
    rfl

theorem synthElement_sum (comps : List (ℝ × ℂ)) (s : Scaled) (t : ℝ) :
    synthElement comps s t = ((comps.map fun p => p.2 * harmonic s p.1 t).sum).re := by
  unfold synthElement synthRotate
  congr 1
  induction comps with
  | nil => simp
  | cons a l ih =>
    rw [List.length_cons, Finset.sum_range_succ', List.map_cons, List.sum_cons, ← ih, add_comm]
    rfl

/-- The settings of `scaled` that belong together: the same Python bool in both functions (or left out), or scaled
components and the entry of their file. -/
def Matching (written : Bool) (read : Scaled) : Prop :=
  match read with
  | .none => written = false
  | .py b => written = b
  | .array b => written = b ∧ b = true

theorem freq_day (N : ℕ) (step : ℝ) (k : ℕ) : frequencyFull N step k * (24 * 3600) = 24 * k / (N * step) := by
  unfold frequencyFull
  by_cases hN : (N : ℝ) = 0
  · rw [hN]; simp
  by_cases hs : step = 0
  · rw [hs]; simp
  field_simp

/-- One component in the synthesis. -/
theorem entry (N : ℕ) (hN : 0 < N) (step : ℝ) (hs : 0 < step) (written : Bool) (read : Scaled) (c : ℂ) (k : ℕ) (t : ℝ) :
    let f := frequencyFull N step k * (24 * 3600)
    (if written then (if f = 0 then c else 2 * c) else c) * harmonic read f t =
      (if k = 0 then 1 else (if written then 2 else 1) * (if read.isFalse then 2 else 1)) *
        (c * (⟨Real.cos (2 * Real.pi * k * (24 * t / step) / N), Real.sin (2 * Real.pi * k * (24 * t / step) / N)⟩ : ℂ)) := by
  simp only
  rw [freq_day]
  unfold harmonic
  have hN' : (0 : ℝ) < N := by exact_mod_cast hN
  have e : 2 * Real.pi * (24 * (k : ℝ) / (N * step)) * t = 2 * Real.pi * k * (24 * t / step) / N := by field_simp
  simp only [e]
  by_cases hk : k = 0
  · subst hk
    simp
  · have hk' : (0 : ℝ) < k := by exact_mod_cast Nat.pos_of_ne_zero hk
    have h0 : (24 * (k : ℝ) / (N * step)) ≠ 0 := by positivity
    have hp : 2 * Real.pi * (24 * (k : ℝ) / (N * step)) > 0 := by positivity
    rw [if_neg h0, if_neg hk]
    simp only [hp, and_true]
    cases written <;> cases read.isFalse <;> simp <;> ring

theorem perm_sum (len : ℕ) (sort : List ℕ) (h : sort.Perm (List.range len)) (f : ℕ → ℂ) :
    (sort.map f).sum = ∑ k ∈ Finset.range len, f k := by
  rw [(h.map f).sum_eq, Finset.sum_range]
  rw [← List.sum_ofFn, List.ofFn_eq_map]
  congr 1
  rw [← List.map_coe_finRange_eq_range, List.map_map]
  rfl

/-- Synthesis of all components of the half spectrum. -/
theorem synth_full (N : ℕ) (hN : 0 < N) (step : ℝ) (hs : 0 < step) (written : Bool) (read : Scaled) (x : ℕ → ℝ)
    (sort : List ℕ) (hsort : IsArgsortDesc (halfLen N) (fun k => 1 * dft N x k) sort) :
    ∃ comps, elementFft N step none written (fun _ => 1) x sort = .ok comps ∧
      ∀ j : ℕ, synthElement comps read ((j : ℝ) * step / 24) =
        ∑ k ∈ Finset.range (halfLen N), (if k = 0 then 1 else (if written then 2 else 1) * (if read.isFalse then 2 else 1)) * comp N x j k := by
  have hlen : sort.length = halfLen N := by rw [hsort.1.length_eq, List.length_range]
  refine ⟨_, by
    unfold elementFft
    simp only [Option.getD_none]
    rw [if_neg (by omega), List.take_of_length_le hlen.le], ?_⟩
  intro j
  rw [synthElement_sum, List.map_map]
  have : ((fun p : ℝ × ℂ => p.2 * harmonic read p.1 (j * step / 24)) ∘ fun k =>
      (frequencyFull N step k * (24 * 3600), if written then (if frequencyFull N step k * (24 * 3600) = 0 then 1 * dft N x k else 2 * (1 * dft N x k)) else 1 * dft N x k)) =
      fun k => (if k = 0 then 1 else (if written then 2 else 1) * (if read.isFalse then 2 else 1)) *
        (dft N x k * (⟨Real.cos (2 * Real.pi * k * (j : ℝ) / N), Real.sin (2 * Real.pi * k * (j : ℝ) / N)⟩ : ℂ)) := by
    funext k
    have he := entry N hN step hs written read (1 * dft N x k) k (j * step / 24)
    simp only at he
    simp only [Function.comp_apply]
    rw [he, show 24 * ((j : ℝ) * step / 24) / step = j by field_simp, one_mul]
  rw [this, perm_sum (halfLen N) sort hsort.1, Complex.re_sum]
  apply Finset.sum_congr rfl
  intro k _
  have hr := dft_mul_re N x k j
  unfold comp
  rw [← hr]
  split_ifs <;> simp [Complex.mul_re]

/-- Mean of the samples. -/
noncomputable def mean (N : ℕ) (x : ℕ → ℝ) : ℝ := (∑ n ∈ Finset.range N, x n) / N

/-- Mean of the samples with alternating signs (amplitude at the Nyquist frequency). -/
noncomputable def alternating (N : ℕ) (x : ℕ → ℝ) : ℝ := (∑ n ∈ Finset.range N, (-1) ^ n * x n) / N

/-- **C44.** Keeping all components, the synthesis at sampling time `j` (time zero at the first sample) returns the sample,
for every odd number of samples and every series, whatever order the sorting produced. For even numbers the
contribution of the Nyquist frequency is counted twice. -/
theorem C44_sampling (N : ℕ) (hN : 0 < N) (step : ℝ) (hs : 0 < step) (written : Bool) (read : Scaled) (hm : Matching written read)
    (x : ℕ → ℝ) (sort : List ℕ) (hsort : IsArgsortDesc (halfLen N) (fun k => 1 * dft N x k) sort) :
    ∃ comps, elementFft N step none written (fun _ => 1) x sort = .ok comps ∧
      ∀ j, j < N → synthElement comps read (sampleTime step 0 j) =
        x j + (if N % 2 = 0 then (-1) ^ j * alternating N x else 0) := by
  obtain ⟨comps, h1, h2⟩ := synth_full N hN step hs written read x sort hsort
  refine ⟨comps, h1, ?_⟩
  intro j hj
  unfold sampleTime
  rw [add_zero, h2 j]
  have hfac : ((if written then 2 else 1) * (if read.isFalse then 2 else 1) : ℝ) = 2 := by
    cases read with
    | none => simp only [Matching] at hm; subst hm; simp [Scaled.isFalse]
    | py b => simp only [Matching] at hm; subst hm; cases written <;> simp [Scaled.isFalse]
    | array b => simp only [Matching] at hm; rw [hm.1, hm.2]; simp [Scaled.isFalse]
  have hh := half_sum N hN x j hj
  unfold halfLen at *
  rw [Finset.sum_range_succ'] at hh ⊢
  simp only [if_pos, Nat.add_eq_zero_iff, one_ne_zero, and_false, if_false, hfac]
  rw [← Finset.mul_sum, one_mul]
  by_cases he : N % 2 = 0
  · rw [if_pos he] at hh ⊢
    rw [comp_nyquist N hN he] at hh
    unfold alternating
    linarith
  · rw [if_neg he] at hh ⊢
    linarith

/-- **C44** (finding). Components that were not scaled, saved to a file, and synthesised with the entry `scaled` of the file
(as the GSM and SM synthesis does): the comparison `scaled is False` fails for the array, the doubling is left out,
and the result is the mean of the sample and the average of the series. -/
theorem C44_unscaled_file (N : ℕ) (hN : 0 < N) (step : ℝ) (hs : 0 < step)
    (x : ℕ → ℝ) (sort : List ℕ) (hsort : IsArgsortDesc (halfLen N) (fun k => 1 * dft N x k) sort) :
    ∃ comps, elementFft N step none false (fun _ => 1) x sort = .ok comps ∧
      ∀ j, j < N → synthElement comps (.array false) (sampleTime step 0 j) =
        (x j + mean N x + (if N % 2 = 0 then (-1) ^ j * alternating N x else 0)) / 2 := by
  obtain ⟨comps, h1, h2⟩ := synth_full N hN step hs false (.array false) x sort hsort
  refine ⟨comps, h1, ?_⟩
  intro j hj
  unfold sampleTime
  rw [add_zero, h2 j]
  simp only [Scaled.isFalse, Bool.false_eq_true, if_false, mul_one, ite_self, one_mul]
  have hh := half_sum N hN x j hj
  rw [comp_zero] at hh
  by_cases he : N % 2 = 0
  · rw [if_pos he] at hh ⊢
    rw [comp_nyquist N hN he] at hh
    unfold alternating mean
    linarith
  · rw [if_neg he] at hh ⊢
    unfold mean
    linarith

/-- **C44** (start date, finding). The samples are taken at times that include the start date, but the synthesis takes the
phase from time zero: with a start date of `m` steps it returns the sample `m` steps later than the one taken at
that time. -/
theorem C44_start_date (N : ℕ) (hN : 0 < N) (hodd : N % 2 = 1) (step : ℝ) (hs : 0 < step) (written : Bool) (read : Scaled)
    (hm : Matching written read) (x : ℕ → ℝ) (sort : List ℕ) (hsort : IsArgsortDesc (halfLen N) (fun k => 1 * dft N x k) sort)
    (m : ℕ) :
    ∃ comps, elementFft N step none written (fun _ => 1) x sort = .ok comps ∧
      ∀ j, j + m < N → synthElement comps read (sampleTime step (m * step / 24) j) = x (j + m) := by
  obtain ⟨comps, h1, h2⟩ := C44_sampling N hN step hs written read hm x sort hsort
  refine ⟨comps, h1, ?_⟩
  intro j hj
  have := h2 (j + m) hj
  rw [if_neg (by omega), add_zero] at this
  rw [← this]
  congr 1
  unfold sampleTime
  push_cast
  ring

/-- **C44** (filter). With `filter` components no dropped amplitude exceeds a kept one, and the synthesis differs from that of all
components by at most twice the dropped amplitudes, at every time. -/
theorem C44_filter (N : ℕ) (hN : 0 < N) (step : ℝ) (hs : 0 < step) (F : ℕ) (hF : F ≤ halfLen N) (written : Bool) (read : Scaled)
    (hm : Matching written read) (response : ℕ → ℂ) (x : ℕ → ℝ) (sort : List ℕ)
    (hsort : IsArgsortDesc (halfLen N) (fun k => response k * dft N x k) sort) :
    ∃ kept all, elementFft N step (some F) written response x sort = .ok kept ∧ kept.length = F ∧
      elementFft N step none written response x sort = .ok all ∧
      (∀ a ∈ sort.take F, ∀ b ∈ sort.drop F, ‖response b * dft N x b‖ ≤ ‖response a * dft N x a‖) ∧
      ∀ t, |synthElement all read t - synthElement kept read t| ≤ 2 * ((sort.drop F).map fun k => ‖response k * dft N x k‖).sum := by
  have hlen : sort.length = halfLen N := by rw [hsort.1.length_eq, List.length_range]
  refine ⟨_, _, by
    unfold elementFft
    simp only [Option.getD_some]
    rw [if_neg (by omega)], ?_, by
    unfold elementFft
    simp only [Option.getD_none]
    rw [if_neg (by omega), List.take_of_length_le hlen.le], ?_, ?_⟩
  · rw [List.length_map, List.length_take]
    omega
  · have hp := hsort.2
    rw [← List.take_append_drop F sort, List.pairwise_append] at hp
    exact hp.2.2
  · intro t
    rw [synthElement_sum, synthElement_sum, List.map_map, List.map_map]
    conv_lhs =>
      rw [show (List.map _ sort) = List.map _ (sort.take F ++ sort.drop F) by rw [List.take_append_drop]]
    rw [List.map_append, List.sum_append, Complex.add_re, add_sub_cancel_left]
    generalize sort.drop F = l
    refine (Complex.abs_re_le_norm _).trans ?_
    induction l with
    | nil => simp
    | cons a l ih =>
      rw [List.map_cons, List.sum_cons, List.map_cons, List.sum_cons, mul_add]
      refine (norm_add_le _ _).trans (add_le_add ?_ ih)
      have he := entry N hN step hs written read (response a * dft N x a) a t
      simp only at he
      simp only [Function.comp_apply]
      rw [he, norm_mul, norm_mul]
      have hu : ‖(⟨Real.cos (2 * Real.pi * a * (24 * t / step) / N), Real.sin (2 * Real.pi * a * (24 * t / step) / N)⟩ : ℂ)‖ = 1 := by
        rw [← expi, mul_comm, Complex.norm_exp_ofReal_mul_I]
      rw [hu, mul_one]
      apply mul_le_mul_of_nonneg_right _ (norm_nonneg _)
      have hfac : ((if written then 2 else 1) * (if read.isFalse then 2 else 1) : ℂ) = 2 := by
        cases read with
        | none => simp only [Matching] at hm; subst hm; simp [Scaled.isFalse]
        | py b => simp only [Matching] at hm; subst hm; cases written <;> simp [Scaled.isFalse]
        | array b => simp only [Matching] at hm; rw [hm.1, hm.2]; simp [Scaled.isFalse]
      rw [hfac]
      split_ifs <;> norm_num

/-- **C44** (documented frequency vector, finding). Frequencies of shape `(k,)` are refused for general sizes. -/
theorem C44_vector_refused (k n : ℕ) (h1 : k ≠ n) (h2 : k ≠ 1) (h3 : n ≠ 1) (frequency : ℕ → ℝ) (spectrum : ℕ → ℕ → ℕ → ℂ)
    (s : Scaled) (t : ℝ) : synthRotateVec k n frequency spectrum s t = .error .valueError := by
  unfold synthRotateVec
  rw [if_neg h1, if_neg h2, if_neg h3]

/-- **C44** (documented frequency vector, finding). For `k = n` the frequencies are taken along the wrong axis: the result
differs from that of the same frequencies in the three-dimensional form. -/
theorem C44_vector_wrong : ∃ (frequency : ℕ → ℝ) (spectrum : ℕ → ℕ → ℕ → ℂ) (t : ℝ) (r : ℕ → ℕ → ℝ),
    synthRotateVec 2 2 frequency spectrum (.py true) t = .ok (2, r) ∧
    r 0 1 ≠ synthRotate 2 (fun q _ _ => frequency q) spectrum (.py true) t 0 1 := by
  refine ⟨fun q => q, fun q _ _ => if q = 0 then 1 else 0, 1 / 2, _, by unfold synthRotateVec; rw [if_pos rfl], ?_⟩
  simp only [synthRotate, Finset.sum_range_succ, Finset.sum_range_zero, harmonic, Scaled.isFalse]
  have h : 2 * Real.pi * (1 / 2 : ℝ) = Real.pi := by ring
  norm_num [h]

/-- **C44** (induced part). The Q-response applied to Gauss coefficient number `k` is that of its degree `n` (row `n - 1` of the
response table). -/
theorem C44_response_degree (n k : ℕ) (hn : 0 < n) (h1 : n ^ 2 - 1 ≤ k) (h2 : k < (n + 1) ^ 2 - 1) : responseIndex k = (n : ℤ) - 1 := by
  unfold responseIndex
  rw [Int.floor_eq_iff]
  have h1' : n ^ 2 ≤ k + 1 := by omega
  have h2' : k + 1 < (n + 1) ^ 2 := by
    have : 1 ≤ (n + 1) ^ 2 := Nat.one_le_pow _ _ (by omega)
    omega
  have e1 : (n : ℝ) ≤ Real.sqrt ((k : ℝ) + 1) := by
    apply Real.le_sqrt_of_sq_le
    exact_mod_cast h1'
  have e2 : Real.sqrt ((k : ℝ) + 1) < (n : ℝ) + 1 := by
    rw [Real.sqrt_lt' (by positivity)]
    exact_mod_cast h2'
  push_cast
  constructor <;> linarith

/-- Order of the amplitudes of a concrete series (three samples 1, 0, 0: all amplitudes are equal). -/
theorem ex_argsort : IsArgsortDesc (halfLen 3) (fun k => 1 * dft 3 (fun n => if n = 0 then 1 else 0) k) [0, 1] := by
  refine ⟨List.Perm.refl _, ?_⟩
  have h : ∀ k, ‖(1 : ℂ) * dft 3 (fun n => if n = 0 then 1 else 0) k‖ = 1 / 3 := by
    intro k
    rw [one_mul, dft, Finset.sum_eq_single 0]
    · simp
    · intro b _ hb
      simp [hb]
    · intro hc
      exact absurd (Finset.mem_range.2 (by norm_num)) hc
  simp only [h, le_refl]
  exact List.pairwise_of_forall (fun _ _ => trivial)

end ChaosMagPy.Fourier
