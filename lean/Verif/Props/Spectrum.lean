import Verif.Model.Spectrum
import Verif.Spec.Spectrum
import Verif.Props.Index
import Mathlib.Algebra.Order.BigOperators.Ring.Finset
/-!
# C47-C49: power spectrum, degree correlation, sensitivity
-/
namespace ChaosMagPy.Spectrum
open ChaosMagPy.Legendre (pyRange mem_pyRange)
open ChaosMagPy.Index
open ChaosMagPy.Spec

/-! ### Loops -/

theorem foldl_set {α : Type} (f : ℕ → α) (d : α) (K : ℕ) :
    (pyRange 1 (K + 1)).foldl (fun (W : List α) (n : ℕ) => W.set (n - 1) (f n)) (List.replicate K d) =
      (List.range K).map fun i => f (i + 1) := by
  have gen : ∀ k, k ≤ K → (pyRange 1 (k + 1)).foldl (fun (W : List α) (n : ℕ) => W.set (n - 1) (f n)) (List.replicate K d) =
      ((List.range k).map fun i => f (i + 1)) ++ List.replicate (K - k) d := by
    intro k
    induction k with
    | zero => intro _; simp [pyRange]
    | succ k ih =>
      intro hk
      rw [pyRange_snoc _ _ (by omega), List.foldl_append, ih (by omega)]
      simp only [List.foldl_cons, List.foldl_nil, Nat.add_sub_cancel]
      rw [List.set_append_right _ _ (by simp)]
      simp only [List.length_map, List.length_range, Nat.sub_self]
      rw [show K - k = (K - (k + 1)) + 1 by omega, List.replicate_succ, List.set_cons_zero, List.range_succ, List.map_append]
      simp
  have := gen K le_rfl
  simpa using this

/-- Sum over the block of a degree. -/
theorem sum_block (f : ℕ → ℝ) (n : ℕ) (hn : 1 ≤ n) :
    ∑ i ∈ Finset.Ico (n ^ 2 - 1) (n ^ 2 - 1 + (2 * n + 1)), f i =
      ∑ m ∈ Finset.range (n + 1), (f (gaussPos n m) + if m = 0 then 0 else f (gaussPos n (-(m : ℤ)))) := by
  have hsq : 1 ≤ n ^ 2 := Nat.one_le_pow _ _ hn
  rw [Finset.sum_Ico_eq_sum_range, Nat.add_sub_cancel_left]
  have gen : ∀ k, ∑ i ∈ Finset.range (2 * k + 1), f (n ^ 2 - 1 + i) =
      ∑ m ∈ Finset.range (k + 1), (f (gaussPos n m) + if m = 0 then 0 else f (gaussPos n (-(m : ℤ)))) := by
    intro k
    induction k with
    | zero => simp [gaussPos]
    | succ k ih =>
      rw [show 2 * (k + 1) + 1 = (2 * k + 1) + 1 + 1 by ring, Finset.sum_range_succ, Finset.sum_range_succ, ih, Finset.sum_range_succ (n := k + 1)]
      rw [if_neg (Nat.succ_ne_zero k)]
      have e1 : gaussPos n ((k + 1 : ℕ) : ℤ) = n ^ 2 - 1 + (2 * k + 1) := by
        unfold gaussPos
        rw [if_neg (by omega), if_pos (by omega)]
        omega
      have e2 : gaussPos n (-((k + 1 : ℕ) : ℤ)) = n ^ 2 - 1 + (2 * k + 1 + 1) := by
        unfold gaussPos
        rw [if_neg (by omega), if_neg (by omega)]
        omega
      rw [e1, e2, add_assoc]
  exact gen n

theorem slice_power (dim : ℕ) (c : ℕ → ℝ) (n : ℕ) (hn : 1 ≤ n) (h : n * (n + 2) ≤ dim) :
    sumSlice dim (fun i => c i ^ 2) (n ^ 2 - 1) (n ^ 2 - 1 + (2 * n + 1)) = degreePower c n := by
  unfold sumSlice
  have hsq : 1 ≤ n ^ 2 := Nat.one_le_pow _ _ hn
  rw [min_eq_left (by nlinarith [Nat.sub_add_cancel hsq]), sum_block _ n hn]
  unfold degreePower gaussG gaussH
  apply Finset.sum_congr rfl
  intro m _
  split_ifs <;> simp

theorem slice_product (dim : ℕ) (c d : ℕ → ℝ) (n : ℕ) (hn : 1 ≤ n) (h : n * (n + 2) ≤ dim) :
    sumSlice dim (fun i => c i * d i) (n ^ 2 - 1) (n ^ 2 - 1 + (2 * n + 1)) = degreeProduct c d n := by
  unfold sumSlice
  have hsq : 1 ≤ n ^ 2 := Nat.one_le_pow _ _ hn
  rw [min_eq_left (by nlinarith [Nat.sub_add_cancel hsq]), sum_block _ n hn]
  unfold degreeProduct gaussG gaussH
  apply Finset.sum_congr rfl
  intro m _
  split_ifs <;> simp

theorem degreePower_nonneg (c : ℕ → ℝ) (n : ℕ) : 0 ≤ degreePower c n :=
  Finset.sum_nonneg fun _ _ => by positivity

theorem degreeProduct_self (c : ℕ → ℝ) (n : ℕ) : degreeProduct c c n = degreePower c n := by
  unfold degreeProduct degreePower
  apply Finset.sum_congr rfl
  intro m _
  ring

theorem degreeProduct_comm (c d : ℕ → ℝ) (n : ℕ) : degreeProduct c d n = degreeProduct d c n := by
  unfold degreeProduct
  apply Finset.sum_congr rfl
  intro m _
  ring

theorem degreeProduct_smul (s : ℝ) (c d : ℕ → ℝ) (n : ℕ) : degreeProduct (fun i => s * c i) d n = s * degreeProduct c d n := by
  unfold degreeProduct gaussG gaussH
  rw [Finset.mul_sum]
  apply Finset.sum_congr rfl
  intro m _
  split_ifs <;> ring

/-- Cauchy-Schwarz for one degree. -/
theorem cauchy (c d : ℕ → ℝ) (n : ℕ) : degreeProduct c d n ^ 2 ≤ degreePower c n * degreePower d n := by
  have h : ∀ t : ℝ, 0 ≤ degreePower d n * t ^ 2 - 2 * degreeProduct c d n * t + degreePower c n := by
    intro t
    have : degreePower d n * t ^ 2 - 2 * degreeProduct c d n * t + degreePower c n = degreePower (fun i => c i - t * d i) n := by
      unfold degreePower degreeProduct gaussG gaussH
      rw [Finset.sum_mul, Finset.mul_sum, Finset.sum_mul, ← Finset.sum_sub_distrib, ← Finset.sum_add_distrib]
      apply Finset.sum_congr rfl
      intro m _
      split_ifs <;> ring
    rw [this]
    exact degreePower_nonneg _ _
  rcases (degreePower_nonneg d n).eq_or_lt with h0 | h0
  · have hz : degreeProduct c d n = 0 := by
      by_contra hne
      have := h ((degreePower c n + 1) / (2 * degreeProduct c d n))
      rw [← h0] at this
      have e : 2 * degreeProduct c d n * ((degreePower c n + 1) / (2 * degreeProduct c d n)) = degreePower c n + 1 := by field_simp
      rw [e] at this
      linarith
    rw [hz, ← h0]
    simp
  · have := h (degreeProduct c d n / degreePower d n)
    have e : degreePower d n * (degreeProduct c d n / degreePower d n) ^ 2 - 2 * degreeProduct c d n * (degreeProduct c d n / degreePower d n) + degreePower c n
        = (degreePower c n * degreePower d n - degreeProduct c d n ^ 2) / degreePower d n := by
      field_simp
      ring
    rw [e] at this
    have h2 : 0 ≤ degreePower c n * degreePower d n - degreeProduct c d n ^ 2 := by
      by_contra hneg
      push Not at hneg
      exact absurd this (not_le.2 (div_neg_of_neg_of_pos hneg h0))
    linarith

/-! ### Power spectrum -/

/-- The factor that the documentation gives for a source. -/
noncomputable def docFactor (source : String) (a r : ℝ) (n : ℕ) : ℝ :=
  if source = "internal" then factorInternal a r n
  else if source = "external" then factorExternal a r n
  else factorToroidal n

theorem factor_eq (source : String) (hsrc : source = "internal" ∨ source = "external" ∨ source = "toroidal") (a r : ℝ) :
    ∃ fac, factor (some source) = .ok fac ∧ ∀ n : ℕ, 1 ≤ n → fac n (a / r) = docFactor source a r n := by
  rcases hsrc with rfl | rfl | rfl
  · refine ⟨_, rfl, ?_⟩
    intro n _
    simp only [docFactor, if_pos, factorInternal]
    rw [show (2 * (n : ℤ) + 4) = ((2 * n + 4 : ℕ) : ℤ) by push_cast; ring, zpow_natCast]
  · refine ⟨_, rfl, ?_⟩
    intro n hn
    have h : ("external" : String) ≠ "internal" := by decide
    simp only [docFactor, if_neg h, if_pos, factorExternal]
    rw [show (2 * (n : ℤ) - 2) = ((2 * n - 2 : ℕ) : ℤ) by omega, zpow_neg, zpow_natCast, ← inv_pow, inv_div]
  · refine ⟨_, rfl, ?_⟩
    intro n _
    have h : ("toroidal" : String) ≠ "internal" := by decide
    have h' : ("toroidal" : String) ≠ "external" := by decide
    simp only [docFactor, if_neg h, if_neg h', factorToroidal]

theorem nmax_of (dim N : ℕ) (h1 : N * (N + 2) ≤ dim) (h2 : dim < (N + 1) * (N + 3)) : nmaxOfDim dim = N :=
  (C12_nmax_of_dim dim N).2 ⟨h1, h2⟩

/-- **C47.** The spectrum has one entry per degree up to `nmax` (at most the degree `N` of the coefficients): the documented
factor times the sum of the squares of the coefficients of that degree. -/
theorem C47_degree (a : ℝ) (dim N : ℕ) (h1 : N * (N + 2) ≤ dim) (h2 : dim < (N + 1) * (N + 3)) (c : ℕ → ℝ) (r : ℝ) (hr : r ≠ 0)
    (nmax : Option ℕ) (source : String) (hsrc : source = "internal" ∨ source = "external" ∨ source = "toroidal") :
    ∃ W : List (Option ℝ), powerSpectrum a dim c (some r) (nmax.map (fun n : ℕ => (n : ℤ))) (some source) = .ok W ∧
      W.length = min (nmax.getD N) N ∧
      ∀ n, 1 ≤ n → n ≤ min (nmax.getD N) N → W[n - 1]? = some (some (docFactor source a r n * degreePower c n)) := by
  obtain ⟨fac, hf, hfe⟩ := factor_eq source hsrc a r
  have hN := nmax_of dim N h1 h2
  have hK : clipDegree (nmaxOfDim dim) (nmax.map (fun n : ℕ => (n : ℤ))) =
      ((min (nmax.getD N) N : ℕ) : ℤ) := by
    rw [hN]
    cases nmax with
    | none => simp [clipDegree]
    | some n =>
      simp only [Option.map_some, Option.getD_some, clipDegree]
      split_ifs with h
      · congr 1; omega
      · congr 1; omega
  refine ⟨_, by
    unfold powerSpectrum
    simp only [if_neg hr]
    rw [hf]
    simp only [pure_bind, bind, Except.bind, pure, Except.pure]
    rw [hK, if_neg (by omega)], ?_, ?_⟩
  · rw [Int.toNat_natCast, foldl_set (fun n => some (fac n (a / r) * sumSlice dim (fun i => c i ^ 2) (n ^ 2 - 1) (n ^ 2 - 1 + (2 * n + 1))))]
    simp
  · intro n hn hle
    rw [Int.toNat_natCast, foldl_set (fun n => some (fac n (a / r) * sumSlice dim (fun i => c i ^ 2) (n ^ 2 - 1) (n ^ 2 - 1 + (2 * n + 1))))]
    rw [List.getElem?_map, List.getElem?_range (by omega)]
    simp only [Option.map_some]
    rw [Nat.sub_add_cancel hn, hfe n hn, slice_power dim c n hn (le_trans (Nat.mul_le_mul (by omega) (by omega)) h1)]

/-- **C47** (defaults). Without `radius` the spectrum is that at the reference surface, without `source` the internal one. -/
theorem C47_defaults (a : ℝ) (ha : a ≠ 0) (dim : ℕ) (c : ℕ → ℝ) (nmax : Option ℤ) (source : Option String) (radius : Option ℝ) :
    powerSpectrum a dim c none nmax source = powerSpectrum a dim c (some a) nmax source ∧
    powerSpectrum a dim c radius nmax none = powerSpectrum a dim c radius nmax (some "internal") := by
  constructor
  · unfold powerSpectrum
    simp only [if_neg ha, div_self ha]
  · rfl

/-- **C47** (properties of the spectrum). Every entry is non-negative for positive radii, multiplying the coefficients by `s`
multiplies it by `s²`, and going to another radius multiplies entry `n` by the power of the ratio. -/
theorem C47_scaling (a : ℝ) (ha : 0 < a) (dim N : ℕ) (h1 : N * (N + 2) ≤ dim) (h2 : dim < (N + 1) * (N + 3)) (c : ℕ → ℝ) (r r' s : ℝ)
    (hr : 0 < r) (hr' : 0 < r') (nmax : Option ℕ) (source : String) (hsrc : source = "internal" ∨ source = "external" ∨ source = "toroidal") :
    ∃ W Ws W' : List (Option ℝ),
      powerSpectrum a dim c (some r) (nmax.map (fun n : ℕ => (n : ℤ))) (some source) = .ok W ∧
      powerSpectrum a dim (fun i => s * c i) (some r) (nmax.map (fun n : ℕ => (n : ℤ))) (some source) = .ok Ws ∧
      powerSpectrum a dim c (some r') (nmax.map (fun n : ℕ => (n : ℤ))) (some source) = .ok W' ∧
      ∀ n, 1 ≤ n → n ≤ min (nmax.getD N) N → ∃ w : ℝ, 0 ≤ w ∧ W[n - 1]? = some (some w) ∧ Ws[n - 1]? = some (some (s ^ 2 * w)) ∧
        W'[n - 1]? = some (some ((if source = "internal" then (r / r') ^ (2 * n + 4) else if source = "external" then (r' / r) ^ (2 * n - 2) else 1) * w)) := by
  obtain ⟨W, e1, _, e2⟩ := C47_degree a dim N h1 h2 c r hr.ne' nmax source hsrc
  obtain ⟨Ws, e3, _, e4⟩ := C47_degree a dim N h1 h2 (fun i => s * c i) r hr.ne' nmax source hsrc
  obtain ⟨W', e5, _, e6⟩ := C47_degree a dim N h1 h2 c r' hr'.ne' nmax source hsrc
  refine ⟨W, Ws, W', e1, e3, e5, ?_⟩
  intro n hn hle
  refine ⟨docFactor source a r n * degreePower c n, ?_, e2 n hn hle, ?_, ?_⟩
  · apply mul_nonneg _ (degreePower_nonneg c n)
    unfold docFactor factorInternal factorExternal factorToroidal
    split_ifs <;> positivity
  · rw [e4 n hn hle]
    congr 2
    rw [← degreeProduct_self, degreeProduct_smul, degreeProduct_comm, degreeProduct_smul, degreeProduct_self]
    ring
  · rw [e6 n hn hle]
    congr 2
    rw [← mul_assoc]
    congr 1
    unfold docFactor factorInternal factorExternal
    split_ifs
    · rw [show a / r' = (r / r') * (a / r) by field_simp, mul_pow]; ring
    · rw [show r' / a = (r' / r) * (r / a) by field_simp, mul_pow]; ring
    · ring

/-- **C47** (errors). An unknown source raises ValueError, for every input. -/
theorem C47_unknown_source (a : ℝ) (dim : ℕ) (c : ℕ → ℝ) (r : ℝ) (hr : r ≠ 0) (nmax : Option ℤ) (source : String)
    (hsrc : ¬ (source = "internal" ∨ source = "external" ∨ source = "toroidal")) :
    powerSpectrum a dim c (some r) nmax (some source) = .error .valueError ∧
    powerSpectrum a dim c none nmax (some source) = .error .valueError := by
  push Not at hsrc
  have hf : factor (some source) = .error .valueError := by
    unfold factor
    simp only [Option.getD_some]
    split
    · exact absurd rfl hsrc.1
    · exact absurd rfl hsrc.2.1
    · exact absurd rfl hsrc.2.2
    · rfl
  unfold powerSpectrum
  simp only [if_neg hr]
  rw [hf]
  exact ⟨rfl, rfl⟩

/-! ### Degree correlation -/

/-- **C48.** One entry per degree; if one of the models has no power in the degree the entry is NaN, otherwise it is the
normalised product of the coefficients of the degree, and lies between -1 and 1. -/
theorem C48_correlation (dim N : ℕ) (h1 : N * (N + 2) ≤ dim) (h2 : dim < (N + 1) * (N + 3)) (c d : ℕ → ℝ) :
    ∃ C : List Num, degreeCorrelation dim c dim d = .ok C ∧ C.length = N ∧ ∀ n, 1 ≤ n → n ≤ N →
      (degreePower c n = 0 ∨ degreePower d n = 0 → C[n - 1]? = some .nan) ∧
      (degreePower c n ≠ 0 → degreePower d n ≠ 0 → ∃ x, C[n - 1]? = some (.val x) ∧
        x = degreeProduct c d n / (Real.sqrt (degreePower c n) * Real.sqrt (degreePower d n)) ∧ -1 ≤ x ∧ x ≤ 1) := by
  have hN := nmax_of dim N h1 h2
  refine ⟨_, by
    unfold degreeCorrelation
    rw [if_neg (by simp)]
    simp only [pure_bind, bind, Except.bind, pure, Except.pure]
    rw [hN, Int.toNat_natCast, foldl_set (fun n => Num.div (sumSlice dim (fun i => c i * d i) (n ^ 2 - 1) (n ^ 2 - 1 + (2 * n + 1)))
      (Real.sqrt (sumSlice dim (fun i => c i ^ 2) (n ^ 2 - 1) (n ^ 2 - 1 + (2 * n + 1)) * sumSlice dim (fun i => d i ^ 2) (n ^ 2 - 1) (n ^ 2 - 1 + (2 * n + 1)))))], ?_, ?_⟩
  · simp
  intro n hn hle
  have hd : n * (n + 2) ≤ dim := le_trans (Nat.mul_le_mul hle (by omega)) h1
  rw [List.getElem?_map, List.getElem?_range (by omega)]
  simp only [Option.map_some]
  rw [Nat.sub_add_cancel hn, slice_product dim c d n hn hd, slice_power dim c n hn hd, slice_power dim d n hn hd]
  have hc0 := degreePower_nonneg c n
  have hd0 := degreePower_nonneg d n
  have hcs := cauchy c d n
  constructor
  · intro h
    have hz : degreePower c n * degreePower d n = 0 := mul_eq_zero.2 h
    have hp : degreeProduct c d n = 0 := by
      rw [hz] at hcs
      exact pow_eq_zero_iff (two_ne_zero) |>.1 (le_antisymm hcs (sq_nonneg _))
    rw [hz, hp, Real.sqrt_zero]
    simp [Num.div]
  · intro hc hd'
    have hcp := lt_of_le_of_ne hc0 (Ne.symm hc)
    have hdp := lt_of_le_of_ne hd0 (Ne.symm hd')
    have hpos : 0 < Real.sqrt (degreePower c n * degreePower d n) := Real.sqrt_pos.2 (mul_pos hcp hdp)
    refine ⟨degreeProduct c d n / Real.sqrt (degreePower c n * degreePower d n), ?_, ?_, ?_⟩
    · simp [Num.div, hpos.ne']
    · rw [Real.sqrt_mul hc0]
    · rw [le_div_iff₀ hpos, div_le_iff₀ hpos]
      have := Real.abs_le_sqrt hcs
      rw [abs_le] at this
      constructor <;> linarith [this.1, this.2]

/-- **C48** (symmetry). -/
theorem C48_symmetric (dim : ℕ) (c d : ℕ → ℝ) : degreeCorrelation dim c dim d = degreeCorrelation dim d dim c := by
  unfold degreeCorrelation
  simp only [ne_eq, not_true, if_false, pure_bind, mul_comm]

/-- **C48** (self and scaled models). The correlation of a model with a multiple of itself is 1 or -1 in every degree with
power, according to the sign of the factor; in general a positive factor changes nothing and a negative one the sign. -/
theorem C48_scaling (dim N : ℕ) (h1 : N * (N + 2) ≤ dim) (h2 : dim < (N + 1) * (N + 3)) (c d : ℕ → ℝ) (s : ℝ) (hs : s ≠ 0) :
    ∃ C Cs Cself : List Num, degreeCorrelation dim c dim d = .ok C ∧ degreeCorrelation dim (fun i => s * c i) dim d = .ok Cs ∧
      degreeCorrelation dim (fun i => s * c i) dim c = .ok Cself ∧ ∀ n, 1 ≤ n → n ≤ N → degreePower c n ≠ 0 →
        Cself[n - 1]? = some (.val (if 0 < s then 1 else -1)) ∧
        (degreePower d n ≠ 0 → ∃ x, C[n - 1]? = some (.val x) ∧ Cs[n - 1]? = some (.val (if 0 < s then x else -x))) := by
  obtain ⟨C, e1, _, e2⟩ := C48_correlation dim N h1 h2 c d
  obtain ⟨Cs, e3, _, e4⟩ := C48_correlation dim N h1 h2 (fun i => s * c i) d
  obtain ⟨Cf, e5, _, e6⟩ := C48_correlation dim N h1 h2 (fun i => s * c i) c
  refine ⟨C, Cs, Cf, e1, e3, e5, ?_⟩
  intro n hn hle hc
  have hps : degreePower (fun i => s * c i) n = s ^ 2 * degreePower c n := by
    rw [← degreeProduct_self, degreeProduct_smul, degreeProduct_comm, degreeProduct_smul, degreeProduct_self]
    ring
  have hpsne : degreePower (fun i => s * c i) n ≠ 0 := by
    rw [hps]; exact mul_ne_zero (pow_ne_zero 2 hs) hc
  have hsq : Real.sqrt (degreePower (fun i => s * c i) n) = |s| * Real.sqrt (degreePower c n) := by
    rw [hps, Real.sqrt_mul (sq_nonneg s), Real.sqrt_sq_eq_abs]
  have hcp := lt_of_le_of_ne (degreePower_nonneg c n) (Ne.symm hc)
  have hr := Real.sqrt_pos.2 hcp
  have hsign : ∀ x y : ℝ, s * x / (|s| * y) = if 0 < s then x / y else -(x / y) := by
    intro x y
    split_ifs with h
    · rw [abs_of_pos h, mul_div_mul_left _ _ hs]
    · have hlt : s < 0 := lt_of_le_of_ne (not_lt.1 h) hs
      rw [abs_of_neg hlt, neg_mul, div_neg, mul_div_mul_left _ _ hs]
  constructor
  · obtain ⟨x, hx1, hx2, _⟩ := (e6 n hn hle).2 hpsne hc
    rw [hx1, hx2, hsq, degreeProduct_smul, degreeProduct_self, mul_assoc, Real.mul_self_sqrt hcp.le, hsign, div_self hc]
  · intro hd
    obtain ⟨x, hx1, hx2, _⟩ := (e2 n hn hle).2 hc hd
    obtain ⟨y, hy1, hy2, _⟩ := (e4 n hn hle).2 hpsne hd
    refine ⟨x, hx1, ?_⟩
    rw [hy1, hy2, hx2, hsq, degreeProduct_smul, mul_assoc, hsign]

/-- **C48** (errors). Different numbers of coefficients raise ValueError. -/
theorem C48_sizes (dim1 dim2 : ℕ) (h : dim1 ≠ dim2) (c d : ℕ → ℝ) : degreeCorrelation dim1 c dim2 d = .error .valueError := by
  unfold degreeCorrelation
  rw [if_pos h]
  rfl

/-! ### Sensitivity -/

/-- One pass of the loop over the array. -/
theorem foldl_blocks (w : ℕ → Num) (dim : ℕ) (g : ℕ → ℝ) (K : ℕ) :
    (pyRange 1 (K + 1)).foldl (fun (S : List Num) (n : ℕ) =>
      S.mapIdx fun i s => if n ^ 2 - 1 ≤ i ∧ i < n ^ 2 - 1 + (2 * n + 1) then scaleEntry (w n) s else s)
      ((List.range dim).map fun i => Num.val (g i)) =
    (List.range dim).map fun i => if (i + 1).sqrt ≤ K then Num.mul (g i) (w (i + 1).sqrt) else .val (g i) := by
  induction K with
  | zero =>
    simp only [pyRange, Nat.zero_add, Nat.sub_self, List.range'_zero, List.foldl_nil]
    apply List.map_congr_left
    intro i _
    rw [if_neg]
    have : 0 < (i + 1).sqrt := Nat.sqrt_pos.2 (by omega)
    omega
  | succ K ih =>
    rw [pyRange_snoc _ _ (by omega), List.foldl_append, ih]
    simp only [List.foldl_cons, List.foldl_nil]
    apply List.ext_getElem
    · simp
    intro i h1 h2
    rw [List.getElem_mapIdx, List.getElem_map, List.getElem_map, List.getElem_range]
    have hiff : ((K + 1) ^ 2 - 1 ≤ i ∧ i < (K + 1) ^ 2 - 1 + (2 * (K + 1) + 1)) ↔ (i + 1).sqrt = K + 1 := by
      have hsq : 1 ≤ (K + 1) ^ 2 := Nat.one_le_pow _ _ (by omega)
      rw [eq_comm, Nat.eq_sqrt']
      have : (K + 1 + 1) ^ 2 = (K + 1) ^ 2 + 2 * (K + 1) + 1 := by ring
      rw [this]
      omega
    by_cases h : (i + 1).sqrt = K + 1
    · rw [if_pos (hiff.2 h), h, if_neg (by omega), if_pos le_rfl]
      rfl
    · rw [if_neg (fun hc => h (hiff.1 hc))]
      by_cases h' : (i + 1).sqrt ≤ K
      · rw [if_pos h', if_pos (by omega)]
      · rw [if_neg h', if_neg (by omega)]

/-- **C49.** The result has the length of the input. The entry of a coefficient `(n, m)` is the misfit divided by the root mean
square of the true coefficients of degree `n`; if these are all zero it is NaN or infinite with the sign of the misfit. -/
theorem C49_sensitivity (dim N : ℕ) (h1 : N * (N + 2) ≤ dim) (h2 : dim < (N + 1) * (N + 3)) (c d : ℕ → ℝ) :
    ∃ S : List Num, sensitivity dim c dim d = .ok S ∧ S.length = dim ∧
      (∀ (n : ℕ) (m : ℤ), 1 ≤ n → n ≤ N → m.natAbs ≤ n →
        (degreePower d n ≠ 0 → S[gaussPos n m]? = some (.val
          ((c (gaussPos n m) - d (gaussPos n m)) / Real.sqrt (degreePower d n / (2 * n + 1))))) ∧
        (degreePower d n = 0 → S[gaussPos n m]? = some (
          if c (gaussPos n m) - d (gaussPos n m) = 0 then .nan else if 0 < c (gaussPos n m) - d (gaussPos n m) then .posInf else .negInf))) ∧
      ∀ i, N * (N + 2) ≤ i → i < dim → S[i]? = some (.val (c i - d i)) := by
  have hN := nmax_of dim N h1 h2
  refine ⟨_, by
    unfold sensitivity
    rw [if_neg (by simp)]
    simp only [pure_bind, bind, Except.bind, pure, Except.pure]
    rw [hN, Int.toNat_natCast, foldl_blocks (fun n => Num.div 1 (Real.sqrt (sumSlice dim (fun i => d i ^ 2) (n ^ 2 - 1) (n ^ 2 - 1 + (2 * n + 1)) / (2 * n + 1))))
      dim (fun i => c i - d i) N], by simp, ?_, ?_⟩
  · intro n m hn hle hm
    obtain ⟨_, hb1, hb2⟩ := block_get n m hn hm
    have hsq : 1 ≤ n ^ 2 := Nat.one_le_pow _ _ hn
    have e2 : (n + 1) ^ 2 = n ^ 2 + 2 * n + 1 := by ring
    have hd : n * (n + 2) ≤ dim := le_trans (Nat.mul_le_mul hle (by omega)) h1
    have hnn : n * (n + 2) = n ^ 2 + 2 * n := by ring
    have hlt : gaussPos n m < dim := by omega
    have hs : (gaussPos n m + 1).sqrt = n := by
      rw [eq_comm, Nat.eq_sqrt', e2]
      omega
    rw [List.getElem?_map, List.getElem?_range hlt]
    simp only [Option.map_some, hs]
    rw [if_pos hle, slice_power dim d n hn hd]
    constructor
    · intro hne
      have hp := lt_of_le_of_ne (degreePower_nonneg d n) (Ne.symm hne)
      have hr : 0 < Real.sqrt (degreePower d n / (2 * n + 1)) := Real.sqrt_pos.2 (by positivity)
      simp only [Num.div, if_neg hr.ne', Num.mul]
      rw [mul_one_div]
    · intro h0
      rw [h0, zero_div, Real.sqrt_zero]
      simp only [Num.div, if_pos, one_ne_zero, if_false, zero_lt_one, Num.mul]
  · intro i hi1 hi2
    rw [List.getElem?_map, List.getElem?_range hi2]
    simp only [Option.map_some]
    rw [if_neg]
    intro hc
    have : (i + 1).sqrt < N + 1 := by omega
    rw [Nat.sqrt_lt'] at this
    have e2 : (N + 1) ^ 2 = N * (N + 2) + 1 := by ring
    omega

/-- **C49** (errors). Different numbers of coefficients raise ValueError. -/
theorem C49_sizes (dim1 dim2 : ℕ) (h : dim1 ≠ dim2) (c d : ℕ → ℝ) : sensitivity dim1 c dim2 d = .error .valueError := by
  unfold sensitivity
  rw [if_pos h]
  rfl

/-! ### Concrete cases -/

/-- The example of the documentation of `sensitivity`: `(5 - 3) / sqrt(14 / 3)`. -/
example : ∃ S : List Num, sensitivity 3 (fun i => [1, 2, 5].getD i 0) 3 (fun i => [1, 2, 3].getD i 0) = .ok S ∧
    S[2]? = some (.val (2 / Real.sqrt (14 / 3))) := by
  obtain ⟨S, h1, _, h2, _⟩ := C49_sensitivity 3 1 (by norm_num) (by norm_num) (fun i => [1, 2, 5].getD i 0) (fun i => [1, 2, 3].getD i 0)
  refine ⟨S, h1, ?_⟩
  have hp : degreePower (fun i => [1, 2, 3].getD i 0) 1 = 14 := by
    simp [degreePower, gaussG, gaussH, gaussPos, Finset.sum_range_succ]
    norm_num
  have := (h2 1 (-1) le_rfl le_rfl (by simp)).1 (by rw [hp]; norm_num)
  rw [hp] at this
  simp only [gaussPos] at this
  norm_num at this
  rw [Real.sqrt_div (by norm_num)]
  exact this

/-- Spectrum of a model of degree 2 with 8 coefficients, sizes in the hypotheses. -/
example : 2 * (2 + 2) ≤ 8 ∧ 8 < (2 + 1) * (2 + 3) := by norm_num

example : degreePower (fun i => (i : ℝ)) 2 = 3 ^ 2 + 4 ^ 2 + 5 ^ 2 + 6 ^ 2 + 7 ^ 2 := by
  simp [degreePower, gaussG, gaussH, gaussPos, Finset.sum_range_succ]
  norm_num

end ChaosMagPy.Spectrum
