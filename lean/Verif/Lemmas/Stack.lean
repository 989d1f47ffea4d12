import Verif.Lemmas.Divisor
/-!
# Stacks of uniform layers above a perfectly conducting core
-/
namespace ChaosMagPy.QResponse
open Complex Filter Topology
open ChaosMagPy.Spec (GoodShells CoreSolution uniform shells)

/-! ### Gluing -/

theorem Sol.congr {c c' : ℝ → ℂ} {r1 r2 : ℝ} {u du : ℝ → ℂ} (h : Sol c r1 r2 u du) (S : Set ℝ) (hS : S.Finite)
    (he : ∀ r ∈ Set.Ioo r1 r2, r ∉ S → c r = c' r) : Sol c' r1 r2 u du := by
  obtain ⟨h1, h2, S', hS', h3⟩ := h
  refine ⟨h1, h2, S ∪ S', hS.union hS', fun r hr hrs => ?_⟩
  rw [← he r hr fun hc => hrs (Or.inl hc)]
  exact h3 r hr fun hc => hrs (Or.inr hc)

theorem Sol.glue {c : ℝ → ℂ} {r1 r2 r3 : ℝ} (h12 : r1 ≤ r2) (h23 : r2 ≤ r3) {u du v dv : ℝ → ℂ} (hu : Sol c r1 r2 u du) (hv : Sol c r2 r3 v dv)
    (h1 : u r2 = v r2) (h2 : du r2 = dv r2) :
    Sol c r1 r3 (fun x => if x ≤ r2 then u x else v x) (fun x => if x ≤ r2 then du x else dv x) := by
  have hun : Set.Icc r1 r3 = Set.Icc r1 r2 ∪ Set.Icc r2 r3 := (Set.Icc_union_Icc_eq_Icc h12 h23).symm
  have eL : ∀ {f g : ℝ → ℂ}, ∀ x ∈ Set.Icc r1 r2, (if x ≤ r2 then f x else g x) = f x := fun x hx => if_pos hx.2
  have eR : ∀ {f g : ℝ → ℂ}, f r2 = g r2 → ∀ x ∈ Set.Icc r2 r3, (if x ≤ r2 then f x else g x) = g x := by
    intro f g hfg x hx
    by_cases hc : x ≤ r2
    · have : x = r2 := le_antisymm hc hx.1
      rw [if_pos hc, this, hfg]
    · rw [if_neg hc]
  refine ⟨?_, ?_, ?_⟩
  · intro r hr
    rw [hun]
    refine HasDerivWithinAt.union ?_ ?_
    · by_cases hc : r ≤ r2
      · rw [if_pos hc]
        exact (hu.hasDeriv r ⟨hr.1, hc⟩).congr eL (eL r ⟨hr.1, hc⟩)
      · rw [hasDerivWithinAt_iff_hasFDerivWithinAt]
        refine HasFDerivWithinAt.of_notMem_closure ?_
        rw [isClosed_Icc.closure_eq]
        exact fun hx => hc hx.2
    · by_cases hc : r2 ≤ r
      · rw [eR h2 r ⟨hc, hr.2⟩]
        exact (hv.hasDeriv r ⟨hc, hr.2⟩).congr (eR h1) (eR h1 r ⟨hc, hr.2⟩)
      · rw [hasDerivWithinAt_iff_hasFDerivWithinAt]
        refine HasFDerivWithinAt.of_notMem_closure ?_
        rw [isClosed_Icc.closure_eq]
        exact fun hx => hc hx.1
  · rw [hun]
    exact (hu.continuous.congr eL).union_of_isClosed (hv.continuous.congr (eR h2)) isClosed_Icc isClosed_Icc
  · obtain ⟨S, hS, e⟩ := hu.equation
    obtain ⟨S', hS', e'⟩ := hv.equation
    refine ⟨S ∪ S' ∪ {r2}, (hS.union hS').union (Set.finite_singleton _), fun r hr hrs => ?_⟩
    rcases lt_trichotomy r r2 with hc | hc | hc
    · rw [if_pos hc.le]
      exact (e r ⟨hr.1, hc⟩ fun h => hrs (Or.inl (Or.inl h))).congr_of_eventuallyEq (glue_below hc)
    · exact absurd (Or.inr hc) hrs
    · rw [if_neg (not_le.2 hc)]
      exact (e' r ⟨hc, hr.2⟩ fun h => hrs (Or.inl (Or.inr h))).congr_of_eventuallyEq (glue_above hc)

/-! ### Transport through a layer -/

/-- The six quotients of two functions. -/
noncomputable def quotOf (g g' f f' : ℂ → ℂ) (z0 z1 : ℂ) : Quotients := quotients (pairOf g g' f f' z0) (pairOf g g' f f' z1) 1

/-- The combination of two functions with given data at `r1`. -/
noncomputable def combU (g g' f f' : ℂ → ℂ) (k : ℂ) (r1 : ℝ) (u1 du1 : ℂ) (r : ℝ) : ℂ :=
  (f' (k * r1) * u1 - f (k * r1) * du1 / k) / (g (k * r1) * f' (k * r1) - g' (k * r1) * f (k * r1)) * g (k * r) +
  (g (k * r1) * du1 / k - g' (k * r1) * u1) / (g (k * r1) * f' (k * r1) - g' (k * r1) * f (k * r1)) * f (k * r)

/-- Its derivative. -/
noncomputable def dcombU (g g' f f' : ℂ → ℂ) (k : ℂ) (r1 : ℝ) (u1 du1 : ℂ) (r : ℝ) : ℂ :=
  (f' (k * r1) * u1 - f (k * r1) * du1 / k) / (g (k * r1) * f' (k * r1) - g' (k * r1) * f (k * r1)) * (k * g' (k * r)) +
  (g (k * r1) * du1 / k - g' (k * r1) * u1) / (g (k * r1) * f' (k * r1) - g' (k * r1) * f (k * r1)) * (k * f' (k * r))

theorem Sol.comb {c : ℝ → ℂ} {r1 r2 : ℝ} {u du v dv : ℝ → ℂ} (hu : Sol c r1 r2 u du) (hv : Sol c r1 r2 v dv) (α β : ℂ) :
    Sol c r1 r2 (fun r => α * u r + β * v r) (fun r => α * du r + β * dv r) := by
  obtain ⟨S, hS, e⟩ := hu.equation
  obtain ⟨S', hS', e'⟩ := hv.equation
  refine ⟨fun r hr => ((hu.hasDeriv r hr).const_mul α).add ((hv.hasDeriv r hr).const_mul β),
    (continuousOn_const.mul hu.continuous).add (continuousOn_const.mul hv.continuous), S ∪ S', hS.union hS', fun r hr hrs => ?_⟩
  refine (((e r hr fun h => hrs (Or.inl h)).const_mul α).add ((e' r hr fun h => hrs (Or.inr h)).const_mul β)).congr_deriv ?_
  ring

section
variable {n : ℕ} {g g' f f' : ℂ → ℂ} {k : ℂ} {r0 r1 : ℝ}

theorem combU_sol (hg : Radial n g g') (hf : Radial n f f') (hk : k ≠ 0) (h1 : 0 < r1) (u1 du1 : ℂ) :
    Sol (coef n k) r1 r0 (combU g g' f f' k r1 u1 du1) (dcombU g g' f f' k r1 u1 du1) :=
  Sol.comb (hg.sol hk h1 r0) (hf.sol hk h1 r0) _ _

theorem combU_start (hk : k ≠ 0) (hw : g (k * r1) * f' (k * r1) - g' (k * r1) * f (k * r1) ≠ 0) (u1 du1 : ℂ) :
    combU g g' f f' k r1 u1 du1 r1 = u1 ∧ dcombU g g' f f' k r1 u1 du1 r1 = du1 := by
  unfold combU dcombU
  generalize hW : g (k * r1) * f' (k * r1) - g' (k * r1) * f (k * r1) = W at *
  constructor
  · field_simp
    rw [← hW]
    ring
  · field_simp
    rw [← hW]
    ring

theorem transport_bottom (hk : k ≠ 0) (h0 : 0 < r0) (h1 : 0 < r1) (hw : g (k * r1) * f' (k * r1) - g' (k * r1) * f (k * r1) ≠ 0)
    (hA : g (k * r0) ≠ 0) (hB : f (k * r1) ≠ 0) (du1 : ℂ) (hd : du1 ≠ 0) (hne : combU g g' f f' k r1 0 du1 r0 ≠ 0) :
    1 - (quotOf g g' f f' (k * r0) (k * r1)).v4 * (quotOf g g' f f' (k * r0) (k * r1)).v1 ≠ 0 ∧
    dcombU g g' f f' k r1 0 du1 r0 = (bottom k (quotOf g g' f f' (k * r0) (k * r1)) + 1 / (r0 : ℂ)) * combU g g' f f' k r1 0 du1 r0 := by
  have hr0 : (r0 : ℂ) ≠ 0 := by exact_mod_cast h0.ne'
  have hr1 : (r1 : ℂ) ≠ 0 := by exact_mod_cast h1.ne'
  have eU : combU g g' f f' k r1 0 du1 r0 * (k * (g (k * r1) * f' (k * r1) - g' (k * r1) * f (k * r1))) =
      du1 * (g (k * r1) * f (k * r0) - f (k * r1) * g (k * r0)) := by
    unfold combU
    generalize g (k * r1) * f' (k * r1) - g' (k * r1) * f (k * r1) = W at hw ⊢
    field_simp
    ring
  have eV : dcombU g g' f f' k r1 0 du1 r0 * (g (k * r1) * f' (k * r1) - g' (k * r1) * f (k * r1)) =
      du1 * (g (k * r1) * f' (k * r0) - f (k * r1) * g' (k * r0)) := by
    unfold dcombU
    generalize g (k * r1) * f' (k * r1) - g' (k * r1) * f (k * r1) = W at hw ⊢
    field_simp
    ring
  generalize combU g g' f f' k r1 0 du1 r0 = U at *
  generalize dcombU g g' f f' k r1 0 du1 r0 = V at *
  generalize g (k * r1) * f' (k * r1) - g' (k * r1) * f (k * r1) = W at *
  have hD : g (k * r0) * f (k * r1) - f (k * r0) * g (k * r1) ≠ 0 := by
    intro h
    have : U * (k * W) = 0 := by rw [eU]; linear_combination -du1 * h
    exact (mul_ne_zero hne (mul_ne_zero hk hw)) this
  have e1 : 1 - (quotOf g g' f f' (k * r0) (k * r1)).v4 * (quotOf g g' f f' (k * r0) (k * r1)).v1 =
      (g (k * r0) * f (k * r1) - f (k * r0) * g (k * r1)) / (g (k * r0) * f (k * r1)) := by
    simp only [quotOf, quotients, pairOf]
    field_simp
  have e2 : (quotOf g g' f f' (k * r0) (k * r1)).v2 - (quotOf g g' f f' (k * r0) (k * r1)).v5 * (quotOf g g' f f' (k * r0) (k * r1)).v1 =
      (g' (k * r0) * f (k * r1) - f' (k * r0) * g (k * r1) - (g (k * r0) * f (k * r1) - f (k * r0) * g (k * r1)) / (k * r0)) / (g (k * r0) * f (k * r1)) := by
    simp only [quotOf, quotients, pairOf]
    field_simp
    ring
  refine ⟨by rw [e1]; exact div_ne_zero hD (mul_ne_zero hA hB), ?_⟩
  unfold bottom
  rw [e1, e2]
  generalize g (k * r0) = A at *
  generalize f (k * r1) = b at *
  generalize f (k * r0) = B at *
  generalize g (k * r1) = a at *
  generalize g' (k * r0) = A' at *
  generalize f' (k * r0) = B' at *
  have e3 : k * ((A' * b - B' * a - (A * b - B * a) / (k * r0)) / (A * b)) / ((A * b - B * a) / (A * b)) + 1 / (r0 : ℂ) = k * (A' * b - B' * a) / (A * b - B * a) := by
    generalize A' * b - B' * a = M
    generalize A * b - B * a = D at hD ⊢
    field_simp
    ring
  rw [e3]
  have hdu : du1 ≠ 0 := hd
  rw [div_mul_eq_mul_div, eq_div_iff hD]
  refine mul_right_cancel₀ (mul_ne_zero hw hdu) ?_
  linear_combination (A * b - B * a) * du1 * eV - (A' * b - B' * a) * du1 * eU

theorem transport_up (hk : k ≠ 0) (h0 : 0 < r0) (h1 : 0 < r1) (hw : g (k * r1) * f' (k * r1) - g' (k * r1) * f (k * r1) ≠ 0)
    (hA : g (k * r0) ≠ 0) (hB : f (k * r1) ≠ 0) (u1 b1 : ℂ) (hu1 : u1 ≠ 0) (hne : combU g g' f f' k r1 u1 ((b1 + 1 / (r1 : ℂ)) * u1) r0 ≠ 0) :
    (1 - (quotOf g g' f f' (k * r0) (k * r1)).v4 * (quotOf g g' f f' (k * r0) (k * r1)).v1) * b1 +
      k * ((quotOf g g' f f' (k * r0) (k * r1)).v4 * (quotOf g g' f f' (k * r0) (k * r1)).v3 - (quotOf g g' f f' (k * r0) (k * r1)).v6) ≠ 0 ∧
    dcombU g g' f f' k r1 u1 ((b1 + 1 / (r1 : ℂ)) * u1) r0 =
      (upward k (quotOf g g' f f' (k * r0) (k * r1)) b1 + 1 / (r0 : ℂ)) * combU g g' f f' k r1 u1 ((b1 + 1 / (r1 : ℂ)) * u1) r0 := by
  have hr0 : (r0 : ℂ) ≠ 0 := by exact_mod_cast h0.ne'
  have hr1 : (r1 : ℂ) ≠ 0 := by exact_mod_cast h1.ne'
  set du1 := (b1 + 1 / (r1 : ℂ)) * u1 with hdu1
  have eb : b1 * u1 = du1 - u1 / r1 := by rw [hdu1]; ring
  have eU : combU g g' f f' k r1 u1 du1 r0 * (k * (g (k * r1) * f' (k * r1) - g' (k * r1) * f (k * r1))) =
      (k * f' (k * r1) * u1 - f (k * r1) * du1) * g (k * r0) + (g (k * r1) * du1 - k * g' (k * r1) * u1) * f (k * r0) := by
    unfold combU
    generalize g (k * r1) * f' (k * r1) - g' (k * r1) * f (k * r1) = W at hw ⊢
    field_simp
  have eV : dcombU g g' f f' k r1 u1 du1 r0 * (g (k * r1) * f' (k * r1) - g' (k * r1) * f (k * r1)) =
      (k * f' (k * r1) * u1 - f (k * r1) * du1) * g' (k * r0) + (g (k * r1) * du1 - k * g' (k * r1) * u1) * f' (k * r0) := by
    unfold dcombU
    generalize g (k * r1) * f' (k * r1) - g' (k * r1) * f (k * r1) = W at hw ⊢
    field_simp
  generalize combU g g' f f' k r1 u1 du1 r0 = U at *
  generalize dcombU g g' f f' k r1 u1 du1 r0 = V at *
  generalize g (k * r1) * f' (k * r1) - g' (k * r1) * f (k * r1) = W at *
  set v := quotOf g g' f f' (k * r0) (k * r1) with hv
  have eD : ((1 - v.v4 * v.v1) * b1 + k * (v.v4 * v.v3 - v.v6)) * (g (k * r0) * f (k * r1) * u1) = -(k * W * U) := by
    have e0 : ((1 - v.v4 * v.v1) * b1 + k * (v.v4 * v.v3 - v.v6)) * (g (k * r0) * f (k * r1) * u1) =
        (1 - v.v4 * v.v1) * (g (k * r0) * f (k * r1)) * (b1 * u1) + k * (v.v4 * v.v3 - v.v6) * (g (k * r0) * f (k * r1)) * u1 := by ring
    have e1 : (1 - v.v4 * v.v1) * (g (k * r0) * f (k * r1)) = g (k * r0) * f (k * r1) - f (k * r0) * g (k * r1) := by
      simp only [hv, quotOf, quotients, pairOf]
      field_simp
    have e2 : k * (v.v4 * v.v3 - v.v6) * (g (k * r0) * f (k * r1)) =
        k * (f (k * r0) * g' (k * r1) - g (k * r0) * f' (k * r1)) + (g (k * r0) * f (k * r1) - f (k * r0) * g (k * r1)) / r1 := by
      simp only [hv, quotOf, quotients, pairOf]
      field_simp
      ring
    rw [e0, e1, e2, eb]
    linear_combination eU
  have eN : ((v.v2 - v.v5 * v.v1) * b1 + k * (v.v5 * v.v3 - v.v2 * v.v6)) * (g (k * r0) * f (k * r1) * u1) = -(W * (V - U / r0)) := by
    have e0 : ((v.v2 - v.v5 * v.v1) * b1 + k * (v.v5 * v.v3 - v.v2 * v.v6)) * (g (k * r0) * f (k * r1) * u1) =
        (v.v2 - v.v5 * v.v1) * (g (k * r0) * f (k * r1)) * (b1 * u1) + k * (v.v5 * v.v3 - v.v2 * v.v6) * (g (k * r0) * f (k * r1)) * u1 := by ring
    have e1 : (v.v2 - v.v5 * v.v1) * (g (k * r0) * f (k * r1)) =
        (g' (k * r0) - g (k * r0) / (k * r0)) * f (k * r1) - (f' (k * r0) - f (k * r0) / (k * r0)) * g (k * r1) := by
      simp only [hv, quotOf, quotients, pairOf]
      field_simp
    have e2 : k * (v.v5 * v.v3 - v.v2 * v.v6) * (g (k * r0) * f (k * r1)) =
        k * ((f' (k * r0) - f (k * r0) / (k * r0)) * (g' (k * r1) - g (k * r1) / (k * r1)) - (g' (k * r0) - g (k * r0) / (k * r0)) * (f' (k * r1) - f (k * r1) / (k * r1))) := by
      simp only [hv, quotOf, quotients, pairOf]
      field_simp
    rw [e0, e1, e2, eb]
    have e3 : U * W / r0 = ((k * f' (k * r1) * u1 - f (k * r1) * du1) * g (k * r0) + (g (k * r1) * du1 - k * g' (k * r1) * u1) * f (k * r0)) / (k * r0) := by
      rw [← eU]
      field_simp
    have e4 : -(W * (V - U / r0)) = -(V * W) + U * W / r0 := by ring
    rw [e4, eV, e3]
    field_simp
    ring
  have hP : g (k * r0) * f (k * r1) * u1 ≠ 0 := mul_ne_zero (mul_ne_zero hA hB) hu1
  have hDne : (1 - v.v4 * v.v1) * b1 + k * (v.v4 * v.v3 - v.v6) ≠ 0 := by
    intro h
    rw [h, zero_mul] at eD
    exact neg_ne_zero.2 (mul_ne_zero (mul_ne_zero hk hw) hne) eD.symm
  refine ⟨hDne, ?_⟩
  unfold upward
  generalize (1 - v.v4 * v.v1) * b1 + k * (v.v4 * v.v3 - v.v6) = D at *
  generalize (v.v2 - v.v5 * v.v1) * b1 + k * (v.v5 * v.v3 - v.v2 * v.v6) = N at *
  generalize g (k * r0) * f (k * r1) * u1 = P at *
  have e5 : k * N * U = (V - U / r0) * D := by
    refine mul_right_cancel₀ (mul_ne_zero hP hw) ?_
    linear_combination k * U * W * eN - (V - U / r0) * W * eD
  have e6 : (k * N / D + 1 / (r0 : ℂ)) * U = k * N * U / D + U / r0 := by ring
  rw [e6, e5, mul_div_cancel_right₀ _ hDne]
  ring

end

/-! ### Wave numbers -/

theorem sqrt_slit (z : ℂ) (h : z ∈ Complex.slitPlane) : (z ^ (1 / 2 : ℂ)) ^ 2 = z ∧ 0 < (z ^ (1 / 2 : ℂ)).re := by
  have hz : z ≠ 0 := Complex.slitPlane_ne_zero h
  constructor
  · rw [← Complex.cpow_mul_nat]
    norm_num
  · rw [Complex.cpow_def_of_ne_zero hz, Complex.exp_re]
    refine mul_pos (Real.exp_pos _) (Real.cos_pos_of_mem_Ioo ?_)
    have h1 := Complex.neg_pi_lt_arg z
    have h2 := (Complex.arg_le_pi z).lt_of_ne (Complex.mem_slitPlane_iff_arg.1 h).1
    have him : (Complex.log z * (1 / 2 : ℂ)).im = Complex.arg z / 2 := by
      simp [Complex.mul_im, Complex.log_im, Complex.log_re]
      ring
    rw [him]
    constructor <;> linarith

theorem waveNumber_spec {T s : ℝ} (hT : 0 < T) (hs : 0 < s) :
    (waveNumber T s) ^ 2 = Complex.I * angFreq T * mu * s ∧ 0 < (waveNumber T s).re := by
  have e : ((8 / 10 ^ 7 : ℝ) * Complex.I * (Real.pi : ℂ) ^ 2 * s / T) = Complex.I * angFreq T * mu * s := by
    unfold angFreq mu
    push_cast
    ring
  have him : 0 < (Complex.I * angFreq T * mu * s).im := by
    have h1 := angFreq_pos hT
    have h2 := mu_pos
    have : (Complex.I * angFreq T * mu * s) = ((angFreq T * mu * s : ℝ) : ℂ) * Complex.I := by push_cast; ring
    rw [this, Complex.mul_I_im, Complex.ofReal_re]
    positivity
  have h := sqrt_slit (Complex.I * angFreq T * mu * s) (Complex.mem_slitPlane_iff.2 (Or.inr him.ne'))
  unfold waveNumber
  rw [e]
  exact h

theorem waveNumber_ne {T s : ℝ} (hT : 0 < T) (hs : 0 < s) : waveNumber T s ≠ 0 := by
  intro h
  have := (waveNumber_spec hT hs).2
  rw [h] at this
  simp at this

theorem waveNumber_re {T s : ℝ} (hT : 0 < T) (hs : 0 < s) : 0 ≤ ((waveNumber T s) ^ 2).re := by
  rw [(waveNumber_spec hT hs).1]
  have : (Complex.I * angFreq T * mu * s) = ((angFreq T * mu * s : ℝ) : ℂ) * Complex.I := by push_cast; ring
  rw [this, Complex.mul_I_re, Complex.ofReal_im, neg_zero]

/-! ### The equation in the sphere -/

/-- Coefficient of the equation for a conductivity profile. -/
noncomputable def cof (n : ℕ) (w m : ℝ) (sigma : ℝ → ℝ) (r : ℝ) : ℂ := (n : ℂ) * (n + 1) / (r : ℂ) ^ 2 + Complex.I * w * m * (sigma r : ℂ)

theorem coreSolution_iff {n : ℕ} {w m : ℝ} {sigma : ℝ → ℝ} {rc r0 : ℝ} {u du : ℝ → ℂ} :
    CoreSolution n w m sigma rc r0 u du ↔ Sol (cof n w m sigma) rc r0 u du ∧ u rc = 0 := by
  constructor
  · rintro ⟨h1, h2, ⟨S, hS, h3⟩, h4⟩
    exact ⟨⟨fun r hr => h1 r hr.1 hr.2, h2, S, hS, fun r hr hrs => h3 r hr.1 hr.2 hrs⟩, h4⟩
  · rintro ⟨⟨h1, h2, S, hS, h3⟩, h4⟩
    exact ⟨fun r hr hr' => h1 r ⟨hr, hr'⟩, h2, ⟨S, hS, fun r hr hr' hrs => h3 r ⟨hr, hr'⟩ hrs⟩, h4⟩

theorem cof_parts (n : ℕ) (w m : ℝ) (sigma : ℝ → ℝ) (r : ℝ) : (cof n w m sigma r).re = (n : ℝ) * (n + 1) / r ^ 2 ∧ (cof n w m sigma r).im = w * m * sigma r := by
  have e : cof n w m sigma r = (((n : ℝ) * (n + 1) / r ^ 2 : ℝ) : ℂ) + ((w * m * sigma r : ℝ) : ℂ) * Complex.I := by
    unfold cof
    push_cast
    ring
  rw [e]
  constructor
  · rw [Complex.add_re, Complex.ofReal_re, Complex.mul_I_re, Complex.ofReal_im]; ring
  · rw [Complex.add_im, Complex.ofReal_im, Complex.mul_I_im, Complex.ofReal_re]; ring

/-- A solution that starts at the core does not vanish above it. -/
theorem core_energy {n : ℕ} (hn : 1 ≤ n) {w m : ℝ} {sigma : ℝ → ℝ} {rc r0 : ℝ} (hc : 0 < rc) (h0 : rc < r0) {u du : ℝ → ℂ}
    (h : Sol (cof n w m sigma) rc r0 u du) (h1 : u rc = 0) (h2 : du rc ≠ 0) : 0 < energyRe u du r0 ∧ u r0 ≠ 0 ∧ du r0 ≠ 0 := by
  have hpos : 0 < energyRe u du r0 := by
    have e : energyRe u du rc = 0 := by simp [energyRe, h1]
    rw [← e]
    have hre : (fun r => (cof n w m sigma r).re) = fun r => (n : ℝ) * (n + 1) / r ^ 2 := funext fun r => (cof_parts n w m sigma r).1
    refine energyRe_lt h0 h ?_ (fun r hr => ?_) ⟨rc, ⟨le_rfl, h0.le⟩, Or.inr h2⟩
    · rw [hre]
      refine ContinuousOn.div continuousOn_const (by fun_prop) fun r hr => pow_ne_zero _ (hc.trans_le hr.1).ne'
    · rw [(cof_parts n w m sigma r).1]
      have : (1 : ℝ) ≤ n := by exact_mod_cast hn
      have : 0 < r := hc.trans_le hr.1
      positivity
  refine ⟨hpos, fun h => ?_, fun h => ?_⟩
  · simp [energyRe, h] at hpos
  · simp [energyRe, h] at hpos

theorem core_im {n : ℕ} {w m : ℝ} (hw : 0 ≤ w * m) {sigma : ℝ → ℝ} (hs : ∀ r, 0 ≤ sigma r) {rc r0 : ℝ} (h0 : rc ≤ r0) {u du : ℝ → ℂ}
    (h : Sol (cof n w m sigma) rc r0 u du) (h1 : u rc = 0) : 0 ≤ energyIm u du r0 := by
  have e : energyIm u du rc = 0 := by simp [energyIm, h1]
  rw [← e]
  refine energyIm_mono h0 h fun r hr => ?_
  rw [(cof_parts n w m sigma r).2]
  exact mul_nonneg hw (hs r)

/-! ### The exact quotients -/

/-- The quotients of the code in the limit of infinitely many terms. -/
noncomputable def exactV (n : ℕ) (k : ℂ) (r r1 : ℝ) : Quotients :=
  if ‖k * r‖ < 3 then quotOf (smallP n) (smallP' n) (smallQ n) (smallQ' n) (k * r) (k * r1)
  else quotOf (regG n) (regG' n) (closedG n (-1)) (closedG' n (-1)) (k * r) (k * r1)

/-- The divisor of the series branch does not vanish. -/
def divisorOk (n : ℕ) (k : ℂ) (r r1 : ℝ) : Prop := ‖k * r‖ < 3 → smallQ n (k * r1) ≠ 0

theorem divisorOk_of {n : ℕ} (hn : 1 ≤ n) {T sg : ℝ} (hT : 0 < T) (hs : 0 < sg) {r r1 : ℝ} (h1 : 0 < r1) (hr : r1 ≤ r) : divisorOk n (waveNumber T sg) r r1 := by
  intro h3
  obtain ⟨hk, hkre⟩ := waveNumber_spec hT hs
  have hw := angFreq_pos hT
  have hm := mu_pos
  have ht : 0 < angFreq T * mu * sg * r1 ^ 2 := by positivity
  have hz : (waveNumber T sg * (r1 : ℂ)) ^ 2 = Complex.I * ((angFreq T * mu * sg * r1 ^ 2 : ℝ) : ℂ) := by
    rw [mul_pow, hk]
    push_cast
    ring
  refine divisor_ne hn ?_ ht ?_ hz
  · rw [Complex.mul_re, Complex.ofReal_re, Complex.ofReal_im, mul_zero, sub_zero]
    positivity
  · have e : ‖waveNumber T sg * (r1 : ℂ)‖ ^ 2 = angFreq T * mu * sg * r1 ^ 2 := by
      rw [← norm_pow, hz, norm_mul, Complex.norm_I, one_mul, Complex.norm_real, Real.norm_of_nonneg ht.le]
    rw [← e]
    have h4 : ‖waveNumber T sg * (r1 : ℂ)‖ < 3 := by
      refine lt_of_le_of_lt ?_ h3
      rw [norm_mul, norm_mul, Complex.norm_real, Complex.norm_real, Real.norm_of_nonneg h1.le, Real.norm_of_nonneg (h1.le.trans hr)]
      exact mul_le_mul_of_nonneg_left hr (norm_nonneg _)
    nlinarith [norm_nonneg (waveNumber T sg * (r1 : ℂ))]

theorem exactV_spec {n : ℕ} (hn : 1 ≤ n) {k : ℂ} (hkre : 0 < k.re) (hk : 0 ≤ (k ^ 2).re) {r r1 : ℝ} (hr : 0 < r) (hr1 : 0 < r1) (hd : divisorOk n k r r1) :
    ∃ g g' f f' : ℂ → ℂ, Radial n g g' ∧ Radial n f f' ∧ g (k * r1) * f' (k * r1) - g' (k * r1) * f (k * r1) ≠ 0 ∧
      g (k * r) ≠ 0 ∧ f (k * r1) ≠ 0 ∧ exactV n k r r1 = quotOf g g' f f' (k * r) (k * r1) := by
  have hk0 : k ≠ 0 := by rintro rfl; simp at hkre
  have hz1 : k * (r1 : ℂ) ≠ 0 := mul_ne_zero hk0 (by exact_mod_cast hr1.ne')
  by_cases hc : ‖k * r‖ < 3
  · refine ⟨smallP n, smallP' n, smallQ n, smallQ' n, (small_radial n).1, (small_radial n).2, small_wronskian n hz1, ?_, hd hc, ?_⟩
    · exact div_ne_zero (frob_pos hn hk0 hk hr) (by exact_mod_cast n.factorial_ne_zero)
    · unfold exactV; rw [if_pos hc]
  · refine ⟨regG n, regG' n, closedG n (-1), closedG' n (-1), reg_radial n, closed_radial n (-1) (by norm_num), ?_, reg_pos hn hk0 hk hr,
      decay_pos hn hkre hk hr1, ?_⟩
    · have := closed_wronskian n hz1
      have e : regG n (k * r1) * closedG' n (-1) (k * r1) - regG' n (k * r1) * closedG n (-1) (k * r1) = -(1 / 2) := by
        rw [← this]
        unfold regG regG'
        ring
      rw [e]
      norm_num
    · unfold exactV; rw [if_neg hc]

/-- Convergence of the quotients. -/
structure VLim (f : ℝ → Quotients) (v : Quotients) : Prop where
  l1 : Tendsto (fun e => (f e).v1) (𝓝[>] 0) (𝓝 v.v1)
  l2 : Tendsto (fun e => (f e).v2) (𝓝[>] 0) (𝓝 v.v2)
  l3 : Tendsto (fun e => (f e).v3) (𝓝[>] 0) (𝓝 v.v3)
  l4 : Tendsto (fun e => (f e).v4) (𝓝[>] 0) (𝓝 v.v4)
  l5 : Tendsto (fun e => (f e).v5) (𝓝[>] 0) (𝓝 v.v5)
  l6 : Tendsto (fun e => (f e).v6) (𝓝[>] 0) (𝓝 v.v6)

theorem large_quotients (n : ℕ) {z0 z1 : ℂ} (h0 : z0 ≠ 0) (h1 : z1 ≠ 0) (hp : regG n z0 ≠ 0) (hq : closedG n (-1) z1 ≠ 0) :
    quotients (largePair n z0) (largePair n z1) (Complex.exp (-(z0 - z1))) = quotOf (regG n) (regG' n) (closedG n (-1)) (closedG' n (-1)) z0 z1 := by
  have hpi : (Real.pi : ℂ) ≠ 0 := by exact_mod_cast Real.pi_ne_zero
  rw [large_eq n h0, large_eq n h1]
  have e : Complex.exp (-(z0 - z1)) = Complex.exp (-z0) * Complex.exp z1 := by rw [← Complex.exp_add]; congr 1; ring
  have e0 : Complex.exp (-z0) = (Complex.exp z0)⁻¹ := Complex.exp_neg _
  have e1 : Complex.exp (-z1) = (Complex.exp z1)⁻¹ := Complex.exp_neg _
  have n0 := Complex.exp_ne_zero z0
  have n1 := Complex.exp_ne_zero z1
  rw [e, e0, e1]
  simp only [quotOf, quotients, pairOf, Quotients.mk.injEq]
  refine ⟨?_, ?_, ?_, ?_, ?_, ?_⟩ <;> field_simp

/-- The quotients are computed for every positive precision, converge to the exact ones, and are exact for large arguments. -/
theorem layerQuotients_lim {n : ℕ} (hn : 1 ≤ n) {k : ℂ} (hkre : 0 < k.re) (hk : 0 ≤ (k ^ 2).re) {r r1 : ℝ} (hr : 0 < r) (hr1 : 0 < r1)
    (hd : divisorOk n k (1000 * r) (1000 * r1)) :
    ∃ f : ℝ → Quotients, (∀ eps, 0 < eps → layerQuotients eps n k r r1 = some (f eps)) ∧ VLim f (exactV n k (1000 * r) (1000 * r1)) ∧
      (3 ≤ ‖k * (1000 * r : ℝ)‖ → ∀ eps, f eps = exactV n k (1000 * r) (1000 * r1)) := by
  have hk0 : k ≠ 0 := by rintro rfl; simp at hkre
  have e0 : k * (r : ℂ) * 1000 = k * ((1000 * r : ℝ) : ℂ) := by push_cast; ring
  have e1 : k * (r1 : ℂ) * 1000 = k * ((1000 * r1 : ℝ) : ℂ) := by push_cast; ring
  have hr' : 0 < 1000 * r := by positivity
  have hr1' : 0 < 1000 * r1 := by positivity
  have hz0 : k * ((1000 * r : ℝ) : ℂ) ≠ 0 := mul_ne_zero hk0 (by exact_mod_cast hr'.ne')
  have hz1 : k * ((1000 * r1 : ℝ) : ℂ) ≠ 0 := mul_ne_zero hk0 (by exact_mod_cast hr1'.ne')
  by_cases hc : ‖k * ((1000 * r : ℝ) : ℂ)‖ < 3
  · set z0 := k * ((1000 * r : ℝ) : ℂ)
    set z1 := k * ((1000 * r1 : ℝ) : ℂ)
    refine ⟨fun eps => quotients (smallPair n z0 (Series.after n z0 (passes n z0 eps))) (smallPair n z1 (Series.after n z1 (passes n z1 eps))) 1, ?_, ?_, ?_⟩
    · intro eps he
      unfold layerQuotients
      simp only [e0, e1]
      rw [if_pos hc, loop_eq n _ he, loop_eq n _ he]
      rfl
    · have hp0 : (pairOf (smallP n) (smallP' n) (smallQ n) (smallQ' n) z0).p ≠ 0 :=
        div_ne_zero (div_ne_zero (frob_pos hn hk0 hk hr') (by exact_mod_cast n.factorial_ne_zero)) hz0
      have hq1 : (pairOf (smallP n) (smallP' n) (smallQ n) (smallQ' n) z1).q ≠ 0 := div_ne_zero (hd hc) hz1
      obtain ⟨p0, q0, pd0, qd0⟩ := small_lim n hz0
      obtain ⟨p1, q1, pd1, qd1⟩ := small_lim n hz1
      have t0 := passes_tendsto n hz0
      have t1 := passes_tendsto n hz1
      unfold exactV
      rw [if_pos hc]
      exact ⟨((p1.comp t1).div (p0.comp t0) hp0).mul_const 1, (pd0.comp t0).div (p0.comp t0) hp0, ((pd1.comp t1).div (p0.comp t0) hp0).mul_const 1,
        ((q0.comp t0).div (q1.comp t1) hq1).mul_const 1, ((qd0.comp t0).div (q1.comp t1) hq1).mul_const 1, (qd1.comp t1).div (q1.comp t1) hq1⟩
    · intro h
      exact absurd hc (not_lt.2 h)
  · have hV : exactV n k (1000 * r) (1000 * r1) = quotients (largePair n (k * ((1000 * r : ℝ) : ℂ))) (largePair n (k * ((1000 * r1 : ℝ) : ℂ)))
        (Complex.exp (-(k * ((1000 * r : ℝ) : ℂ) - k * ((1000 * r1 : ℝ) : ℂ)))) := by
      rw [large_quotients n hz0 hz1 (reg_pos hn hk0 hk hr') (decay_pos hn hkre hk hr1')]
      unfold exactV
      rw [if_neg hc]
    refine ⟨fun _ => exactV n k (1000 * r) (1000 * r1), fun eps _ => ?_, ⟨tendsto_const_nhds, tendsto_const_nhds, tendsto_const_nhds, tendsto_const_nhds,
      tendsto_const_nhds, tendsto_const_nhds⟩, fun _ _ => rfl⟩
    unfold layerQuotients
    simp only [e0, e1]
    rw [if_neg hc, hV]

/-! ### The loop over the layers -/

theorem constantB_two (eps : ℝ) (n : ℕ) (T s : ℝ) (ss : List ℝ) (a rc : ℝ) :
    constantB eps n T (s :: ss) [a, rc] = (layerQuotients eps n (waveNumber T s) a rc).map (bottom (waveNumber T s)) := by
  unfold constantB
  simp only [List.length_cons, List.length_nil, Nat.zero_add, Nat.reduceAdd, Nat.sub_self, List.range_one, List.reverse_singleton, List.foldlM_cons, List.foldlM_nil,
    List.getD_cons_zero, List.getD_cons_succ, if_true]
  cases layerQuotients eps n (waveNumber T s) a rc <;> rfl

theorem constantB_cons (eps : ℝ) (n : ℕ) (T s : ℝ) (ss : List ℝ) (a a' r : ℝ) (rs : List ℝ) :
    constantB eps n T (s :: ss) (a :: a' :: r :: rs) = (constantB eps n T ss (a' :: r :: rs)).bind fun b =>
      (layerQuotients eps n (waveNumber T s) a a').map fun v => upward (waveNumber T s) v b := by
  unfold constantB
  simp only [List.length_cons]
  simp only [show rs.length + 1 + 1 + 1 - 2 = rs.length + 1 by omega, show rs.length + 1 + 1 - 2 = rs.length by omega]
  rw [List.foldlM_reverse, List.foldlM_reverse, List.range_succ_eq_map, List.foldrM_cons, List.foldrM_map]
  simp only [List.getD_cons_zero, List.getD_cons_succ, Nat.succ_eq_add_one, Nat.add_right_cancel_iff]
  have hb : ∀ b : ℂ, (do
      let v ← layerQuotients eps n (waveNumber T s) a a'
      return if 0 = rs.length + 1 then bottom (waveNumber T s) v else upward (waveNumber T s) v b : Option ℂ) =
      (layerQuotients eps n (waveNumber T s) a a').map fun v => upward (waveNumber T s) v b := by
    intro b
    cases layerQuotients eps n (waveNumber T s) a a' with
    | none => rfl
    | some v => exact congrArg some (if_neg (by omega))
  simp only [hb]
  rfl

end ChaosMagPy.QResponse
