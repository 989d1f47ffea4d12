import Verif.Props.SynthMore
/-!
# C20: argument resolution of `synth_values`
-/
namespace ChaosMagPy.Synth
open ChaosMagPy.Legendre (pyRange)
open ChaosMagPy.Spec

/-- **C20.** `nmin` defaults to 1, `source` to internal, and `mmax` to a given `nmax`. -/
theorem C20_defaults (rsurf : ℝ) (dim : ℕ) (pts : List Point) (nmin nmax mmax : Option ℤ) (n : ℤ)
    (source : Option String) :
    synthValues rsurf dim pts none nmax mmax source = synthValues rsurf dim pts (some 1) nmax mmax source ∧
    synthValues rsurf dim pts nmin nmax mmax none =
      synthValues rsurf dim pts nmin nmax mmax (some "internal") ∧
    synthValues rsurf dim pts nmin (some n) none source =
      synthValues rsurf dim pts nmin (some n) (some n) source :=
  ⟨rfl, rfl, rfl⟩

theorem toNat_mul_sq (nmin N dim : ℕ) (h : (N + 1) ^ 2 - nmin ^ 2 ≤ dim) (h' : dim < (N + 2) ^ 2 - nmin ^ 2) :
    Nat.sqrt (dim + nmin ^ 2) = N + 1 := by
  symm
  rw [Nat.eq_sqrt']
  have e : N + 1 + 1 = N + 2 := rfl
  rw [e]
  constructor <;> omega

/-- `resolve` once the degree window is known. -/
theorem resolve_of_none (dim : ℕ) (nm : ℤ) (h : 0 < nm) (N : ℤ)
    (hp : pyInt (Real.sqrt ((dim : ℝ) + (nm : ℝ) ^ 2) - 1) = N) :
    resolve dim (some nm) none none =
      if N < nm then .error .valueError else .ok (nm.toNat, N.toNat, N) := by
  subst hp
  have c1 : ¬ ¬ (nm > 0) := by omega
  unfold resolve
  simp only [Option.getD_some, bind, Except.bind, pure, Except.pure, if_neg c1]
  rfl

theorem resolve_of_mmax (dim : ℕ) (nm m : ℤ) (h : 0 < nm) (N : ℤ) (hm : m ≥ nm - 1)
    (hp : pyInt ((((dim : ℤ) - m * (m + 2) + nm ^ 2 - 1 : ℤ) : ℝ) / ((2 * m + 1 : ℤ) : ℝ) + (m : ℝ)) = N) :
    resolve dim (some nm) none (some m) =
      if N < nm then .error .valueError else .ok (nm.toNat, N.toNat, m) := by
  subst hp
  have c1 : ¬ ¬ (nm > 0) := by omega
  unfold resolve
  simp only [Option.getD_some, bind, Except.bind, pure, Except.pure, if_neg c1, if_pos hm]
  rfl

theorem resolve_of_mmax' (dim : ℕ) (nm m : ℤ) (h : 0 < nm) (N : ℤ) (hm : ¬ m ≥ nm - 1)
    (hp : pyInt ((dim : ℝ) / ((2 * m + 1 : ℤ) : ℝ) + (nm : ℝ) - 1) = N) :
    resolve dim (some nm) none (some m) =
      if N < nm then .error .valueError else .ok (nm.toNat, N.toNat, m) := by
  subst hp
  have c1 : ¬ ¬ (nm > 0) := by omega
  unfold resolve
  simp only [Option.getD_some, bind, Except.bind, pure, Except.pure, if_neg c1, if_neg hm]
  rfl

/-- **C20.** Without `nmax` and `mmax`, the degree used is the largest one whose coefficients are all
present: the call equals the explicit one. -/
theorem C20_infer_nmax (rsurf : ℝ) (dim : ℕ) (pts : List Point) (nmin N : ℕ) (source : Option String)
    (h0 : 1 ≤ nmin) (h1 : nmin ≤ N) (hd : windowSize nmin N N ≤ dim)
    (hd' : dim < windowSize nmin (N + 1) (N + 1)) :
    synthValues rsurf dim pts (some nmin) none none source =
      synthValues rsurf dim pts (some nmin) (some N) (some N) source := by
  have e1 := coefStart_small nmin N (N + 1) (by omega) le_rfl
  have e2 := coefStart_small nmin (N + 1) (N + 1 + 1) (by omega) le_rfl
  rw [windowSize_eq] at hd hd'
  have hs : Nat.sqrt (dim + nmin ^ 2) = N + 1 := by
    apply toNat_mul_sq
    · have : ((N + 1 : ℕ) : ℤ) ^ 2 - (nmin : ℤ) ^ 2 ≤ dim := by rw [← e1]; exact_mod_cast hd
      have : (N + 1) ^ 2 ≤ dim + nmin ^ 2 := by zify; push_cast at this; linarith
      omega
    · have : (dim : ℤ) < ((N + 1 + 1 : ℕ) : ℤ) ^ 2 - (nmin : ℤ) ^ 2 := by rw [← e2]; exact_mod_cast hd'
      have : dim + nmin ^ 2 < (N + 2) ^ 2 := by zify; push_cast at this; linarith
      omega
  have hres : resolve dim (some nmin) none none = resolve dim (some nmin) (some N) (some N) := by
    rw [resolve_explicit dim nmin N N h0 h1]
    have hp : pyInt (Real.sqrt ((dim : ℝ) + ((nmin : ℤ) : ℝ) ^ 2) - 1) = N := by
      have := pyInt_sqrt (dim + nmin ^ 2) (by nlinarith)
      push_cast at this
      rw [Int.cast_natCast, this, hs]
      push_cast
      ring
    rw [resolve_of_none dim nmin (by omega) _ hp, if_neg (by omega), Int.toNat_natCast, Int.toNat_natCast]
  unfold synthValues
  rw [hres]

/-- 10 coefficients: degree 2 is used (8 coefficients), two are left over. -/
example : windowSize 1 2 2 ≤ 10 ∧ 10 < windowSize 1 3 3 := by decide

/-- **C20.** With fewer coefficients than degree `nmin` needs, and no `nmax`, there is nothing to compute:
ValueError. -/
theorem C20_infer_nothing (rsurf : ℝ) (dim : ℕ) (pts : List Point) (nmin : ℕ) (source : Option String)
    (h0 : 1 ≤ nmin) (hd : dim < 2 * nmin + 1) :
    synthValues rsurf dim pts (some nmin) none none source = .error .valueError := by
  have hs : Nat.sqrt (dim + nmin ^ 2) < nmin + 1 := by
    rw [Nat.sqrt_lt']
    nlinarith
  have hres : resolve dim (some nmin) none none = .error .valueError := by
    have hp : pyInt (Real.sqrt ((dim : ℝ) + ((nmin : ℤ) : ℝ) ^ 2) - 1) = (Nat.sqrt (dim + nmin ^ 2) : ℤ) - 1 := by
      have := pyInt_sqrt (dim + nmin ^ 2) (by nlinarith)
      push_cast at this
      rw [Int.cast_natCast, this]
    rw [resolve_of_none dim nmin (by omega) _ hp, if_pos (by omega)]
  unfold synthValues
  simp only [bind, Except.bind]
  cases hc : checkColat (pts.map Point.theta) with
  | error e => rw [checkColat_err _ _ hc]
  | ok b => rw [hres]

/-- **C20.** With `mmax` but without `nmax`, the degree used is the largest one whose coefficients are
all present, provided it is not below `mmax`. -/
theorem C20_infer_nmax_given_mmax (rsurf : ℝ) (dim : ℕ) (pts : List Point) (nmin N M : ℕ)
    (source : Option String) (h0 : 1 ≤ nmin) (h1 : nmin ≤ N) (hM : M ≤ N)
    (hd : windowSize nmin N M ≤ dim) (hd' : dim < windowSize nmin (N + 1) M) :
    synthValues rsurf dim pts (some nmin) none (some M) source =
      synthValues rsurf dim pts (some nmin) (some N) (some M) source := by
  rw [windowSize_eq] at hd hd'
  have hs := coefStart_succ nmin M (N + 1) (by omega)
  have hres : resolve dim (some nmin) none (some M) = resolve dim (some nmin) (some N) (some M) := by
    rw [resolve_explicit dim nmin N M h0 h1]
    have hpos : (0 : ℝ) < 2 * M + 1 := by positivity
    by_cases hb : (M : ℤ) ≥ nmin - 1
    · have e1 := coefStart_small nmin M (M + 1) (by omega) (by omega)
      have e2 := coefStart_large nmin M (N + 1) (M + 1) (by omega) (by omega) (by omega)
      have e3 := coefStart_large nmin M (N + 1 + 1) (M + 1) (by omega) (by omega) (by omega)
      have hp : pyInt (((((dim : ℤ) - M * (M + 2) + (nmin : ℤ) ^ 2 - 1 : ℤ) : ℝ) /
          ((2 * M + 1 : ℤ) : ℝ) + ((M : ℤ) : ℝ))) = (N : ℤ) := by
        rw [pyInt_eq_iff (by omega)]
        have d1 : ((coefStart nmin M (N + 1) : ℕ) : ℤ) ≤ dim := by exact_mod_cast hd
        have d2 : (dim : ℤ) < ((coefStart nmin M (N + 1 + 1) : ℕ) : ℤ) := by exact_mod_cast hd'
        rw [e2, e1] at d1
        rw [e3, e1] at d2
        have d1' : (((M + 1 : ℕ) : ℝ) ^ 2 - (nmin : ℝ) ^ 2 + ((((N + 1 : ℕ) : ℝ)) - ((M + 1 : ℕ) : ℝ)) * (2 * M + 1)) ≤ dim := by
          exact_mod_cast d1
        have d2' : (dim : ℝ) < (((M + 1 : ℕ) : ℝ) ^ 2 - (nmin : ℝ) ^ 2 + ((((N + 1 + 1 : ℕ) : ℝ)) - ((M + 1 : ℕ) : ℝ)) * (2 * M + 1)) := by
          exact_mod_cast d2
        push_cast at d1' d2' ⊢
        constructor
        · rw [← sub_le_iff_le_add, le_div_iff₀ hpos]
          linarith
        · rw [← lt_sub_iff_add_lt, div_lt_iff₀ hpos]
          linarith
      rw [resolve_of_mmax dim nmin M (by omega) _ hb hp, if_neg (by omega)]
      simp
    · have e2 := coefStart_large nmin M (N + 1) nmin (by omega) (by omega) (by omega)
      have e3 := coefStart_large nmin M (N + 1 + 1) nmin (by omega) (by omega) (by omega)
      have hp : pyInt ((dim : ℝ) / ((2 * M + 1 : ℤ) : ℝ) + ((nmin : ℤ) : ℝ) - 1) = (N : ℤ) := by
        rw [pyInt_eq_iff (by omega)]
        have d1 : ((coefStart nmin M (N + 1) : ℕ) : ℤ) ≤ dim := by exact_mod_cast hd
        have d2 : (dim : ℤ) < ((coefStart nmin M (N + 1 + 1) : ℕ) : ℤ) := by exact_mod_cast hd'
        rw [e2, coefStart_self] at d1
        rw [e3, coefStart_self] at d2
        have d1' : ((((N + 1 : ℕ) : ℝ)) - nmin) * (2 * M + 1) ≤ dim := by
          have : (((0 : ℕ) : ℝ)) + ((((N + 1 : ℕ) : ℝ)) - nmin) * (2 * M + 1) ≤ dim := by exact_mod_cast d1
          simpa using this
        have d2' : (dim : ℝ) < ((((N + 1 + 1 : ℕ) : ℝ)) - nmin) * (2 * M + 1) := by
          have : (dim : ℝ) < (((0 : ℕ) : ℝ)) + ((((N + 1 + 1 : ℕ) : ℝ)) - nmin) * (2 * M + 1) := by exact_mod_cast d2
          simpa using this
        push_cast at d1' d2' ⊢
        constructor
        · rw [add_sub_assoc, ← sub_le_iff_le_add, le_div_iff₀ hpos]
          linarith
        · rw [add_sub_assoc, ← lt_sub_iff_add_lt, div_lt_iff₀ hpos]
          linarith
      rw [resolve_of_mmax' dim nmin M (by omega) _ hb hp, if_neg (by omega)]
      simp
  unfold synthValues
  rw [hres]

/-- Orders up to 1, 12 coefficients: degrees 1..4 (3 each). -/
example : windowSize 1 4 1 ≤ 12 ∧ 12 < windowSize 1 5 1 := by decide

/-- Calls that get past the check of the colatitudes. -/
theorem synthValues_inside (rsurf : ℝ) (dim : ℕ) (pts : List Point) (hne : pts ≠ [])
    (hth : ∀ p ∈ pts, 0 < p.theta ∧ p.theta < 180) (nmin nmax mmax : Option ℤ) (source : Option String) :
    synthValues rsurf dim pts nmin nmax mmax source =
      match resolve dim nmin nmax mmax with
      | .error e => .error e
      | .ok (n0, n1, M) =>
        match resolveSource source with
        | .error e => .error e
        | .ok src => pts.mapM (synthPoint rsurf src false dim n0 n1 M) := by
  have hc : checkColat (pts.map Point.theta) = .ok false :=
    (checkColat_ok _ _).2 ⟨by simpa using hne, Or.inl ⟨rfl, by simpa using hth⟩⟩
  unfold synthValues
  simp only [bind, Except.bind, hc]
  cases resolve dim nmin nmax mmax with
  | error e => rfl
  | ok w =>
    obtain ⟨n0, n1, M⟩ := w
    cases resolveSource source <;> rfl

/-- **C20.** Inconsistent input raises: `nmin` not positive is an AssertionError, `nmax < nmin` and an
unknown source are ValueErrors, a coefficient vector that is too short is an IndexError. -/
theorem C20_errors (rsurf : ℝ) (ha : rsurf ≠ 0) (dim : ℕ) (pts : List Point) (hne : pts ≠ [])
    (hth : ∀ p ∈ pts, 0 < p.theta ∧ p.theta < 180) (hr : ∀ p ∈ pts, p.radius ≠ 0) :
    (∀ (nmin : ℤ) nmax mmax source, nmin ≤ 0 →
      synthValues rsurf dim pts (some nmin) nmax mmax source = .error .assertionError) ∧
    (∀ (nmin nmax : ℤ) mmax source, 0 < nmin → nmax < nmin →
      synthValues rsurf dim pts (some nmin) (some nmax) mmax source = .error .valueError) ∧
    (∀ (nmin nmax : ℕ) (mmax : ℤ) (source : String), 1 ≤ nmin → nmin ≤ nmax → source ≠ "internal" →
      source ≠ "external" →
      synthValues rsurf dim pts (some nmin) (some nmax) (some mmax) (some source) = .error .valueError) ∧
    (∀ (nmin nmax mmax : ℕ) (src : Source), 1 ≤ nmin → nmin ≤ nmax → dim < windowSize nmin nmax mmax →
      synthValues rsurf dim pts (some nmin) (some nmax) (some mmax) (some src.name) = .error .indexError) := by
  refine ⟨?_, ?_, ?_, ?_⟩
  · intro nmin nmax mmax source h
    rw [synthValues_inside rsurf dim pts hne hth]
    have : resolve dim (some nmin) nmax mmax = .error .assertionError := by
      unfold resolve
      simp only [Option.getD_some, bind, Except.bind]
      rw [if_pos (by omega)]
      rfl
    rw [this]
  · intro nmin nmax mmax source h h'
    rw [synthValues_inside rsurf dim pts hne hth]
    have : resolve dim (some nmin) (some nmax) mmax = .error .valueError := by
      unfold resolve
      simp only [Option.getD_some, bind, Except.bind, pure, Except.pure]
      rw [if_neg (by omega)]
      cases mmax with
      | none => simp only; rw [if_pos h']; rfl
      | some m => simp only; rw [if_pos h']; rfl
    rw [this]
  · intro nmin nmax mmax source h1 h2 h3 h4
    rw [synthValues_inside rsurf dim pts hne hth, resolve_explicit dim nmin nmax mmax h1 h2]
    simp [resolveSource, h3, h4]
  · intro nmin nmax mmax src h1 h2 hd
    rw [synthValues_inside rsurf dim pts hne hth, resolve_explicit dim nmin nmax mmax h1 h2]
    simp only [resolveSource_name]
    apply mapM_error _ _ _ hne
    intro p hp
    obtain ⟨T, hT, hsp⟩ := synthPoint_gen rsurf src false dim nmin nmax mmax p.radius p.theta p.phi
      (by omega) h2 (hr p hp) ha
    have := hsp p.coeffs
    rw [Int.toNat_natCast, if_neg (by rw [← windowSize_eq]; omega)] at this
    exact this

example : (2 : ℕ) < windowSize 1 1 1 ∧ (0 : ℝ) < 60 ∧ (60 : ℝ) < 180 := by
  refine ⟨by decide, by norm_num, by norm_num⟩

/-- **C20.** Never a partial field: whatever arguments are given or left out, if the call returns, then
all coefficients of some degree window `n0..n1` with orders up to `M` are present and the result is that
of the explicit call for this window (which is the full sum, see `C16_gradient`, `C17_design_product`). -/
theorem C20_complete_field (rsurf : ℝ) (ha : rsurf ≠ 0) (dim : ℕ) (pts : List Point)
    (hr : ∀ p ∈ pts, p.radius ≠ 0) (nmin nmax mmax : Option ℤ) (source : Option String)
    (l : List (ℝ × ℝ × ℝ)) (h : synthValues rsurf dim pts nmin nmax mmax source = .ok l) :
    ∃ (n0 n1 M : ℕ) (src : Source), 1 ≤ n0 ∧ n0 ≤ n1 ∧ windowSize n0 n1 M ≤ dim ∧
      synthValues rsurf dim pts (some n0) (some n1) (some M) (some src.name) = .ok l := by
  unfold synthValues at h
  simp only [bind, Except.bind] at h
  cases hc : checkColat (pts.map Point.theta) with
  | error e => rw [hc] at h; cases h
  | ok poles =>
    simp only [hc] at h
    cases hres : resolve dim nmin nmax mmax with
    | error e => rw [hres] at h; cases h
    | ok w =>
      obtain ⟨n0, n1, M⟩ := w
      have hw := resolve_shape dim nmin nmax mmax n0 n1 M hres
      simp only [hres] at h
      cases hsrc : resolveSource source with
      | error e => rw [hsrc] at h; cases h
      | ok src =>
        simp only [hsrc] at h
        refine ⟨n0, n1, M.toNat, src, hw.1, hw.2, ?_, ?_⟩
        · -- some point was evaluated
          have hall := (mapM_ok _ _ _).1 h
          cases hall with
          | nil => simp [checkColat, aminmax, bind, Except.bind] at hc
          | cons h1 h2 =>
            rename_i p b pts' l'
            obtain ⟨T, hT, hsp⟩ := synthPoint_gen rsurf src poles dim n0 n1 M p.radius p.theta p.phi
              (by omega) hw.2 (hr p List.mem_cons_self) ha
            have := h1.symm.trans (hsp p.coeffs)
            rw [windowSize_eq]
            by_contra hcon
            rw [if_neg hcon] at this
            cases this
        · rw [synthValues_explicit rsurf dim pts n0 n1 M.toNat src hw.1 hw.2, hc]
          simp only
          rw [← h]
          apply mapM_congr
          intro p hp
          obtain ⟨T, hT, hsp⟩ := synthPoint_gen rsurf src poles dim n0 n1 M p.radius p.theta p.phi
            (by omega) hw.2 (hr p hp) ha
          obtain ⟨T', hT', hsp'⟩ := synthPoint_gen rsurf src poles dim n0 n1 (M.toNat : ℤ) p.radius p.theta p.phi
            (by omega) hw.2 (hr p hp) ha
          rw [hT] at hT'
          injection hT' with hT'
          subst hT'
          have e1 := hsp p.coeffs
          have e2 := hsp' p.coeffs
          rw [Int.toNat_natCast] at e2
          exact e2.trans e1.symm

/-- **C20.** Surplus coefficients are ignored: two calls with explicit degrees whose coefficients agree
on the window return the same, whatever the sizes of the coefficient arrays. -/
theorem C20_surplus_ignored (rsurf : ℝ) (ha : rsurf ≠ 0) (dim dim' : ℕ) (pts : List (Point × (ℕ → ℝ)))
    (hr : ∀ p ∈ pts, p.1.radius ≠ 0) (nmin nmax mmax : ℕ) (src : Source) (h0 : 1 ≤ nmin) (h1 : nmin ≤ nmax)
    (hd : windowSize nmin nmax mmax ≤ dim) (hd' : windowSize nmin nmax mmax ≤ dim')
    (hc : ∀ p ∈ pts, ∀ i < windowSize nmin nmax mmax, p.1.coeffs i = p.2 i) :
    synthValues rsurf dim (pts.map fun p => p.1) (some nmin) (some nmax) (some mmax) (some src.name) =
    synthValues rsurf dim' (pts.map fun p => { p.1 with coeffs := p.2 }) (some nmin) (some nmax) (some mmax)
      (some src.name) := by
  rw [synthValues_explicit _ _ _ _ _ _ _ h0 h1, synthValues_explicit _ _ _ _ _ _ _ h0 h1,
    List.map_map, List.map_map]
  have t1 : pts.map (Point.theta ∘ fun p : Point × (ℕ → ℝ) => p.1) = pts.map (fun p => p.1.theta) := rfl
  have t2 : pts.map (Point.theta ∘ fun p : Point × (ℕ → ℝ) => { p.1 with coeffs := p.2 }) =
      pts.map (fun p => p.1.theta) := rfl
  rw [t1, t2]
  cases checkColat (pts.map fun p => p.1.theta) with
  | error e => rfl
  | ok poles =>
    simp only
    rw [List.mapM_map, List.mapM_map]
    apply mapM_congr
    intro p hp
    simp only [Function.comp]
    rw [windowSize_eq] at *
    obtain ⟨T, hT, hsp⟩ := synthPoint_gen rsurf src poles dim nmin nmax mmax p.1.radius p.1.theta p.1.phi
      (by omega) h1 (hr p hp) ha
    obtain ⟨T', hT', hsp'⟩ := synthPoint_gen rsurf src poles dim' nmin nmax mmax p.1.radius p.1.theta p.1.phi
      (by omega) h1 (hr p hp) ha
    rw [hT] at hT'
    injection hT' with hT'
    subst hT'
    have e1 := hsp p.1.coeffs
    have e2 := hsp' p.2
    rw [Int.toNat_natCast, if_pos hd] at e1
    rw [Int.toNat_natCast, if_pos hd'] at e2
    refine e1.trans (Eq.trans ?_ e2.symm)
    have hG : ∀ n ∈ Finset.Ico nmin (nmax + 1), ∀ m ∈ Finset.range (min n mmax + 1),
        coefG p.1.coeffs nmin mmax n m = coefG p.2 nmin mmax n m ∧
        coefH p.1.coeffs nmin mmax n m = coefH p.2 nmin mmax n m := by
      intro n hn m hm
      have hn := Finset.mem_Ico.1 hn
      have hm := Finset.mem_range.1 hm
      have hle : coefStart nmin mmax n + (2 * min n mmax + 1) ≤ coefStart nmin mmax (nmax + 1) := by
        rw [← coefStart_succ _ _ _ hn.1]
        exact coefStart_mono _ _ (by omega)
      constructor
      · unfold coefG
        apply hc p hp
        split_ifs <;> omega
      · unfold coefH
        split_ifs with hm0
        · rfl
        · apply hc p hp
          omega
    simp only [stN]
    congr 2
    · refine Finset.sum_congr rfl fun n hn => Finset.sum_congr rfl fun m hm => ?_
      simp only [sumR, (hG n hn m hm).1, (hG n hn m hm).2]
    · congr 1
      · refine Finset.sum_congr rfl fun n hn => Finset.sum_congr rfl fun m hm => ?_
        simp only [sumT, (hG n hn m hm).1, (hG n hn m hm).2]
      · refine Finset.sum_congr rfl fun n hn => Finset.sum_congr rfl fun m hm => ?_
        simp only [sumP, (hG n hn m hm).1, (hG n hn m hm).2]

example : windowSize 1 1 1 ≤ 3 ∧ windowSize 1 1 1 ≤ 100 := by decide

/-- **C20, finding.** With `mmax` larger than the degree that the coefficients support (here 3
coefficients, `mmax = 5`), the inferred degree is wrong (2 instead of 1) and the call fails with an
IndexError, although `mmax = 4` works. -/
theorem C20_large_mmax_fails :
    synthValues 6371.2 3 [⟨6371.2, 60, 0, fun _ => 1⟩] none none (some 5) none = .error .indexError ∧
    ∃ l, synthValues 6371.2 3 [⟨6371.2, 60, 0, fun _ => 1⟩] none none (some 4) none = .ok l := by
  have hres : resolve 3 none none (some 5) = resolve 3 (some (1 : ℕ)) (some (2 : ℕ)) (some (5 : ℕ)) := by
    rw [resolve_explicit 3 1 2 _ (by norm_num) (by norm_num)]
    have hp : pyInt ((((3 : ℕ) : ℤ) - 5 * (5 + 2) + 1 ^ 2 - 1 : ℤ) / ((2 * 5 + 1 : ℤ) : ℝ) + ((5 : ℤ) : ℝ)) = 2 := by
      rw [pyInt_eq_iff (by norm_num)]; norm_num
    have := resolve_of_mmax 3 1 5 (by norm_num) 2 (by norm_num) hp
    rw [if_neg (by norm_num)] at this
    exact this
  have hres4 : resolve 3 none none (some 4) = resolve 3 (some (1 : ℕ)) (some (1 : ℕ)) (some (4 : ℕ)) := by
    rw [resolve_explicit 3 1 1 _ (by norm_num) (by norm_num)]
    have hp : pyInt ((((3 : ℕ) : ℤ) - 4 * (4 + 2) + 1 ^ 2 - 1 : ℤ) / ((2 * 4 + 1 : ℤ) : ℝ) + ((4 : ℤ) : ℝ)) = 1 := by
      rw [pyInt_eq_iff (by norm_num)]; norm_num
    have := resolve_of_mmax 3 1 4 (by norm_num) 1 (by norm_num) hp
    rw [if_neg (by norm_num)] at this
    exact this
  have hE := C20_errors 6371.2 (by norm_num) 3 [⟨6371.2, 60, 0, fun _ => 1⟩] (by simp) (by simp; norm_num)
    (by simp; norm_num)
  constructor
  · have := hE.2.2.2 1 2 5 .internal (by norm_num) (by norm_num) (by decide)
    rw [← this]
    unfold synthValues
    rw [hres]
    rfl
  · have := synthValues_succeeds 6371.2 (by norm_num) 3 [⟨6371.2, 60, 0, fun _ => 1⟩] 1 1 ((4 : ℕ) : ℤ) .internal
      (by norm_num) (by norm_num) (by simp) (by simp; norm_num) (by simp; norm_num) (by decide)
    refine ⟨_, Eq.trans ?_ this⟩
    unfold synthValues
    rw [hres4]
    rfl

end ChaosMagPy.Synth
