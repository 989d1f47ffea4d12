import Verif.Model.Synth
import Verif.Lemmas.LegendreTable
import Mathlib.Algebra.BigOperators.Intervals
/-! Closed forms of the loops of `synth_values` and `design_gauss`. -/
namespace ChaosMagPy.Synth
open ChaosMagPy.Legendre (pyRange)
open ChaosMagPy.Spec

theorem pyRange_empty (a b : ℕ) (h : b ≤ a) : pyRange a b = [] := by
  unfold pyRange
  rw [Nat.sub_eq_zero_of_le h]
  rfl

theorem pyRange_cons (a b : ℕ) (h : a < b) : pyRange a b = a :: pyRange (a + 1) b := by
  unfold pyRange
  obtain ⟨k, rfl⟩ : ∃ k, b = a + (k + 1) := ⟨b - a - 1, by omega⟩
  rw [show a + (k + 1) - a = k + 1 by omega, show a + (k + 1) - (a + 1) = k by omega, List.range'_succ]

/-- A loop whose `k`-th iteration takes state `I k` to `I (k+1)` if `ok k` holds and fails with `e`
otherwise. -/
theorem foldlM_pyRange {σ ε : Type} (f : σ → ℕ → Except ε σ) (I : ℕ → σ) (ok : ℕ → Prop)
    [DecidablePred ok] (e : ε) (a b : ℕ) (hab : a ≤ b)
    (h1 : ∀ k, a ≤ k → k < b → ok k → f (I k) k = .ok (I (k + 1)))
    (h2 : ∀ k, a ≤ k → k < b → ¬ ok k → f (I k) k = .error e) :
    (pyRange a b).foldlM f (I a) = if ∀ k ∈ pyRange a b, ok k then .ok (I b) else .error e := by
  obtain ⟨d, hd⟩ : ∃ d, d = b - a := ⟨_, rfl⟩
  induction d generalizing a with
  | zero =>
    obtain rfl : a = b := by omega
    rw [pyRange_empty a a le_rfl]
    simp
    rfl
  | succ d ih =>
    rw [pyRange_cons a b (by omega), List.foldlM_cons]
    by_cases hk : ok a
    · rw [h1 a le_rfl (by omega) hk]
      change (pyRange (a + 1) b).foldlM f (I (a + 1)) = _
      rw [ih (a + 1) (by omega) (fun k hk' hb => h1 k (by omega) hb) (fun k hk' hb => h2 k (by omega) hb)
        (by omega)]
      simp [hk]
    · rw [h2 a le_rfl (by omega) hk]
      rw [if_neg]
      · rfl
      · intro h
        exact hk (h a (by simp))

/-- Number of orders used for degree `n`. -/
def mtop (n : ℕ) (mmax : ℤ) : ℕ := min n mmax.toNat

theorem mtop_range (n : ℕ) (mmax : ℤ) :
    pyRange 1 ((min (n : ℤ) mmax + 1).toNat) = pyRange 1 (mtop n mmax + 1) := by
  by_cases h : 0 ≤ mmax
  · congr 1
    unfold mtop
    omega
  · rw [pyRange_empty _ _ (by omega), pyRange_empty _ _ (by unfold mtop; omega)]

theorem coefStart_succ (nmin M n : ℕ) (h : nmin ≤ n) :
    coefStart nmin M (n + 1) = coefStart nmin M n + (2 * min n M + 1) := by
  unfold coefStart
  rw [Finset.sum_Ico_succ_top h]

theorem coefStart_self (nmin M : ℕ) : coefStart nmin M nmin = 0 := by simp [coefStart]

theorem coefStart_mono (nmin M : ℕ) {a b : ℕ} (h : a ≤ b) : coefStart nmin M a ≤ coefStart nmin M b := by
  unfold coefStart
  exact Finset.sum_le_sum_of_subset (Finset.Ico_subset_Ico_right h)

/-- Radial factor of degree `n`. -/
noncomputable def rpow (src : Source) (radius : ℝ) (n : ℕ) : ℝ :=
  match src with
  | .internal => radius ^ (-((n : ℤ) + 2))
  | .external => radius ^ ((n : ℤ) - 1)

theorem rnInit_eq (src : Source) (radius : ℝ) (n : ℕ) : rnInit src radius n = rpow src radius n := rfl

theorem rnStep_eq (src : Source) (radius : ℝ) (hr : radius ≠ 0) (n : ℕ) :
    rnStep src radius (rpow src radius n) = rpow src radius (n + 1) := by
  cases src with
  | internal =>
    simp only [rnStep, rpow]
    rw [show (-((((n + 1 : ℕ)) : ℤ) + 2)) = -((n : ℤ) + 2) - 1 by push_cast; ring, zpow_sub_one₀ hr]
    rfl
  | external =>
    simp only [rnStep, rpow]
    rw [show ((((n + 1 : ℕ)) : ℤ) - 1) = ((n : ℤ) - 1) + 1 by push_cast; ring, zpow_add_one₀ hr]

section
variable (x : Ctx) (nmin M : ℕ)

/-- Summand of the radial component. -/
noncomputable def sumR (n m : ℕ) : ℝ :=
  rfac x.src n * x.T (n, m) * rpow x.src x.radius n *
    (coefG x.c nmin M n m * Real.cos (m * x.phi) + coefH x.c nmin M n m * Real.sin (m * x.phi))

/-- Summand of the colatitude component. -/
noncomputable def sumT (n m : ℕ) : ℝ :=
  -x.T (m, n + 1) * rpow x.src x.radius n *
    (coefG x.c nmin M n m * Real.cos (m * x.phi) + coefH x.c nmin M n m * Real.sin (m * x.phi))

/-- Summand of the azimuthal component. -/
noncomputable def sumP (n m : ℕ) : ℝ :=
  m * divP x.poles x.T x.theta n m * rpow x.src x.radius n *
    (coefG x.c nmin M n m * Real.sin (m * x.phi) - coefH x.c nmin M n m * Real.cos (m * x.phi))

/-- State before degree `n`. -/
noncomputable def stN (n : ℕ) : State where
  num := coefStart nmin M n
  rn := rpow x.src x.radius n
  br := ∑ k ∈ Finset.Ico nmin n, ∑ m ∈ Finset.range (min k M + 1), sumR x nmin M k m
  bt := ∑ k ∈ Finset.Ico nmin n, ∑ m ∈ Finset.range (min k M + 1), sumT x nmin M k m
  bp := ∑ k ∈ Finset.Ico nmin n, ∑ m ∈ Finset.range (min k M + 1), sumP x nmin M k m

/-- State before order `m` of degree `n`. -/
noncomputable def stM (n m : ℕ) : State where
  num := coefStart nmin M n + (2 * m - 1)
  rn := rpow x.src x.radius n
  br := (stN x nmin M n).br + ∑ j ∈ Finset.range m, sumR x nmin M n j
  bt := (stN x nmin M n).bt + ∑ j ∈ Finset.range m, sumT x nmin M n j
  bp := (stN x nmin M n).bp + ∑ j ∈ Finset.range m, sumP x nmin M n j

theorem orderStep_ok (n m : ℕ) (hm : 1 ≤ m) (hd : coefStart nmin M n + 2 * m < x.dim) :
    orderStep x n (stM x nmin M n m) m = .ok (stM x nmin M n (m + 1)) := by
  have e1 : (stM x nmin M n m).num = coefStart nmin M n + (2 * m - 1) := rfl
  have e2 : coefStart nmin M n + (2 * m - 1) + 1 = coefStart nmin M n + 2 * m := by omega
  unfold orderStep getCoef
  rw [e1, if_pos (by omega), e2, if_pos hd]
  simp only [bind, Except.bind, pure, Except.pure]
  have hm0 : m ≠ 0 := by omega
  congr 1
  simp only [stM, State.mk.injEq, Finset.sum_range_succ, ← add_assoc, add_right_inj]
  refine ⟨by omega, trivial, ?_, ?_, ?_⟩
  · simp only [sumR, coefG, coefH, hm0, if_false]
  · simp only [sumT, coefG, coefH, hm0, if_false]
  · simp only [sumP, coefG, coefH, hm0, if_false]

theorem orderStep_err (n m : ℕ) (hm : 1 ≤ m) (hd : ¬ coefStart nmin M n + 2 * m < x.dim) :
    orderStep x n (stM x nmin M n m) m = .error .indexError := by
  have e1 : (stM x nmin M n m).num = coefStart nmin M n + (2 * m - 1) := rfl
  have e2 : coefStart nmin M n + (2 * m - 1) + 1 = coefStart nmin M n + 2 * m := by omega
  unfold orderStep getCoef
  rw [e1, e2]
  by_cases h : coefStart nmin M n + (2 * m - 1) < x.dim
  · rw [if_pos h, if_neg hd]; rfl
  · rw [if_neg h]; rfl

theorem orders (n k : ℕ) :
    (pyRange 1 (k + 1)).foldlM (orderStep x n) (stM x nmin M n 1) =
      if k = 0 ∨ coefStart nmin M n + 2 * k < x.dim then .ok (stM x nmin M n (k + 1))
      else .error .indexError := by
  rw [foldlM_pyRange (orderStep x n) (stM x nmin M n) (fun m => coefStart nmin M n + 2 * m < x.dim)
    .indexError 1 (k + 1) (by omega) (fun m h1 h2 hd => orderStep_ok x nmin M n m h1 hd)
    (fun m h1 h2 hd => orderStep_err x nmin M n m h1 hd)]
  congr 1
  simp only [Legendre.mem_pyRange, eq_iff_iff]
  constructor
  · intro h
    by_cases hk : k = 0
    · exact Or.inl hk
    · exact Or.inr (h k ⟨by omega, by omega⟩)
  · rintro (h | h) m hm
    · omega
    · omega

theorem degreeStep_eq (mmax : ℤ) (hM : M = mmax.toNat) (hr : x.radius ≠ 0) (n : ℕ) (hn : nmin ≤ n) :
    degreeStep x mmax (stN x nmin M n) n =
      if coefStart nmin M (n + 1) ≤ x.dim then .ok (stN x nmin M (n + 1)) else .error .indexError := by
  subst hM
  unfold degreeStep
  rw [mtop_range, coefStart_succ _ _ _ hn]
  have e1 : (stN x nmin mmax.toNat n).num = coefStart nmin mmax.toNat n := rfl
  rw [e1]
  by_cases h0 : coefStart nmin mmax.toNat n < x.dim
  · have : getCoef x.dim x.c (coefStart nmin mmax.toNat n) = .ok (x.c (coefStart nmin mmax.toNat n)) := if_pos h0
    rw [this]
    simp only [bind, Except.bind]
    have hs : ({ stN x nmin mmax.toNat n with
        num := coefStart nmin mmax.toNat n + 1
        br := (stN x nmin mmax.toNat n).br + rfac x.src n * x.T (n, 0) * (stN x nmin mmax.toNat n).rn *
          x.c (coefStart nmin mmax.toNat n)
        bt := (stN x nmin mmax.toNat n).bt + -x.T (0, n + 1) * (stN x nmin mmax.toNat n).rn *
          x.c (coefStart nmin mmax.toNat n) } : State) = stM x nmin mmax.toNat n 1 := by
      simp only [stM, State.mk.injEq, Finset.sum_range_one]
      refine ⟨trivial, rfl, ?_, ?_, ?_⟩
      · simp [sumR, coefG, coefH, stN]
      · simp [sumT, coefG, coefH, stN]
      · simp [sumP, stN]
    rw [hs, orders x nmin mmax.toNat n (mtop n mmax)]
    by_cases h1 : mtop n mmax = 0 ∨ coefStart nmin mmax.toNat n + 2 * mtop n mmax < x.dim
    · rw [if_pos h1, if_pos (by unfold mtop at h1; omega)]
      simp only [pure, Except.pure]
      congr 1
      simp only [stM, stN, State.mk.injEq, coefStart_succ _ _ _ hn, Finset.sum_Ico_succ_top hn,
        rnStep_eq _ _ hr]
      refine ⟨?_, trivial, ?_, ?_, ?_⟩
      · unfold mtop; omega
      · rfl
      · rfl
      · rfl
    · rw [if_neg h1, if_neg (by unfold mtop at h1; omega)]
  · have : getCoef x.dim x.c (coefStart nmin mmax.toNat n) = .error .indexError := if_neg h0
    rw [this, if_neg (by omega)]
    rfl

/-- All loops: the closed form, or IndexError if the coefficient vector is too short. -/
theorem degrees (mmax : ℤ) (hM : M = mmax.toNat) (hr : x.radius ≠ 0) (nmax : ℕ) (hn : nmin ≤ nmax) :
    (pyRange nmin (nmax + 1)).foldlM (degreeStep x mmax)
      { num := 0, rn := rnInit x.src x.radius nmin, br := 0, bt := 0, bp := 0 } =
      if coefStart nmin M (nmax + 1) ≤ x.dim then .ok (stN x nmin M (nmax + 1)) else .error .indexError := by
  have hs : ({ num := 0, rn := rnInit x.src x.radius nmin, br := 0, bt := 0, bp := 0 } : State) =
      stN x nmin M nmin := by
    simp [stN, coefStart_self, rnInit_eq]
  rw [hs, foldlM_pyRange (degreeStep x mmax) (stN x nmin M)
    (fun n => coefStart nmin M (n + 1) ≤ x.dim) .indexError nmin (nmax + 1) (by omega)
    (fun n h1 _ hd => by rw [degreeStep_eq x nmin M mmax hM hr n h1, if_pos hd])
    (fun n h1 _ hd => by rw [degreeStep_eq x nmin M mmax hM hr n h1, if_neg hd])]
  congr 1
  simp only [Legendre.mem_pyRange, eq_iff_iff]
  constructor
  · intro h
    exact h nmax ⟨hn, by omega⟩
  · intro h n hn'
    exact le_trans (coefStart_mono nmin M (by omega)) h

end

/-! ### `design_gauss` -/

/-- Invariant rule for a loop that never fails. -/
theorem foldlM_inv {σ ε : Type} (f : σ → ℕ → Except ε σ) (P : ℕ → σ → Prop) (a b : ℕ) (hab : a ≤ b)
    (h : ∀ k s, a ≤ k → k < b → P k s → ∃ s', f s k = .ok s' ∧ P (k + 1) s') (s : σ) (hs : P a s) :
    ∃ s', (pyRange a b).foldlM f s = .ok s' ∧ P b s' := by
  obtain ⟨d, hd⟩ : ∃ d, d = b - a := ⟨_, rfl⟩
  induction d generalizing a s with
  | zero =>
    obtain rfl : a = b := by omega
    rw [pyRange_empty a a le_rfl]
    exact ⟨s, rfl, hs⟩
  | succ d ih =>
    rw [pyRange_cons a b (by omega), List.foldlM_cons]
    obtain ⟨s1, e1, p1⟩ := h a s le_rfl (by omega) hs
    rw [e1]
    exact ih (a + 1) (by omega) (fun k s hk hb => h k s (by omega) hb) s1 p1 (by omega)

/-- The rows are filled correctly up to column `num`: for every vector `c`, the scalar products are the
sums accumulated by `synth_values` with coefficients `c` in the same iteration. -/
structure Filled (s : Rows) (St : (ℕ → ℝ) → State) : Prop where
  num : ∀ c, s.num = (St c).num
  rn : ∀ c, s.rn = (St c).rn
  zero : ∀ j, s.num ≤ j → s.ar j = 0 ∧ s.ath j = 0 ∧ s.ap j = 0
  ar : ∀ c : ℕ → ℝ, ∑ j ∈ Finset.range s.num, s.ar j * c j = (St c).br
  ath : ∀ c : ℕ → ℝ, ∑ j ∈ Finset.range s.num, s.ath j * c j = (St c).bt
  ap : ∀ c : ℕ → ℝ, ∑ j ∈ Finset.range s.num, s.ap j * c j = (St c).bp

theorem sum_set (A : ℕ → ℝ) (c : ℕ → ℝ) (k : ℕ) (v : ℝ) :
    ∑ j ∈ Finset.range (k + 1), (if j = k then v else A j) * c j =
      ∑ j ∈ Finset.range k, A j * c j + v * c k := by
  rw [Finset.sum_range_succ]
  simp only [if_true]
  congr 1
  apply Finset.sum_congr rfl
  intro j hj
  rw [if_neg (by have := Finset.mem_range.1 hj; omega)]

section
variable (x : Ctx) (nmin M : ℕ)

theorem designOrder_ok (n m : ℕ) (hm : 1 ≤ m) (hd : coefStart nmin M n + 2 * m < x.dim) (s : Rows)
    (hs : Filled s (fun c => stM { x with c := c } nmin M n m)) :
    ∃ s', designOrder x n s m = .ok s' ∧
      Filled s' (fun c => stM { x with c := c } nmin M n (m + 1)) := by
  have hm0 : m ≠ 0 := by omega
  have e1 : s.num = coefStart nmin M n + (2 * m - 1) := hs.num (fun _ => 0)
  have e2 : s.rn = rpow x.src x.radius n := hs.rn (fun _ => 0)
  have l1 : s.num < x.dim := by omega
  have l2 : s.num + 1 < x.dim := by omega
  unfold designOrder setCol
  simp only [if_pos l1, if_pos l2, bind, Except.bind, pure, Except.pure]
  refine ⟨_, rfl, ?_⟩
  · constructor
    · intro c; simp only [stM]; omega
    · intro c; exact e2
    · intro j hj
      simp only at hj
      simp only [if_neg (by omega : ¬ j = s.num), if_neg (by omega : ¬ j = s.num + 1)]
      exact hs.zero j (by omega)
    · intro c
      simp only [sum_set]
      rw [hs.ar c]
      simp only [stM, Finset.sum_range_succ, sumR, coefG, coefH, hm0, if_false, e2, e1,
        show coefStart nmin M n + (2 * m - 1) + 1 = coefStart nmin M n + 2 * m by omega]
      ring
    · intro c
      simp only [sum_set]
      rw [hs.ath c]
      simp only [stM, Finset.sum_range_succ, sumT, coefG, coefH, hm0, if_false, e2, e1,
        show coefStart nmin M n + (2 * m - 1) + 1 = coefStart nmin M n + 2 * m by omega]
      ring
    · intro c
      simp only [sum_set]
      rw [hs.ap c]
      simp only [stM, Finset.sum_range_succ, sumP, coefG, coefH, hm0, if_false, e2, e1,
        show coefStart nmin M n + (2 * m - 1) + 1 = coefStart nmin M n + 2 * m by omega]
      ring

theorem designDegree_ok (mmax : ℤ) (hM : M = mmax.toNat) (hr : x.radius ≠ 0) (n : ℕ) (hn : nmin ≤ n)
    (hd : coefStart nmin M (n + 1) ≤ x.dim) (s : Rows)
    (hs : Filled s (fun c => stN { x with c := c } nmin M n)) :
    ∃ s', designDegree x mmax s n = .ok s' ∧
      Filled s' (fun c => stN { x with c := c } nmin M (n + 1)) := by
  subst hM
  rw [coefStart_succ _ _ _ hn] at hd
  have e1 : s.num = coefStart nmin mmax.toNat n := hs.num (fun _ => 0)
  have e2 : s.rn = rpow x.src x.radius n := hs.rn (fun _ => 0)
  have l1 : s.num < x.dim := by omega
  unfold designDegree setCol
  rw [mtop_range]
  simp only [if_pos l1, bind, Except.bind, pure, Except.pure]
  have hf : Filled { s with
      num := s.num + 1
      ar := fun j => if j = s.num then rfac x.src n * x.T (n, 0) * s.rn else s.ar j
      ath := fun j => if j = s.num then -x.T (0, n + 1) * s.rn else s.ath j }
      (fun c => stM { x with c := c } nmin mmax.toNat n 1) := by
    constructor
    · intro c; simp only [stM]; omega
    · intro c; exact e2
    · intro j hj
      simp only at hj
      simp only [if_neg (by omega : ¬ j = s.num)]
      exact hs.zero j (by omega)
    · intro c
      simp only [sum_set]
      rw [hs.ar c]
      simp only [stM, Finset.sum_range_one, sumR, coefG, coefH, if_true, e2, e1]
      simp
    · intro c
      simp only [sum_set]
      rw [hs.ath c]
      simp only [stM, Finset.sum_range_one, sumT, coefG, coefH, if_true, e2, e1]
      simp
    · intro c
      simp only [Finset.sum_range_succ]
      rw [hs.ap c, (hs.zero s.num le_rfl).2.2]
      simp [stM, sumP]
  obtain ⟨s2, es2, hs2⟩ := foldlM_inv (designOrder x n)
    (fun m s => Filled s (fun c => stM { x with c := c } nmin mmax.toNat n m)) 1 (mtop n mmax + 1) (by omega)
    (fun m s h1 h2 h3 => designOrder_ok x nmin mmax.toNat n m h1
      (by unfold mtop at h2; omega) s h3) _ hf
  rw [es2]
  refine ⟨_, rfl, ?_⟩
  have er : s2.rn = rpow x.src x.radius n := hs2.rn (fun _ => 0)
  have en : s2.num = coefStart nmin mmax.toNat (n + 1) := by
    have := hs2.num (fun _ => 0)
    rw [this, coefStart_succ _ _ _ hn]
    simp only [stM, mtop]
    omega
  constructor
  · intro c; exact en
  · intro c
    simp only [er, stN]
    exact rnStep_eq _ _ hr n
  · exact hs2.zero
  · intro c
    refine (hs2.ar c).trans ?_
    simp only [stM, stN, Finset.sum_Ico_succ_top hn]
    rfl
  · intro c
    refine (hs2.ath c).trans ?_
    simp only [stM, stN, Finset.sum_Ico_succ_top hn]
    rfl
  · intro c
    refine (hs2.ap c).trans ?_
    simp only [stM, stN, Finset.sum_Ico_succ_top hn]
    rfl

theorem designDegrees (mmax : ℤ) (hM : M = mmax.toNat) (hr : x.radius ≠ 0) (nmax : ℕ) (hn : nmin ≤ nmax)
    (hd : coefStart nmin M (nmax + 1) ≤ x.dim) :
    ∃ s', (pyRange nmin (nmax + 1)).foldlM (designDegree x mmax)
      { num := 0, rn := rnInit x.src x.radius nmin, ar := fun _ => 0, ath := fun _ => 0,
        ap := fun _ => 0 } = .ok s' ∧ Filled s' (fun c => stN { x with c := c } nmin M (nmax + 1)) := by
  apply foldlM_inv (designDegree x mmax) (fun n s => Filled s (fun c => stN { x with c := c } nmin M n))
    nmin (nmax + 1) (by omega)
  · intro n s h1 h2 h3
    exact designDegree_ok x nmin M mmax hM hr n h1 (le_trans (coefStart_mono _ _ (by omega)) hd) s h3
  · constructor <;> simp [stN, coefStart_self, rnInit_eq]

end

/-- Sum of an arithmetic progression. -/
theorem coefStart_small (nmin M n : ℕ) (h : nmin ≤ n) (hM : n ≤ M + 1) :
    (coefStart nmin M n : ℤ) = (n : ℤ) ^ 2 - (nmin : ℤ) ^ 2 := by
  obtain ⟨d, rfl⟩ : ∃ d, n = nmin + d := ⟨n - nmin, by omega⟩
  clear h
  induction d with
  | zero => simp [coefStart]
  | succ d ih =>
    rw [show nmin + (d + 1) = nmin + d + 1 by ring, coefStart_succ _ _ _ (by omega)]
    push_cast
    rw [ih (by omega), show min ((nmin : ℤ) + d) (M : ℤ) = nmin + d by omega]
    push_cast
    ring

theorem coefStart_large (nmin M n k : ℕ) (h : nmin ≤ k) (hM : M ≤ k) (hk : k ≤ n) :
    (coefStart nmin M n : ℤ) = coefStart nmin M k + ((n : ℤ) - k) * (2 * M + 1) := by
  obtain ⟨d, rfl⟩ : ∃ d, n = k + d := ⟨n - k, by omega⟩
  clear hk
  induction d with
  | zero => simp
  | succ d ih =>
    rw [show k + (d + 1) = k + d + 1 by ring, coefStart_succ _ _ _ (by omega)]
    push_cast
    rw [ih, show min ((k : ℤ) + d) (M : ℤ) = M by omega]
    push_cast
    ring

/-- The number of columns of the design matrix is the number of coefficients. -/
theorem designDim_eq (nmin nmax M : ℕ) (h1 : nmin ≤ nmax) (h2 : M ≤ nmax) :
    designDim nmin nmax M = coefStart nmin M (nmax + 1) := by
  unfold designDim
  by_cases h : (M : ℤ) ≥ nmin - 1
  · rw [if_pos h]
    have e1 := coefStart_small nmin M (M + 1) (by omega) (by omega)
    have e2 := coefStart_large nmin M (nmax + 1) (M + 1) (by omega) (by omega) (by omega)
    have : (M : ℤ) * (M + 2) + (nmax - M) * (2 * M + 1) - nmin ^ 2 + 1 = coefStart nmin M (nmax + 1) := by
      rw [e2, e1]
      push_cast
      ring
    rw [this]
    simp
  · rw [if_neg h]
    have e2 := coefStart_large nmin M (nmax + 1) nmin (by omega) (by omega) (by omega)
    have : ((nmax : ℤ) - nmin + 1) * (2 * M + 1) = coefStart nmin M (nmax + 1) := by
      rw [e2, coefStart_self]
      push_cast
      ring
    rw [this]
    simp

end ChaosMagPy.Synth
