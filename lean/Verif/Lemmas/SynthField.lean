import Verif.Lemmas.SynthLoops
import Verif.Props.Legendre
import Mathlib.Analysis.Calculus.Deriv.ZPow
/-! Closed form of the synthesised field in terms of the Schmidt functions. -/
namespace ChaosMagPy.Synth
open ChaosMagPy.Legendre (pyRange S dS kf q dl fin)
open ChaosMagPy.Spec

/-- `schmidt n m / sin θ` without division (for `m ≥ 1`). -/
noncomputable def R (n m : ℕ) (x : ℝ) : ℝ :=
  kf m * q n m * Real.sin x ^ (m - 1) * (dl n m).eval (Real.cos x)

theorem R_mul_sin (n m : ℕ) (hm : 1 ≤ m) (x : ℝ) : R n m x * Real.sin x = schmidt n m x := by
  rw [Legendre.schmidt_eq]
  unfold R S
  obtain ⟨k, rfl⟩ : ∃ k, m = k + 1 := ⟨m - 1, by omega⟩
  rw [Nat.add_sub_cancel, pow_succ]
  ring

section
variable (src : Source) (a : ℝ) (c : ℕ → ℝ) (nmin nmax M : ℕ)

/-- Closed form of the three components (angles in radians). -/
noncomputable def fieldR (r x y : ℝ) : ℝ :=
  ∑ n ∈ Finset.Icc nmin nmax, ∑ m ∈ Finset.range (min n M + 1),
    rfac src n * schmidt n m x * rpow src (r / a) n *
      (coefG c nmin M n m * Real.cos (m * y) + coefH c nmin M n m * Real.sin (m * y))

noncomputable def fieldT (r x y : ℝ) : ℝ :=
  ∑ n ∈ Finset.Icc nmin nmax, ∑ m ∈ Finset.range (min n M + 1),
    -dS (Real.cos x) (Real.sin x) n m * rpow src (r / a) n *
      (coefG c nmin M n m * Real.cos (m * y) + coefH c nmin M n m * Real.sin (m * y))

noncomputable def fieldP (r x y : ℝ) : ℝ :=
  ∑ n ∈ Finset.Icc nmin nmax, ∑ m ∈ Finset.range (min n M + 1),
    m * R n m x * rpow src (r / a) n *
      (coefG c nmin M n m * Real.sin (m * y) - coefH c nmin M n m * Real.cos (m * y))

end

theorem sum_Ico_Icc (a b : ℕ) (f : ℕ → ℝ) :
    ∑ k ∈ Finset.Ico a (b + 1), f k = ∑ k ∈ Finset.Icc a b, f k := by
  congr 1

/-- Data of the table. -/
theorem table (nmax : ℕ) (θ : ℝ) (hn : 1 ≤ nmax) (h0 : 0 ≤ θ) (h1 : θ ≤ 180) :
    ∃ T, Legendre.legendrePoly nmax θ = .ok T ∧
      (∀ n m, m ≤ n → n ≤ nmax → T (n, m) = schmidt n m (rad θ)) ∧
      (∀ n m, m ≤ n → n ≤ nmax → T (m, n + 1) = dS (Real.cos (rad θ)) (Real.sin (rad θ)) n m) := by
  obtain ⟨T, hT, h⟩ := Legendre.C14_legendre_table nmax θ hn h0 h1
  refine ⟨T, hT, fun n m hm hnm => (h n m hm hnm).1, fun n m hm hnm => ?_⟩
  exact (h n m hm hnm).2.unique (Legendre.hasDerivAt_schmidt n m (rad θ))

theorem rad_0 : rad 0 = 0 := by simp [rad]

theorem rad_180 : rad 180 = Real.pi := by unfold rad; ring

theorem sin_rad_pos {θ : ℝ} (h0 : 0 < θ) (h1 : θ < 180) : 0 < Real.sin (rad θ) := by
  apply Real.sin_pos_of_pos_of_lt_pi
  · unfold rad; positivity
  · unfold rad
    have := Real.pi_pos
    nlinarith

theorem schmidt_1_1 (x : ℝ) : schmidt 1 1 x = Real.sin x := by
  simp only [schmidt, schmidtNorm]
  rw [Legendre.legendre_one]
  simp

theorem schmidt_1_0 (x : ℝ) : schmidt 1 0 x = Real.cos x := by
  simp [schmidt, schmidtNorm, Legendre.legendre_one]

/-- At the poles the special treatment gives the limit value. -/
theorem divP_eq (poles : Bool) (T : Legendre.Table) (θ : ℝ) (nmax : ℕ) (hn : 1 ≤ nmax)
    (h0 : 0 ≤ θ) (h1 : θ ≤ 180) (hp : θ = 0 ∨ θ = 180 → poles = true)
    (hv : ∀ n m, m ≤ n → n ≤ nmax → T (n, m) = schmidt n m (rad θ))
    (hd : ∀ n m, m ≤ n → n ≤ nmax → T (m, n + 1) = dS (Real.cos (rad θ)) (Real.sin (rad θ)) n m)
    (n m : ℕ) (hm1 : 1 ≤ m) (hm : m ≤ n) (hnm : n ≤ nmax) :
    divP poles T θ n m = R n m (rad θ) := by
  unfold divP
  by_cases hpole : θ = 0 ∨ θ = 180
  · rw [if_pos ⟨hp hpole, hpole⟩, hd n m hm hnm, hv 1 0 (by omega) hn, schmidt_1_0]
    have hs : Real.sin (rad θ) = 0 := by
      rcases hpole with rfl | rfl
      · rw [rad_0, Real.sin_zero]
      · rw [rad_180, Real.sin_pi]
    have hc : Real.cos (rad θ) * Real.cos (rad θ) = 1 := by
      have := Real.sin_sq_add_cos_sq (rad θ)
      rw [hs] at this
      nlinarith
    unfold dS R
    rw [hs]
    by_cases e : m = 1
    · subst e
      simp only [Nat.sub_self, pow_zero, Nat.cast_one, mul_one, one_mul]
      rw [zero_pow (by omega)]
      linear_combination (kf 1 * q n 1 * (dl n 1).eval (Real.cos (rad θ))) * hc
    · rw [zero_pow (by omega), zero_pow (by omega)]
      ring
  · rw [if_neg (fun h => hpole h.2), hv n m hm hnm, hv 1 1 le_rfl hn, schmidt_1_1]
    have hs : 0 < Real.sin (rad θ) := by
      apply sin_rad_pos
      · exact lt_of_le_of_ne h0 (fun h => hpole (Or.inl h.symm))
      · exact lt_of_le_of_ne h1 (fun h => hpole (Or.inr h))
    rw [← R_mul_sin n m hm1]
    field_simp

/-- Closed form of one point. -/
theorem synthPoint_eq (rsurf : ℝ) (src : Source) (poles : Bool) (dim nmin nmax : ℕ) (mmax : ℤ) (p : Point)
    (hn : 1 ≤ nmax) (hmin : nmin ≤ nmax) (hr : p.radius ≠ 0) (ha : rsurf ≠ 0)
    (h0 : 0 ≤ p.theta) (h1 : p.theta ≤ 180) (hp : p.theta = 0 ∨ p.theta = 180 → poles = true) :
    synthPoint rsurf src poles dim nmin nmax mmax p =
      if coefStart nmin mmax.toNat (nmax + 1) ≤ dim then
        .ok (fieldR src rsurf p.coeffs nmin nmax mmax.toNat p.radius (rad p.theta) (rad p.phi),
             fieldT src rsurf p.coeffs nmin nmax mmax.toNat p.radius (rad p.theta) (rad p.phi),
             fieldP src rsurf p.coeffs nmin nmax mmax.toNat p.radius (rad p.theta) (rad p.phi))
      else .error .indexError := by
  obtain ⟨T, hT, hv, hd⟩ := table nmax p.theta hn h0 h1
  unfold synthPoint
  rw [hT]
  simp only
  have hl := degrees { dim, src, poles, T, radius := p.radius / rsurf, theta := p.theta,
                       phi := rad p.phi, c := p.coeffs } nmin mmax.toNat mmax rfl
                       (div_ne_zero hr ha) nmax hmin
  simp only at hl
  rw [hl]
  by_cases hc : coefStart nmin mmax.toNat (nmax + 1) ≤ dim
  · rw [if_pos hc, if_pos hc]
    simp only [bind, Except.bind, pure, Except.pure, stN, sum_Ico_Icc]
    congr 2
    · unfold fieldR
      apply Finset.sum_congr rfl
      intro n hnn
      have hnn := Finset.mem_Icc.1 hnn
      apply Finset.sum_congr rfl
      intro m hm
      have hm := Finset.mem_range.1 hm
      simp only [sumR]
      rw [hv n m (by omega) (by omega)]
    · congr 1
      · unfold fieldT
        apply Finset.sum_congr rfl
        intro n hnn
        have hnn := Finset.mem_Icc.1 hnn
        apply Finset.sum_congr rfl
        intro m hm
        have hm := Finset.mem_range.1 hm
        simp only [sumT]
        rw [hd n m (by omega) (by omega)]
      · unfold fieldP
        apply Finset.sum_congr rfl
        intro n hnn
        have hnn := Finset.mem_Icc.1 hnn
        apply Finset.sum_congr rfl
        intro m hm
        have hm := Finset.mem_range.1 hm
        simp only [sumP]
        rcases Nat.eq_zero_or_pos m with rfl | hm1
        · simp
        · rw [divP_eq poles T p.theta nmax hn h0 h1 hp hv hd n m hm1 (by omega) (by omega)]
  · rw [if_neg hc, if_neg hc]
    rfl

/-- The colatitude check as a predicate on the array. -/
theorem foldl_min_le (l : List ℝ) (x : ℝ) : l.foldl min x ≤ x ∧ ∀ y ∈ l, l.foldl min x ≤ y := by
  induction l generalizing x with
  | nil => simp
  | cons a l ih =>
    simp only [List.foldl_cons, List.mem_cons, forall_eq_or_imp]
    have h := ih (min x a)
    exact ⟨le_trans h.1 (min_le_left _ _), le_trans h.1 (min_le_right _ _), h.2⟩

theorem foldl_min_mem (l : List ℝ) (x : ℝ) : l.foldl min x = x ∨ l.foldl min x ∈ l := by
  induction l generalizing x with
  | nil => simp
  | cons a l ih =>
    simp only [List.foldl_cons, List.mem_cons]
    rcases ih (min x a) with h | h
    · rcases min_choice x a with e | e
      · left; rw [h, e]
      · right; left; rw [h, e]
    · right; right; exact h

theorem le_foldl_max (l : List ℝ) (x : ℝ) : x ≤ l.foldl max x ∧ ∀ y ∈ l, y ≤ l.foldl max x := by
  induction l generalizing x with
  | nil => simp
  | cons a l ih =>
    simp only [List.foldl_cons, List.mem_cons, forall_eq_or_imp]
    have h := ih (max x a)
    exact ⟨le_trans (le_max_left _ _) h.1, le_trans (le_max_right _ _) h.1, h.2⟩

theorem foldl_max_mem (l : List ℝ) (x : ℝ) : l.foldl max x = x ∨ l.foldl max x ∈ l := by
  induction l generalizing x with
  | nil => simp
  | cons a l ih =>
    simp only [List.foldl_cons, List.mem_cons]
    rcases ih (max x a) with h | h
    · rcases max_choice x a with e | e
      · left; rw [h, e]
      · right; left; rw [h, e]
    · right; right; exact h

/-- The check accepts an array exactly if all colatitudes are strictly inside, or the smallest is
exactly 0, or the largest is exactly 180. -/
theorem checkColat_ok (ths : List ℝ) (b : Bool) :
    checkColat ths = .ok b ↔ ths ≠ [] ∧
      ((b = false ∧ ∀ t ∈ ths, 0 < t ∧ t < 180) ∨
       (b = true ∧ ((0 ∈ ths ∧ ∀ t ∈ ths, 0 ≤ t) ∨ (180 ∈ ths ∧ ∀ t ∈ ths, t ≤ 180)))) := by
  cases ths with
  | nil => simp [checkColat, aminmax, bind, Except.bind]
  | cons x xs =>
    have m1 := foldl_min_le xs x
    have m2 := foldl_min_mem xs x
    have m3 := le_foldl_max xs x
    have m4 := foldl_max_mem xs x
    have hmin : xs.foldl min x ∈ x :: xs := by
      rcases m2 with h | h
      · rw [h]; simp
      · exact List.mem_cons_of_mem _ h
    have hmax : xs.foldl max x ∈ x :: xs := by
      rcases m4 with h | h
      · rw [h]; simp
      · exact List.mem_cons_of_mem _ h
    have hmin' : ∀ t ∈ x :: xs, xs.foldl min x ≤ t := by
      intro t ht
      rcases List.mem_cons.1 ht with rfl | ht
      · exact m1.1
      · exact m1.2 t ht
    have hmax' : ∀ t ∈ x :: xs, t ≤ xs.foldl max x := by
      intro t ht
      rcases List.mem_cons.1 ht with rfl | ht
      · exact m3.1
      · exact m3.2 t ht
    have e0 : xs.foldl min x = 0 ↔ (0 ∈ x :: xs ∧ ∀ t ∈ x :: xs, 0 ≤ t) := by
      constructor
      · intro h; rw [h] at hmin hmin'; exact ⟨hmin, hmin'⟩
      · rintro ⟨h, h'⟩
        exact le_antisymm (hmin' 0 h) (h' _ hmin)
    have e180 : xs.foldl max x = 180 ↔ (180 ∈ x :: xs ∧ ∀ t ∈ x :: xs, t ≤ 180) := by
      constructor
      · intro h; rw [h] at hmax hmax'; exact ⟨hmax, hmax'⟩
      · rintro ⟨h, h'⟩
        exact le_antisymm (h' _ hmax) (hmax' 180 h)
    simp only [checkColat, aminmax, bind, Except.bind, pure, Except.pure]
    rw [← e0, ← e180]
    generalize xs.foldl min x = mn at *
    generalize xs.foldl max x = mx at *
    by_cases h1 : mn ≤ 0 ∨ mx ≥ 180
    · rw [if_pos h1]
      by_cases h2 : mn = 0 ∨ mx = 180
      · rw [if_pos h2]
        constructor
        · intro h; injection h with h; subst h; exact ⟨by simp, Or.inr ⟨rfl, h2⟩⟩
        · rintro ⟨_, ⟨_, h⟩ | ⟨h, _⟩⟩
          · exfalso
            have a1 := h mn hmin
            have a2 := h mx hmax
            rcases h1 with h1 | h1 <;> linarith
          · rw [h]
      · rw [if_neg h2]
        constructor
        · intro h; cases h
        · rintro ⟨_, ⟨_, h⟩ | ⟨_, h⟩⟩
          · exfalso
            have a1 := h mn hmin
            have a2 := h mx hmax
            rcases h1 with h1 | h1 <;> linarith
          · exact absurd h h2
    · rw [if_neg h1]
      push Not at h1
      constructor
      · intro h; injection h with h; subst h
        exact ⟨by simp, Or.inl ⟨rfl, fun t ht => ⟨lt_of_lt_of_le h1.1 (hmin' t ht),
          lt_of_le_of_lt (hmax' t ht) h1.2⟩⟩⟩
      · rintro ⟨_, ⟨h, _⟩ | ⟨_, h⟩⟩
        · rw [h]
        · exfalso
          rcases h with h | h <;> linarith

theorem checkColat_err (ths : List ℝ) (e : Error) (h : checkColat ths = .error e) : e = .valueError := by
  revert h
  unfold checkColat aminmax
  cases ths with
  | nil => simp [bind, Except.bind]; exact fun h => h.symm
  | cons x xs =>
    simp only [bind, Except.bind, pure, Except.pure]
    split_ifs
    · intro h; cases h
    · intro h; injection h with h; exact h.symm
    · intro h; cases h

end ChaosMagPy.Synth
