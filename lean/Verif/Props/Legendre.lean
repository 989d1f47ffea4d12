import Verif.Lemmas.LegendreTable
/-!
# C14, C15: `legendre_poly`
-/
namespace ChaosMagPy.Legendre
open ChaosMagPy.Spec

theorem sin_rad_nonneg {θ : ℝ} (h0 : 0 ≤ θ) (h1 : θ ≤ 180) : 0 ≤ Real.sin (rad θ) := by
  apply Real.sin_nonneg_of_nonneg_of_le_pi
  · unfold rad; positivity
  · unfold rad
    have := Real.pi_pos
    nlinarith

theorem sinth_eq {θ : ℝ} (h0 : 0 ≤ θ) (h1 : θ ≤ 180) :
    Real.sqrt (1 - Real.cos (rad θ) ^ 2) = Real.sin (rad θ) := by
  rw [← Real.sin_sq, Real.sqrt_sq (sin_rad_nonneg h0 h1)]

/-- **C14.** For every maximum degree and every colatitude in `[0°, 180°]` the call succeeds, entry
`[n, m]` is the Schmidt semi-normalised associated Legendre function and entry `[m, n+1]` is its
derivative with respect to the colatitude (in radians), for all `m ≤ n ≤ nmax`. -/
theorem C14_legendre_table (nmax : ℕ) (θ : ℝ) (hn : 1 ≤ nmax) (h0 : 0 ≤ θ) (h1 : θ ≤ 180) :
    ∃ T, legendrePoly nmax θ = .ok T ∧
      ∀ n m, m ≤ n → n ≤ nmax →
        T (n, m) = schmidt n m (rad θ) ∧
        HasDerivAt (fun x => schmidt n m x) (T (m, n + 1)) (rad θ) := by
  refine ⟨_, legendrePoly_ok nmax θ hn, fun n m hm hnm => ?_⟩
  rw [sinth_eq h0 h1]
  refine ⟨?_, ?_⟩
  · rw [schmidt_eq]
    exact fin_val nmax _ _ n m hn hm hnm
  · have := fin_deriv nmax (Real.cos (rad θ)) (Real.sin (rad θ)) (Real.sin_sq _) n m hn hm hnm
    unfold fin at this
    rw [this]
    exact hasDerivAt_schmidt n m (rad θ)

/-- The hypotheses of `C14_legendre_table` are met, with a non-trivial entry: at 90° the entry
`[1, 1]` is 1 and `[1, 0]` is 0. -/
example : ∃ T, legendrePoly 3 90 = .ok T ∧ T (1, 1) = 1 ∧ T (1, 0) = 0 := by
  obtain ⟨T, hT, h⟩ := C14_legendre_table 3 90 (by norm_num) (by norm_num) (by norm_num)
  have hr : rad 90 = Real.pi / 2 := by unfold rad; ring
  refine ⟨T, hT, ?_, ?_⟩
  · rw [(h 1 1 (by norm_num) (by norm_num)).1, hr]
    simp [schmidt, schmidtNorm, legendre_one]
  · rw [(h 1 0 (by norm_num) (by norm_num)).1, hr]
    simp [schmidt, schmidtNorm, legendre_one]

/-- Outside `[0°, 180°]` the value table holds the Schmidt function with `|sin θ|` in place of `sin θ`
(so odd orders have the wrong sign there): the code takes the positive root for the sine. -/
theorem C14_outside (nmax : ℕ) (θ : ℝ) (hn : 1 ≤ nmax) :
    ∃ T, legendrePoly nmax θ = .ok T ∧ ∀ n m, m ≤ n → n ≤ nmax →
      T (n, m) = schmidtNorm n m * |Real.sin (rad θ)| ^ m *
        (Polynomial.derivative^[m] (legendre n)).eval (Real.cos (rad θ)) := by
  refine ⟨_, legendrePoly_ok nmax θ hn, fun n m hm hnm => ?_⟩
  have : Real.sqrt (1 - Real.cos (rad θ) ^ 2) = |Real.sin (rad θ)| := by
    rw [← Real.sin_sq, Real.sqrt_sq_eq_abs]
  rw [this]
  have h := fin_val nmax (Real.cos (rad θ)) |Real.sin (rad θ)| n m hn hm hnm
  unfold fin at h
  rw [h, schmidtNorm_eq]
  rfl

example : ∃ T, legendrePoly 1 270 = .ok T ∧ T (1, 1) = 1 ∧ schmidt 1 1 (rad 270) = -1 := by
  obtain ⟨T, hT, h⟩ := C14_outside 1 270 (by norm_num)
  have hs : Real.sin (rad 270) = -1 := by
    have : rad 270 = Real.pi / 2 + Real.pi := by unfold rad; ring
    rw [this, Real.sin_add_pi, Real.sin_pi_div_two]
  have hd : (Polynomial.derivative^[1] (legendre 1)) = 1 := by
    rw [legendre_one]; simp
  refine ⟨T, hT, ?_, ?_⟩
  · rw [h 1 1 le_rfl le_rfl, hs, hd]; simp [schmidtNorm]
  · simp only [schmidt, hs, hd]; simp [schmidtNorm]

/-- **C15.** Every array index used for a positive maximum degree is within the allocated table
(`rootn` as well, and no negative indices). -/
theorem C15_in_bounds (nmax : ℕ) (c s : ℝ) (h : 1 ≤ nmax) :
    ∀ a ∈ program nmax c s,
      (a.tgt.1 < nmax + 1 ∧ a.tgt.2 < nmax + 2) ∧
      (∀ p ∈ a.rhs.reads, p.1 < nmax + 1 ∧ p.2 < nmax + 2) ∧
      ∀ k ∈ a.rhs.roots, 0 ≤ k ∧ k < 2 * (nmax : ℤ) ^ 2 + 1 :=
  program_valid nmax c s h

example : ∃ a ∈ program 4 0.5 0.5, a.tgt = (4, 2) ∧ a.rhs.roots ≠ [] :=
  ⟨valueStep 0.5 2 4, mem_value 4 _ _ (m := 2) (by norm_num) (by
    simp only [valueBlock, List.mem_append, List.mem_map, mem_pyRange]
    exact Or.inr ⟨4, ⟨by norm_num, by norm_num⟩, rfl⟩), rfl, by simp [valueStep, Expr.roots]⟩

/-- **C15.** Degree zero is refused with an IndexError (the code always writes entry `[1, 1]`). -/
theorem C15_degree_zero (θ : ℝ) : legendrePoly 0 θ = .error .indexError := by
  unfold legendrePoly program
  simp [pyRange, exec, Assign.valid, inBounds, Expr.reads, Expr.roots, List.foldlM_cons]
  rfl

theorem program_tgt_mem (nmax : ℕ) (c s : ℝ) (h : 1 ≤ nmax) (p : ℕ × ℕ) :
    (∃ a ∈ program nmax c s, a.tgt = p) ↔
      (p.2 ≤ p.1 ∧ p.1 ≤ nmax) ∨ (p.1 < p.2 ∧ 2 ≤ p.2 ∧ p.2 ≤ nmax + 1) := by
  constructor
  · rintro ⟨a, ha, rfl⟩
    revert a
    apply forall_mem_program
    · left; simp
    · left; simp; omega
    · intro m hm
      apply forall_mem_valueBlock
      · left; simp; omega
      · intro _; left; simp; omega
      · intro n h1 h2; left; simp [valueStep]; omega
    · right; simp; omega
    · right; simp; omega
    · intro n h1 h2
      apply forall_mem_derivBlock
      · right; simp; omega
      · right; simp; omega
      · intro m h3 h4; right; simp [derivStep]; omega
      · right; simp; omega
  · obtain ⟨i, j⟩ := p
    rintro (⟨h1, h2⟩ | ⟨h1, h2, h3⟩)
    · simp only at h1 h2
      by_cases e0 : i = 0
      · subst e0
        obtain rfl : j = 0 := by omega
        exact ⟨⟨(0, 0), .const 1⟩, by simp [program], rfl⟩
      by_cases e1 : i = j
      · subst e1
        by_cases e2 : i = 1
        · subst e2
          exact ⟨⟨(1, 1), .const s⟩, by simp [program], rfl⟩
        · obtain ⟨m, rfl⟩ : ∃ m, i = m + 1 := ⟨i - 1, by omega⟩
          exact ⟨_, mem_value nmax c s (m := m) (by omega) (a := ⟨(m + 1, m + 1), .div (.mul (.const s)
            (.mul (.rootn ((m : ℤ) + m + 1)) (.read m m))) (.rootn ((m : ℤ) + m + 2))⟩)
            (by have : 0 < m := by omega
                simp [valueBlock, this]), rfl⟩
      by_cases e2 : i = j + 1
      · subst e2
        exact ⟨_, mem_value nmax c s (m := j) (by omega) (a := ⟨(j + 1, j), .mul (.const c)
          (.mul (.rootn ((j : ℤ) + j + 1)) (.read j j))⟩) (by simp [valueBlock]), rfl⟩
      · exact ⟨valueStep c j i, mem_value nmax c s (m := j) (by omega) (by
          simp only [valueBlock, List.mem_append, List.mem_map, mem_pyRange]
          exact Or.inr ⟨i, ⟨by omega, by omega⟩, rfl⟩), rfl⟩
    · simp only at h1 h2 h3
      obtain ⟨n, rfl⟩ : ∃ n, j = n + 1 := ⟨j - 1, by omega⟩
      by_cases e1 : n = 1
      · subst e1
        by_cases e0 : i = 0
        · subst e0
          exact ⟨⟨(0, 2), .neg (.read 1 1)⟩, by simp [program], rfl⟩
        · obtain rfl : i = 1 := by omega
          exact ⟨⟨(1, 2), .read 1 0⟩, by simp [program], rfl⟩
      · have hn2 : 2 ≤ n := by omega
        by_cases e0 : i = 0
        · subst e0
          exact ⟨_, mem_deriv nmax c s hn2 (by omega) (a := ⟨(0, n + 1), .mul (.neg (.const
            (Real.sqrt (((n : ℝ) * n + n) / 2)))) (.read n 1)⟩) (by simp [derivBlock]), rfl⟩
        by_cases e1' : i = 1
        · subst e1'
          exact ⟨_, mem_deriv nmax c s hn2 (by omega) (a := ⟨(1, n + 1), .div (.sub (.mul (.const (Real.sqrt
            (2 * ((n : ℝ) * n + n)))) (.read n 0)) (.mul (.const (Real.sqrt ((n : ℝ) * n + n - 2))) (.read n 2)))
            (.const 2)⟩) (by simp [derivBlock]), rfl⟩
        by_cases en : i = n
        · subst en
          exact ⟨_, mem_deriv nmax c s hn2 (by omega) (a := ⟨(i, i + 1), .div (.mul (.const
            (Real.sqrt (2 * i))) (.read i (i - 1))) (.const 2)⟩) (by simp [derivBlock]), rfl⟩
        · exact ⟨derivStep n i, mem_deriv nmax c s hn2 (by omega) (by
            simp only [derivBlock, List.mem_append, List.mem_map, mem_pyRange]
            exact Or.inl (Or.inr ⟨i, ⟨by omega, by omega⟩, rfl⟩)), rfl⟩

/-- **C15.** Every entry is written at most once, and the entries written are exactly the values
`[n, m]` with `m ≤ n ≤ nmax` and the derivatives `[m, n+1]` with `m ≤ n`, `1 ≤ n ≤ nmax`. -/
theorem C15_written_once (nmax : ℕ) (c s : ℝ) (h : 1 ≤ nmax) :
    ((program nmax c s).map Assign.tgt).Nodup ∧
    ∀ p, p ∈ (program nmax c s).map Assign.tgt ↔
      (∃ n m, m ≤ n ∧ n ≤ nmax ∧ p = (n, m)) ∨ (∃ n m, m ≤ n ∧ 1 ≤ n ∧ n ≤ nmax ∧ p = (m, n + 1)) := by
  refine ⟨?_, fun p => ?_⟩
  · unfold List.Nodup
    rw [List.pairwise_map]
    exact (program_pairwise nmax c s).imp (fun h => h.1.symm)
  · rw [List.mem_map, program_tgt_mem nmax c s h]
    constructor
    · rintro (⟨h1, h2⟩ | ⟨h1, h2, h3⟩)
      · exact Or.inl ⟨p.1, p.2, h1, h2, rfl⟩
      · refine Or.inr ⟨p.2 - 1, p.1, by omega, by omega, by omega, ?_⟩
        rw [Nat.sub_add_cancel (by omega)]
    · rintro (⟨n, m, h1, h2, rfl⟩ | ⟨n, m, h1, h2, h3, rfl⟩)
      · left; exact ⟨h1, h2⟩
      · right; exact ⟨by simp; omega, by simp; omega, by simp; omega⟩

/-- **C15.** Whenever an assignment is executed, every entry it reads was written by an earlier
assignment, and neither it nor its own target is overwritten by a later one. -/
theorem C15_reads_after_writes (nmax : ℕ) (c s : ℝ) (h : 1 ≤ nmax)
    (pre post : List Assign) (a : Assign) (hp : program nmax c s = pre ++ a :: post) :
    (∀ p ∈ a.rhs.reads, ∃ b ∈ pre, b.tgt = p) ∧
    ∀ b ∈ post, b.tgt ≠ a.tgt ∧ b.tgt ∉ a.rhs.reads := by
  have hpw := program_pairwise nmax c s
  rw [hp, List.pairwise_append, List.pairwise_cons] at hpw
  obtain ⟨_, ⟨hpost, _⟩, _⟩ := hpw
  refine ⟨fun p hpr => ?_, fun b hb => hpost b hb⟩
  have ha : a ∈ program nmax c s := by rw [hp]; simp
  -- every read is the target of some assignment
  have hex : ∀ a ∈ program nmax c s, ∀ p ∈ a.rhs.reads, p.2 ≤ p.1 ∧ p.1 ≤ nmax := by
    apply forall_mem_program
    · simp [Expr.reads]
    · simp [Expr.reads]
    · intro m hm a ha p hpr
      have h1 := valueBlock_reads a ha p hpr
      have h2 := (program_valid nmax c s h a (mem_value nmax c s hm ha)).2.1 p hpr
      unfold inBounds at h2
      omega
    · simp [Expr.reads]; omega
    · simp [Expr.reads]; omega
    · intro n h1 h2 a ha p hpr
      have := derivBlock_reads a ha h1 p hpr
      omega
  obtain ⟨b, hb, hbt⟩ := (program_tgt_mem nmax c s h p).2 (Or.inl (hex a ha p hpr))
  rw [hp] at hb
  rcases List.mem_append.1 hb with hb | hb
  · exact ⟨b, hb, hbt⟩
  · rcases List.mem_cons.1 hb with rfl | hb
    · exact absurd (hbt ▸ hpr) (program_noself nmax c s b ha)
    · exact absurd (hbt ▸ hpr) (hpost b hb).2

/-- The hypotheses are met in the middle of the derivative loop. -/
example : ∃ pre post, program 3 0.6 0.8 = pre ++ derivStep 3 2 :: post :=
  List.append_of_mem (mem_deriv 3 _ _ (n := 3) (by norm_num) (by norm_num) (by
    simp only [derivBlock, List.mem_append, List.mem_map, mem_pyRange]
    exact Or.inl (Or.inr ⟨2, ⟨by norm_num, by norm_num⟩, rfl⟩)))

/-- **C15.** The array after the loops satisfies every assignment as an equation, and entries that are
never assigned keep the zero they were allocated with. -/
theorem C15_equations (nmax : ℕ) (θ : ℝ) (h : 1 ≤ nmax) :
    ∃ T, legendrePoly nmax θ = .ok T ∧
      let prog := program nmax (Real.cos (rad θ)) (Real.sqrt (1 - Real.cos (rad θ) ^ 2))
      (∀ a ∈ prog, T a.tgt = a.rhs.eval T) ∧ ∀ p, p ∉ prog.map Assign.tgt → T p = 0 := by
  refine ⟨_, legendrePoly_ok nmax θ h, fun a ha => fin_eq nmax _ _ a ha, fun p hp => ?_⟩
  rw [runAll_not_tgt]
  intro a ha e
  exact hp (List.mem_map.2 ⟨a, ha, e⟩)

end ChaosMagPy.Legendre
