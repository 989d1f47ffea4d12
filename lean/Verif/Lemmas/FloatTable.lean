import Verif.Lemmas.FloatSine
import Verif.Lemmas.LegendreTable
/-! The table of `legendre_poly` in double precision. -/
namespace ChaosMagPy.FloatLegendre
open ChaosMagPy.Spec ChaosMagPy.Float ChaosMagPy.Legendre

variable (R : Rounding)

theorem evalF_congr {T T' : TableF} (e : Expr) (h : ∀ p ∈ e.reads, T p = T' p) : evalF R T e = evalF R T' e := by
  induction e with
  | const x => rfl
  | read i j => exact h _ (by simp [Expr.reads])
  | rootn k => rfl
  | mul a b iha ihb =>
    simp only [Expr.reads, List.mem_append] at h
    simp only [evalF, iha (fun p hp => h p (Or.inl hp)), ihb (fun p hp => h p (Or.inr hp))]
  | sub a b iha ihb =>
    simp only [Expr.reads, List.mem_append] at h
    simp only [evalF, iha (fun p hp => h p (Or.inl hp)), ihb (fun p hp => h p (Or.inr hp))]
  | div a b iha ihb =>
    simp only [Expr.reads, List.mem_append] at h
    simp only [evalF, iha (fun p hp => h p (Or.inl hp)), ihb (fun p hp => h p (Or.inr hp))]
  | neg a iha =>
    simp only [Expr.reads] at h
    simp only [evalF, iha h]

/-- Executing a list of assignments without bounds checks. -/
noncomputable def runF (l : List Assign) (T : TableF) : TableF := l.foldl (stepF R) T

theorem runF_not_tgt (l : List Assign) (T : TableF) (p : ℕ × ℕ) (h : ∀ a ∈ l, a.tgt ≠ p) : runF R l T p = T p := by
  induction l generalizing T with
  | nil => rfl
  | cons a l ih =>
    have h1 : runF R (a :: l) T = runF R l (stepF R T a) := rfl
    rw [h1, ih _ (fun b hb => h b (List.mem_cons_of_mem _ hb))]
    unfold stepF
    rw [if_neg]
    intro e
    exact h a List.mem_cons_self e.symm

theorem runF_ssa (l : List Assign) (T : TableF) (hp : l.Pairwise Safe) (hself : ∀ a ∈ l, a.tgt ∉ a.rhs.reads) :
    ∀ a ∈ l, runF R l T a.tgt = evalF R (runF R l T) a.rhs := by
  induction l generalizing T with
  | nil => simp
  | cons b l ih =>
    have h1 : runF R (b :: l) T = runF R l (stepF R T b) := rfl
    rw [List.pairwise_cons] at hp
    intro a ha
    rw [h1]
    rcases List.mem_cons.1 ha with rfl | ha
    · rw [runF_not_tgt _ _ _ _ (fun c hc => (hp.1 c hc).1)]
      have : (stepF R T a) a.tgt = evalF R T a.rhs := by simp [stepF]
      rw [this]
      apply evalF_congr
      intro p hpr
      rw [runF_not_tgt]
      · unfold stepF
        rw [if_neg]
        rintro rfl
        exact hself a List.mem_cons_self hpr
      · intro c hc e
        exact (hp.1 c hc).2 (e ▸ hpr)
    · exact ih _ hp.2 (fun c hc => hself c (List.mem_cons_of_mem _ hc)) a ha

theorem foldlM_execF (nmax : ℕ) (l : List Assign) (T : TableF) (h : ∀ a ∈ l, a.valid nmax) :
    l.foldlM (execF R nmax) T = .ok (runF R l T) := by
  induction l generalizing T with
  | nil => rfl
  | cons a l ih =>
    rw [List.foldlM_cons]
    unfold execF
    rw [if_pos (h a List.mem_cons_self)]
    exact ih _ (fun b hb => h b (List.mem_cons_of_mem _ hb))

/-- Final table. -/
noncomputable def finF (nmax : ℕ) (c s : ℝ) : TableF := runF R (program nmax c s) (fun _ => some 0)

theorem legendrePolyF_ok (C : ℝ → ℝ) (nmax : ℕ) (θ : ℝ) (h : 1 ≤ nmax) :
    legendrePolyF R C nmax θ = .ok (finF R nmax (C (radians R θ)) (sine R (C (radians R θ)))) :=
  foldlM_execF R _ _ _ (program_valid _ _ _ h)

section table
variable (nmax : ℕ) (c s : ℝ)

theorem finF_eq (a : Assign) (h : a ∈ program nmax c s) : finF R nmax c s a.tgt = evalF R (finF R nmax c s) a.rhs :=
  runF_ssa R _ _ (program_pairwise _ _ _) (program_noself _ _ _) a h

theorem finF_00 : finF R nmax c s (0, 0) = some (R 1) := by
  simpa [evalF] using finF_eq R nmax c s ⟨(0, 0), .const 1⟩ (by simp [program])

theorem finF_11 : finF R nmax c s (1, 1) = some (R s) := by
  simpa [evalF] using finF_eq R nmax c s ⟨(1, 1), .const s⟩ (by simp [program])

theorem finF_sub (m : ℕ) (hm : m < nmax) :
    finF R nmax c s (m + 1, m) = fmul R (some (R c)) (fmul R (some (R (Real.sqrt (2 * m + 1)))) (finF R nmax c s (m, m))) := by
  have := finF_eq R nmax c s _ (mem_value nmax c s hm (a := ⟨(m + 1, m), .mul (.const c)
    (.mul (.rootn ((m : ℤ) + m + 1)) (.read m m))⟩) (by simp [valueBlock]))
  simp only [evalF] at this
  rw [this]
  push_cast
  ring_nf

theorem finF_diag (m : ℕ) (hm : m < nmax) (h0 : 0 < m) :
    finF R nmax c s (m + 1, m + 1) = fdiv R (fmul R (some (R s)) (fmul R (some (R (Real.sqrt (2 * m + 1)))) (finF R nmax c s (m, m))))
      (some (R (Real.sqrt (2 * m + 2)))) := by
  have := finF_eq R nmax c s _ (mem_value nmax c s hm (a := ⟨(m + 1, m + 1), .div (.mul (.const s)
    (.mul (.rootn ((m : ℤ) + m + 1)) (.read m m))) (.rootn ((m : ℤ) + m + 2))⟩) (by simp [valueBlock, h0]))
  simp only [evalF] at this
  rw [this]
  push_cast
  ring_nf

theorem finF_rec (m k : ℕ) (hk : m + k + 2 ≤ nmax) :
    finF R nmax c s (m + k + 2, m) =
      fdiv R (fsub R (fmul R (fmul R (some (R (2 * (m + k : ℝ) + 3))) (some (R c))) (finF R nmax c s (m + k + 1, m)))
        (fmul R (some (R (Real.sqrt ((m + k + 1 + m) * (m + k + 1 - m))))) (finF R nmax c s (m + k, m))))
      (some (R (Real.sqrt ((m + k + 2 + m) * (m + k + 2 - m))))) := by
  have := finF_eq R nmax c s _ (mem_value nmax c s (m := m) (by omega) (a := valueStep c m (m + k + 2))
    (by
      simp only [valueBlock, List.mem_append, List.mem_map, mem_pyRange]
      exact Or.inr ⟨m + k + 2, ⟨by omega, by omega⟩, rfl⟩))
  simp only [valueStep, evalF, Nat.add_sub_cancel] at this
  rw [this]
  have i1 : m + k + 2 - 1 = m + k + 1 := by omega
  rw [i1]
  have e1 : (((((m + k + 2 : ℕ) : ℤ) + ((m + k + 2 : ℕ) : ℤ) - 1 : ℤ)) : ℝ) = 2 * (m + k : ℝ) + 3 := by push_cast; ring
  have e2 : (((((m + k + 2 : ℕ) : ℤ) * ((m + k + 2 : ℕ) : ℤ) - (m : ℤ) * (m : ℤ) - (((m + k + 2 : ℕ) : ℤ) + ((m + k + 2 : ℕ) : ℤ) - 1) : ℤ)) : ℝ)
      = (m + k + 1 + m) * (m + k + 1 - m) := by push_cast; ring
  have e3 : (((((m + k + 2 : ℕ) : ℤ) * ((m + k + 2 : ℕ) : ℤ) - (m : ℤ) * (m : ℤ) : ℤ)) : ℝ) = (m + k + 2 + m) * (m + k + 2 - m) := by
    push_cast; ring
  rw [e1, e2, e3]

theorem finF_d0 (n : ℕ) (h2 : 2 ≤ n) (hn : n ≤ nmax) :
    finF R nmax c s (0, n + 1) = fmul R (fneg (some (R (Real.sqrt (((n : ℝ) * n + n) / 2))))) (finF R nmax c s (n, 1)) :=
  finF_eq R nmax c s ⟨(0, n + 1), .mul (.neg (.const (Real.sqrt (((n : ℝ) * n + n) / 2)))) (.read n 1)⟩
    (mem_deriv nmax c s h2 hn (by simp [derivBlock]))

theorem finF_d1 (n : ℕ) (h2 : 2 ≤ n) (hn : n ≤ nmax) :
    finF R nmax c s (1, n + 1) = fdiv R (fsub R (fmul R (some (R (Real.sqrt (2 * ((n : ℝ) * n + n))))) (finF R nmax c s (n, 0)))
      (fmul R (some (R (Real.sqrt ((n : ℝ) * n + n - 2)))) (finF R nmax c s (n, 2)))) (some (R 2)) :=
  finF_eq R nmax c s ⟨(1, n + 1), .div (.sub (.mul (.const (Real.sqrt (2 * ((n : ℝ) * n + n)))) (.read n 0))
      (.mul (.const (Real.sqrt ((n : ℝ) * n + n - 2))) (.read n 2))) (.const 2)⟩
    (mem_deriv nmax c s h2 hn (by simp [derivBlock]))

theorem finF_dm (n m : ℕ) (h2 : 2 ≤ m) (hm : m < n) (hn : n ≤ nmax) :
    finF R nmax c s (m, n + 1) = fmul R (some (R 0.5)) (fsub R
      (fmul R (some (R (Real.sqrt (((n : ℝ) + m) * ((n : ℝ) - m + 1))))) (finF R nmax c s (n, m - 1)))
      (fmul R (some (R (Real.sqrt (((n : ℝ) + m + 1) * ((n : ℝ) - m))))) (finF R nmax c s (n, m + 1)))) :=
  finF_eq R nmax c s (derivStep n m) (mem_deriv nmax c s (by omega) hn (by
    simp only [derivBlock, List.mem_append, List.mem_map, mem_pyRange]
    exact Or.inl (Or.inr ⟨m, ⟨h2, hm⟩, rfl⟩)))

theorem finF_dn (n : ℕ) (h2 : 2 ≤ n) (hn : n ≤ nmax) :
    finF R nmax c s (n, n + 1) = fdiv R (fmul R (some (R (Real.sqrt (2 * n)))) (finF R nmax c s (n, n - 1))) (some (R 2)) :=
  finF_eq R nmax c s ⟨(n, n + 1), .div (.mul (.const (Real.sqrt (2 * n))) (.read n (n - 1))) (.const 2)⟩
    (mem_deriv nmax c s h2 hn (by simp [derivBlock]))

theorem finF_02 : finF R nmax c s (0, 2) = fneg (finF R nmax c s (1, 1)) :=
  finF_eq R nmax c s ⟨(0, 2), .neg (.read 1 1)⟩ (by simp [program])

theorem finF_12 : finF R nmax c s (1, 2) = finF R nmax c s (1, 0) :=
  finF_eq R nmax c s ⟨(1, 2), .read 1 0⟩ (by simp [program])

end table

end ChaosMagPy.FloatLegendre
