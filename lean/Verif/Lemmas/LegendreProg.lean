import Verif.Model.Legendre
import Mathlib.Tactic.Linarith
import Mathlib.Tactic.Ring
/-! The assignments of `legendre_poly`: validity, single assignment, order of reads and writes. -/
namespace ChaosMagPy.Legendre

theorem mem_pyRange {a b x : ℕ} : x ∈ pyRange a b ↔ a ≤ x ∧ x < b := by
  unfold pyRange
  rw [List.mem_range'_1]
  omega

theorem nodup_pyRange (a b : ℕ) : (pyRange a b).Pairwise (· < ·) := by
  unfold pyRange
  exact List.pairwise_lt_range'

theorem Expr.eval_congr {T T' : Table} (e : Expr) (h : ∀ p ∈ e.reads, T p = T' p) :
    e.eval T = e.eval T' := by
  induction e with
  | const x => rfl
  | read i j => exact h _ (by simp [Expr.reads])
  | rootn k => rfl
  | mul a b iha ihb =>
    simp only [Expr.reads, List.mem_append] at h
    simp only [Expr.eval, iha (fun p hp => h p (Or.inl hp)), ihb (fun p hp => h p (Or.inr hp))]
  | sub a b iha ihb =>
    simp only [Expr.reads, List.mem_append] at h
    simp only [Expr.eval, iha (fun p hp => h p (Or.inl hp)), ihb (fun p hp => h p (Or.inr hp))]
  | div a b iha ihb =>
    simp only [Expr.reads, List.mem_append] at h
    simp only [Expr.eval, iha (fun p hp => h p (Or.inl hp)), ihb (fun p hp => h p (Or.inr hp))]
  | neg a iha =>
    simp only [Expr.reads] at h
    simp only [Expr.eval, iha h]

/-- `b`, executed after `a`, overwrites neither the target of `a` nor anything `a` has read. -/
def Safe (a b : Assign) : Prop := b.tgt ≠ a.tgt ∧ b.tgt ∉ a.rhs.reads

/-- Executing a list of assignments without bounds checks. -/
noncomputable def runAll (l : List Assign) (T : Table) : Table := l.foldl (fun T a => a.step T) T

theorem runAll_not_tgt (l : List Assign) (T : Table) (p : ℕ × ℕ) (h : ∀ a ∈ l, a.tgt ≠ p) :
    runAll l T p = T p := by
  induction l generalizing T with
  | nil => rfl
  | cons a l ih =>
    have h1 : runAll (a :: l) T = runAll l (a.step T) := rfl
    rw [h1, ih _ (fun b hb => h b (List.mem_cons_of_mem _ hb))]
    unfold Assign.step
    rw [if_neg]
    intro e
    exact h a List.mem_cons_self e.symm

theorem runAll_ssa (l : List Assign) (T : Table) (hp : l.Pairwise Safe)
    (hself : ∀ a ∈ l, a.tgt ∉ a.rhs.reads) :
    ∀ a ∈ l, runAll l T a.tgt = a.rhs.eval (runAll l T) := by
  induction l generalizing T with
  | nil => simp
  | cons b l ih =>
    have h1 : runAll (b :: l) T = runAll l (b.step T) := rfl
    rw [List.pairwise_cons] at hp
    intro a ha
    rw [h1]
    rcases List.mem_cons.1 ha with rfl | ha
    · rw [runAll_not_tgt _ _ _ (fun c hc => (hp.1 c hc).1)]
      have : (a.step T) a.tgt = a.rhs.eval T := by simp [Assign.step]
      rw [this]
      apply Expr.eval_congr
      intro p hpr
      rw [runAll_not_tgt]
      · unfold Assign.step
        rw [if_neg]
        rintro rfl
        exact hself a List.mem_cons_self hpr
      · intro c hc e
        exact (hp.1 c hc).2 (e ▸ hpr)
    · exact ih _ hp.2 (fun c hc => hself c (List.mem_cons_of_mem _ hc)) a ha

theorem foldlM_exec (nmax : ℕ) (l : List Assign) (T : Table) (h : ∀ a ∈ l, a.valid nmax) :
    l.foldlM (exec nmax) T = .ok (runAll l T) := by
  induction l generalizing T with
  | nil => rfl
  | cons a l ih =>
    rw [List.foldlM_cons]
    unfold exec
    rw [if_pos (h a List.mem_cons_self)]
    exact ih _ (fun b hb => h b (List.mem_cons_of_mem _ hb))

theorem forall_mem_valueBlock {nmax : ℕ} {c s : ℝ} {m : ℕ} {P : Assign → Prop}
    (h1 : P ⟨(m + 1, m), .mul (.const c) (.mul (.rootn ((m : ℤ) + m + 1)) (.read m m))⟩)
    (h2 : 0 < m → P ⟨(m + 1, m + 1), .div (.mul (.const s) (.mul (.rootn ((m : ℤ) + m + 1)) (.read m m)))
      (.rootn ((m : ℤ) + m + 2))⟩)
    (h3 : ∀ n, m + 2 ≤ n → n ≤ nmax → P (valueStep c m n)) :
    ∀ a ∈ valueBlock nmax c s m, P a := by
  intro a ha
  unfold valueBlock at ha
  simp only [List.mem_append, List.mem_map, mem_pyRange, List.mem_singleton] at ha
  rcases ha with (rfl | ha) | ⟨n, hn, rfl⟩
  · exact h1
  · by_cases hm : m > 0
    · rw [if_pos hm, List.mem_singleton] at ha
      subst ha
      exact h2 hm
    · rw [if_neg hm] at ha
      exact absurd ha List.not_mem_nil
  · exact h3 n hn.1 (by omega)

theorem forall_mem_derivBlock {n : ℕ} {P : Assign → Prop}
    (h1 : P ⟨(0, n + 1), .mul (.neg (.const (Real.sqrt (((n : ℝ) * n + n) / 2)))) (.read n 1)⟩)
    (h2 : P ⟨(1, n + 1), .div (.sub (.mul (.const (Real.sqrt (2 * ((n : ℝ) * n + n)))) (.read n 0))
      (.mul (.const (Real.sqrt ((n : ℝ) * n + n - 2))) (.read n 2))) (.const 2)⟩)
    (h3 : ∀ m, 2 ≤ m → m < n → P (derivStep n m))
    (h4 : P ⟨(n, n + 1), .div (.mul (.const (Real.sqrt (2 * n))) (.read n (n - 1))) (.const 2)⟩) :
    ∀ a ∈ derivBlock n, P a := by
  intro a ha
  unfold derivBlock at ha
  simp only [List.mem_append, List.mem_map, mem_pyRange, List.mem_cons, List.not_mem_nil,
    or_false] at ha
  rcases ha with ((rfl | rfl) | ⟨m, hm, rfl⟩) | rfl
  · exact h1
  · exact h2
  · exact h3 m hm.1 hm.2
  · exact h4

theorem forall_mem_program {nmax : ℕ} {c s : ℝ} {P : Assign → Prop}
    (h1 : P ⟨(0, 0), .const 1⟩) (h2 : P ⟨(1, 1), .const s⟩)
    (h3 : ∀ m < nmax, ∀ a ∈ valueBlock nmax c s m, P a)
    (h4 : P ⟨(0, 2), .neg (.read 1 1)⟩) (h5 : P ⟨(1, 2), .read 1 0⟩)
    (h6 : ∀ n, 2 ≤ n → n ≤ nmax → ∀ a ∈ derivBlock n, P a) :
    ∀ a ∈ program nmax c s, P a := by
  intro a ha
  unfold program at ha
  simp only [List.mem_append, List.mem_flatMap, mem_pyRange, List.mem_cons, List.not_mem_nil,
    or_false] at ha
  rcases ha with (((rfl | rfl) | ⟨m, hm, ha⟩) | (rfl | rfl)) | ⟨n, hn, ha⟩
  · exact h1
  · exact h2
  · exact h3 m hm.2 a ha
  · exact h4
  · exact h5
  · exact h6 n hn.1 (by omega) a ha

/-- Targets of a value block lie on or below the diagonal, and they are `(m+1, m+1)` or column `m`. -/
theorem valueBlock_tgt {nmax : ℕ} {c s : ℝ} {m : ℕ} (a : Assign) (ha : a ∈ valueBlock nmax c s m) :
    (a.tgt = (m + 1, m + 1) ∧ 0 < m) ∨ (a.tgt.2 = m ∧ m + 1 ≤ a.tgt.1) := by
  refine forall_mem_valueBlock (P := fun a => (a.tgt = (m + 1, m + 1) ∧ 0 < m) ∨ (a.tgt.2 = m ∧ m + 1 ≤ a.tgt.1))
    ?_ ?_ ?_ a ha
  · exact Or.inr ⟨rfl, le_refl _⟩
  · intro h; exact Or.inl ⟨rfl, h⟩
  · intro n h1 h2; exact Or.inr ⟨rfl, by simp only [valueStep]; omega⟩

/-- Reads of a value block lie in column `m`, on or below the diagonal. -/
theorem valueBlock_reads {nmax : ℕ} {c s : ℝ} {m : ℕ} (a : Assign) (ha : a ∈ valueBlock nmax c s m) :
    ∀ p ∈ a.rhs.reads, p.2 = m ∧ m ≤ p.1 ∧ (p.1 < a.tgt.1) := by
  refine forall_mem_valueBlock (P := fun a => ∀ p ∈ a.rhs.reads, p.2 = m ∧ m ≤ p.1 ∧ (p.1 < a.tgt.1))
    ?_ ?_ ?_ a ha
  · simp [Expr.reads]
  · simp [Expr.reads]
  · intro n h1 h2
    simp only [valueStep, Expr.reads, List.nil_append, List.append_nil, List.cons_append,
      List.mem_cons, List.not_mem_nil, or_false]
    rintro p (rfl | rfl)
    · exact ⟨rfl, by simp only; omega, by simp only; omega⟩
    · exact ⟨rfl, by simp only; omega, by simp only; omega⟩

theorem derivBlock_tgt {n : ℕ} (a : Assign) (ha : a ∈ derivBlock n) (hn : 2 ≤ n) :
    a.tgt.2 = n + 1 ∧ a.tgt.1 ≤ n := by
  refine forall_mem_derivBlock (P := fun a => a.tgt.2 = n + 1 ∧ a.tgt.1 ≤ n) ?_ ?_ ?_ ?_ a ha
  · exact ⟨rfl, by simp⟩
  · exact ⟨rfl, by simp only; omega⟩
  · intro m h1 h2; exact ⟨rfl, by simp only [derivStep]; omega⟩
  · exact ⟨rfl, by simp⟩

theorem derivBlock_reads {n : ℕ} (a : Assign) (ha : a ∈ derivBlock n) (hn : 2 ≤ n) :
    ∀ p ∈ a.rhs.reads, p.1 = n ∧ p.2 ≤ n := by
  refine forall_mem_derivBlock (P := fun a => ∀ p ∈ a.rhs.reads, p.1 = n ∧ p.2 ≤ n) ?_ ?_ ?_ ?_ a ha
  · simp [Expr.reads]; omega
  · simp [Expr.reads]; omega
  · intro m h1 h2; simp [derivStep, Expr.reads]; omega
  · simp [Expr.reads]

/-- Every index used by the program is valid. -/
theorem program_valid (nmax : ℕ) (c s : ℝ) (h : 1 ≤ nmax) : ∀ a ∈ program nmax c s, a.valid nmax := by
  have hb : (1 : ℤ) ≤ nmax := by exact_mod_cast h
  have hq : (nmax : ℤ) ≤ (nmax : ℤ) ^ 2 := by nlinarith
  apply forall_mem_program
  · simp [Assign.valid, Expr.reads, Expr.roots, inBounds]
  · simp [Assign.valid, Expr.reads, Expr.roots, inBounds]; omega
  · intro m hm
    have hmz : (m : ℤ) < nmax := by exact_mod_cast hm
    have hm0 : (0 : ℤ) ≤ m := by positivity
    apply forall_mem_valueBlock
    · simp only [Assign.valid, Expr.reads, Expr.roots, inBounds, rootInBounds, List.nil_append,
        List.append_nil, List.mem_singleton, forall_eq]
      refine ⟨by omega, by omega, by omega, by omega⟩
    · intro hm1
      simp only [Assign.valid, Expr.reads, Expr.roots, inBounds, rootInBounds, List.nil_append,
        List.append_nil, List.mem_singleton, forall_eq, List.cons_append, List.mem_cons,
        List.not_mem_nil, or_false, forall_eq_or_imp]
      refine ⟨by omega, by omega, by omega, by omega⟩
    · intro n h1 h2
      have h1z : (m : ℤ) + 2 ≤ n := by exact_mod_cast h1
      have h2z : (n : ℤ) ≤ nmax := by exact_mod_cast h2
      simp only [valueStep, Assign.valid, Expr.reads, Expr.roots, inBounds, rootInBounds, List.nil_append,
        List.append_nil, List.mem_singleton, forall_eq, List.cons_append, List.mem_cons,
        List.not_mem_nil, or_false, forall_eq_or_imp]
      refine ⟨by omega, by omega, ⟨by nlinarith, by nlinarith⟩, ⟨by nlinarith, by nlinarith⟩⟩
  · simp [Assign.valid, Expr.reads, Expr.roots, inBounds]; omega
  · simp [Assign.valid, Expr.reads, Expr.roots, inBounds]; omega
  · intro n h1 h2
    apply forall_mem_derivBlock
    · simp [Assign.valid, Expr.reads, Expr.roots, inBounds]; omega
    · simp [Assign.valid, Expr.reads, Expr.roots, inBounds]; omega
    · intro m h3 h4; simp [derivStep, Assign.valid, Expr.reads, Expr.roots, inBounds]; omega
    · simp [Assign.valid, Expr.reads, Expr.roots, inBounds]; omega

theorem program_noself (nmax : ℕ) (c s : ℝ) : ∀ a ∈ program nmax c s, a.tgt ∉ a.rhs.reads := by
  apply forall_mem_program
  · simp [Expr.reads]
  · simp [Expr.reads]
  · intro m _ a ha hr
    have := valueBlock_reads a ha _ hr
    omega
  · simp [Expr.reads]
  · simp [Expr.reads]
  · intro n hn _ a ha hr
    have h1 := derivBlock_reads a ha hn _ hr
    have h2 := derivBlock_tgt a ha hn
    omega

theorem valueBlock_pairwise (nmax : ℕ) (c s : ℝ) (m : ℕ) : (valueBlock nmax c s m).Pairwise Safe := by
  unfold valueBlock
  have hstep : ((pyRange (m + 2) (nmax + 1)).map (valueStep c m)).Pairwise Safe := by
    rw [List.pairwise_map]
    refine List.Pairwise.imp_of_mem ?_ (nodup_pyRange _ _)
    intro i j hi hj hij
    rw [mem_pyRange] at hi hj
    refine ⟨?_, ?_⟩
    · simp only [valueStep, ne_eq, Prod.mk.injEq]; omega
    · simp only [valueStep, Expr.reads, List.nil_append, List.append_nil, List.cons_append,
        List.mem_cons, Prod.mk.injEq, List.not_mem_nil, or_false]
      omega
  dsimp only
  by_cases hm : m > 0
  · rw [if_pos hm]
    simp only [List.cons_append, List.nil_append, List.pairwise_cons]
    refine ⟨?_, ?_, hstep⟩
    · intro b hb
      rcases List.mem_cons.1 hb with rfl | hb
      · refine ⟨by simp, by simp [Expr.reads]⟩
      · obtain ⟨n, hn, rfl⟩ := List.mem_map.1 hb
        rw [mem_pyRange] at hn
        refine ⟨?_, ?_⟩
        · simp only [valueStep, ne_eq, Prod.mk.injEq]; omega
        · simp [valueStep, Expr.reads]; omega
    · intro b hb
      obtain ⟨n, hn, rfl⟩ := List.mem_map.1 hb
      rw [mem_pyRange] at hn
      refine ⟨?_, ?_⟩
      · simp only [valueStep, ne_eq, Prod.mk.injEq]; omega
      · simp [valueStep, Expr.reads]; omega
  · rw [if_neg hm]
    simp only [List.cons_append, List.nil_append, List.append_nil, List.pairwise_cons]
    refine ⟨?_, hstep⟩
    intro b hb
    obtain ⟨n, hn, rfl⟩ := List.mem_map.1 hb
    rw [mem_pyRange] at hn
    refine ⟨?_, ?_⟩
    · simp only [valueStep, ne_eq, Prod.mk.injEq]; omega
    · simp [valueStep, Expr.reads]; omega

theorem derivBlock_pairwise (n : ℕ) (hn : 2 ≤ n) : (derivBlock n).Pairwise Safe := by
  have safe : ∀ a ∈ derivBlock n, ∀ b ∈ derivBlock n, b.tgt ≠ a.tgt → Safe a b := by
    intro a ha b hb hne
    refine ⟨hne, fun hr => ?_⟩
    have h1 := derivBlock_reads a ha hn _ hr
    have h2 := derivBlock_tgt b hb hn
    omega
  have hd : (derivBlock n).Pairwise (fun a b => b.tgt ≠ a.tgt) := by
    unfold derivBlock
    have hstep : ((pyRange 2 n).map (derivStep n)).Pairwise (fun a b => b.tgt ≠ a.tgt) := by
      rw [List.pairwise_map]
      refine List.Pairwise.imp_of_mem ?_ (nodup_pyRange _ _)
      intro i j hi hj hij
      simp only [derivStep, ne_eq, Prod.mk.injEq]; omega
    rw [List.pairwise_append, List.pairwise_append]
    refine ⟨⟨by simp, hstep, ?_⟩, by simp, ?_⟩
    · intro a ha b hb
      obtain ⟨m, hm, rfl⟩ := List.mem_map.1 hb
      rw [mem_pyRange] at hm
      simp only [List.mem_cons, List.not_mem_nil, or_false] at ha
      rcases ha with rfl | rfl <;> simp only [derivStep, ne_eq, Prod.mk.injEq] <;> omega
    · intro a ha b hb
      rw [List.mem_singleton] at hb
      subst hb
      simp only [List.mem_append, List.mem_cons, List.not_mem_nil, or_false, List.mem_map,
        mem_pyRange] at ha
      rcases ha with (rfl | rfl) | ⟨m, hm, rfl⟩ <;> simp [derivStep] <;> omega
  exact List.Pairwise.imp_of_mem (fun ha hb h => safe _ ha _ hb h) hd

theorem program_pairwise (nmax : ℕ) (c s : ℝ) : (program nmax c s).Pairwise Safe := by
  unfold program
  rw [List.pairwise_append, List.pairwise_append, List.pairwise_append]
  refine ⟨⟨⟨by simp [Safe, Expr.reads], ?_, ?_⟩, by simp [Safe, Expr.reads], ?_⟩, ?_, ?_⟩
  · rw [List.pairwise_flatMap]
    refine ⟨fun m _ => valueBlock_pairwise _ _ _ _, ?_⟩
    refine List.Pairwise.imp_of_mem ?_ (nodup_pyRange _ _)
    intro m m' _ _ hlt a ha b hb
    have h1 := valueBlock_tgt a ha
    have h2 := valueBlock_tgt b hb
    refine ⟨?_, ?_⟩
    · rcases h1 with ⟨h1, _⟩ | h1 <;> rcases h2 with ⟨h2, _⟩ | h2 <;> intro e <;> rw [e] at h2 <;>
        simp_all <;> omega
    · intro hr
      have h3 := valueBlock_reads a ha _ hr
      rcases h2 with ⟨h2, _⟩ | h2
      · rw [h2] at h3; simp only at h3; omega
      · omega
  · intro a ha b hb
    simp only [List.mem_cons, List.not_mem_nil, or_false] at ha
    obtain ⟨m, hm, hb⟩ := List.mem_flatMap.1 hb
    have h2 := valueBlock_tgt b hb
    rcases ha with rfl | rfl
    · refine ⟨?_, by simp [Expr.reads]⟩
      intro e
      rw [e] at h2
      simp at h2
    · refine ⟨?_, by simp [Expr.reads]⟩
      intro e
      rw [e] at h2
      simp at h2
      omega
  · intro a ha b hb
    simp only [List.mem_append, List.mem_flatMap, List.mem_cons, List.not_mem_nil, or_false] at ha hb
    have hbt : b.tgt.1 < b.tgt.2 := by rcases hb with rfl | rfl <;> simp
    have hat : a.tgt.2 ≤ a.tgt.1 ∧ ∀ p ∈ a.rhs.reads, p.2 ≤ p.1 := by
      rcases ha with (rfl | rfl) | ⟨m, hm, ha⟩
      · simp [Expr.reads]
      · simp [Expr.reads]
      · refine ⟨?_, ?_⟩
        · rcases valueBlock_tgt a ha with ⟨h, _⟩ | h
          · rw [h]
          · omega
        · intro p hp
          have := valueBlock_reads a ha p hp
          omega
    refine ⟨fun e => ?_, fun hr => ?_⟩
    · rw [e] at hbt; omega
    · have := hat.2 _ hr; omega
  · rw [List.pairwise_flatMap]
    refine ⟨fun n hn => derivBlock_pairwise n (mem_pyRange.1 hn).1, ?_⟩
    refine List.Pairwise.imp_of_mem ?_ (nodup_pyRange _ _)
    intro n n' hn hn' hlt a ha b hb
    have h1 := derivBlock_tgt a ha (mem_pyRange.1 hn).1
    have h2 := derivBlock_tgt b hb (mem_pyRange.1 hn').1
    refine ⟨fun e => ?_, fun hr => ?_⟩
    · rw [e] at h2; omega
    · have := derivBlock_reads a ha (mem_pyRange.1 hn).1 _ hr
      omega
  · intro a ha b hb
    obtain ⟨n, hn, hb⟩ := List.mem_flatMap.1 hb
    have hn2 := (mem_pyRange.1 hn).1
    have h2 := derivBlock_tgt b hb hn2
    simp only [List.mem_append, List.mem_flatMap, List.mem_cons, List.not_mem_nil, or_false] at ha
    have hat : (a.tgt.2 ≤ a.tgt.1 ∨ a.tgt.2 = 2) ∧ ∀ p ∈ a.rhs.reads, p.2 ≤ p.1 := by
      rcases ha with ((rfl | rfl) | ⟨m, hm, ha⟩) | (rfl | rfl)
      · simp [Expr.reads]
      · simp [Expr.reads]
      · refine ⟨Or.inl ?_, ?_⟩
        · rcases valueBlock_tgt a ha with ⟨h, _⟩ | h
          · rw [h]
          · omega
        · intro p hp
          have := valueBlock_reads a ha p hp
          omega
      · simp [Expr.reads]
      · simp [Expr.reads]
    refine ⟨fun e => ?_, fun hr => ?_⟩
    · rw [e] at h2; omega
    · have := hat.2 _ hr; omega

/-- The final table. -/
theorem legendrePoly_ok (nmax : ℕ) (theta : ℝ) (h : 1 ≤ nmax) :
    legendrePoly nmax theta = .ok (runAll (program nmax (Real.cos (Spec.rad theta))
      (Real.sqrt (1 - Real.cos (Spec.rad theta) ^ 2))) (fun _ => 0)) := by
  unfold legendrePoly
  exact foldlM_exec _ _ _ (program_valid _ _ _ h)

end ChaosMagPy.Legendre
