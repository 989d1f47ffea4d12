import Verif.Spec.SplineModel
import Mathlib.Analysis.Calculus.IteratedDeriv.Lemmas
import Mathlib.Analysis.Calculus.Deriv.Pow
import Mathlib.Algebra.BigOperators.Field
/-!
# Lemmas about the piecewise polynomial model
-/
namespace ChaosMagPy.PPoly

/-! ### polynomials -/

theorem evalPoly_hasDeriv (k : ℕ) (c : ℕ → ℝ) (nu : ℕ) (s : ℝ) :
    HasDerivAt (evalPoly k c nu) (evalPoly k c (nu + 1) s) s := by
  unfold evalPoly
  have : (fun s => ∑ p ∈ Finset.range k, if nu ≤ p then c (k - 1 - p) * (p.descFactorial nu : ℝ) * s ^ (p - nu) else 0)
      = fun s => ∑ p ∈ Finset.range k, (fun p s => if nu ≤ p then c (k - 1 - p) * (p.descFactorial nu : ℝ) * s ^ (p - nu) else 0) p s := rfl
  rw [this]
  apply HasDerivAt.fun_sum
  intro p _
  by_cases h : nu ≤ p
  · simp only [if_pos h]
    by_cases h' : nu + 1 ≤ p
    · rw [if_pos h']
      have hd := (hasDerivAt_pow (p - nu) s).const_mul (c (k - 1 - p) * (p.descFactorial nu : ℝ))
      have e : c (k - 1 - p) * (p.descFactorial nu : ℝ) * (((p - nu : ℕ) : ℝ) * s ^ (p - nu - 1)) =
          c (k - 1 - p) * (p.descFactorial (nu + 1) : ℝ) * s ^ (p - (nu + 1)) := by
        rw [Nat.descFactorial_succ, show p - (nu + 1) = p - nu - 1 by omega]
        push_cast
        ring
      rw [← e]
      exact hd
    · rw [if_neg h']
      obtain rfl : nu = p := by omega
      simp only [Nat.sub_self, pow_zero]
      exact hasDerivAt_const _ _
  · rw [if_neg (by omega)]
    simp only [if_neg h]
    exact hasDerivAt_const _ _

/-- Repeated differentiation gives the formula of SciPy. -/
theorem evalPoly_iteratedDeriv (k : ℕ) (c : ℕ → ℝ) (nu : ℕ) (x0 t : ℝ) :
    iteratedDeriv nu (fun t => ∑ p ∈ Finset.range k, c (k - 1 - p) * (t - x0) ^ p) t = evalPoly k c nu (t - x0) := by
  induction nu generalizing t with
  | zero => simp [evalPoly]
  | succ nu ih =>
    rw [iteratedDeriv_succ]
    have : iteratedDeriv nu (fun t => ∑ p ∈ Finset.range k, c (k - 1 - p) * (t - x0) ^ p) =
        fun t => evalPoly k c nu (t - x0) := funext ih
    rw [this]
    have h := (evalPoly_hasDeriv k c nu (t - x0)).comp_sub_const t x0
    exact h.deriv

theorem derivative_x (p : PP) (nu : ℕ) : (p.derivative nu).x = p.x := by
  unfold PP.derivative
  split_ifs <;> rfl

theorem derivative_eval (p : PP) (nu : ℕ) (ext : Bool) (t : ℝ) :
    (p.derivative nu).eval ext 0 t = p.eval ext nu t := by
  unfold PP.eval
  rw [derivative_x]
  congr 1
  funext j d
  generalize t - p.x.getD j 0 = s
  unfold PP.derivative
  split_ifs with h0 hk
  · subst h0; rfl
  · simp only [evalPoly, zero_mul, ite_self, Finset.sum_const_zero]
    symm
    apply Finset.sum_eq_zero
    intro q hq
    rw [Finset.mem_range] at hq
    rw [if_neg (by omega)]
  · simp only [evalPoly, Nat.zero_le, if_true, Nat.descFactorial_zero, Nat.cast_one, mul_one, Nat.sub_zero]
    have hsplit : Finset.range p.k = Finset.range (nu + (p.k - nu)) := by rw [show nu + (p.k - nu) = p.k by omega]
    rw [hsplit, Finset.sum_range_add]
    have hz : ∑ q ∈ Finset.range nu, (if nu ≤ q then p.c (p.k - 1 - q) j d * (q.descFactorial nu : ℝ) * s ^ (q - nu) else 0) = 0 := by
      apply Finset.sum_eq_zero
      intro q hq
      rw [Finset.mem_range] at hq
      rw [if_neg (by omega)]
    rw [hz, zero_add]
    apply Finset.sum_congr rfl
    intro q hq
    rw [Finset.mem_range] at hq
    rw [if_pos (by omega), show nu + q - nu = q by omega, show p.k - 1 - (nu + q) = p.k - nu - 1 - q by omega,
      show p.k - 1 - (p.k - nu - 1 - q) = nu + q by omega]

/-! ### intervals -/

theorem first_eq (x : List ℝ) : first x = x.getD 0 0 := by cases x <;> rfl

theorem last_eq (x : List ℝ) (h : x ≠ []) : last x = x.getD (x.length - 1) 0 := by
  unfold last
  rw [List.getLastD_eq_getLast?, List.getLast?_eq_getElem?, List.getD_eq_getElem?_getD]

theorem Ascending.lt {x : List ℝ} (h : Ascending x) (i j : ℕ) (hij : i < j) (hj : j < x.length) : x.getD i 0 < x.getD j 0 := by
  induction j with
  | zero => omega
  | succ j ih =>
    have hs := h.2 j hj
    rcases Nat.lt_or_ge i j with h1 | h1
    · exact (ih h1 (by omega)).trans hs
    · obtain rfl : i = j := by omega
      exact hs

theorem Ascending.sorted {x : List ℝ} (h : Ascending x) : Sorted x := by
  intro i j hij hj
  rcases Nat.eq_or_lt_of_le hij with rfl | h1
  · exact le_rfl
  · exact (h.lt i j h1 hj).le

theorem Ascending.span {x : List ℝ} (h : Ascending x) : first x < last x := by
  have hne : x ≠ [] := by rintro rfl; simp [Ascending] at h
  have h1 := h.1
  rw [first_eq, last_eq x hne]
  exact h.lt 0 _ (by omega) (by omega)

theorem countP_le (x : List ℝ) (hs : Sorted x) (j : ℕ) (t : ℝ) (hj : j < x.length) (h1 : x.getD j 0 ≤ t)
    (h2 : ∀ i, j < i → i < x.length → t < x.getD i 0) : x.countP (fun b => decide (b ≤ t)) = j + 1 := by
  have hx : x = x.take (j + 1) ++ x.drop (j + 1) := (List.take_append_drop _ _).symm
  have hget : ∀ i, i < x.length → ∃ h : i < x.length, x.getD i 0 = x[i] := by
    intro i hi
    exact ⟨hi, by rw [List.getD_eq_getElem?_getD, List.getElem?_eq_getElem hi]; rfl⟩
  have a : (x.take (j + 1)).countP (fun b => decide (b ≤ t)) = (x.take (j + 1)).length := by
    rw [List.countP_eq_length]
    intro b hb
    rw [List.mem_take_iff_getElem] at hb
    obtain ⟨i, hi, rfl⟩ := hb
    have hi' : i < x.length := by omega
    have := hs i j (by omega) hj
    obtain ⟨_, e⟩ := hget i hi'
    rw [e] at this
    simpa using this.trans h1
  have b : (x.drop (j + 1)).countP (fun b => decide (b ≤ t)) = 0 := by
    rw [List.countP_eq_zero]
    intro b hb
    rw [List.mem_drop_iff_getElem] at hb
    obtain ⟨i, hi, rfl⟩ := hb
    have := h2 (j + 1 + i) (by omega) (by omega)
    obtain ⟨_, e⟩ := hget (j + 1 + i) (by omega)
    rw [e] at this
    simpa using this
  rw [hx, List.countP_append, a, b, List.length_take]
  omega

theorem findInterval_piece (x : List ℝ) (hs : Sorted x) (ext : Bool) (j : ℕ) (t : ℝ) (h : IsPiece x j t) :
    findInterval x ext t = some j := by
  obtain ⟨hj, hp⟩ := h
  have hne : x ≠ [] := by rintro rfl; simp at hj
  have hfl : first x ≤ last x := by rw [first_eq, last_eq x hne]; exact hs _ _ (by omega) (by omega)
  unfold findInterval
  rcases hp with ⟨h1, h2⟩ | ⟨h1, h2⟩
  · have hf : first x ≤ t := by
      rw [first_eq]
      exact (hs 0 j (by omega) (by omega)).trans h1
    have hl : t < last x := by
      rw [last_eq x hne]
      exact lt_of_lt_of_le h2 (hs (j + 1) (x.length - 1) (by omega) (by omega))
    rw [if_neg (not_lt.2 hf), if_neg (not_lt.2 hl.le), if_neg hl.ne,
      countP_le x hs j t (by omega) h1 (fun i hi hi' => lt_of_lt_of_le h2 (hs (j + 1) i (by omega) hi'))]
    rfl
  · subst h1
    rw [if_neg (not_lt.2 hfl), if_neg (lt_irrefl _), if_pos rfl]
    congr 1
    omega

theorem piece_exists (x : List ℝ) (hlen : 2 ≤ x.length) (t : ℝ) (h1 : first x ≤ t) (h2 : t ≤ last x) :
    ∃ j, IsPiece x j t := by
  have hne : x ≠ [] := by rintro rfl; simp at hlen
  rcases eq_or_lt_of_le h2 with h2 | h2
  · exact ⟨x.length - 2, by omega, Or.inr ⟨h2, by omega⟩⟩
  · rw [first_eq] at h1
    rw [last_eq x hne] at h2
    by_contra hc
    push Not at hc
    have key : ∀ j, j < x.length → x.getD j 0 ≤ t := by
      intro j
      induction j with
      | zero => intro _; exact h1
      | succ j ih =>
        intro hj
        by_contra hcon
        exact hc j ⟨hj, Or.inl ⟨ih (by omega), not_le.1 hcon⟩⟩
    exact absurd (key (x.length - 1) (by omega)) (not_le.2 h2)

/-! ### the extended polynomial -/

/-- The polynomial after both extensions. -/
noncomputable def extended (p : PP) (l r : ℕ → ℕ → ℝ) : PP where
  k := p.k
  x := first p.x :: (p.x ++ [last p.x])
  c := fun i j d => if j = 0 then l i d else if j < p.x.length then p.c i (j - 1) d else r i d

theorem getD_append_left (x : List ℝ) (a : ℝ) (i : ℕ) (h : i < x.length) : (x ++ [a]).getD i 0 = x.getD i 0 := by
  rw [List.getD_eq_getElem?_getD, List.getElem?_append_left h, ← List.getD_eq_getElem?_getD]

theorem last_cons (a : ℝ) (x : List ℝ) (h : x ≠ []) : last (a :: x) = last x := by
  unfold last
  cases x with
  | nil => exact absurd rfl h
  | cons b x => rfl

theorem last_append (x : List ℝ) (a : ℝ) : last (x ++ [a]) = a := by
  unfold last
  simp

theorem extended_getD (x : List ℝ) (a b : ℝ) (j : ℕ) (h : j < x.length) :
    (a :: (x ++ [b])).getD (j + 1) 0 = x.getD j 0 := by
  rw [List.getD_cons_succ, getD_append_left x b j h]

theorem extended_sorted (x : List ℝ) (hs : Sorted x) (hne : x ≠ []) : Sorted (first x :: (x ++ [last x])) := by
  have hpos : 0 < x.length := List.length_pos_of_ne_nil hne
  have val : ∀ i, i < x.length + 2 → ∃ i', i' < x.length ∧ (first x :: (x ++ [last x])).getD i 0 = x.getD i' 0 ∧
      i' = min (i - 1) (x.length - 1) := by
    intro i hi
    rcases Nat.eq_zero_or_pos i with rfl | h0
    · exact ⟨0, hpos, by rw [List.getD_cons_zero, first_eq], by omega⟩
    · obtain ⟨k, rfl⟩ : ∃ k, i = k + 1 := ⟨i - 1, by omega⟩
      rcases Nat.lt_or_ge k x.length with h | h
      · exact ⟨k, h, extended_getD x _ _ k h, by omega⟩
      · obtain rfl : k = x.length := by omega
        refine ⟨x.length - 1, by omega, ?_, by omega⟩
        rw [List.getD_cons_succ, ← last_eq x hne, List.getD_eq_getElem?_getD, List.getElem?_append_right (le_refl _)]
        simp
  intro i j hij hj
  simp only [List.length_cons, List.length_append, List.length_nil] at hj
  obtain ⟨i', hi', ei, mi⟩ := val i (by omega)
  obtain ⟨j', hj', ej, mj⟩ := val j (by omega)
  rw [ei, ej]
  exact hs i' j' (by omega) hj'

section
variable (p : PP) (hs : Sorted p.x) (hlt : first p.x < last p.x)
include hs hlt

theorem length_ge_two : 2 ≤ p.x.length := by
  by_contra hc
  rcases h : p.x with _ | ⟨a, _ | ⟨b, x⟩⟩
  · rw [h] at hlt
    simp [first, last] at hlt
  · rw [h] at hlt
    simp [first, last] at hlt
  · rw [h] at hc
    simp at hc

/-- Evaluation in the original range is not changed by the extension. -/
theorem extended_eval_inside (l r : ℕ → ℕ → ℝ) (ext : Bool) (nu : ℕ) (t : ℝ) (h1 : first p.x ≤ t) (h2 : t < last p.x) :
    (extended p l r).eval ext nu t = p.eval ext nu t := by
  have hlen := length_ge_two p hs hlt
  have hne : p.x ≠ [] := by rintro h; rw [h] at hlen; simp at hlen
  obtain ⟨j, hj⟩ := piece_exists p.x hlen t h1 h2.le
  obtain ⟨hj1, hj2⟩ := hj
  have hj2' : p.x.getD j 0 ≤ t ∧ t < p.x.getD (j + 1) 0 := by
    rcases hj2 with h | h
    · exact h
    · exact absurd h.1 h2.ne
  have hP : IsPiece (extended p l r).x (j + 1) t := by
    refine ⟨by simp only [extended, List.length_cons, List.length_append, List.length_nil]; omega, Or.inl ?_⟩
    simp only [extended]
    rw [extended_getD _ _ _ j (by omega), extended_getD _ _ _ (j + 1) (by omega)]
    exact hj2'
  have hS : Sorted (extended p l r).x := extended_sorted p.x hs hne
  unfold PP.eval
  rw [findInterval_piece (extended p l r).x hS ext _ t hP, findInterval_piece _ hs ext j t ⟨hj1, Or.inl hj2'⟩]
  simp only [Option.map_some]
  congr 1
  funext d
  have e1 : (extended p l r).x.getD (j + 1) 0 = p.x.getD j 0 := extended_getD _ _ _ j (by omega)
  have e2 : (fun i => (extended p l r).c i (j + 1) d) = fun i => p.c i j d := by
    funext i
    simp only [extended]
    rw [if_neg (by omega), if_pos (by omega)]
    rfl
  rw [e1, e2]
  rfl

/-- Evaluation before the start uses the left extension. -/
theorem extended_eval_left (l r : ℕ → ℕ → ℝ) (nu : ℕ) (t : ℝ) (h : t < first p.x) :
    (extended p l r).eval true nu t = some fun d => evalPoly p.k (fun i => l i d) nu (t - first p.x) := by
  unfold PP.eval findInterval
  have : first (extended p l r).x = first p.x := rfl
  rw [this, if_pos h]
  rfl

/-- Evaluation at or after the end uses the right extension. -/
theorem extended_eval_right (l r : ℕ → ℕ → ℝ) (nu : ℕ) (t : ℝ) (h : last p.x ≤ t) :
    (extended p l r).eval true nu t = some fun d => evalPoly p.k (fun i => r i d) nu (t - last p.x) := by
  have hlen := length_ge_two p hs hlt
  have hne : p.x ≠ [] := by rintro h; rw [h] at hlen; simp at hlen
  have hl : last (extended p l r).x = last p.x := by
    simp only [extended]
    rw [last_cons _ _ (by simp), last_append]
  have hfi : findInterval (extended p l r).x true t = some p.x.length := by
    unfold findInterval
    have e : first (extended p l r).x = first p.x := rfl
    have hn : (extended p l r).x.length - 2 = p.x.length := by simp [extended]
    rw [e, hl, if_neg (not_lt.2 (hlt.le.trans h)), hn, if_pos rfl]
    by_cases a : last p.x < t
    · rw [if_pos a]
    · rw [if_neg a, if_pos (le_antisymm (not_lt.1 a) h)]
  unfold PP.eval
  rw [hfi]
  simp only [Option.map_some]
  congr 1
  funext d
  have e1 : (extended p l r).x.getD p.x.length 0 = last p.x := by
    rw [last_eq _ hne]
    have := extended_getD p.x (first p.x) (last p.x) (p.x.length - 1) (by omega)
    rw [show p.x.length - 1 + 1 = p.x.length by omega] at this
    exact this
  rw [e1]
  have e2 : (fun i => (extended p l r).c i p.x.length d) = fun i => r i d := by
    funext i
    simp only [extended]
    rw [if_neg (by omega), if_neg (by omega)]
  rw [e2]
  rfl

/-- The two passes of the loop. -/
theorem extendSides (key : ℕ) :
    (extendSide p key (first p.x) >>= fun p1 => extendSide p1 key (last p.x)) =
      .ok (extended p (extensionBin p key (first p.x)) (extensionBin p key (last p.x))) := by
  have hlen := length_ge_two p hs hlt
  have hne : p.x ≠ [] := by rintro h; rw [h] at hlen; simp at hlen
  have s1 : extendSide p key (first p.x) = .ok { k := p.k, x := first p.x :: p.x, c := fun i j d => if j = 0 then extensionBin p key (first p.x) i d else p.c i (j - 1) d } := by
    unfold extendSide PP.extend
    rw [if_neg (not_le.2 hlt), if_pos le_rfl]
  rw [s1]
  simp only [bind, Except.bind]
  unfold extendSide PP.extend
  simp only
  rw [last_cons _ _ hne, if_pos (le_refl _)]
  congr 1
  generalize extensionBin p key (first p.x) = L
  have hbin : extensionBin { k := p.k, x := first p.x :: p.x, c := fun i j d => if j = 0 then L i d else p.c i (j - 1) d } key (last p.x) = extensionBin p key (last p.x) := by
    funext i d
    unfold extensionBin
    simp only
    split_ifs with hk
    · have e : PP.eval { k := p.k, x := first p.x :: p.x, c := fun i j d => if j = 0 then L i d else p.c i (j - 1) d } true (p.k - 1 - i) (last p.x) = p.eval true (p.k - 1 - i) (last p.x) := by
        unfold PP.eval
        have f1 : findInterval (first p.x :: p.x) true (last p.x) = some (p.x.length - 1) := by
          unfold findInterval
          rw [show first (first p.x :: p.x) = first p.x from rfl, last_cons _ _ hne, if_neg (not_lt.2 hlt.le),
            if_neg (lt_irrefl _), if_pos rfl]
          congr 1
        have f2 : findInterval p.x true (last p.x) = some (p.x.length - 2) := by
          unfold findInterval
          rw [if_neg (not_lt.2 hlt.le), if_neg (lt_irrefl _), if_pos rfl]
        simp only [f1, f2, Option.map_some]
        congr 1
        funext d
        rw [show p.x.length - 1 = (p.x.length - 2) + 1 by omega, List.getD_cons_succ]
        simp
      rw [e]
    · rfl
  rw [hbin]
  unfold extended
  congr 1
  funext i j d
  simp only [List.length_cons, Nat.add_sub_cancel]
  rcases Nat.eq_zero_or_pos j with rfl | h0
  · rw [if_pos rfl, if_pos rfl, if_pos (by omega)]
  · by_cases h : j < p.x.length
    · rw [if_pos h, if_pos h, if_neg (by omega)]
    · rw [if_neg h, if_neg h, if_neg (by omega)]

end

/-- Value of the extension piece: the sum of the derivatives at the end point times powers of the time
difference, without factorials. -/
theorem evalPoly_bin (p : PP) (key : ℕ) (x : ℝ) (v : ℕ → ℕ → ℝ) (hv : ∀ q, p.eval true q x = some (v q))
    (nu : ℕ) (s : ℝ) (d : ℕ) :
    evalPoly p.k (fun i => extensionBin p key x i d) nu s =
      ∑ q ∈ Finset.range p.k, if nu ≤ q ∧ q < key then v q d * (q.descFactorial nu : ℝ) * s ^ (q - nu) else 0 := by
  unfold evalPoly
  apply Finset.sum_congr rfl
  intro q hq
  rw [Finset.mem_range] at hq
  by_cases h : nu ≤ q
  · rw [if_pos h]
    unfold extensionBin
    simp only
    rw [show p.k - 1 - (p.k - 1 - q) = q by omega, hv q]
    by_cases h' : q < key
    · rw [if_pos ⟨by omega, h'⟩, if_pos ⟨h, h'⟩]
    · rw [if_neg (fun hc => h' hc.2), if_neg (fun hc => h' hc.2), zero_mul, zero_mul]
  · rw [if_neg h, if_neg (fun hc => h hc.1)]

end ChaosMagPy.PPoly
