import Verif.Model.BSpline
import Verif.Lemmas.PPoly
import Verif.Spec.BSpline
import Mathlib.Algebra.Polynomial.Taylor
import Mathlib.Tactic.LinearCombination
import Mathlib.Algebra.Polynomial.HasseDeriv
import Mathlib.Analysis.Calculus.Deriv.Polynomial
/-!
# Lemmas about B-splines
-/
namespace ChaosMagPy.BSpline
open Polynomial ChaosMagPy.Spec

/-- Knots ascending up to index `M`. -/
def AscTo (t : ℕ → ℝ) (M : ℕ) : Prop := ∀ i j, i ≤ j → j ≤ M → t i ≤ t j

theorem basis_zero (t : ℕ → ℝ) (l p i : ℕ) (h : l < i ∨ i + p < l) : basis t l p i = 0 := by
  induction p generalizing i with
  | zero =>
    rw [basis, if_neg (by omega)]
  | succ p ih =>
    rw [basis, ih i (by omega), ih (i + 1) (by omega)]
    ring

theorem basis_sum (t : ℕ → ℝ) (l p M : ℕ) (hm : AscTo t M) (hl : t l < t (l + 1)) (hp : p ≤ l) (hM : l + p + 1 ≤ M) :
    ∑ i ∈ Finset.range (l + 1), basis t l p i = 1 := by
  induction p with
  | zero =>
    rw [Finset.sum_eq_single l]
    · rw [basis, if_pos rfl]
    · intro i _ hi
      rw [basis, if_neg hi]
    · intro h
      exact absurd (Finset.mem_range.2 (by omega)) h
  | succ p ih =>
    have ih := ih (by omega) (by omega)
    simp only [basis]
    rw [Finset.sum_add_distrib]
    have hshift : ∑ i ∈ Finset.range (l + 1), C (1 / (t (i + p + 2) - t (i + 1))) * (C (t (i + p + 2)) - X) * basis t l p (i + 1)
        = ∑ i ∈ Finset.range (l + 1), C (1 / (t (i + p + 1) - t i)) * (C (t (i + p + 1)) - X) * basis t l p i := by
      have h1 := Finset.sum_range_succ' (fun i => C (1 / (t (i + p + 1) - t i)) * (C (t (i + p + 1)) - X) * basis t l p i) (l + 1)
      have h2 := Finset.sum_range_succ (fun i => C (1 / (t (i + p + 1) - t i)) * (C (t (i + p + 1)) - X) * basis t l p i) (l + 1)
      simp only [basis_zero t l p (l + 1) (by omega), basis_zero t l p 0 (by omega), mul_zero, add_zero] at h1 h2
      rw [← h2, h1]
      apply Finset.sum_congr rfl
      intro i _
      rw [show i + 1 + p + 1 = i + p + 2 by ring]
    rw [hshift, ← Finset.sum_add_distrib, ← ih]
    apply Finset.sum_congr rfl
    intro i hi
    rw [Finset.mem_range] at hi
    by_cases hz : i + p < l
    · rw [basis_zero t l p i (Or.inr hz)]
      ring
    · have h1 := hm i l (by omega) (by omega)
      have h2 := hm (l + 1) (i + p + 1) (by omega) (by omega)
      have hne : t (i + p + 1) - t i ≠ 0 := by
        apply ne_of_gt
        linarith
      have hc : C (1 / (t (i + p + 1) - t i)) * (C (t (i + p + 1)) - C (t i)) = (1 : ℝ[X]) := by
        rw [← C_sub, ← C_mul, one_div_mul_cancel hne, C_1]
      linear_combination basis t l p i * hc

theorem basis_nonneg (t : ℕ → ℝ) (l p M : ℕ) (hm : AscTo t M) (hM : l + p + 1 ≤ M) (x : ℝ)
    (h1 : t l ≤ x) (h2 : x ≤ t (l + 1)) (i : ℕ) : 0 ≤ (basis t l p i).eval x := by
  induction p generalizing i with
  | zero =>
    rw [basis]
    split_ifs <;> simp
  | succ p ih =>
    rw [basis, eval_add, eval_mul, eval_mul, eval_mul, eval_mul, eval_C, eval_C, eval_sub, eval_sub, eval_X, eval_C, eval_C]
    apply add_nonneg
    · by_cases hz : l < i ∨ i + p < l
      · rw [basis_zero t l p i hz]
        simp
      · have a := hm i l (by omega) (by omega)
        have b := hm i (i + p + 1) (by omega) (by omega)
        have c := ih (by omega) i
        have d : 0 ≤ 1 / (t (i + p + 1) - t i) := one_div_nonneg.2 (by linarith)
        exact mul_nonneg (mul_nonneg d (by linarith)) c
    · by_cases hz : l < i + 1 ∨ i + 1 + p < l
      · rw [basis_zero t l p (i + 1) hz]
        simp
      · have a := hm (l + 1) (i + p + 2) (by omega) (by omega)
        have b := hm (i + 1) (i + p + 2) (by omega) (by omega)
        have c := ih (by omega) (i + 1)
        have d : 0 ≤ 1 / (t (i + p + 2) - t (i + 1)) := one_div_nonneg.2 (by linarith)
        exact mul_nonneg (mul_nonneg d (by linarith)) c

theorem basis_degree (t : ℕ → ℝ) (l p i : ℕ) : (basis t l p i).natDegree ≤ p := by
  induction p generalizing i with
  | zero =>
    rw [basis]
    split_ifs <;> simp
  | succ p ih =>
    rw [basis]
    apply natDegree_add_le_of_degree_le
    · have h1 : (C (1 / (t (i + p + 1) - t i)) * (X - C (t i))).natDegree ≤ 1 :=
        (natDegree_C_mul_le _ _).trans (natDegree_X_sub_C_le _)
      have := natDegree_mul_le_of_le h1 (ih i)
      omega
    · have h1 : (C (1 / (t (i + p + 2) - t (i + 1))) * (C (t (i + p + 2)) - X)).natDegree ≤ 1 := by
        refine (natDegree_C_mul_le _ _).trans ?_
        rw [← neg_sub, natDegree_neg]
        exact natDegree_X_sub_C_le _
      have := natDegree_mul_le_of_le h1 (ih (i + 1))
      omega

theorem basis_shift (t t' : ℕ → ℝ) (l p i s : ℕ) (h : ∀ j, i ≤ j → j ≤ i + p + 1 → t' (j + s) = t j) :
    basis t' (l + s) p (i + s) = basis t l p i := by
  induction p generalizing i with
  | zero =>
    rw [basis, basis]
    by_cases h : i = l
    · rw [if_pos h, if_pos (by omega)]
    · rw [if_neg h, if_neg (by omega)]
  | succ p ih =>
    rw [basis, basis, ih i (fun j hj hj' => h j hj (by omega)), show i + s + 1 = (i + 1) + s by ring,
      ih (i + 1) (fun j hj hj' => h j (by omega) (by omega)), h i le_rfl (by omega),
      show i + s + p + 1 = (i + p + 1) + s by ring, h (i + p + 1) (by omega) (by omega),
      show i + s + p + 2 = (i + p + 2) + s by ring, h (i + p + 2) (by omega) (by omega),
      h (i + 1) (by omega) (by omega)]

/-! ### interval search -/

theorem searchUp_spec (t : ℕ → ℝ) (x : ℝ) (stop : ℕ) (f l : ℕ) (hl : l ≤ stop) (hf : stop ≤ l + f) (hx : t l ≤ x) :
    let r := searchUp t x stop f l
    l ≤ r ∧ r ≤ stop ∧ t r ≤ x ∧ (x < t (r + 1) ∨ r = stop) := by
  induction f generalizing l with
  | zero =>
    simp only [searchUp]
    exact ⟨le_rfl, hl, hx, Or.inr (by omega)⟩
  | succ f ih =>
    simp only [searchUp]
    split_ifs with h
    · have := ih (l + 1) (by omega) (by omega) h.1
      simp only at this
      exact ⟨by omega, this.2.1, this.2.2.1, this.2.2.2⟩
    · refine ⟨le_rfl, hl, hx, ?_⟩
      by_cases hs : l = stop
      · exact Or.inr hs
      · left
        by_contra hc
        exact h ⟨not_lt.1 hc, hs⟩

theorem goodKnots_ascTo {t : List ℝ} {degree : ℕ} (h : GoodKnots t degree) : AscTo (knot t) (t.length - 1) := by
  intro i j hij hj
  have := h.size
  exact h.asc i j hij (by omega)

/-- The interval found inside the base interval. -/
theorem findKnot_spec {t : List ℝ} {degree : ℕ} (h : GoodKnots t degree) (x : ℝ) (h1 : knot t degree ≤ x)
    (h2 : x ≤ knot t (t.length - degree - 1)) :
    ∃ l, findKnot t degree x = some l ∧ degree ≤ l ∧ l + degree + 2 ≤ t.length ∧ knot t l ≤ x ∧
      x ≤ knot t (l + 1) ∧ knot t l < knot t (l + 1) ∧ (x < knot t (l + 1) ∨ l + degree + 2 = t.length) := by
  have hs := h.size
  unfold findKnot
  simp only
  rw [if_neg (by push Not; exact ⟨h1, h2⟩)]
  refine ⟨_, rfl, ?_⟩
  have sp := searchUp_spec (knot t) x (t.length - degree - 1 - 1) (t.length - degree - 1 - 1 - degree) degree
    (by omega) (by omega) h1
  simp only at sp
  generalize searchUp (knot t) x (t.length - degree - 1 - 1) (t.length - degree - 1 - 1 - degree) degree = r at *
  obtain ⟨a, b, c, d⟩ := sp
  refine ⟨a, by omega, c, ?_⟩
  rcases d with d | d
  · exact ⟨d.le, lt_of_le_of_lt c d, Or.inl d⟩
  · have e1 : r = t.length - degree - 2 := by omega
    have e2 : r + 1 = t.length - degree - 1 := by omega
    rw [e2]
    exact ⟨h2, by rw [e1]; exact h.lastInterval, Or.inr (by omega)⟩

theorem findKnot_none {t : List ℝ} {degree : ℕ} (x : ℝ) (h : x < knot t degree ∨ knot t (t.length - degree - 1) < x) :
    findKnot t degree x = none := by
  unfold findKnot
  simp only
  rw [if_pos h]

/-- The spline as a sum over all B-splines. -/
theorem bspline_sum (t : List ℝ) (degree : ℕ) (nu l N : ℕ) (hl : degree ≤ l) (hN : l < N) (c : ℕ → ℝ) (x : ℝ) :
    ∑ a ∈ Finset.range (degree + 1), c (l - degree + a) * ((derivative^[nu]) (basis (knot t) l degree (l - degree + a))).eval x =
    ∑ i ∈ Finset.range N, c i * ((derivative^[nu]) (basis (knot t) l degree i)).eval x := by
  have hsum := Finset.sum_subset (s₁ := (Finset.range (degree + 1)).image (fun a => l - degree + a))
    (s₂ := Finset.range N) (f := fun i => c i * ((derivative^[nu]) (basis (knot t) l degree i)).eval x) ?_ ?_
  · rw [← hsum, Finset.sum_image]
    intro a _ b _ h
    simp only at h
    omega
  · intro i hi
    simp only [Finset.mem_image, Finset.mem_range] at hi ⊢
    omega
  · intro i hi hni
    simp only [Finset.mem_image, Finset.mem_range, not_exists, not_and] at hi hni
    have : basis (knot t) l degree i = 0 := by
      apply basis_zero
      by_contra hc
      push Not at hc
      exact hni (i - (l - degree)) (by omega) (by omega)
    rw [this, iterate_derivative_zero, eval_zero, mul_zero]

theorem colloc_entry (t : List ℝ) (order deriv : ℕ) (ho : deriv < order) (x : ℝ) (l n : ℕ)
    (hf : findKnot t (order - 1) x = some l) (hl : order - 1 ≤ l) :
    collocRow t order deriv x n = some (((derivative^[deriv]) (basis (knot t) l (order - 1) n)).eval x) := by
  unfold collocRow bsplineEval
  rw [if_neg (by omega), hf]
  simp only [Option.map_some]
  congr 1
  have hs := bspline_sum t (order - 1) deriv l (max l n + 1) hl (by omega) (fun i => if i = n then 1 else 0) x
  rw [hs, Finset.sum_eq_single n]
  · simp
  · intro b _ hb
    rw [if_neg hb, zero_mul]
  · intro hc
    exact absurd (Finset.mem_range.2 (by omega)) hc

theorem basis_high (t : ℕ → ℝ) (l p i nu : ℕ) (h : p < nu) : (derivative^[nu]) (basis t l p i) = 0 :=
  iterate_derivative_eq_zero (lt_of_le_of_lt (basis_degree t l p i) h)

theorem colloc_entry_all (t : List ℝ) (order deriv : ℕ) (ho : 0 < order) (x : ℝ) (l n : ℕ)
    (hf : findKnot t (order - 1) x = some l) (hl : order - 1 ≤ l) :
    collocRow t order deriv x n = some (((derivative^[deriv]) (basis (knot t) l (order - 1) n)).eval x) := by
  by_cases hd : deriv < order
  · exact colloc_entry t order deriv hd x l n hf hl
  · rw [basis_high _ _ _ _ _ (by omega), eval_zero]
    unfold collocRow
    rw [if_pos (by omega)]

/-- The polynomial of a spline on the knot interval `l`. -/
noncomputable def splinePoly (t : ℕ → ℝ) (l p N : ℕ) (c : ℕ → ℝ) : ℝ[X] := ∑ i ∈ Finset.range N, C (c i) * basis t l p i

theorem splinePoly_degree (t : ℕ → ℝ) (l p N : ℕ) (c : ℕ → ℝ) : (splinePoly t l p N c).natDegree ≤ p := by
  unfold splinePoly
  apply natDegree_sum_le_of_forall_le
  intro i _
  exact (natDegree_C_mul_le _ _).trans (basis_degree _ _ _ _)

theorem splinePoly_deriv (t : ℕ → ℝ) (l p N nu : ℕ) (c : ℕ → ℝ) (x : ℝ) : ((derivative^[nu]) (splinePoly t l p N c)).eval x =
    ∑ i ∈ Finset.range N, c i * ((derivative^[nu]) (basis t l p i)).eval x := by
  unfold splinePoly
  rw [iterate_derivative_sum, eval_finset_sum]
  apply Finset.sum_congr rfl
  intro i _
  rw [iterate_derivative_C_mul, eval_mul, eval_C]

theorem bsplineEval_poly (t : List ℝ) (c : ℕ → ℝ) (degree nu l N : ℕ) (x : ℝ) (hf : findKnot t degree x = some l) (hl : degree ≤ l)
    (hN : l < N) : bsplineEval t c degree nu x = some (((derivative^[nu]) (splinePoly (knot t) l degree N c)).eval x) := by
  unfold bsplineEval
  rw [hf, splinePoly_deriv, ← bspline_sum t degree nu l N hl hN c x]
  rfl

theorem findKnot_eq {t : List ℝ} {degree : ℕ} (h : GoodKnots t degree) (x : ℝ) (l : ℕ) (h1 : degree ≤ l)
    (h2 : l + degree + 2 ≤ t.length) (h3 : knot t l ≤ x) (h4 : x < knot t (l + 1)) : findKnot t degree x = some l := by
  have ha := goodKnots_ascTo h
  obtain ⟨r, hr, a, b, c, d, e, f⟩ := findKnot_spec h x ((ha degree l h1 (by omega)).trans h3)
    (h4.le.trans (ha (l + 1) _ (by omega) (by omega)))
  rw [hr]
  congr 1
  rcases Nat.lt_trichotomy r l with hlt | rfl | hlt
  · rcases f with f | f
    · have := ha (r + 1) l (by omega) (by omega)
      linarith
    · omega
  · rfl
  · have := ha (l + 1) r (by omega) (by omega)
    linarith

/-- Taylor expansion of a polynomial. -/
theorem poly_taylor (P : ℝ[X]) (k : ℕ) (hk : P.natDegree < k) (r x : ℝ) :
    P.eval x = ∑ q ∈ Finset.range k, ((derivative^[q]) P).eval r / (q.factorial : ℝ) * (x - r) ^ q := by
  rw [← taylor_eval_sub r P x, eval_eq_sum_range' (n := k) (by rwa [natDegree_taylor])]
  apply Finset.sum_congr rfl
  intro q _
  rw [taylor_coeff, ← factorial_smul_hasseDeriv]
  congr 1
  rw [eq_div_iff (by exact_mod_cast q.factorial_ne_zero)]
  simp [mul_comm]

theorem poly_iteratedDeriv (P : ℝ[X]) (k : ℕ) : iteratedDeriv k (fun x => P.eval x) = fun x => ((derivative^[k]) P).eval x := by
  induction k with
  | zero => simp
  | succ k ih =>
    rw [iteratedDeriv_succ, ih]
    funext x
    rw [Polynomial.deriv, Function.iterate_succ_apply']

/-- On its interval the model polynomial is the textbook B-spline. -/
theorem basis_spec (t : ℕ → ℝ) (l p M : ℕ) (hm : AscTo t M) (x : ℝ) (h1 : t l ≤ x) (h2 : x < t (l + 1)) (i : ℕ)
    (hi : i + p + 1 ≤ M) (hl : l + 1 ≤ M) : (basis t l p i).eval x = bspline t p i x := by
  induction p generalizing i with
  | zero =>
    rw [basis, bspline]
    by_cases h : i = l
    · subst h
      rw [if_pos rfl, if_pos ⟨h1, h2⟩, eval_one]
    · rw [if_neg h, if_neg, eval_zero]
      rintro ⟨a, b⟩
      rcases Nat.lt_or_gt_of_ne h with hlt | hlt
      · have := hm (i + 1) l (by omega) (by omega)
        linarith
      · have := hm (l + 1) i (by omega) (by omega)
        linarith
  | succ p ih =>
    rw [basis, bspline, ← ih i (by omega), ← ih (i + 1) (by omega), eval_add, eval_mul, eval_mul, eval_mul, eval_mul, eval_C,
      eval_C, eval_sub, eval_sub, eval_X, eval_C, eval_C, show i + 1 + (p + 1) = i + p + 2 by ring, ← add_assoc]
    ring

theorem bspline_shift (t t' : ℕ → ℝ) (p i s : ℕ) (x : ℝ) (h : ∀ j, i ≤ j → j ≤ i + p + 1 → t' (j + s) = t j) :
    bspline t' p (i + s) x = bspline t p i x := by
  induction p generalizing i with
  | zero => rw [bspline, bspline, h i le_rfl (by omega), show i + s + 1 = (i + 1) + s by ring, h (i + 1) (by omega) (by omega)]
  | succ p ih =>
    rw [bspline, bspline, ih i (fun j hj hj' => h j hj (by omega)), show i + s + 1 = (i + 1) + s by ring,
      ih (i + 1) (fun j hj hj' => h j (by omega) (by omega)), h i le_rfl (by omega),
      show i + s + (p + 1) = (i + (p + 1)) + s by ring, h (i + (p + 1)) (by omega) (by omega),
      show i + 1 + s + (p + 1) = (i + 1 + (p + 1)) + s by ring, h (i + 1 + (p + 1)) (by omega) (by omega),
      h (i + 1) (by omega) (by omega)]

/-- B-splines of positive degree vanish at the right end of their support. -/
theorem basis_end (t : ℕ → ℝ) (l p i : ℕ) (hi : i + p + 1 ≤ l) : (basis t l (p + 1) i).eval (t (l + 1)) = 0 := by
  rcases Nat.eq_or_lt_of_le hi with he | hlt
  · rw [basis, basis_zero t l p i (Or.inr (by omega)), show i + p + 2 = l + 1 by omega]
    simp
  · rw [basis_zero t l (p + 1) i (Or.inr (by omega)), eval_zero]

end ChaosMagPy.BSpline
