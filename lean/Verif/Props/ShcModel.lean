import Verif.Model.ShcModel
import Verif.Props.PPoly
import Verif.Props.Index
import Mathlib.LinearAlgebra.Lagrange
/-!
# C31: `BaseModel.to_shc` followed by `BaseModel.from_shc`
-/
namespace ChaosMagPy.PPoly
open ChaosMagPy.Spec

/-! ### Uniqueness of polynomials -/

theorem poly_unique (k : ℕ) (a a' : ℕ → ℝ) (x0 : ℝ) (v : ℕ → ℝ) (hv : ∀ i j, i < k → j < k → v i = v j → i = j)
    (h : ∀ i < k, poly k a x0 (v i) = poly k a' x0 (v i)) : ∀ i < k, a i = a' i := by
  let P : (ℕ → ℝ) → Polynomial ℝ := fun a => ∑ q ∈ Finset.range k, Polynomial.monomial q (a (k - 1 - q))
  have heval : ∀ a t, (P a).eval (t - x0) = poly k a x0 t := by
    intro a t
    simp only [P, poly, Polynomial.eval_finset_sum, Polynomial.eval_monomial]
  have hdeg : ∀ a, (P a).degree < (Finset.range k).card := by
    intro a
    rw [Finset.card_range]
    apply lt_of_le_of_lt (Polynomial.degree_sum_le _ _)
    refine (Finset.sup_lt_iff (α := WithBot ℕ) (WithBot.bot_lt_coe k)).2 ?_
    intro q hq
    exact lt_of_le_of_lt (Polynomial.degree_monomial_le _ _) (WithBot.coe_lt_coe.2 (Finset.mem_range.1 hq))
  have heq : P a = P a' := by
    apply Polynomial.eq_of_degrees_lt_of_eval_index_eq (Finset.range k) (v := fun i => v i - x0) _ (hdeg a) (hdeg a')
    · intro i hi
      rw [heval, heval]
      exact h i (Finset.mem_range.1 hi)
    · intro i hi j hj hij
      simp only [Finset.coe_range, Set.mem_Iio] at hi hj
      exact hv i j hi hj (by simpa using hij)
  intro i hi
  have hc : ∀ a, (P a).coeff (k - 1 - i) = a i := by
    intro a
    simp only [P, Polynomial.finset_sum_coeff, Polynomial.coeff_monomial]
    rw [Finset.sum_eq_single (k - 1 - i)]
    · rw [if_pos rfl, show k - 1 - (k - 1 - i) = i by omega]
    · intro q _ hq
      rw [if_neg hq]
    · intro hc
      exact absurd (Finset.mem_range.2 (by omega)) hc
  rw [← hc a, ← hc a', heq]

/-! ### Sampling times -/

theorem flatMap_get {α : Type} (w : ℕ) (f : α → List ℝ) (l : List α) (h : ∀ x ∈ l, (f x).length = w) (j i : ℕ)
    (x : α) (hj : l[j]? = some x) (hi : i < w) : (l.flatMap f)[j * w + i]? = (f x)[i]? := by
  induction l generalizing j with
  | nil => simp at hj
  | cons y l ih =>
    rw [List.flatMap_cons]
    have hy : (f y).length = w := h y List.mem_cons_self
    cases j with
    | zero =>
      rw [List.getElem?_cons_zero, Option.some.injEq] at hj
      subst hj
      rw [Nat.zero_mul, Nat.zero_add, List.getElem?_append_left (by omega)]
    | succ j =>
      rw [List.getElem?_cons_succ] at hj
      rw [List.getElem?_append_right (by rw [hy, Nat.succ_mul]; omega), hy,
        show (j + 1) * w + i - w = j * w + i by rw [Nat.succ_mul]; omega]
      exact ih (fun z hz => h z (List.mem_cons_of_mem _ hz)) j hj

theorem flatMap_len {α : Type} (w : ℕ) (f : α → List ℝ) (l : List α) (h : ∀ x ∈ l, (f x).length = w) :
    (l.flatMap f).length = l.length * w := by
  induction l with
  | nil => simp
  | cons y l ih =>
    rw [List.flatMap_cons, List.length_append, h y List.mem_cons_self, ih (fun z hz => h z (List.mem_cons_of_mem _ hz)),
      List.length_cons, Nat.succ_mul]
    omega

theorem foldl_append_flatMap {α : Type} (f : α → List ℝ) (l : List α) (acc : List ℝ) :
    l.foldl (fun t x => t ++ f x) acc = acc ++ l.flatMap f := by
  induction l generalizing acc with
  | nil => simp
  | cons y l ih => rw [List.foldl_cons, ih, List.flatMap_cons, List.append_assoc]

theorem arange_step (a b : ℝ) (h : a < b) (step : ℕ) (hs : 0 < step) :
    arange a b ((b - a) / step) = (List.range step).map fun i : ℕ => a + i * ((b - a) / step) := by
  unfold arange
  have : (b - a) / ((b - a) / (step : ℝ)) = step := by
    have h1 : b - a ≠ 0 := sub_ne_zero.2 h.ne'
    have h2 : (step : ℝ) ≠ 0 := by exact_mod_cast hs.ne'
    field_simp
  rw [this, Nat.ceil_natCast]

section
variable (x : List ℝ) (hx : Ascending x) (k : ℕ) (hk : 2 ≤ k)
include hx hk

theorem zip_get (j : ℕ) (hj : j + 1 < x.length) : (x.dropLast.zip x.tail)[j]? = some (x.getD j 0, x.getD (j + 1) 0) := by
  rw [List.getElem?_zip_eq_some]
  have e : ∀ i, i < x.length → x[i]? = some (x.getD i 0) := by
    intro i hi
    rw [List.getD_eq_getElem?_getD, List.getElem?_eq_getElem hi]
    rfl
  constructor
  · rw [List.getElem?_dropLast, if_pos (by omega)]
    exact e j (by omega)
  · rw [List.getElem?_tail]
    exact e (j + 1) hj

theorem zip_len : (x.dropLast.zip x.tail).length = x.length - 1 := by
  simp

theorem shcTimes_eq : shcTimes k x = (x.dropLast.zip x.tail).flatMap
    (fun se => (List.range (k - 1)).map fun i : ℕ => se.1 + i * ((se.2 - se.1) / ((k - 1 : ℕ) : ℝ))) ++ [last x] := by
  unfold shcTimes
  simp only
  rw [if_neg (by omega), foldl_append_flatMap, List.nil_append, show max (k - 1) 1 = k - 1 by omega]
  congr 1
  apply List.flatMap_congr
  intro se hse
  obtain ⟨j, hj, rfl⟩ := List.getElem_of_mem hse
  have hl := zip_len x hx k hk
  have hz := zip_get x hx k hk j (by omega)
  rw [List.getElem?_eq_getElem hj, Option.some.injEq] at hz
  rw [hz]
  have hk1 : 0 < k - 1 := by omega
  exact arange_step _ _ (hx.2 j (by omega)) _ hk1

theorem shcTimes_len : (shcTimes k x).length = (x.length - 1) * (k - 1) + 1 := by
  rw [shcTimes_eq x hx k hk, List.length_append, flatMap_len (k - 1), zip_len x hx k hk]
  · rfl
  · intro se _
    simp

theorem shcTimes_get (j i : ℕ) (hj : j + 1 < x.length) (hi : i < k - 1) :
    (shcTimes k x).getD (j * (k - 1) + i) 0 =
      x.getD j 0 + i * ((x.getD (j + 1) 0 - x.getD j 0) / ((k - 1 : ℕ) : ℝ)) := by
  have hlen := shcTimes_len x hx k hk
  have hb : j * (k - 1) + i < (x.length - 1) * (k - 1) := by
    have : (j + 1) * (k - 1) ≤ (x.length - 1) * (k - 1) := Nat.mul_le_mul_right _ (by omega)
    rw [Nat.succ_mul] at this
    omega
  rw [List.getD_eq_getElem?_getD, shcTimes_eq x hx k hk, List.getElem?_append_left,
    flatMap_get (k - 1) _ _ (by intro se _; simp) j i _ (zip_get x hx k hk j hj) hi]
  · simp [hi]
  · rw [flatMap_len (k - 1), zip_len x hx k hk]
    · exact hb
    · intro se _
      simp

theorem shcTimes_last : (shcTimes k x).getD ((x.length - 1) * (k - 1)) 0 = last x := by
  rw [List.getD_eq_getElem?_getD, shcTimes_eq x hx k hk, List.getElem?_append_right]
  · rw [flatMap_len (k - 1), zip_len x hx k hk]
    · simp
    · intro se _
      simp
  · rw [flatMap_len (k - 1), zip_len x hx k hk]
    intro se _
    simp

/-- The file contains all break points, at every `step`-th sample. -/
theorem strided_eq : strided (shcTimes k x) (k - 1) = x := by
  have hlen := shcTimes_len x hx k hk
  have hx1 := hx.1
  have hne : x ≠ [] := by rintro rfl; simp at hx1
  have hcount : ((shcTimes k x).length + (k - 1) - 1) / (k - 1) = x.length := by
    rw [hlen, show (x.length - 1) * (k - 1) + 1 + (k - 1) - 1 = x.length * (k - 1) by
      obtain ⟨m, hm⟩ : ∃ m, x.length = m + 1 := ⟨x.length - 1, by omega⟩
      rw [hm, Nat.succ_mul]
      simp]
    exact Nat.mul_div_cancel _ (by omega)
  unfold strided
  rw [hcount]
  apply List.ext_getElem
  · simp
  · intro j h1 h2
    simp only [List.getElem_map, List.getElem_range]
    have e : x[j] = x.getD j 0 := by rw [List.getD_eq_getElem?_getD, List.getElem?_eq_getElem h2]; rfl
    rw [e]
    rcases Nat.lt_or_ge (j + 1) x.length with h | h
    · have := shcTimes_get x hx k hk j 0 h (by omega)
      simpa using this
    · obtain rfl : j = x.length - 1 := by omega
      rw [shcTimes_last x hx k hk, last_eq x hne]

/-- Sample `i` of piece `j`. -/
noncomputable def site (x : List ℝ) (k j i : ℕ) : ℝ :=
  x.getD j 0 + i * ((x.getD (j + 1) 0 - x.getD j 0) / ((k - 1 : ℕ) : ℝ))

theorem site_inj (j : ℕ) (hj : j + 1 < x.length) (a b : ℕ) (h : site x k j a = site x k j b) : a = b := by
  unfold site at h
  have h1 : (0 : ℝ) < (x.getD (j + 1) 0 - x.getD j 0) / ((k - 1 : ℕ) : ℝ) := by
    apply div_pos
    · linarith [hx.2 j hj]
    · exact_mod_cast (by omega : 0 < k - 1)
  have h2 := add_left_cancel h
  exact_mod_cast mul_right_cancel₀ h1.ne' h2

theorem site_piece (j i : ℕ) (hj : j + 1 < x.length) (hi : i < k - 1) : IsPiece x j (site x k j i) := by
  refine ⟨hj, Or.inl ⟨?_, ?_⟩⟩
  · unfold site
    have h1 : (0 : ℝ) ≤ (x.getD (j + 1) 0 - x.getD j 0) / ((k - 1 : ℕ) : ℝ) := by
      apply div_nonneg
      · linarith [hx.2 j hj]
      · positivity
    have := mul_nonneg (Nat.cast_nonneg (α := ℝ) i) h1
    linarith
  · unfold site
    have hk1 : (0 : ℝ) < ((k - 1 : ℕ) : ℝ) := by exact_mod_cast (by omega : 0 < k - 1)
    have hi' : (i : ℝ) < ((k - 1 : ℕ) : ℝ) := by exact_mod_cast hi
    have h1 : (0 : ℝ) < x.getD (j + 1) 0 - x.getD j 0 := by linarith [hx.2 j hj]
    have h2 : (i : ℝ) * ((x.getD (j + 1) 0 - x.getD j 0) / ((k - 1 : ℕ) : ℝ)) < x.getD (j + 1) 0 - x.getD j 0 := by
      rw [mul_div_assoc', div_lt_iff₀ hk1, mul_comm]
      exact mul_lt_mul_of_pos_left hi' h1
    linarith

theorem site_end (j : ℕ) : site x k j (k - 1) = x.getD (j + 1) 0 := by
  unfold site
  have hk1 : ((k - 1 : ℕ) : ℝ) ≠ 0 := by exact_mod_cast (by omega : k - 1 ≠ 0)
  field_simp
  ring

theorem splineVal_piece (c : ℕ → ℕ → ℝ) (j : ℕ) (t : ℝ) (h : IsPiece x j t) :
    splineVal x k c t = poly k (fun i => c i j) (x.getD j 0) t := by
  unfold splineVal
  rw [findInterval_piece x hx.sorted true j t h]

/-- Two splines that agree at all samples of the file have the same coefficients. -/
theorem spline_unique (c c' : ℕ → ℕ → ℝ) (hc : IsSpline x k c) (hc' : IsSpline x k c')
    (h : ∀ m, m < (shcTimes k x).length → splineVal x k c ((shcTimes k x).getD m 0) = splineVal x k c' ((shcTimes k x).getD m 0))
    (j : ℕ) (hj : j + 1 < x.length) : ∀ i < k, c i j = c' i j := by
  have hlen := shcTimes_len x hx k hk
  have hx1 := hx.1
  have hne : x ≠ [] := by rintro rfl; simp at hx1
  have hbnd : ∀ j i, j + 1 < x.length → i < k - 1 → j * (k - 1) + i < (shcTimes k x).length := by
    intro j i hj hi
    have : (j + 1) * (k - 1) ≤ (x.length - 1) * (k - 1) := Nat.mul_le_mul_right _ (by omega)
    rw [Nat.succ_mul] at this
    omega
  apply poly_unique k (fun i => c i j) (fun i => c' i j) (x.getD j 0) (fun i => site x k j i)
  · intro a b _ _ hab
    exact site_inj x hx k hk j hj a b hab
  · intro i hi
    rcases Nat.lt_or_ge i (k - 1) with h1 | h1
    · have hs := h _ (hbnd j i hj h1)
      rw [shcTimes_get x hx k hk j i hj h1] at hs
      have hp := site_piece x hx k hk j i hj h1
      rw [← splineVal_piece x hx k hk c j _ hp, ← splineVal_piece x hx k hk c' j _ hp]
      exact hs
    · obtain rfl : i = k - 1 := by omega
      rw [site_end x hx k hk j]
      rcases Nat.lt_or_ge (j + 2) x.length with h2 | h2
      · have h0 := hc j h2 0 (by omega)
        have h0' := hc' j h2 0 (by omega)
        simp only [iteratedDeriv_zero] at h0 h0'
        have hs := h _ (hbnd (j + 1) 0 (by omega) (by omega))
        rw [shcTimes_get x hx k hk (j + 1) 0 (by omega) (by omega)] at hs
        have hp := site_piece x hx k hk (j + 1) 0 (by omega) (by omega)
        have e : site x k (j + 1) 0 = x.getD (j + 1) 0 := by unfold site; simp
        rw [h0, h0', ← splineVal_piece x hx k hk c (j + 1) _ (e ▸ hp), ← splineVal_piece x hx k hk c' (j + 1) _ (e ▸ hp)]
        simpa using hs
      · have hjl : j = x.length - 2 := by omega
        have hp : IsPiece x j (x.getD (j + 1) 0) := by
          refine ⟨hj, Or.inr ⟨?_, by omega⟩⟩
          rw [last_eq x hne, show j + 1 = x.length - 1 by omega]
        rw [← splineVal_piece x hx k hk c j _ hp, ← splineVal_piece x hx k hk c' j _ hp]
        have hs := h ((x.length - 1) * (k - 1)) (by omega)
        rw [shcTimes_last x hx k hk, last_eq x hne, show x.length - 1 = j + 1 by omega] at hs
        exact hs

/-- All samples are inside the model interval. -/
theorem shcTimes_inside (m : ℕ) (hm : m < (shcTimes k x).length) : ∃ j, IsPiece x j ((shcTimes k x).getD m 0) := by
  have hlen := shcTimes_len x hx k hk
  have hx1 := hx.1
  rcases Nat.lt_or_ge m ((x.length - 1) * (k - 1)) with h | h
  · have hj : m / (k - 1) < x.length - 1 := (Nat.div_lt_iff_lt_mul (by omega)).2 h
    have hi : m % (k - 1) < k - 1 := Nat.mod_lt _ (by omega)
    have e := shcTimes_get x hx k hk (m / (k - 1)) (m % (k - 1)) (by omega) hi
    rw [Nat.div_add_mod'] at e
    rw [e]
    exact ⟨_, site_piece x hx k hk _ _ (by omega) hi⟩
  · obtain rfl : m = (x.length - 1) * (k - 1) := by omega
    rw [shcTimes_last x hx k hk]
    exact ⟨x.length - 2, by omega, Or.inr ⟨rfl, by omega⟩⟩

end

/-- A model that is a spline: coefficients `c`, strictly ascending break points, order at least 2, derivatives up to
order `k - 2` continuous, as made by `from_bspline` with simple knots, dimension of a maximum degree `N`. -/
structure SplineModel (b : Base) (c : ℕ → ℕ → ℕ → ℝ) (N : ℕ) : Prop where
  coeffs : b.coeffs = some c
  order : 2 ≤ b.order
  ascending : Ascending b.breaks
  dim : b.dim = N * (N + 2)
  degree : 1 ≤ N
  smooth : ∀ d < b.dim, IsSpline b.breaks b.order (fun i j => c i j d)

theorem SplineModel.proper {b : Base} {c : ℕ → ℕ → ℕ → ℝ} {N : ℕ} (h : SplineModel b c N) : Proper b c where
  coeffs := h.coeffs
  order := by have := h.order; omega
  dim := by rw [h.dim]; exact Nat.mul_pos h.degree (by omega)
  sorted := h.ascending.sorted
  span := h.ascending.span

theorem getD_of_lt (l : List ℝ) (m : ℕ) (h : m < l.length) : l[m]? = some (l.getD m 0) := by
  rw [List.getD_eq_getElem?_getD, List.getElem?_eq_getElem h]
  rfl

theorem not_outside {b : Base} {c : ℕ → ℕ → ℕ → ℝ} {N : ℕ} (h : SplineModel b c N) : ¬ Outside b (shcTimes b.order b.breaks) := by
  rintro ⟨t, ht, hout⟩
  obtain ⟨m, hm, rfl⟩ := List.getElem_of_mem ht
  obtain ⟨j, hj1, hj2⟩ := shcTimes_inside b.breaks h.ascending b.order h.order m hm
  have e : (shcTimes b.order b.breaks)[m] = (shcTimes b.order b.breaks).getD m 0 := by
    rw [List.getD_eq_getElem?_getD, List.getElem?_eq_getElem hm]; rfl
  rw [e] at hout
  have hs := h.ascending.sorted
  have hsp := h.ascending.span
  have hne : b.breaks ≠ [] := by rintro h; rw [h] at hj1; simp at hj1
  rcases hj2 with ⟨ha, hb⟩ | ⟨ha, _⟩
  · have h1 := hs 0 j (by omega) (by omega)
    have h2 := hs (j + 1) (b.breaks.length - 1) (by omega) (by omega)
    rw [← first_eq] at h1
    rw [← last_eq _ hne] at h2
    rcases hout with h | h <;> linarith
  · rw [ha] at hout
    rcases hout with h | h <;> linarith

/-- What `to_shc` writes: the values of the model at the samples. -/
theorem toShc_spec {b : Base} {c : ℕ → ℕ → ℕ → ℝ} {N : ℕ} (h : SplineModel b c N) (nmin nmax : ℕ)
    (h1 : nmin ≤ nmax) (h2 : nmax ≤ N) :
    ∃ f, toShc b (some nmin) (some nmax) = .ok f ∧ f.nmin = nmin ∧ f.nmax = nmax ∧ f.order = b.order ∧
      f.step = b.order - 1 ∧ f.time = shcTimes b.order b.breaks ∧
      ∀ m, m < f.time.length → ∀ r, f.coeffs m r =
        splineVal b.breaks b.order (fun i j => c i j (r + (nmin ^ 2 - 1))) (f.time.getD m 0) := by
  have hp := h.proper
  have hne : shcTimes b.order b.breaks ≠ [] := by
    intro hc
    have := shcTimes_len b.breaks h.ascending b.order h.order
    rw [hc] at this
    simp at this
  have hN : (ChaosMagPy.Index.nmaxOfDim b.dim).toNat = N := by
    have : ChaosMagPy.Index.nmaxOfDim b.dim = N := by
      rw [ChaosMagPy.Index.C12_nmax_of_dim, h.dim]
      constructor
      · exact le_rfl
      · nlinarith
    rw [this]
    simp
  have hcall := rows_of_prepare (dim := some (N * (N + 2))) (deriv := none) (e := none) hp
    (prepare_inside hp _ (option none) hne (not_outside h))
  have hcol : columns b (some (N * (N + 2))) = N * (N + 2) := by
    unfold columns
    simp only [h.dim]
    simp
  rw [hcol] at hcall
  unfold toShc
  rw [h.coeffs]
  simp only [Option.getD_some, hN, modelSynthCoeffs, Option.map_some]
  rw [hcall]
  simp only [bind, Except.bind, pure, Except.pure]
  have hle : nmax * (nmax + 2) ≤ N * (N + 2) := Nat.mul_le_mul h2 (by omega)
  rw [if_neg (by omega)]
  refine ⟨_, rfl, rfl, rfl, rfl, rfl, rfl, ?_⟩
  intro m hm r
  simp only at hm ⊢
  rw [row_get (getD_of_lt _ m hm)]
  obtain ⟨j, hj⟩ := shcTimes_inside b.breaks h.ascending b.order h.order m hm
  rw [pp_eval_piece hp true _ j _ hj, splineVal_piece b.breaks h.ascending b.order h.order _ j _ hj]
  simp [piece]

/-- **C31.** Saving a spline model of order 2 or more and loading it again gives a model with the same break
points, the same order and the same polynomial coefficients for the saved degrees `nmin` to `nmax`; the
coefficients of lower degrees are zero. -/
theorem C31_roundtrip {b : Base} {c : ℕ → ℕ → ℕ → ℝ} {N : ℕ} (h : SplineModel b c N) (nmin nmax : ℕ)
    (h0 : 1 ≤ nmin) (h1 : nmin ≤ nmax) (h2 : nmax ≤ N) :
    ∃ f, toShc b (some nmin) (some nmax) = .ok f ∧ ∀ b', FromShc f b' →
      b'.breaks = b.breaks ∧ b'.order = b.order ∧ b'.dim = nmax * (nmax + 2) ∧
      ∃ c', b'.coeffs = some c' ∧ ∀ i < b.order, ∀ j, j + 1 < b.breaks.length → ∀ d < nmax * (nmax + 2),
        c' i j d = if d < nmin ^ 2 - 1 then 0 else c i j d := by
  obtain ⟨f, hf, e1, e2, e3, e4, e5, hval⟩ := toShc_spec h nmin nmax h1 h2
  refine ⟨f, hf, ?_⟩
  intro b' hb'
  have ho := h.order
  have hlen := shcTimes_len b.breaks h.ascending b.order h.order
  unfold FromShc at hb'
  simp only at hb'
  rw [if_neg (by omega), e2, e3, e4, e5, show max (b.order - 1) 1 = b.order - 1 by omega,
    strided_eq _ h.ascending _ h.order, hlen] at hb'
  have hstop : ((b.breaks.length - 1) * (b.order - 1) + 1 - 1) / (b.order - 1) * (b.order - 1) + 1 =
      (shcTimes b.order b.breaks).length := by
    rw [Nat.add_sub_cancel, Nat.mul_div_cancel _ (by omega), hlen]
  rw [hstop, List.take_length] at hb'
  obtain ⟨k1, k2, k3, c', k4, k5⟩ := hb'
  refine ⟨k1, k2, k3, c', k4, ?_⟩
  intro i hi j hj d hd
  rw [k1] at k5
  obtain ⟨hs, hmin⟩ := k5 d (by rw [k3]; exact hd)
  -- the reference solution
  let r : ℕ → ℕ → ℝ := fun i j => if d < nmin ^ 2 - 1 then 0 else c i j d
  have hdim : d < b.dim := by
    rw [h.dim]
    exact lt_of_lt_of_le hd (Nat.mul_le_mul h2 (by omega))
  have hr : IsSpline b.breaks b.order r := by
    by_cases hd' : d < nmin ^ 2 - 1
    · intro j _ q _
      have hz : ∀ j x0, (poly b.order (fun i => r i j) x0) = fun _ => 0 := by
        intro j x0
        funext t
        simp [poly, r, hd']
      rw [hz, hz]
    · have : r = fun i j => c i j d := by
        funext i j
        simp [r, hd']
      rw [this]
      exact h.smooth d hdim
  have hpad : ∀ m, m < (shcTimes b.order b.breaks).length →
      padded f m d = splineVal b.breaks b.order r ((shcTimes b.order b.breaks).getD m 0) := by
    intro m hm
    obtain ⟨jm, hjm⟩ := shcTimes_inside b.breaks h.ascending b.order h.order m hm
    have hv := hval m (by rw [e5]; exact hm)
    unfold padded
    rw [e1]
    by_cases hd' : d < nmin ^ 2 - 1
    · have hn : nmin > 1 := by
        rcases Nat.eq_or_lt_of_le h0 with h | h
        · rw [← h] at hd'; simp at hd'
        · exact h
      rw [if_pos hn, if_pos hd', splineVal_piece b.breaks h.ascending b.order h.order r jm _ hjm]
      simp [poly, r, hd']
    · have hrr : (fun i j => c i j d) = r := by
        funext i j
        simp [r, hd']
      by_cases hn : nmin > 1
      · rw [if_pos hn, if_neg hd', hv, Nat.sub_add_cancel (by omega), e5, hrr]
      · obtain rfl : nmin = 1 := by omega
        rw [if_neg hn, hv, e5]
        simp only [one_pow, Nat.sub_self, Nat.add_zero]
        rw [hrr]
  have hzero : misfit b.breaks b.order r (shcTimes b.order b.breaks) (fun k => padded f k d) = 0 := by
    unfold misfit
    apply Finset.sum_eq_zero
    intro m hm
    rw [← hpad m (Finset.mem_range.1 hm), sub_self]
    norm_num
  have hle := hmin r hr
  rw [hzero] at hle
  unfold misfit at hle
  have hagree : ∀ m, m < (shcTimes b.order b.breaks).length →
      splineVal b.breaks b.order (fun i j => c' i j d) ((shcTimes b.order b.breaks).getD m 0) =
      splineVal b.breaks b.order r ((shcTimes b.order b.breaks).getD m 0) := by
    intro m hm
    have hn : ∀ m ∈ Finset.range (shcTimes b.order b.breaks).length, 0 ≤ (splineVal b.breaks b.order (fun i j => c' i j d) ((shcTimes b.order b.breaks).getD m 0) - padded f m d) ^ 2 :=
      fun m _ => sq_nonneg _
    have hsum := le_antisymm hle (Finset.sum_nonneg hn)
    have := (Finset.sum_eq_zero_iff_of_nonneg hn).1 hsum m (Finset.mem_range.2 hm)
    rw [← hpad m hm]
    have := pow_eq_zero_iff (two_ne_zero) |>.1 this
    linarith
  exact spline_unique b.breaks h.ascending b.order h.order _ _ hs hr hagree j hj i hi

/-- **C31** (a result exists): the specification of the loaded model can be met, so `C31_roundtrip` is not empty. -/
theorem C31_possible {b : Base} {c : ℕ → ℕ → ℕ → ℝ} {N : ℕ} (h : SplineModel b c N) :
    ∃ f, toShc b none none = .ok f ∧ FromShc f b := by
  have hN : (ChaosMagPy.Index.nmaxOfDim b.dim).toNat = N := by
    have : ChaosMagPy.Index.nmaxOfDim b.dim = N := by
      rw [ChaosMagPy.Index.C12_nmax_of_dim, h.dim]
      constructor
      · exact le_rfl
      · nlinarith
    rw [this]
    simp
  have hsame : toShc b none none = toShc b (some 1) (some N) := by
    unfold toShc
    simp only [Option.getD_none, Option.getD_some, hN]
  obtain ⟨f, hf, e1, e2, e3, e4, e5, hval⟩ := toShc_spec h 1 N h.degree le_rfl
  refine ⟨f, hsame ▸ hf, ?_⟩
  have ho := h.order
  have hlen := shcTimes_len b.breaks h.ascending b.order h.order
  unfold FromShc
  simp only
  rw [if_neg (by omega), e2, e3, e4, e5, show max (b.order - 1) 1 = b.order - 1 by omega,
    strided_eq _ h.ascending _ h.order, hlen]
  have hstop : ((b.breaks.length - 1) * (b.order - 1) + 1 - 1) / (b.order - 1) * (b.order - 1) + 1 =
      (shcTimes b.order b.breaks).length := by
    rw [Nat.add_sub_cancel, Nat.mul_div_cancel _ (by omega), hlen]
  rw [hstop, List.take_length]
  refine ⟨rfl, rfl, h.dim, c, h.coeffs, ?_⟩
  intro d hd
  refine ⟨h.smooth d hd, ?_⟩
  intro c' _
  have hzero : misfit b.breaks b.order (fun i j => c i j d) (shcTimes b.order b.breaks) (fun k => padded f k d) = 0 := by
    unfold misfit
    apply Finset.sum_eq_zero
    intro m hm
    have hv := hval m (by rw [e5]; exact Finset.mem_range.1 hm) d
    unfold padded
    simp only [e1]
    rw [if_neg (by omega), hv, e5]
    simp
  rw [hzero]
  exact Finset.sum_nonneg fun m _ => sq_nonneg _

/-- **C31** (extra samples): if a file has up to `step - 1` further times after the last break point, they are
discarded: the result is the same as without them. -/
theorem C31_extra_samples (f : ShcData) (pieces extra : ℕ) (ho : f.order ≠ 1) (hs : 1 ≤ f.step) (he : extra < f.step)
    (hlen : f.time.length = pieces * f.step + 1 + extra) (b : Base) :
    FromShc f b ↔ FromShc { f with time := f.time.take (pieces * f.step + 1) } b := by
  have hstop : ((f.time.length - 1) / f.step) * f.step + 1 = pieces * f.step + 1 := by
    rw [hlen, show pieces * f.step + 1 + extra - 1 = extra + f.step * pieces by ring_nf; omega,
      Nat.add_mul_div_left _ _ (by omega), Nat.div_eq_of_lt he, Nat.zero_add]
  have hl' : (f.time.take (pieces * f.step + 1)).length = pieces * f.step + 1 := by
    rw [List.length_take]; omega
  have hstop' : ((f.time.take (pieces * f.step + 1)).length - 1) / f.step * f.step + 1 = pieces * f.step + 1 := by
    rw [hl', Nat.add_sub_cancel, Nat.mul_div_cancel _ (by omega)]
  have hstr : strided f.time f.step = strided (f.time.take (pieces * f.step + 1)) f.step := by
    unfold strided
    have c1 : (f.time.length + f.step - 1) / f.step = pieces + 1 := by
      rw [hlen, show pieces * f.step + 1 + extra + f.step - 1 = extra + f.step * (pieces + 1) by ring_nf; omega,
        Nat.add_mul_div_left _ _ (by omega), Nat.div_eq_of_lt he, Nat.zero_add]
    have c2 : ((f.time.take (pieces * f.step + 1)).length + f.step - 1) / f.step = pieces + 1 := by
      rw [hl', show pieces * f.step + 1 + f.step - 1 = (pieces + 1) * f.step by rw [Nat.succ_mul]; omega,
        Nat.mul_div_cancel _ (by omega)]
    rw [c1, c2]
    apply List.map_congr_left
    intro i hi
    rw [List.mem_range] at hi
    rw [List.getD_eq_getElem?_getD, List.getD_eq_getElem?_getD, List.getElem?_take, if_pos]
    have : i * f.step ≤ pieces * f.step := Nat.mul_le_mul_right _ (by omega)
    omega
  unfold FromShc
  simp only
  rw [if_neg ho, if_neg ho, show max f.step 1 = f.step by omega, hstop, hstop', ← hstr]
  have ht : (f.time.take (pieces * f.step + 1)).take (pieces * f.step + 1) = f.time.take (pieces * f.step + 1) := by
    rw [List.take_take, min_self]
  rw [ht]
  rfl

/-! ### Piecewise constant models -/

/-- Index of the piece of a piecewise constant model: the number of interval starts not after `t`, minus one. -/
noncomputable def stepIndex (starts : List ℝ) (t : ℝ) : ℕ := starts.countP (fun b => decide (b ≤ t)) - 1

theorem dropLast_getD (x : List ℝ) (i : ℕ) (h : i + 1 < x.length) : x.dropLast.getD i 0 = x.getD i 0 := by
  rw [List.getD_eq_getElem?_getD, List.getElem?_dropLast, if_pos (by omega), ← List.getD_eq_getElem?_getD]

theorem stepIndex_piece (x : List ℝ) (hs : Sorted x) (j : ℕ) (t : ℝ) (h : IsPiece x j t) : stepIndex x.dropLast t = j := by
  obtain ⟨hj, h⟩ := h
  have hne : x ≠ [] := by rintro rfl; simp at hj
  have hl : x.dropLast.length = x.length - 1 := by simp
  have hs' : Sorted x.dropLast := by
    intro a b hab hb
    rw [dropLast_getD x a (by omega), dropLast_getD x b (by omega)]
    exact hs a b hab (by omega)
  unfold stepIndex
  rw [countP_le x.dropLast hs' j t (by omega)]
  · rfl
  · rw [dropLast_getD x j hj]
    rcases h with h | h
    · exact h.1
    · rw [h.1, last_eq x hne]
      exact hs _ _ (by omega) (by omega)
  · intro i hi hi'
    rw [dropLast_getD x i (by omega)]
    rcases h with h | h
    · exact lt_of_lt_of_le h.2 (hs (j + 1) i (by omega) (by omega))
    · omega

theorem stepIndex_after (x : List ℝ) (hs : Sorted x) (h2 : 2 ≤ x.length) (t : ℝ) (h : last x ≤ t) : stepIndex x.dropLast t = x.length - 2 := by
  have hne : x ≠ [] := by rintro rfl; simp at h2
  unfold stepIndex
  have : x.dropLast.countP (fun b => decide (b ≤ t)) = x.dropLast.length := by
    rw [List.countP_eq_length]
    intro b hb
    obtain ⟨i, hi, rfl⟩ := List.getElem_of_mem hb
    have hi' : i + 1 < x.length := by simp at hi; omega
    have e : x.dropLast[i] = x.getD i 0 := by
      rw [← dropLast_getD x i hi', List.getD_eq_getElem?_getD, List.getElem?_eq_getElem hi]; rfl
    rw [e]
    have := hs i (x.length - 1) (by omega) (by omega)
    rw [← last_eq x hne] at this
    simpa using this.trans h
  rw [this]
  simp
  omega

theorem stepIndex_before (x : List ℝ) (hs : Sorted x) (t : ℝ) (h : t < first x) : stepIndex x.dropLast t = 0 := by
  unfold stepIndex
  have : x.dropLast.countP (fun b => decide (b ≤ t)) = 0 := by
    rw [List.countP_eq_zero]
    intro b hb
    obtain ⟨i, hi, rfl⟩ := List.getElem_of_mem hb
    have hi' : i + 1 < x.length := by simp at hi; omega
    have e : x.dropLast[i] = x.getD i 0 := by
      rw [← dropLast_getD x i hi', List.getD_eq_getElem?_getD, List.getElem?_eq_getElem hi]; rfl
    rw [e]
    have := hs 0 i (by omega) (by omega)
    rw [← first_eq] at this
    simpa using lt_of_lt_of_le h this
  rw [this]

/-- A piecewise constant model returns, at every time, the value of the last interval started (the first one
before the model start). -/
theorem order1_value {b : Base} {c : ℕ → ℕ → ℕ → ℝ} (hb : Proper b c) (ho : b.order = 1)
    (hfirst : b.breaks.getD 0 0 < b.breaks.getD 1 0) (times : List ℝ) (hne : times ≠ []) :
    b.synthCoeffs times none none none =
      .ok (b.dim, times.map fun t => some fun d => c 0 (stepIndex b.breaks.dropLast t) d) := by
  obtain ⟨rows, h1, hl, h2⟩ := C26_inside hb times none none none hne (Or.inl (by simp [Known, option]))
  rw [h1]
  have hpiece : ∀ j d t, piece b c j d t = c 0 j d := by
    intro j d t
    simp [piece, poly, ho]
  congr 2
  apply List.ext_getElem?
  intro i
  rw [List.getElem?_map]
  cases hi : times[i]? with
  | none =>
    rw [List.getElem?_eq_none_iff] at hi
    simp only [Option.map_none]
    rw [List.getElem?_eq_none_iff]
    omega
  | some t =>
    simp only [Option.map_some]
    have hd : documentedOrder b.order (option none) = 1 := by
      rw [ho]; rfl
    have out : ∀ x j, NearEnd b t x j → rows[i]? = some (some fun d => c 0 j d) := by
      intro x j hx
      obtain ⟨rows', v, a1, a2, a3⟩ := C27_actual_formula hb times none none (by simp [Known, option]) (by rw [hd]; norm_num) i t x j hi hx
      rw [h1, Except.ok.injEq, Prod.mk.injEq] at a1
      rw [a1.2, a2]
      congr 2
      funext d
      rw [a3 d, hd]
      simp [hpiece]
    have hlen := hb.len
    rcases lt_or_ge t (first b.breaks) with h | h
    · rw [stepIndex_before _ hb.sorted t h]
      apply out (first b.breaks) 0
      refine Or.inl ⟨h, rfl, by omega, Or.inl ⟨by rw [first_eq], by rw [first_eq]; exact hfirst⟩⟩
    · rcases lt_trichotomy t (last b.breaks) with h' | h' | h'
      · obtain ⟨j, hj⟩ := piece_exists b.breaks hlen t h h'.le
        obtain ⟨v, v1, v2⟩ := h2 i t j hi hj h'
        rw [stepIndex_piece _ hb.sorted j t hj, v1]
        congr 2
        funext d
        rw [v2 d]
        simp [hpiece]
      · subst h'
        obtain ⟨rows', v, a1, a2, a3⟩ := C26_end hb times none none none (Or.inl (by simp [Known, option])) (Or.inl rfl) i hi
        rw [h1, Except.ok.injEq, Prod.mk.injEq] at a1
        rw [stepIndex_after _ hb.sorted hlen _ le_rfl, a1.2, a2]
        congr 2
        funext d
        rw [a3 d]
        simp [hpiece]
      · rw [stepIndex_after _ hb.sorted hlen _ h'.le]
        exact out _ _ (Or.inr ⟨h', rfl, rfl⟩)

/-- A piecewise constant model with at least two intervals, maximum degree `N`. -/
structure StepModel (b : Base) (c : ℕ → ℕ → ℕ → ℝ) (N : ℕ) : Prop where
  coeffs : b.coeffs = some c
  order : b.order = 1
  ascending : Ascending b.breaks
  pieces : 3 ≤ b.breaks.length
  dim : b.dim = N * (N + 2)
  degree : 1 ≤ N

theorem StepModel.proper {b : Base} {c : ℕ → ℕ → ℕ → ℝ} {N : ℕ} (h : StepModel b c N) : Proper b c where
  coeffs := h.coeffs
  order := by have := h.order; omega
  dim := by rw [h.dim]; exact Nat.mul_pos h.degree (by omega)
  sorted := h.ascending.sorted
  span := h.ascending.span

theorem toShc_step {b : Base} {c : ℕ → ℕ → ℕ → ℝ} {N : ℕ} (h : StepModel b c N) (nmin nmax : ℕ)
    (h1 : nmin ≤ nmax) (h2 : nmax ≤ N) :
    ∃ f, toShc b (some nmin) (some nmax) = .ok f ∧ f.nmin = nmin ∧ f.nmax = nmax ∧ f.order = 1 ∧
      f.time = b.breaks.dropLast ∧
      ∀ m, m + 1 < b.breaks.length → ∀ r, f.coeffs m r = c 0 m (r + (nmin ^ 2 - 1)) := by
  have hp := h.proper
  have hb3 := h.pieces
  have hN : (ChaosMagPy.Index.nmaxOfDim b.dim).toNat = N := by
    have : ChaosMagPy.Index.nmaxOfDim b.dim = N := by
      rw [ChaosMagPy.Index.C12_nmax_of_dim, h.dim]
      constructor
      · exact le_rfl
      · nlinarith
    rw [this]
    simp
  have ht : shcTimes b.order b.breaks = b.breaks.dropLast := by
    unfold shcTimes
    simp only
    rw [if_pos h.order]
  have hne : b.breaks.dropLast ≠ [] := by
    intro hc
    have := congrArg List.length hc
    simp at this
    omega
  have hcall := order1_value hp h.order (h.ascending.2 0 (by omega)) b.breaks.dropLast hne
  have htr := (C29_truncation b b.breaks.dropLast (some N) none none b.dim _ hcall).2
  simp only [h.dim, min_self] at htr
  unfold toShc
  rw [h.coeffs]
  simp only [Option.getD_some, hN, ht]
  rw [htr]
  simp only [bind, Except.bind, pure, Except.pure]
  have hle : nmax * (nmax + 2) ≤ N * (N + 2) := Nat.mul_le_mul h2 (by omega)
  rw [if_neg (by omega)]
  refine ⟨_, rfl, rfl, rfl, h.order, rfl, ?_⟩
  intro m hm r
  simp only
  have hget : b.breaks.dropLast[m]? = some (b.breaks.getD m 0) := by
    rw [List.getElem?_dropLast, if_pos (by omega)]
    exact getD_of_lt _ _ (by omega)
  rw [row_get hget]
  simp only
  rw [stepIndex_piece _ hp.sorted m]
  exact ⟨hm, Or.inl ⟨le_rfl, h.ascending.2 m hm⟩⟩

/-- **C31** for order 1: the loaded model gives, at every time (inside, and outside with the default
extrapolation), the same values as the saved model, zero below degree `nmin`. Its interval however ends at
the start of the last piece: without extrapolation (`'off'`) it is NaN there, where the saved model is not. -/
theorem C31_order1 {b : Base} {c : ℕ → ℕ → ℕ → ℝ} {N : ℕ} (h : StepModel b c N) (nmin nmax : ℕ)
    (h0 : 1 ≤ nmin) (h1 : nmin ≤ nmax) (h2 : nmax ≤ N) :
    ∃ f b', toShc b (some nmin) (some nmax) = .ok f ∧ FromShc f b' ∧ (∀ b'', FromShc f b'' → b'' = b') ∧
      (∀ times, times ≠ [] → ∃ rows rows', b.synthCoeffs times none none none = .ok (b.dim, rows) ∧
        b'.synthCoeffs times none none none = .ok (nmax * (nmax + 2), rows') ∧
        ∀ i < times.length, ∃ v v' : ℕ → ℝ, rows[i]? = some (some v) ∧ rows'[i]? = some (some v') ∧
          ∀ d < nmax * (nmax + 2), v' d = if d < nmin ^ 2 - 1 then 0 else v d) ∧
      ∀ (times : List ℝ) (i : ℕ) (t : ℝ), times[i]? = some t → b.breaks.getD (b.breaks.length - 2) 0 < t →
        ∃ rows', b'.synthCoeffs times none none (some (.str "off")) = .ok (nmax * (nmax + 2), rows') ∧
          rows'[i]? = some none := by
  obtain ⟨f, hf, e1, e2, e3, e4, hval⟩ := toShc_step h nmin nmax h1 h2
  have hp := h.proper
  have hb3 := h.pieces
  have hl : b.breaks.dropLast.length = b.breaks.length - 1 := by simp
  have hdne : b.breaks.dropLast ≠ [] := by
    intro hc
    rw [hc] at hl
    simp at hl
    omega
  generalize hx : b.breaks.dropLast ++ [last b.breaks.dropLast] = x'
  have hxl : x'.length = b.breaks.length := by rw [← hx]; simp; omega
  have hx' : ∀ i, i + 1 < b.breaks.length → x'.getD i 0 = b.breaks.getD i 0 := by
    intro i hi
    rw [← hx, getD_append_left _ _ _ (by omega), dropLast_getD _ _ hi]
  have hx'' : x'.getD (b.breaks.length - 1) 0 = b.breaks.getD (b.breaks.length - 2) 0 := by
    rw [← hx, List.getD_eq_getElem?_getD, List.getElem?_append_right (by omega), hl, Nat.sub_self]
    simp only [List.getElem?_cons_zero, Option.getD_some]
    rw [last_eq _ hdne, hl, dropLast_getD _ _ (by omega)]
    congr 1
  have hdl : x'.dropLast = b.breaks.dropLast := by rw [← hx]; simp
  let b' : Base := { breaks := x', order := 1, dim := nmax * (nmax + 2), coeffs := some fun _ j d => padded f j d }
  have hfrom : ∀ b'', FromShc f b'' ↔ b'' = b' := by
    intro b''
    unfold FromShc
    simp only
    rw [if_pos e3, e2, e4, hx]
    unfold Base.init
    rw [if_neg (by omega)]
    rfl
  have hp' : Proper b' (fun _ j d => padded f j d) := by
    refine ⟨rfl, by simp [b'], by simp only [b']; exact Nat.mul_pos (by omega) (by omega), ?_, ?_⟩
    · intro i j hij hj
      simp only [b'] at hj ⊢
      rw [hxl] at hj
      rcases Nat.lt_or_ge (j + 1) b.breaks.length with hj1 | hj1
      · rw [hx' i (by omega), hx' j hj1]
        exact h.ascending.sorted i j hij (by omega)
      · obtain rfl : j = b.breaks.length - 1 := by omega
        rw [hx'']
        rcases Nat.lt_or_ge (i + 1) b.breaks.length with hi1 | hi1
        · rw [hx' i hi1]
          exact h.ascending.sorted i _ (by omega) (by omega)
        · obtain rfl : i = b.breaks.length - 1 := by omega
          rw [hx'']
    · simp only [b']
      have hxne : x' ≠ [] := by intro hc; rw [hc] at hxl; simp at hxl; omega
      rw [first_eq, last_eq x' hxne, hxl, hx'', hx' 0 (by omega)]
      exact h.ascending.lt 0 _ (by omega) (by omega)
  refine ⟨f, b', hf, (hfrom b').2 rfl, fun b'' hb'' => (hfrom b'').1 hb'', ?_, ?_⟩
  swap
  · intro times i t hi ht
    refine C27_off hp' times none none _ (Or.inl rfl) i t hi (Or.inr ?_)
    have hxne : x' ≠ [] := by intro hc; rw [hc] at hxl; simp at hxl; omega
    rw [last_eq _ hxne, hxl, hx'']
    exact ht
  intro times hne
  have hfirst' : b'.breaks.getD 0 0 < b'.breaks.getD 1 0 := by
    simp only [b']
    rw [hx' 0 (by omega), hx' 1 (by omega)]
    exact h.ascending.2 0 (by omega)
  refine ⟨_, _, order1_value hp h.order (h.ascending.2 0 (by omega)) times hne, order1_value hp' rfl hfirst' times hne, ?_⟩
  intro i hi
  have hti : times[i]? = some times[i] := List.getElem?_eq_getElem hi
  refine ⟨_, _, row_get hti, row_get hti, ?_⟩
  intro d hd
  rw [show b'.breaks.dropLast = b.breaks.dropLast from hdl]
  have hidx : stepIndex b.breaks.dropLast times[i] + 1 < b.breaks.length := by
    unfold stepIndex
    have := List.countP_le_length (p := fun b => decide (b ≤ times[i])) (l := b.breaks.dropLast)
    omega
  unfold padded
  rw [e1]
  by_cases hn : nmin > 1
  · rw [if_pos hn]
    by_cases hd' : d < nmin ^ 2 - 1
    · rw [if_pos hd', if_pos hd']
    · rw [if_neg hd', if_neg hd', hval _ hidx, Nat.sub_add_cancel (by omega)]
  · obtain rfl : nmin = 1 := by omega
    rw [if_neg hn, hval _ hidx]
    simp

/-! ### Concrete cases -/

/-- A quadratic spline on `0, 1, 3`: `t^2` on the first piece, continued by its tangent. -/
def exSpline : Base where
  breaks := [0, 1, 3]
  order := 3
  dim := 3
  coeffs := some fun i j _ => if j = 0 then (if i = 0 then 1 else 0) else (if i = 0 then 0 else if i = 1 then 2 else 1)

theorem exSpline_model : ∃ c, SplineModel exSpline c 1 := by
  refine ⟨_, rfl, by norm_num [exSpline], ⟨by norm_num [exSpline], ?_⟩, rfl, le_rfl, ?_⟩
  · intro j hj
    simp only [exSpline, List.length_cons, List.length_nil] at hj
    have hj' : j < 2 := by omega
    interval_cases j <;> norm_num [exSpline]
  · intro d _ j hj q hq
    simp only [exSpline, List.length_cons, List.length_nil] at hj hq
    obtain rfl : j = 0 := by omega
    have hp : ∀ (a : ℕ → ℝ) (x0 t : ℝ), iteratedDeriv q (poly 3 a x0) t = evalPoly 3 a q (t - x0) :=
      fun a x0 t => evalPoly_iteratedDeriv 3 a q x0 t
    simp only [exSpline]
    rw [hp, hp]
    have hq' : q < 2 := by omega
    unfold evalPoly
    rw [Finset.sum_range_succ, Finset.sum_range_succ, Finset.sum_range_succ, Finset.sum_range_succ,
      Finset.sum_range_succ, Finset.sum_range_succ]
    interval_cases q <;> norm_num

theorem exStep_model : StepModel { breaks := [0, 1, 3], order := 1, dim := 8, coeffs := some fun _ j d => (j : ℝ) + d }
    (fun _ j d => (j : ℝ) + d) 2 := by
  refine ⟨rfl, rfl, ⟨by norm_num, ?_⟩, by norm_num, rfl, by norm_num⟩
  intro j hj
  simp only [List.length_cons, List.length_nil] at hj
  have hj' : j < 2 := by omega
  interval_cases j <;> norm_num

end ChaosMagPy.PPoly
