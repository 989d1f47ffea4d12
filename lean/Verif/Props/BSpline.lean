import Verif.Lemmas.BSpline
import Verif.Props.PPoly
import Mathlib.Algebra.Polynomial.HasseDeriv
import Mathlib.Analysis.Calculus.Deriv.Polynomial
import Mathlib.Data.List.GetD
/-!
# C23 (collocation matrix), C24 (knot augmentation), C51 (zero-padded splines), C53 (models from B-splines)
-/
namespace ChaosMagPy.BSpline
open Polynomial ChaosMagPy.Spec ChaosMagPy.PPoly

/-! ### Collocation matrix -/

theorem knot_fun (t : List ℝ) : (fun i => t.getD i 0) = knot t := rfl

/-- Rows of the collocation matrix. -/
theorem colloc_rows (xs knots : List ℝ) (order : ℕ) (deriv : Option ℕ) (i : ℕ) (x : ℝ) (hx : xs[i]? = some x) :
    (collocMatrix xs knots order deriv).2[i]? = some (collocRow knots order (deriv.getD 0) x) := by
  unfold collocMatrix
  rw [List.getElem?_map, hx]
  rfl

/-- **C23** (entries). At every point of the base interval, entry `n` of the row is the `deriv`-th derivative of the
textbook B-spline `n`: the derivative at the point of the polynomial (degree below `order`) that equals the B-spline
on the knot interval which contains the point; the end of the base interval belongs to the last knot interval. -/
theorem C23_entries (xs knots : List ℝ) (order : ℕ) (ho : 0 < order) (hk : GoodKnots knots (order - 1)) (deriv : Option ℕ)
    (hd : deriv.getD 0 < order) (i : ℕ) (x : ℝ) (hx : xs[i]? = some x)
    (h1 : knots.getD (order - 1) 0 ≤ x) (h2 : x ≤ knots.getD (knots.length - order) 0) :
    ∃ row : ℕ → Option ℝ, (collocMatrix xs knots order deriv).2[i]? = some row ∧
      ∃ l, order ≤ l + 1 ∧ l + order + 1 ≤ knots.length ∧ knots.getD l 0 < knots.getD (l + 1) 0 ∧ knots.getD l 0 ≤ x ∧
        (x < knots.getD (l + 1) 0 ∨ (x = knots.getD (knots.length - order) 0 ∧ l + 1 = knots.length - order)) ∧
        ∀ n, n < (collocMatrix xs knots order deriv).1 → ∃ P : ℝ[X], P.natDegree < order ∧
          (∀ y, knots.getD l 0 ≤ y → y < knots.getD (l + 1) 0 → P.eval y = bspline (fun i => knots.getD i 0) (order - 1) n y) ∧
          row n = some (((derivative^[deriv.getD 0]) P).eval x) := by
  have hs := hk.size
  have e : knots.length - (order - 1) - 1 = knots.length - order := by omega
  obtain ⟨l, hl, a, b, c, d, f, g⟩ := findKnot_spec hk x h1 (by rw [e]; exact h2)
  refine ⟨_, colloc_rows xs knots order deriv i x hx, l, by omega, by omega, f, c, ?_, ?_⟩
  · rcases g with g | g
    · exact Or.inl g
    · have e2 : l + 1 = knots.length - order := by omega
      rcases lt_or_eq_of_le d with d | d
      · exact Or.inl d
      · right
        exact ⟨by rw [d, e2]; rfl, e2⟩
  · intro n hn
    have hn : n < knots.length - order := hn
    refine ⟨basis (knot knots) l (order - 1) n, ?_, ?_, ?_⟩
    · have := basis_degree (knot knots) l (order - 1) n
      omega
    · intro y hy hy'
      rw [knot_fun]
      exact basis_spec (knot knots) l (order - 1) (knots.length - 1) (goodKnots_ascTo hk) y hy hy' n (by omega) (by omega)
    · exact colloc_entry knots order (deriv.getD 0) hd x l n hl a

theorem iterate_derivative_sum' (k : ℕ) (s : Finset ℕ) (f : ℕ → ℝ[X]) :
    (derivative^[k]) (∑ i ∈ s, f i) = ∑ i ∈ s, (derivative^[k]) (f i) := iterate_derivative_sum k s f

/-- **C23** (partition of unity). At every point of the base interval the row consists of numbers: without a
derivative they are not negative and sum to one, for derivatives they sum to zero; at most the `order` entries
`l-order+1 .. l` of the knot interval `l` that contains the point are not zero. -/
theorem C23_partition (xs knots : List ℝ) (order : ℕ) (ho : 0 < order) (hk : GoodKnots knots (order - 1)) (deriv : Option ℕ)
    (i : ℕ) (x : ℝ) (hx : xs[i]? = some x)
    (h1 : knots.getD (order - 1) 0 ≤ x) (h2 : x ≤ knots.getD (knots.length - order) 0) :
    ∃ (row : ℕ → Option ℝ) (v : ℕ → ℝ), (collocMatrix xs knots order deriv).2[i]? = some row ∧
      (∀ n, n < (collocMatrix xs knots order deriv).1 → row n = some (v n)) ∧
      (deriv.getD 0 = 0 → ∀ n, 0 ≤ v n) ∧
      ∑ n ∈ Finset.range (collocMatrix xs knots order deriv).1, v n = (if deriv.getD 0 = 0 then 1 else 0) ∧
      ∃ l, knots.getD l 0 ≤ x ∧ x ≤ knots.getD (l + 1) 0 ∧ ∀ n, v n ≠ 0 → n ≤ l ∧ l < n + order := by
  have hs := hk.size
  have e : knots.length - (order - 1) - 1 = knots.length - order := by omega
  obtain ⟨l, hl, a, b, c, d, f, g⟩ := findKnot_spec hk x h1 (by rw [e]; exact h2)
  by_cases hd : deriv.getD 0 < order
  · refine ⟨_, fun n => ((derivative^[deriv.getD 0]) (basis (knot knots) l (order - 1) n)).eval x,
      colloc_rows xs knots order deriv i x hx, ?_, ?_, ?_, l, c, d, ?_⟩
    · intro n _
      exact colloc_entry knots order (deriv.getD 0) hd x l n hl a
    · intro h0 n
      simp only [h0, Function.iterate_zero, id_eq]
      exact basis_nonneg (knot knots) l (order - 1) (knots.length - 1) (goodKnots_ascTo hk) (by omega) x c d n
    · have hcol : (collocMatrix xs knots order deriv).1 = knots.length - order := rfl
      rw [hcol, ← eval_finset_sum, ← iterate_derivative_sum']
      have hsum : ∑ n ∈ Finset.range (knots.length - order), basis (knot knots) l (order - 1) n = 1 := by
        rw [← basis_sum (knot knots) l (order - 1) (knots.length - 1) (goodKnots_ascTo hk) f a (by omega)]
        symm
        apply Finset.sum_subset
        · intro n hn
          rw [Finset.mem_range] at hn ⊢
          omega
        · intro n _ hn
          apply basis_zero
          left
          simpa using hn
      rw [hsum]
      split_ifs with h0
      · rw [h0]; simp
      · rw [iterate_derivative_one (by omega), eval_zero]
    · intro n hn
      by_contra hc
      apply hn
      simp only
      rw [basis_zero (knot knots) l (order - 1) n (by omega), iterate_derivative_zero, eval_zero]
  · refine ⟨_, fun _ => 0, colloc_rows xs knots order deriv i x hx, ?_, ?_, ?_, l, c, d, ?_⟩
    · intro n _
      unfold collocRow
      rw [if_pos (by omega)]
    · intros; exact le_rfl
    · rw [if_neg (by omega), Finset.sum_const_zero]
    · intro n hn
      exact absurd rfl hn

/-- **C23** (high derivatives). For derivatives of the spline order or more all entries are zero, at every point,
inside and outside the base interval. -/
theorem C23_high_derivative (xs knots : List ℝ) (order : ℕ) (deriv : Option ℕ) (hd : order ≤ deriv.getD 0) :
    (collocMatrix xs knots order deriv).2.length = xs.length ∧
    ∀ row ∈ (collocMatrix xs knots order deriv).2, ∀ n, row n = some 0 := by
  unfold collocMatrix
  refine ⟨by simp, ?_⟩
  intro row hrow n
  simp only [List.mem_map] at hrow
  obtain ⟨x, _, rfl⟩ := hrow
  unfold collocRow
  rw [if_pos hd]

/-- **C23** (outside). Outside the base interval all entries are NaN (for derivatives below the order). -/
theorem C23_outside (xs knots : List ℝ) (order : ℕ) (deriv : Option ℕ) (hd : deriv.getD 0 < order) (i : ℕ) (x : ℝ)
    (hx : xs[i]? = some x) (h : x < knots.getD (order - 1) 0 ∨ knots.getD (knots.length - order) 0 < x) :
    ∃ row : ℕ → Option ℝ, (collocMatrix xs knots order deriv).2[i]? = some row ∧ ∀ n, row n = none := by
  refine ⟨_, colloc_rows xs knots order deriv i x hx, ?_⟩
  intro n
  unfold collocRow bsplineEval
  have e : knots.length - (order - 1) - 1 = knots.length - order := by omega
  rw [if_neg (by omega), findKnot_none x (by rw [e]; exact h)]
  rfl

/-! ### Knots -/

/-- Knot `i` of the augmented break points. -/
theorem augment_getD (breaks : List ℝ) (hne : breaks ≠ []) (order i : ℕ) (hi : i < breaks.length + 2 * (order - 1)) :
    (augmentBreaks breaks order).getD i 0 = breaks.getD (min (i - (order - 1)) (breaks.length - 1)) 0 := by
  unfold augmentBreaks
  have hlen : 0 < breaks.length := List.length_pos_iff.2 hne
  rcases Nat.lt_or_ge i (order - 1) with h | h
  · rw [List.append_assoc, List.getD_append _ _ _ _ (by simpa using h), Nat.sub_eq_zero_of_le h.le, Nat.zero_min, ← first_eq]
    rw [List.getD_replicate _ h]
  · rcases Nat.lt_or_ge i (order - 1 + breaks.length) with h' | h'
    · rw [List.append_assoc, List.getD_append_right _ _ _ _ (by simpa using h), List.getD_append _ _ _ _ (by simp; omega)]
      rw [List.length_replicate]
      congr 1
      omega
    · rw [List.getD_append_right _ _ _ _ (by simp; omega), List.getD_replicate _ (by simp; omega), last_eq _ hne]
      congr 1
      omega

theorem augment_length (breaks : List ℝ) (order : ℕ) : (augmentBreaks breaks order).length = breaks.length + 2 * (order - 1) := by
  unfold augmentBreaks
  simp
  omega

theorem ascending_ne {breaks : List ℝ} (h : Ascending breaks) : breaks ≠ [] := by
  rintro rfl
  simp [Ascending] at h

/-- **C24.** The augmented break points: `order-1` copies of both ends are added, the result is ascending and its distinct
values are the break points. -/
theorem C24_augment (breaks : List ℝ) (h : Ascending breaks) (order : ℕ) :
    (augmentBreaks breaks order).length = breaks.length + 2 * (order - 1) ∧
    (∀ i, i < order - 1 → (augmentBreaks breaks order).getD i 0 = breaks.getD 0 0) ∧
    (∀ i, i < breaks.length → (augmentBreaks breaks order).getD (order - 1 + i) 0 = breaks.getD i 0) ∧
    (∀ i, i < order - 1 → (augmentBreaks breaks order).getD (order - 1 + breaks.length + i) 0 = breaks.getD (breaks.length - 1) 0) ∧
    Sorted (augmentBreaks breaks order) ∧
    unique (augmentBreaks breaks order) = breaks := by
  have hne := ascending_ne h
  have hlen : 0 < breaks.length := List.length_pos_iff.2 hne
  refine ⟨augment_length breaks order, ?_, ?_, ?_, ?_, ?_⟩
  · intro i hi
    rw [augment_getD breaks hne order i (by omega), Nat.sub_eq_zero_of_le (by omega), Nat.zero_min]
  · intro i hi
    rw [augment_getD breaks hne order _ (by omega)]
    congr 1
    omega
  · intro i hi
    rw [augment_getD breaks hne order _ (by omega)]
    congr 1
    omega
  · intro i j hij hj
    rw [augment_length] at hj
    rw [augment_getD breaks hne order i (by omega), augment_getD breaks hne order j hj]
    apply h.sorted
    · omega
    · omega
  · unfold unique
    classical
    have hmem : (augmentBreaks breaks order).toFinset = breaks.toFinset := by
      ext y
      simp only [List.mem_toFinset]
      unfold augmentBreaks
      simp only [List.mem_append, List.mem_replicate]
      constructor
      · rintro ((⟨_, rfl⟩ | h) | ⟨_, rfl⟩)
        · cases breaks with
          | nil => exact absurd rfl hne
          | cons a l => exact List.mem_cons_self
        · exact h
        · rw [last_eq _ hne, List.getD_eq_getElem _ _ (by omega)]
          exact List.getElem_mem _
      · intro h
        exact Or.inl (Or.inr h)
    have hpw : breaks.Pairwise (· < ·) := by
      rw [List.pairwise_iff_getElem]
      intro i j hi hj hij
      have := h.lt i j hij hj
      rwa [List.getD_eq_getElem _ _ hi, List.getD_eq_getElem _ _ hj] at this
    have := (List.toFinset_sort (r := fun a b : ℝ => a ≤ b) (l := breaks) (hpw.imp (fun h => ne_of_lt h))).2 (hpw.imp (fun h => le_of_lt h))
    rw [← hmem] at this
    convert this

/-- **C24** (order 1): the break points themselves. -/
theorem C24_order1 (breaks : List ℝ) : augmentBreaks breaks 1 = breaks := by
  unfold augmentBreaks
  simp

/-- **C24** (fit for splines). The augmented break points satisfy what `C23_partition` and `C23_entries` ask of knots, and
their base interval is the interval of the break points. -/
theorem C24_fit (breaks : List ℝ) (h : Ascending breaks) (order : ℕ) :
    GoodKnots (augmentBreaks breaks order) (order - 1) ∧
    (augmentBreaks breaks order).getD (order - 1) 0 = breaks.getD 0 0 ∧
    (0 < order → (augmentBreaks breaks order).getD ((augmentBreaks breaks order).length - order) 0 =
      breaks.getD (breaks.length - 1) 0) := by
  have hne := ascending_ne h
  have h2 := h.1
  refine ⟨⟨?_, ?_, ?_⟩, ?_, ?_⟩
  · rw [augment_length]; omega
  · exact (C24_augment breaks h order).2.2.2.2.1
  · rw [augment_length, augment_getD breaks hne order _ (by omega), augment_getD breaks hne order _ (by omega)]
    apply h.lt
    · omega
    · omega
  · rw [augment_getD breaks hne order _ (by omega)]
    congr 1
    omega
  · intro ho
    rw [augment_length, augment_getD breaks hne order _ (by omega)]
    congr 1
    omega

theorem ex_ascending : Ascending [(0 : ℝ), 1, 3] := by
  refine ⟨by simp, ?_⟩
  intro j hj
  have hj' : j < 2 := by simp only [List.length_cons, List.length_nil] at hj; omega
  interval_cases j <;> norm_num

/-! ### Models from B-splines -/

/-- Position of a time relative to the augmented break points. -/
theorem augment_find (breaks : List ℝ) (h : Ascending breaks) (order : ℕ) (j : ℕ) (t : ℝ) (hj : IsPiece breaks j t) :
    findKnot (augmentBreaks breaks order) (order - 1) t = some (order - 1 + j) := by
  have hne := ascending_ne h
  have hg := (C24_fit breaks h order).1
  have hlen := hj.1
  have hkey : ∀ i, i < breaks.length → knot (augmentBreaks breaks order) (order - 1 + i) = breaks.getD i 0 :=
    (C24_augment breaks h order).2.2.1
  rcases hj.2 with ⟨h1, h2⟩ | ⟨h1, h2⟩
  · apply findKnot_eq hg
    · omega
    · rw [augment_length]; omega
    · rw [hkey j (by omega)]; exact h1
    · rw [show order - 1 + j + 1 = order - 1 + (j + 1) by ring, hkey (j + 1) hlen]; exact h2
  · have hl : last breaks = breaks.getD (breaks.length - 1) 0 := last_eq _ hne
    have hb1 : knot (augmentBreaks breaks order) (order - 1) = breaks.getD 0 0 := by
      have := hkey 0 (by omega)
      rwa [Nat.add_zero] at this
    obtain ⟨r, hr, a, b, c, d, e, f⟩ := findKnot_spec hg t
      (by rw [hb1, h1, hl]; exact h.sorted _ _ (by omega) (by omega))
      (by rw [augment_length, show breaks.length + 2 * (order - 1) - (order - 1) - 1 = order - 1 + (breaks.length - 1) by omega,
            hkey _ (by omega), h1, hl])
    rw [hr]
    congr 1
    rw [augment_length] at b f
    rcases f with f | f
    · exfalso
      have hr1 : r + 1 = order - 1 + (r + 1 - (order - 1)) := by omega
      rw [hr1, hkey _ (by omega), h1, hl] at f
      have := h.sorted (r + 1 - (order - 1)) (breaks.length - 1) (by omega) (by omega)
      linarith
    · omega

/-- The polynomial of coefficient `d` on piece `j`. -/
noncomputable def piecePoly (breaks : List ℝ) (order : ℕ) (coeffs : ℕ → ℕ → ℝ) (j d : ℕ) : ℝ[X] :=
  splinePoly (knot (augmentBreaks breaks order)) (order - 1 + j) (order - 1) ((augmentBreaks breaks order).length - order) (fun n => coeffs n d)

section
variable {breaks : List ℝ} (h : Ascending breaks) {order : ℕ} (ho : 0 < order) (coeffs : ℕ → ℕ → ℝ) (dim : ℕ)
include h ho

theorem fromBspline_eq : fromBspline (augmentBreaks breaks order) coeffs dim order =
    { breaks := breaks, order := order, dim := dim, coeffs := some (ppFromBspline coeffs (augmentBreaks breaks order) order).1 } := by
  unfold fromBspline Base.init
  have hu : (ppFromBspline coeffs (augmentBreaks breaks order) order).2 = breaks := (C24_augment breaks h order).2.2.2.2.2
  have h2 := h.1
  simp only [hu, min_self, Nat.sub_self, Nat.zero_add]
  rw [if_neg (by omega)]

theorem fromBspline_proper (hdim : 0 < dim) : Proper (fromBspline (augmentBreaks breaks order) coeffs dim order)
    (ppFromBspline coeffs (augmentBreaks breaks order) order).1 := by
  rw [fromBspline_eq h ho]
  exact ⟨rfl, ho, hdim, h.sorted, h.span⟩

theorem fromBspline_piece (j d : ℕ) (hj : j + 1 < breaks.length) :
    piece (fromBspline (augmentBreaks breaks order) coeffs dim order) (ppFromBspline coeffs (augmentBreaks breaks order) order).1 j d =
      fun t => (piecePoly breaks order coeffs j d).eval t := by
  rw [fromBspline_eq h ho]
  funext t
  have hkey : knot (augmentBreaks breaks order) (order - 1 + j) = breaks.getD j 0 := (C24_augment breaks h order).2.2.1 j (by omega)
  have hf := augment_find breaks h order j (breaks.getD j 0) ⟨hj, Or.inl ⟨le_rfl, h.2 j hj⟩⟩
  have hlen := augment_length breaks order
  unfold piece poly
  rw [poly_taylor (piecePoly breaks order coeffs j d) order
    (by have := splinePoly_degree (knot (augmentBreaks breaks order)) (order - 1 + j) (order - 1) ((augmentBreaks breaks order).length - order) (fun n => coeffs n d)
        unfold piecePoly; omega) (breaks.getD j 0) t]
  apply Finset.sum_congr rfl
  intro q hq
  have hq : q < order := Finset.mem_range.1 hq
  congr 1
  unfold ppFromBspline
  simp only
  rw [hkey, bsplineEval_poly _ _ _ _ (order - 1 + j) ((augmentBreaks breaks order).length - order) _ hf (by omega) (by omega),
    show order - 1 - (order - 1 - q) = q by omega]
  rfl

/-- Evaluation of the model inside its interval. -/
theorem fromBspline_row (hdim : 0 < dim) (times : List ℝ) (deriv : Option ℕ) (e : Option Extrap)
    (hk : Known (option e) ∨ ¬ ∃ t ∈ times, t < breaks.getD 0 0 ∨ breaks.getD (breaks.length - 1) 0 < t)
    (hin : deriv.getD 0 = 0 ∨ ¬ ∃ t ∈ times, t < breaks.getD 0 0 ∨ breaks.getD (breaks.length - 1) 0 < t)
    (i : ℕ) (t : ℝ) (hi : times[i]? = some t) (j : ℕ) (hj : IsPiece breaks j t) :
    ∃ rows v, (fromBspline (augmentBreaks breaks order) coeffs dim order).synthCoeffs times none deriv e = .ok (dim, rows) ∧
      rows[i]? = some (some v) ∧
      ∀ d, v d = ((derivative^[deriv.getD 0]) (piecePoly breaks order coeffs j d)).eval t * (365.25 : ℝ) ^ deriv.getD 0 := by
  have hne := ascending_ne h
  have hp := fromBspline_proper h ho coeffs dim hdim
  have hbr : (fromBspline (augmentBreaks breaks order) coeffs dim order).breaks = breaks := by rw [fromBspline_eq h ho]
  have hdm : columns (fromBspline (augmentBreaks breaks order) coeffs dim order) none = dim := by rw [fromBspline_eq h ho]; rfl
  have hout : Outside (fromBspline (augmentBreaks breaks order) coeffs dim order) times ↔
      ∃ t ∈ times, t < breaks.getD 0 0 ∨ breaks.getD (breaks.length - 1) 0 < t := by
    unfold Outside
    rw [hbr, first_eq, last_eq _ hne]
  rw [← hout] at hk hin
  have hne' : times ≠ [] := by rintro rfl; simp at hi
  by_cases ht : t < last breaks
  · obtain ⟨rows, h1, h2, h3⟩ := C26_inside hp times none deriv e hne' hk
    obtain ⟨v, hv, hv'⟩ := h3 i t j hi (by rw [hbr]; exact hj) (by rw [hbr]; exact ht)
    rw [hdm] at h1
    refine ⟨rows, v, h1, hv, ?_⟩
    intro d
    rw [hv', fromBspline_piece h ho coeffs dim j d hj.1, poly_iteratedDeriv]
  · have hje : t = last breaks ∧ j + 2 = breaks.length := by
      rcases hj.2 with ⟨a, b⟩ | hc
      · exfalso
        apply ht
        rw [last_eq _ hne]
        exact lt_of_lt_of_le b (h.sorted _ _ (by have := hj.1; omega) (by have := hj.1; omega))
      · exact hc
    obtain ⟨rows, v, h1, hv, hv'⟩ := C26_end hp times none deriv e hk hin i (by rw [hbr, hi, hje.1])
    rw [hdm] at h1
    refine ⟨rows, v, h1, hv, ?_⟩
    intro d
    rw [hv', hbr, show breaks.length - 2 = j by omega, fromBspline_piece h ho coeffs dim j d hj.1, poly_iteratedDeriv, hje.1]

/-- **C53.** A model made from a B-spline representation has the break points, order and dimension of the splines, and
at all times inside (also derivatives, with days converted to years) it returns the product of the collocation matrix
with the spline coefficients. -/
theorem C53_from_bspline (hdim : 0 < dim) :
    let knots := augmentBreaks breaks order
    let b := fromBspline knots coeffs dim order
    b.breaks = breaks ∧ b.order = order ∧ b.dim = dim ∧
    ∀ (times : List ℝ) (deriv : Option ℕ) (e : Option Extrap),
      (∀ t ∈ times, breaks.getD 0 0 ≤ t ∧ t ≤ breaks.getD (breaks.length - 1) 0) →
      ∀ (i : ℕ) (t : ℝ), times[i]? = some t →
        ∃ (rows : List (Option (ℕ → ℝ))) (v : ℕ → ℝ) (row : ℕ → Option ℝ) (w : ℕ → ℝ), b.synthCoeffs times none deriv e = .ok (dim, rows) ∧ rows[i]? = some (some v) ∧
          (collocMatrix times knots order deriv).2[i]? = some row ∧
          (∀ n, n < (collocMatrix times knots order deriv).1 → row n = some (w n)) ∧
          ∀ d, v d = (∑ n ∈ Finset.range (collocMatrix times knots order deriv).1, w n * coeffs n d) * (365.25 : ℝ) ^ deriv.getD 0 := by
  have hne := ascending_ne h
  have h2 := h.1
  intro knots b
  refine ⟨by simp only [b, knots]; rw [fromBspline_eq h ho], by simp only [b, knots]; rw [fromBspline_eq h ho],
    by simp only [b, knots]; rw [fromBspline_eq h ho], ?_⟩
  intro times deriv e hin i t hi
  have hni : ¬ ∃ t ∈ times, t < breaks.getD 0 0 ∨ breaks.getD (breaks.length - 1) 0 < t := by
    rintro ⟨t, ht, hc⟩
    have := hin t ht
    rcases hc with hc | hc <;> linarith
  have hti := hin t (List.mem_of_getElem? hi)
  obtain ⟨j, hj⟩ := piece_exists breaks h2 t (by rw [first_eq]; exact hti.1) (by rw [last_eq _ hne]; exact hti.2)
  obtain ⟨rows, v, h1, hv, hv'⟩ := fromBspline_row h ho coeffs dim hdim times deriv e (Or.inr hni) (Or.inr hni) i t hi j hj
  refine ⟨rows, v, _, fun n => ((derivative^[deriv.getD 0]) (basis (knot knots) (order - 1 + j) (order - 1) n)).eval t, h1, hv,
    colloc_rows times knots order deriv i t hi, ?_, ?_⟩
  · intro n _
    exact colloc_entry_all knots order (deriv.getD 0) ho t (order - 1 + j) n (augment_find breaks h order j t hj) (by omega)
  · intro d
    rw [hv' d]
    congr 1
    unfold piecePoly
    rw [splinePoly_deriv]
    apply Finset.sum_congr rfl
    intro n _
    ring

/-- **C53** in terms of the textbook B-splines: values before the end of the interval, whatever the other times of the
call are. -/
theorem C53_textbook (hdim : 0 < dim) (times : List ℝ) (e : Option Extrap) (hk : Known (option e)) (i : ℕ) (t : ℝ) (hi : times[i]? = some t)
    (h1 : breaks.getD 0 0 ≤ t) (h2 : t < breaks.getD (breaks.length - 1) 0) :
    ∃ rows v, (fromBspline (augmentBreaks breaks order) coeffs dim order).synthCoeffs times none none e = .ok (dim, rows) ∧
      rows[i]? = some (some v) ∧
      ∀ d, v d = splineSum (fun i => (augmentBreaks breaks order).getD i 0) (order - 1)
        ((augmentBreaks breaks order).length - order) (fun n => coeffs n d) t := by
  have hne := ascending_ne h
  have hl := h.1
  obtain ⟨j, hj⟩ := piece_exists breaks hl t (by rw [first_eq]; exact h1) (by rw [last_eq _ hne]; exact h2.le)
  obtain ⟨rows, v, ha, hb, hc⟩ := fromBspline_row h ho coeffs dim hdim times none e (Or.inl hk) (Or.inl rfl) i t hi j hj
  refine ⟨rows, v, ha, hb, ?_⟩
  intro d
  have hj' : breaks.getD j 0 ≤ t ∧ t < breaks.getD (j + 1) 0 := by
    rcases hj.2 with hc | hc
    · exact hc
    · rw [last_eq _ hne] at hc
      linarith [hc.1]
  have hg := (C24_fit breaks h order).1
  have hkey := (C24_augment breaks h order).2.2.1
  have hlen := augment_length breaks order
  have hjl := hj.1
  rw [hc d]
  unfold piecePoly splineSum
  rw [splinePoly_deriv]
  simp only [Option.getD_none, pow_zero, mul_one, Function.iterate_zero, id_eq]
  apply Finset.sum_congr rfl
  intro n hn
  rw [Finset.mem_range] at hn
  rw [knot_fun, basis_spec (knot (augmentBreaks breaks order)) (order - 1 + j) (order - 1) ((augmentBreaks breaks order).length - 1)
    (goodKnots_ascTo hg) t (by rw [knot, hkey j (by omega)]; exact hj'.1)
    (by rw [knot, show order - 1 + j + 1 = order - 1 + (j + 1) by ring, hkey (j + 1) hjl]; exact hj'.2) n (by omega) (by omega)]

end

/-! ### Zero-padded splines -/

/-- A sum against zero-padded coefficients. -/
theorem padded_sum (n order d : ℕ) (ho : 2 ≤ order) (hn : order ≤ n) (data : ℕ → ℕ → ℝ) (f : ℕ → ℝ) :
    ∑ s ∈ Finset.range (n + 2 * (order - 1) - order), paddedCoeffs n order data s d * f s =
      ∑ i ∈ Finset.range (n - order), data i d * f (i + (order - 1)) := by
  have hsum := Finset.sum_subset (s₁ := (Finset.range (n - order)).image (fun i => i + (order - 1)))
    (s₂ := Finset.range (n + 2 * (order - 1) - order)) (f := fun s => paddedCoeffs n order data s d * f s) ?_ ?_
  · rw [← hsum, Finset.sum_image]
    · apply Finset.sum_congr rfl
      intro i hi
      rw [Finset.mem_range] at hi
      unfold paddedCoeffs
      simp only
      rw [if_pos (by omega), Nat.add_sub_cancel]
    · intro a _ b _ h
      simp only at h
      omega
  · intro i hi
    simp only [Finset.mem_image, Finset.mem_range] at hi ⊢
    omega
  · intro s hs hns
    simp only [Finset.mem_image, Finset.mem_range, not_exists, not_and] at hs hns
    unfold paddedCoeffs
    simp only
    rw [if_neg, zero_mul]
    rintro ⟨_, h1, h2⟩
    exact hns (s - (order - 1)) (by omega) (by omega)

/-- **C51.** Loading ascending break points and a table of one row of coefficients per B-spline on these break points
(order 2 or more) succeeds; the padded coefficients have one row for every spline on the augmented knots, the values
before the last break point are the original splines (textbook B-splines on the break points of the file without added
end knots), and the value at the last break point is zero. -/
theorem C51_padded (breaks : List ℝ) (h : Ascending breaks) (order nmax : ℕ) (ho : 2 ≤ order) (hn : order ≤ breaks.length)
    (hnmax : 0 < nmax) (data : List ℝ) (hdata : data.length = (breaks.length - order) * (nmax * (nmax + 2))) :
    (augmentBreaks breaks order).length - order = (order - 1) + (breaks.length - order) + (order - 1) ∧
    ∃ b, loadSpline breaks order nmax data = .ok b ∧ b.breaks = breaks ∧ b.order = order ∧ b.dim = nmax * (nmax + 2) ∧
    ∀ (times : List ℝ) (e : Option Extrap), Known (option e) → ∀ (i : ℕ) (t : ℝ), times[i]? = some t →
      breaks.getD 0 0 ≤ t → t ≤ breaks.getD (breaks.length - 1) 0 →
      ∃ (rows : List (Option (ℕ → ℝ))) (v : ℕ → ℝ), b.synthCoeffs times none none e = .ok (nmax * (nmax + 2), rows) ∧ rows[i]? = some (some v) ∧
        ∀ d, v d = if t < breaks.getD (breaks.length - 1) 0 then
            splineSum (fun i => breaks.getD i 0) (order - 1) (breaks.length - order)
              (fun k => data.getD (k * (nmax * (nmax + 2)) + d) 0) t
          else 0 := by
  have hlen := augment_length breaks order
  have hne := ascending_ne h
  have hdim : 0 < nmax * (nmax + 2) := Nat.mul_pos hnmax (by omega)
  generalize hD : nmax * (nmax + 2) = dim at *
  refine ⟨by omega, fromBspline (augmentBreaks breaks order) (paddedCoeffs breaks.length order fun i d => data.getD (i * dim + d) 0) dim order,
    ?_, ?_, ?_, ?_, ?_⟩
  · unfold loadSpline
    simp only [hD]
    rw [if_neg hne, if_neg (by omega), if_neg (not_not.2 hdata), if_neg (by omega)]
    unfold checkedSpline
    rw [if_neg]
    rintro ⟨-, hc⟩
    refine hc ⟨?_, h.span⟩
    rw [List.pairwise_iff_getElem]
    intro i j hi hj hij
    have := h.sorted i j hij.le hj
    rwa [List.getD_eq_getElem _ _ hi, List.getD_eq_getElem _ _ hj] at this
  · rw [fromBspline_eq h (by omega)]
  · rw [fromBspline_eq h (by omega)]
  · rw [fromBspline_eq h (by omega)]
  · intro times e hk i t hi h1 h2
    by_cases ht : t < breaks.getD (breaks.length - 1) 0
    · obtain ⟨rows, v, ha, hb, hc⟩ := C53_textbook h (by omega : 0 < order)
        (paddedCoeffs breaks.length order fun i d => data.getD (i * dim + d) 0) dim hdim times e hk i t hi h1 ht
      refine ⟨rows, v, ha, hb, ?_⟩
      intro d
      rw [hc d, if_pos ht]
      unfold splineSum
      rw [hlen, padded_sum _ _ _ ho hn]
      apply Finset.sum_congr rfl
      intro k hk
      rw [Finset.mem_range] at hk
      congr 1
      apply bspline_shift (fun i => breaks.getD i 0)
      intro m _ hm
      rw [Nat.add_comm]
      exact (C24_augment breaks h order).2.2.1 m (by omega)
    · have hte : t = last breaks := by
        rw [last_eq _ hne]
        exact le_antisymm h2 (not_lt.1 ht)
      have hj : IsPiece breaks (breaks.length - 2) t := ⟨by omega, Or.inr ⟨hte, by omega⟩⟩
      obtain ⟨rows, v, ha, hb, hc⟩ := fromBspline_row h (by omega : 0 < order)
        (paddedCoeffs breaks.length order fun i d => data.getD (i * dim + d) 0) dim hdim times none e (Or.inl hk) (Or.inl rfl) i t hi _ hj
      refine ⟨rows, v, ha, hb, ?_⟩
      intro d
      rw [hc d, if_neg ht]
      unfold piecePoly
      rw [splinePoly_deriv, hlen, padded_sum _ _ _ ho hn]
      simp only [Option.getD_none, pow_zero, mul_one, Function.iterate_zero, id_eq]
      apply Finset.sum_eq_zero
      intro k hk
      rw [Finset.mem_range] at hk
      have hend := basis_end (knot (augmentBreaks breaks order)) (order - 1 + (breaks.length - 2)) (order - 2) (k + (order - 1)) (by omega)
      have hkn : knot (augmentBreaks breaks order) (order - 1 + (breaks.length - 2) + 1) = t := by
        rw [knot, show order - 1 + (breaks.length - 2) + 1 = order - 1 + (breaks.length - 1) by omega,
          (C24_augment breaks h order).2.2.1 _ (by omega), hte, last_eq _ hne]
      rw [hkn, show order - 2 + 1 = order - 1 by omega] at hend
      rw [hend, mul_zero]

/-- **C51** (order 1): step functions of more than one step cannot be loaded (the value of a single step is lost). -/
theorem C51_order1 (breaks : List ℝ) (nmax : ℕ) (data : List ℝ) (h : 2 < breaks.length) :
    loadSpline breaks 1 nmax data = .error .valueError := by
  unfold loadSpline
  simp only
  rw [if_neg (by rintro rfl; simp at h), if_neg (by omega)]
  split_ifs with h2 h3
  · rfl
  · rfl
  · exfalso
    apply h3
    right
    exact ⟨trivial, by omega⟩

/-- **C51** (break points): files with break points that are not sorted, or all equal, are refused (for a single coefficient or more). -/
theorem C51_breaks (breaks : List ℝ) (order nmax : ℕ) (data : List ℝ) (hn : 0 < nmax)
    (h : (∃ i, i + 1 < breaks.length ∧ breaks.getD (i + 1) 0 < breaks.getD i 0) ∨ ∃ x, ∀ b ∈ breaks, b = x) :
    ∃ e, loadSpline breaks order nmax data = .error e := by
  have hc : ∀ c : ℕ → ℕ → ℝ, checkedSpline breaks c (nmax * (nmax + 2)) order = .error .valueError := by
    intro c
    unfold checkedSpline
    rw [if_pos]
    refine ⟨(Nat.mul_pos hn (by omega)).ne', ?_⟩
    rintro ⟨hp, hl⟩
    rcases h with ⟨i, hi, hlt⟩ | ⟨x, hx⟩
    · have := List.pairwise_iff_getElem.1 hp i (i + 1) (by omega) hi (by omega)
      rw [List.getD_eq_getElem _ _ hi, List.getD_eq_getElem _ _ (by omega)] at hlt
      exact absurd this (not_le.2 hlt)
    · cases hb : breaks with
      | nil => rw [hb] at hl; simp [PPoly.first, PPoly.last] at hl
      | cons a l =>
        have h1 : PPoly.first breaks = x := by
          rw [hb]; exact hx a (by rw [hb]; simp)
        have h2 : PPoly.last breaks = x := by
          rw [last_eq breaks (by rw [hb]; simp), List.getD_eq_getElem _ _ (by rw [hb]; simp)]
          exact hx _ (List.getElem_mem _)
        rw [h1, h2] at hl
        exact lt_irrefl _ hl
  unfold loadSpline
  simp only [hc]
  split_ifs <;> exact ⟨_, rfl⟩

/-- Number of break points, years, and coefficients in a CovObs file. -/
theorem C51_covobs (nmax order : ℕ) (x : ℝ) (years data : List ℝ) :
    loadCovObs ([(nmax : ℝ), x, (order : ℝ)] ++ years) data = loadSpline (years.map fun y => (y - 2000) * 365.25) order nmax data := by
  unfold loadCovObs
  have h1 : ∀ k : ℕ, (Synth.pyInt (k : ℝ)).toNat = k := by
    intro k
    unfold Synth.pyInt
    rw [if_pos (Nat.cast_nonneg k), Int.floor_natCast, Int.toNat_natCast]
  simp only [List.cons_append, List.nil_append, List.getD_cons_zero, List.getD_cons_succ, h1, List.drop_succ_cons, List.drop_zero]
  rfl

/-- The layout of a gufm1 file: degree, number of B-splines, break points, coefficients. -/
theorem C51_gufm1 (nmax : ℕ) (years data : List ℝ) (h4 : 4 ≤ years.length) :
    loadGufm1 ([(nmax : ℝ), ((years.length - 4 : ℕ) : ℝ)] ++ years ++ data) =
      loadSpline (years.map fun y => (y - 2000) * 365.25) 4 nmax data := by
  unfold loadGufm1
  have h1 : ∀ k : ℕ, Synth.pyInt (k : ℝ) = k := by
    intro k
    unfold Synth.pyInt
    rw [if_pos (Nat.cast_nonneg k), Int.floor_natCast]
  simp only [List.cons_append, List.nil_append, List.getD_cons_zero, List.getD_cons_succ, h1, Int.toNat_natCast]
  have e : (((years.length - 4 : ℕ) : ℤ) + ((4 : ℕ) : ℤ)).toNat = years.length := by omega
  rw [e]
  simp only [List.take_succ_cons, List.drop_succ_cons, List.drop_zero]
  rw [List.take_left, List.drop_left]
  rfl

/-- The layout of a CALS7K file: six header numbers of which the fifth is the degree, number of B-splines, break points,
coefficients. -/
theorem C51_cals7k (nmax : ℕ) (a b c d e : ℝ) (years data : List ℝ) (h4 : 4 ≤ years.length) :
    loadCals7k ([a, b, c, d, (nmax : ℝ), e, ((years.length - 4 : ℕ) : ℝ)] ++ years ++ data) =
      loadSpline (years.map fun y => (y - 2000) * 365.25) 4 nmax data := by
  unfold loadCals7k
  have h1 : ∀ k : ℕ, Synth.pyInt (k : ℝ) = k := by
    intro k
    unfold Synth.pyInt
    rw [if_pos (Nat.cast_nonneg k), Int.floor_natCast]
  simp only [List.cons_append, List.nil_append, List.getD_cons_zero, List.getD_cons_succ, h1, Int.toNat_natCast]
  have e : (((years.length - 4 : ℕ) : ℤ) + ((4 : ℕ) : ℤ)).toNat = years.length := by omega
  rw [e, Nat.add_comm 7]
  simp only [List.take_succ_cons, List.drop_succ_cons, List.drop_zero]
  rw [List.take_left, List.drop_left]
  rfl

end ChaosMagPy.BSpline
