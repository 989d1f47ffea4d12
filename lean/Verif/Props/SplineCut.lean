import Verif.Props.SplineText
import Verif.Props.ShcCut
/-!
# C83: files of spline models that are cut short
-/
namespace ChaosMagPy.Spec
open ChaosMagPy.BSpline (loadSpline)

/-- Every coefficient that the model returns, at whatever time and with whatever options, is zero. -/
def IsZeroModel (b : PPoly.Base) : Prop :=
  ∀ (times : List ℝ) (dim deriv : Option ℕ) (e : Option PPoly.Extrap) (n : ℕ) (rows : List (Option (ℕ → ℝ))), b.synthCoeffs times dim deriv e = .ok (n, rows) →
    ∀ v, some v ∈ rows → ∀ d, v d = 0

/-- What the reader may make of the beginning of a file of a spline model: an exception, the model with at most the last coefficient of the file wrong, or a
model that is zero everywhere (if at most `order` break points are left). -/
def CutSpline (r : Except Synth.Error PPoly.Base) (breaks : List ℝ) (order nmax : ℕ) (data : List ℝ) : Prop :=
  (∃ e, r = .error e) ∨ (∃ x, r = loadSpline breaks order nmax (data.dropLast ++ [x])) ∨ ∃ b, r = .ok b ∧ IsZeroModel b ∧ b.breaks.length ≤ order

end ChaosMagPy.Spec

namespace ChaosMagPy.SplineText
open ChaosMagPy.Spec ChaosMagPy.BSpline ChaosMagPy.PPoly
open ChaosMagPy.Shc (isSpace tokensGo parseAll scanNum fromstring CutNums AllNum cutNums_line)

/-! ### Zero models -/

/-- All coefficients of the polynomial are zero. -/
def PPZero (p : PP) : Prop := ∀ i j d, p.c i j d = 0

theorem PPZero.eval {p : PP} (h : PPZero p) {e : Bool} {nu : ℕ} {t : ℝ} {v : ℕ → ℝ} (hv : p.eval e nu t = some v) (d : ℕ) : v d = 0 := by
  unfold PP.eval at hv
  rw [Option.map_eq_some_iff] at hv
  obtain ⟨j, -, rfl⟩ := hv
  unfold evalPoly
  apply Finset.sum_eq_zero
  intro q _
  split_ifs
  · show p.c _ _ _ * _ * _ = 0
    rw [h, zero_mul, zero_mul]
  · rfl

theorem PPZero.derivative {p : PP} (h : PPZero p) (nu : ℕ) : PPZero (p.derivative nu) := by
  intro i j d
  unfold PP.derivative
  split_ifs
  · exact h i j d
  · rfl
  · show p.c i j d * _ = 0
    rw [h, zero_mul]

theorem PPZero.extendSide {p q : PP} (h : PPZero p) {key : ℕ} {x : ℝ} (hq : PPoly.extendSide p key x = .ok q) : PPZero q := by
  have hbin : ∀ i d, extensionBin p key x i d = 0 := by
    intro i d
    unfold extensionBin
    simp only
    split_ifs
    · cases hv : p.eval true (p.k - 1 - i) x with
      | none => rfl
      | some v => exact h.eval hv d
    · rfl
  unfold PPoly.extendSide PP.extend at hq
  split_ifs at hq
  · cases hq
    intro i j d
    show (if j < p.x.length - 1 then p.c i j d else extensionBin p key x i d) = 0
    rw [h, hbin, ite_self]
  · cases hq
    intro i j d
    show (if j = 0 then extensionBin p key x i d else p.c i (j - 1) d) = 0
    rw [h, hbin, ite_self]

theorem prepare_zero {b : Base} {c : ℕ → ℕ → ℕ → ℝ} (h : ∀ i j d, c i j d = 0) {times : List ℝ} {e : Extrap} {r : PP × Bool}
    (hr : prepare b c times e = .ok r) : PPZero r.1 := by
  have h0 : PPZero { k := b.order, x := b.breaks, c := c } := h
  unfold prepare at hr
  simp only [bind, Except.bind, pure, Except.pure] at hr
  cases ha : aminmax times with
  | error _ => rw [ha] at hr; cases hr
  | ok lohi =>
    rw [ha] at hr
    simp only at hr
    split_ifs at hr
    · cases hk : extrapKey b.order e with
      | error _ => rw [hk] at hr; cases hr
      | ok key =>
        rw [hk] at hr
        simp only at hr
        split_ifs at hr
        · cases h1 : extendSide { k := b.order, x := b.breaks, c := c } key.toNat (first b.breaks) with
          | error _ => rw [h1] at hr; cases hr
          | ok p1 =>
            rw [h1] at hr
            simp only at hr
            cases h2 : extendSide p1 key.toNat (last b.breaks) with
            | error _ => rw [h2] at hr; cases hr
            | ok p2 =>
              rw [h2] at hr
              cases hr
              exact (h0.extendSide h1).extendSide h2
        · cases hr
          exact h0
    · cases hr
      exact h0

theorem zeroModel_of {b : Base} {c : ℕ → ℕ → ℕ → ℝ} (hb : b.coeffs = some c) (h : ∀ i j d, c i j d = 0) : IsZeroModel b := by
  intro times dim deriv e n rows hr v hv d
  unfold Base.synthCoeffs at hr
  rw [hb] at hr
  simp only at hr
  split_ifs at hr
  cases hp : prepare b c times (e.getD (.str "linear")) with
  | error _ => rw [hp] at hr; cases hr
  | ok r =>
    rw [hp] at hr
    simp only [bind, Except.bind, pure, Except.pure] at hr
    injection hr with hr
    injection hr with _ hr
    subst hr
    rw [List.mem_map] at hv
    obtain ⟨t, -, ht⟩ := hv
    rw [Option.map_eq_some_iff] at ht
    obtain ⟨w, hw, rfl⟩ := ht
    show w d * _ = 0
    rw [((prepare_zero h hp).derivative _).eval hw, zero_mul]

/-- Splines with vanishing coefficients. -/
theorem fromBspline_zero (knots : List ℝ) (coeffs : ℕ → ℕ → ℝ) (dim order : ℕ) (h : ∀ s d, coeffs s d = 0) : IsZeroModel (fromBspline knots coeffs dim order) := by
  refine zeroModel_of (c := fun i => (ppFromBspline coeffs knots order).1 (order - min order order + i)) rfl ?_
  intro i j d
  show ((bsplineEval knots (fun s => coeffs s d) (order - 1) _ _).getD 0) / _ = 0
  rw [show bsplineEval knots (fun s => coeffs s d) (order - 1) (order - 1 - (order - min order order + i)) (knot knots (order - 1 + j)) =
    (findKnot knots (order - 1) (knot knots (order - 1 + j))).map fun _ => 0 from ?_]
  · cases findKnot knots (order - 1) (knot knots (order - 1 + j)) <;> simp
  · unfold bsplineEval
    congr 1
    funext l
    apply Finset.sum_eq_zero
    intro a _
    show coeffs _ _ * _ = 0
    rw [h, zero_mul]

theorem unique_length (breaks : List ℝ) (order : ℕ) (hne : breaks ≠ []) : (unique (augmentBreaks breaks order)).length ≤ breaks.length := by
  classical
  unfold unique
  rw [Finset.length_sort]
  refine le_trans (Finset.card_le_card ?_) (List.toFinset_card_le breaks)
  intro x hx
  rw [List.mem_toFinset] at hx ⊢
  unfold augmentBreaks at hx
  rw [List.mem_append, List.mem_append, List.mem_replicate, List.mem_replicate] at hx
  have hpos := List.length_pos_iff.2 hne
  rcases hx with (⟨-, rfl⟩ | hx) | ⟨-, rfl⟩
  · rw [first_eq, List.getD_eq_getElem _ _ hpos]
    exact List.getElem_mem _
  · exact hx
  · rw [last_eq _ hne, List.getD_eq_getElem _ _ (by omega)]
    exact List.getElem_mem _

/-! ### Numbers that are left -/

theorem zero_or_error (breaks : List ℝ) (order nmax : ℕ) (ho : 2 ≤ order) (hl : breaks.length ≤ order) :
    (∃ e, loadSpline breaks order nmax [] = .error e) ∨ ∃ b, loadSpline breaks order nmax [] = .ok b ∧ IsZeroModel b ∧ b.breaks.length ≤ order := by
  have hz : ∀ b, loadSpline breaks order nmax [] = .ok b → IsZeroModel b ∧ b.breaks.length ≤ order := by
    intro b hb
    unfold loadSpline at hb
    simp only at hb
    by_cases h0 : breaks = []
    · rw [if_pos h0] at hb; cases hb
    · rw [if_neg h0] at hb
      have hmodel : checkedSpline breaks (paddedCoeffs breaks.length order fun i d => ([] : List ℝ).getD (i * (nmax * (nmax + 2)) + d) 0) (nmax * (nmax + 2)) order =
          .ok b := by
        split_ifs at hb
        · exact hb
        · exact hb
      unfold checkedSpline at hmodel
      split_ifs at hmodel
      cases hmodel
      refine ⟨fromBspline_zero _ _ _ _ ?_, ?_⟩
      · intro s d
        unfold paddedCoeffs
        simp
      · have hu := unique_length breaks order h0
        have hbr : (fromBspline (augmentBreaks breaks order) (paddedCoeffs breaks.length order fun i d => ([] : List ℝ).getD (i * (nmax * (nmax + 2)) + d) 0)
            (nmax * (nmax + 2)) order).breaks = if (unique (augmentBreaks breaks order)).length = 1 then unique (augmentBreaks breaks order) ++
              unique (augmentBreaks breaks order) else unique (augmentBreaks breaks order) := rfl
        rw [hbr]
        split_ifs with h1
        · rw [List.length_append, h1]
          exact ho
        · omega
  cases h : loadSpline breaks order nmax [] with
  | error e => exact .inl ⟨e, rfl⟩
  | ok b => exact .inr ⟨b, rfl, hz b h⟩

theorem missing_rows (breaks : List ℝ) (order nmax : ℕ) (hn : 0 < nmax) (hl : order < breaks.length) (data : List ℝ)
    (hd : data.length ≠ (breaks.length - order) * (nmax * (nmax + 2))) : ∃ e, loadSpline breaks order nmax data = .error e := by
  unfold loadSpline
  simp only
  rw [if_neg (by rintro rfl; simp at hl), if_neg (by omega), if_pos hd]
  exact ⟨_, rfl⟩

theorem no_data (breaks B : List ℝ) (order nmax : ℕ) (data : List ℝ) (ho : 2 ≤ order) (hn : 0 < nmax) : CutSpline (loadSpline breaks order nmax []) B order nmax data := by
  by_cases hl : breaks.length ≤ order
  · rcases zero_or_error breaks order nmax ho hl with h | h
    · exact .inl h
    · exact .inr (.inr h)
  · left
    refine missing_rows breaks order nmax hn (by omega) [] ?_
    have : 0 < (breaks.length - order) * (nmax * (nmax + 2)) := Nat.mul_pos (by omega) (Nat.mul_pos hn (by omega))
    rw [List.length_nil]
    omega

theorem cut_data (breaks : List ℝ) (order nmax : ℕ) (hn : 0 < nmax) (hl : order < breaks.length) (data data' : List ℝ)
    (hd : data.length = (breaks.length - order) * (nmax * (nmax + 2))) (hc : CutNums data' data) : CutSpline (loadSpline breaks order nmax data') breaks order nmax data := by
  by_cases h : data'.length = data.length
  · right; left
    have hpos : 0 < data.length := hd ▸ Nat.mul_pos (by omega) (Nat.mul_pos hn (by omega))
    obtain ⟨k, h1 | ⟨hk, x, h1⟩⟩ := hc
    · have : data' = data := by
        rw [h1, List.length_take] at h
        rw [h1, List.take_of_length_le (by omega)]
      exact ⟨data.getLast (List.length_pos_iff.1 hpos), by rw [this, List.dropLast_concat_getLast]⟩
    · refine ⟨x, ?_⟩
      rw [h1, List.length_append, List.length_take, List.length_singleton] at h
      rw [h1, List.dropLast_eq_take, show k = data.length - 1 by omega]
  · left
    exact missing_rows breaks order nmax hn hl data' (by rw [← hd]; exact h)

theorem allNum_numbers {s : List Char} {xs : List ℝ} (h : Numbers s xs) : AllNum ℝ (tokensGo s []) := by
  obtain ⟨ws, h1, h2⟩ := h
  rw [Igrf.tokens_words ws s h1]
  clear h1
  induction h2 with
  | nil => intro t ht; cases ht
  | cons hx _ ih =>
    intro t ht
    rcases List.mem_cons.1 ht with rfl | ht
    · exact ⟨_, Shc.parseNum_of_scan.1 (Shc.parseNum_of hx)⟩
    · exact ih t ht

theorem cut_numbers {s p : List Char} {xs : List ℝ} (h : Numbers s xs) (hp : p <+: s) : CutNums (fromstring (K := ℝ) p) xs := by
  have := cutNums_line (K := ℝ) hp (allNum_numbers h)
  rwa [fromstring_numbers h] at this

theorem fromstring_joined (sep : List Char) (hs : ∀ c ∈ sep, isSpace c = true) (s : List Char) : fromstring (K := ℝ) (join sep (readlines s)) = fromstring s := by
  unfold fromstring
  rw [tokens_join sep hs]

/-- The first `k` numbers are right if there is another one behind them. -/
theorem CutNums.head {a b : List ℝ} (h : CutNums a b) (k : ℕ) (hk : k < a.length) : a.take k = b.take k := by
  obtain ⟨m, rfl | ⟨hm, x, rfl⟩⟩ := h
  · rw [List.length_take] at hk
    rw [List.take_take, min_eq_left (by omega)]
  · rw [List.length_append, List.length_take, List.length_singleton] at hk
    rw [List.take_append_of_le_length (by rw [List.length_take]; omega), List.take_take, min_eq_left (by omega)]

theorem CutNums.drop {a b : List ℝ} (h : CutNums a b) (k : ℕ) : CutNums (a.drop k) (b.drop k) := by
  obtain ⟨m, rfl | ⟨hm, x, rfl⟩⟩ := h
  · exact ⟨m - k, .inl (by rw [List.drop_take])⟩
  · by_cases hk : k ≤ m
    · refine ⟨m - k, .inr ⟨by rw [List.length_drop]; omega, x, ?_⟩⟩
      rw [List.drop_append_of_le_length (by rw [List.length_take]; omega), List.drop_take]
    · refine ⟨0, .inl ?_⟩
      rw [List.take_zero]
      exact List.drop_eq_nil_of_le (by rw [List.length_append, List.length_take, List.length_singleton]; omega)

theorem CutNums.length_le {a b : List ℝ} (h : CutNums a b) : a.length ≤ b.length := (Shc.CutNums.spec h).1

/-- Lists of numbers with the break points first, after a header of `k` numbers that are right. -/
theorem cut_breaks (head years data a : List ℝ) (order nmax : ℕ) (ho : 2 ≤ order) (hn : 0 < nmax) (hl : order < years.length)
    (hd : data.length = (years.length - order) * (nmax * (nmax + 2))) (hc : CutNums a (head ++ years ++ data)) :
    CutSpline (loadSpline (((a.take (head.length + years.length)).drop head.length).map yearToMjd) order nmax (a.drop (head.length + years.length)))
      (years.map yearToMjd) order nmax data := by
  by_cases h : head.length + years.length < a.length
  · have h1 := CutNums.head hc _ h
    rw [← List.length_append, List.take_left] at h1
    rw [← List.length_append, h1, List.drop_left]
    have h2 := CutNums.drop hc (head ++ years).length
    rw [List.drop_left] at h2
    exact cut_data _ order nmax hn (by rw [List.length_map]; exact hl) _ _ (by rw [List.length_map]; exact hd) h2
  · rw [List.drop_eq_nil_of_le (by omega : a.length ≤ _)]
    exact no_data _ _ order nmax data ho hn

/-! ### Text -/

theorem prefix_line {p a b : List Char} (h : p <+: a ++ '\n' :: b) : p <+: a ∨ ∃ q, p = a ++ '\n' :: q ∧ q <+: b := by
  rcases List.prefix_or_prefix_of_prefix h (List.prefix_append a ('\n' :: b)) with h1 | ⟨t, rfl⟩
  · exact .inl h1
  · have ht : t <+: '\n' :: b := (List.prefix_append_right_inj a).1 h
    cases t with
    | nil => exact .inl (by rw [List.append_nil])
    | cons c t =>
      rw [List.cons_prefix_cons] at ht
      exact .inr ⟨t, by rw [ht.1], ht.2⟩

theorem no_newline {p a : List Char} (h : p <+: a) (ha : '\n' ∉ a) : '\n' ∉ p := fun hc => ha (h.subset hc)

theorem toNat_cast (k : ℕ) : (Synth.pyInt (k : ℝ)).toNat = k := by
  unfold Synth.pyInt
  rw [if_pos (Nat.cast_nonneg k), Int.floor_natCast, Int.toNat_natCast]

theorem getD_take {a b : List ℝ} {k i : ℕ} (h : a.take k = b.take k) (hi : i < k) : a.getD i 0 = b.getD i 0 := by
  have : (a.take k)[i]? = (b.take k)[i]? := by rw [h]
  rw [List.getElem?_take_of_lt hi, List.getElem?_take_of_lt hi] at this
  rw [List.getD_eq_getElem?_getD, List.getD_eq_getElem?_getD, this]

theorem load_nil (order nmax : ℕ) (data : List ℝ) : loadSpline [] order nmax data = .error .indexError := by
  unfold loadSpline
  simp

/-- **C83** (gufm1 files). Whatever beginning is left of a gufm1 file (at least one coefficient): an exception, the model with at most the last number of the
file wrong, or - if at most four break points are left - a model that is zero everywhere. -/
theorem C83_gufm1 (title body : List Char) (nmax : ℕ) (years data : List ℝ) (hn : 0 < nmax) (h4 : 4 < years.length) (h1 : '\n' ∉ title)
    (hd : data.length = (years.length - 4) * (nmax * (nmax + 2))) (hb : Numbers body ([(nmax : ℝ), ((years.length - 4 : ℕ) : ℝ)] ++ years ++ data))
    (p : List Char) (hp : p <+: title ++ '\n' :: body) : CutSpline (loadGufm1 p) (years.map fun y => (y - 2000) * 365.25) 4 nmax data := by
  unfold loadGufm1
  simp only
  rcases prefix_line hp with hp | ⟨q, rfl, hq⟩
  · have : (readlines p).drop 1 = [] := by
      unfold readlines
      rw [readlines_last p [] (no_newline hp h1)]
      split_ifs <;> rfl
    rw [this]
    left
    refine ⟨.indexError, ?_⟩
    rw [if_pos]
    simp [join, fromstring, tokensGo, parseAll]
  · have hr : (readlines (title ++ '\n' :: q)).drop 1 = readlines q := by
      unfold readlines
      rw [readlines_line _ _ _ h1]
      rfl
    have hsp : ∀ c ∈ [' ', ' '], isSpace c = true := by
      intro c hc
      have : c = ' ' := by simpa using hc
      rw [this]; rfl
    rw [hr, fromstring_joined [' ', ' '] hsp]
    have hc := cut_numbers hb hq
    generalize fromstring (K := ℝ) q = a at hc
    by_cases ha : a.length < 2
    · rw [if_pos ha]
      exact .inl ⟨_, rfl⟩
    · rw [if_neg ha]
      unfold BSpline.loadGufm1
      simp only
      by_cases ha2 : a.length = 2
      · rw [List.drop_eq_nil_of_le (by rw [List.length_take]; omega), List.map_nil, load_nil]
        exact .inl ⟨_, rfl⟩
      · have hh := CutNums.head hc 2 (by omega)
        have e0 : a.getD 0 0 = nmax := by rw [getD_take hh (by omega)]; rfl
        have e1 : a.getD 1 0 = ((years.length - 4 : ℕ) : ℝ) := by rw [getD_take hh (by omega)]; rfl
        have e : (Synth.pyInt (a.getD 1 0) + ((4 : ℕ) : ℤ)).toNat = years.length := by
          rw [e1]
          unfold Synth.pyInt
          rw [if_pos (Nat.cast_nonneg _), Int.floor_natCast]
          omega
        rw [e, e0, toNat_cast, Nat.add_comm years.length 2]
        exact cut_breaks [(nmax : ℝ), ((years.length - 4 : ℕ) : ℝ)] years data a 4 nmax (by omega) hn h4 hd hc

/-- **C83** (CALS7K files). -/
theorem C83_cals7k (content : List Char) (nmax : ℕ) (a b c d e : ℝ) (years data : List ℝ) (hn : 0 < nmax) (h4 : 4 < years.length)
    (hd : data.length = (years.length - 4) * (nmax * (nmax + 2)))
    (hc : NumbersWith ['e', 'E', 'D'] content ([a, b, c, d, (nmax : ℝ), e, ((years.length - 4 : ℕ) : ℝ)] ++ years ++ data))
    (p : List Char) (hp : p <+: content) : CutSpline (loadCals7k p) (years.map fun y => (y - 2000) * 365.25) 4 nmax data := by
  obtain ⟨ws, h1, h2⟩ := hc
  have hb : Numbers (content.map fun c => if c = 'D' then 'E' else c) ([a, b, c, d, (nmax : ℝ), e, ((years.length - 4 : ℕ) : ℝ)] ++ years ++ data) := by
    refine ⟨_, map_D_words h1, ?_⟩
    rw [List.forall₂_map_left_iff]
    exact h2.imp fun _ _ h => map_D_denotes h
  have hc := cut_numbers hb (hp.map fun c => if c = 'D' then 'E' else c)
  unfold loadCals7k
  simp only
  generalize fromstring (K := ℝ) (p.map fun c => if c = 'D' then 'E' else c) = x at hc
  by_cases ha : x.length < 7
  · rw [if_pos ha]
    exact .inl ⟨_, rfl⟩
  · rw [if_neg ha]
    unfold BSpline.loadCals7k
    simp only
    by_cases ha2 : x.length = 7
    · rw [List.drop_eq_nil_of_le (by rw [List.length_take]; omega), List.map_nil, load_nil]
      exact .inl ⟨_, rfl⟩
    · have hh := CutNums.head hc 7 (by omega)
      have e0 : x.getD 4 0 = nmax := by rw [getD_take hh (by omega)]; rfl
      have e1 : x.getD 6 0 = ((years.length - 4 : ℕ) : ℝ) := by rw [getD_take hh (by omega)]; rfl
      have e2 : (Synth.pyInt (x.getD 6 0) + ((4 : ℕ) : ℤ)).toNat = years.length := by
        rw [e1]
        unfold Synth.pyInt
        rw [if_pos (Nat.cast_nonneg _), Int.floor_natCast]
        omega
      rw [e2, e0, toNat_cast]
      exact cut_breaks [a, b, c, d, (nmax : ℝ), e, ((years.length - 4 : ℕ) : ℝ)] years data x 4 nmax (by omega) hn h4 hd hc

/-- **C83** (CovObs files). -/
theorem C83_covobs (title header body : List Char) (nmax order : ℕ) (x : ℝ) (years data : List ℝ) (hn : 0 < nmax) (ho : 2 ≤ order) (hl : order < years.length)
    (h1 : '\n' ∉ title) (h2 : '\n' ∉ header) (hd : data.length = (years.length - order) * (nmax * (nmax + 2)))
    (hh : Numbers header ([(nmax : ℝ), x, (order : ℝ)] ++ years)) (hb : Numbers body data)
    (p : List Char) (hp : p <+: title ++ '\n' :: (header ++ '\n' :: body)) : CutSpline (loadCovObs p) (years.map fun y => (y - 2000) * 365.25) order nmax data := by
  unfold loadCovObs
  rcases prefix_line hp with hp | ⟨q, rfl, hq⟩
  · have : (readlines p)[1]? = none := by
      unfold readlines
      rw [readlines_last p [] (no_newline hp h1)]
      split_ifs <;> rfl
    simp only [this]
    exact .inl ⟨_, rfl⟩
  · have hr : readlines (title ++ '\n' :: q) = (title ++ ['\n']) :: readlines q := by
      unfold readlines
      rw [readlines_line _ _ _ h1]
      rfl
    rw [hr]
    simp only [List.getElem?_cons_succ, List.drop_succ_cons]
    rcases prefix_line hq with hq | ⟨r, rfl, hr2⟩
    · have hrl : readlines q = if q = [] then [] else [q] := by
        unfold readlines
        rw [readlines_last q [] (no_newline hq h2)]
        rfl
      rw [hrl]
      by_cases hq0 : q = []
      · rw [if_pos hq0]
        exact .inl ⟨_, rfl⟩
      · rw [if_neg hq0]
        simp only [List.getElem?_cons_zero, List.drop_succ_cons, List.drop_zero]
        have hc := cut_numbers hh hq
        have hnil : fromstring (K := ℝ) (join [' '] []) = [] := by simp [join, fromstring, tokensGo, parseAll]
        rw [hnil]
        generalize fromstring (K := ℝ) q = a at hc
        by_cases ha : a.length < 3
        · rw [if_pos ha]
          exact .inl ⟨_, rfl⟩
        · rw [if_neg ha]
          unfold BSpline.loadCovObs
          simp only
          by_cases ha2 : a.length = 3
          · rw [List.drop_eq_nil_of_le (by omega), List.map_nil, load_nil]
            exact .inl ⟨_, rfl⟩
          · have hh := CutNums.head hc 3 (by omega)
            have e0 : a.getD 0 0 = nmax := by rw [getD_take hh (by omega)]; rfl
            have e2 : a.getD 2 0 = order := by rw [getD_take hh (by omega)]; rfl
            rw [e0, e2, toNat_cast, toNat_cast]
            exact no_data _ _ order nmax data ho hn
    · have hrl : readlines (header ++ '\n' :: r) = (header ++ ['\n']) :: readlines r := by
        unfold readlines
        rw [readlines_line _ _ _ h2]
        rfl
      rw [hrl]
      simp only [List.getElem?_cons_zero, List.drop_succ_cons, List.drop_zero]
      rw [numbers_newline hh, if_neg (by simp), fromstring_joined [' '] (by simp; rfl), C51_covobs]
      have := cut_data (years.map fun y => (y - 2000) * 365.25) order nmax hn (by rw [List.length_map]; exact hl) data _ (by rw [List.length_map]; exact hd)
        (cut_numbers hb hr2)
      exact this

/-! ### The model that is zero -/

theorem ascending_years {years : List ℝ} (h : Ascending years) : Ascending (years.map yearToMjd) := by
  refine ⟨by rw [List.length_map]; exact h.1, ?_⟩
  intro i hi
  rw [List.length_map] at hi
  have := h.2 i hi
  rw [List.getD_eq_getElem _ _ (by omega), List.getD_eq_getElem _ _ hi] at this
  rw [List.getD_eq_getElem _ _ (by rw [List.length_map]; omega), List.getD_eq_getElem _ _ (by rw [List.length_map]; exact hi), List.getElem_map, List.getElem_map]
  unfold yearToMjd
  have h0 : (0 : ℝ) < 365.25 := by norm_num
  exact mul_lt_mul_of_pos_right (by linarith) h0

/-- Few break points and no coefficients: a model on these break points that can be evaluated everywhere and is zero. -/
theorem zero_model {breaks : List ℝ} (h : Ascending breaks) (order nmax : ℕ) (ho : 2 ≤ order) (hn : 0 < nmax) (hl : breaks.length ≤ order) :
    ∃ b, loadSpline breaks order nmax [] = .ok b ∧ b.breaks = breaks ∧ IsZeroModel b ∧
      ∀ times : List ℝ, times ≠ [] → ∃ rows, b.synthCoeffs times none none none = .ok (nmax * (nmax + 2), rows) ∧ rows.length = times.length := by
  have hdim : 0 < nmax * (nmax + 2) := Nat.mul_pos hn (by omega)
  have hne : breaks ≠ [] := ascending_ne h
  have hpw : breaks.Pairwise (· ≤ ·) := by
    rw [List.pairwise_iff_getElem]
    intro i j hi hj hij
    have := h.sorted i j hij.le hj
    rwa [List.getD_eq_getElem _ _ hi, List.getD_eq_getElem _ _ hj] at this
  have hload : loadSpline breaks order nmax [] = .ok (fromBspline (augmentBreaks breaks order)
      (paddedCoeffs breaks.length order fun i d => ([] : List ℝ).getD (i * (nmax * (nmax + 2)) + d) 0) (nmax * (nmax + 2)) order) := by
    unfold loadSpline checkedSpline
    simp only
    have hc : ¬ (nmax * (nmax + 2) ≠ 0 ∧ ¬ (breaks.Pairwise (· ≤ ·) ∧ first breaks < last breaks)) := fun hc => hc.2 ⟨hpw, h.span⟩
    rw [if_neg hc, if_neg hne]
    by_cases hlt : breaks.length < order
    · rw [if_pos hlt, if_neg]
      rintro (hc | hc)
      · omega
      · exact hc.1 rfl
    · rw [if_neg hlt, if_neg, if_neg (by omega)]
      rw [show breaks.length - order = 0 by omega, Nat.zero_mul]
      simp
  refine ⟨_, hload, by rw [fromBspline_eq h (by omega)], ?_, ?_⟩
  · rcases zero_or_error breaks order nmax ho hl with ⟨e, he⟩ | ⟨b, hb, hz, -⟩
    · rw [hload] at he; cases he
    · rw [hload] at hb
      injection hb with hb
      rw [hb]
      exact hz
  · intro times ht
    have hp := fromBspline_proper (dim := nmax * (nmax + 2)) (coeffs := paddedCoeffs breaks.length order fun i d => ([] : List ℝ).getD (i * (nmax * (nmax + 2)) + d) 0)
      h (by omega : 0 < order) hdim
    obtain ⟨rows, h1, h2, -⟩ := C26_inside hp times none none none ht (.inl (by simp [Known, option]))
    exact ⟨rows, h1, h2⟩

/-- **C83, finding** (gufm1): a file that ends after its second, third or fourth break point is loaded without an exception, as a model on these break points
that is zero everywhere. -/
theorem C83_gufm1_zero (title body : List Char) (nmax k : ℕ) (years : List ℝ) (hn : 0 < nmax) (ha : Ascending years) (h4 : years.length ≤ 4) (h1 : '\n' ∉ title)
    (hb : Numbers body ([(nmax : ℝ), (k : ℝ)] ++ years)) :
    ∃ b, loadGufm1 (title ++ '\n' :: body) = .ok b ∧ b.breaks = years.map (fun y => (y - 2000) * 365.25) ∧ IsZeroModel b ∧
      ∀ times : List ℝ, times ≠ [] → ∃ rows, b.synthCoeffs times none none none = .ok (nmax * (nmax + 2), rows) ∧ rows.length = times.length := by
  have hload : loadGufm1 (title ++ '\n' :: body) = loadSpline (years.map yearToMjd) 4 nmax [] := by
    have hsp : ∀ c ∈ [' ', ' '], isSpace c = true := by
      intro c hc
      have : c = ' ' := by simpa using hc
      rw [this]; rfl
    have hr : (readlines (title ++ '\n' :: body)).drop 1 = readlines body := by
      unfold readlines
      rw [readlines_line _ _ _ h1]
      rfl
    unfold loadGufm1
    simp only [hr, fromstring_join hsp hb]
    rw [if_neg (by simp)]
    unfold BSpline.loadGufm1
    simp only [List.cons_append, List.nil_append, List.getD_cons_zero, List.getD_cons_succ, toNat_cast]
    have e : (Synth.pyInt (k : ℝ) + ((4 : ℕ) : ℤ)).toNat = k + 4 := by
      unfold Synth.pyInt
      rw [if_pos (Nat.cast_nonneg _), Int.floor_natCast]
      omega
    rw [e]
    simp only [List.take_succ_cons, List.drop_succ_cons, List.drop_zero]
    rw [List.take_of_length_le (by omega), List.drop_eq_nil_of_le (by omega)]
  rw [hload]
  exact zero_model (ascending_years ha) 4 nmax (by omega) hn (by rw [List.length_map]; exact h4)

/-- **C83, finding** (CALS7K): the same. -/
theorem C83_cals7k_zero (content : List Char) (nmax k : ℕ) (a b c d e : ℝ) (years : List ℝ) (hn : 0 < nmax) (ha : Ascending years) (h4 : years.length ≤ 4)
    (hc : NumbersWith ['e', 'E', 'D'] content ([a, b, c, d, (nmax : ℝ), e, (k : ℝ)] ++ years)) :
    ∃ m, loadCals7k content = .ok m ∧ m.breaks = years.map (fun y => (y - 2000) * 365.25) ∧ IsZeroModel m ∧
      ∀ times : List ℝ, times ≠ [] → ∃ rows, m.synthCoeffs times none none none = .ok (nmax * (nmax + 2), rows) ∧ rows.length = times.length := by
  have hload : loadCals7k content = loadSpline (years.map yearToMjd) 4 nmax [] := by
    obtain ⟨ws, h1, h2⟩ := hc
    have hb : Numbers (content.map fun c => if c = 'D' then 'E' else c) ([a, b, c, d, (nmax : ℝ), e, (k : ℝ)] ++ years) := by
      refine ⟨_, map_D_words h1, ?_⟩
      rw [List.forall₂_map_left_iff]
      exact h2.imp fun _ _ h => map_D_denotes h
    unfold loadCals7k
    simp only
    rw [fromstring_numbers hb, if_neg (by simp)]
    unfold BSpline.loadCals7k
    simp only [List.cons_append, List.nil_append, List.getD_cons_zero, List.getD_cons_succ, toNat_cast]
    have e : (Synth.pyInt (k : ℝ) + ((4 : ℕ) : ℤ)).toNat = k + 4 := by
      unfold Synth.pyInt
      rw [if_pos (Nat.cast_nonneg _), Int.floor_natCast]
      omega
    rw [e, Nat.add_comm 7]
    simp only [List.take_succ_cons, List.drop_succ_cons, List.drop_zero]
    rw [List.take_of_length_le (by omega), List.drop_eq_nil_of_le (by omega)]
  rw [hload]
  exact zero_model (ascending_years ha) 4 nmax (by omega) hn (by rw [List.length_map]; exact h4)

/-- **C83, finding** (CovObs): a file that ends in the second line after the second break point, with at most as many break points as the order, is loaded as
a model that is zero. -/
theorem C83_covobs_zero (title header : List Char) (nmax order : ℕ) (x : ℝ) (years : List ℝ) (hn : 0 < nmax) (ho : 2 ≤ order) (ha : Ascending years)
    (hl : years.length ≤ order) (h1 : '\n' ∉ title) (h2 : '\n' ∉ header) (hh : Numbers header ([(nmax : ℝ), x, (order : ℝ)] ++ years)) :
    ∃ b, loadCovObs (title ++ '\n' :: header) = .ok b ∧ b.breaks = years.map (fun y => (y - 2000) * 365.25) ∧ IsZeroModel b ∧
      ∀ times : List ℝ, times ≠ [] → ∃ rows, b.synthCoeffs times none none none = .ok (nmax * (nmax + 2), rows) ∧ rows.length = times.length := by
  have hne : header ≠ [] := by
    rintro rfl
    have := fromstring_numbers hh
    simp [fromstring, tokensGo, parseAll] at this
  have hload : loadCovObs (title ++ '\n' :: header) = loadSpline (years.map yearToMjd) order nmax [] := by
    unfold loadCovObs
    have hr : readlines (title ++ '\n' :: header) = [title ++ ['\n'], header] := by
      unfold readlines
      rw [readlines_line _ _ _ h1, readlines_last header [] h2]
      rw [if_neg (by simpa using hne)]
      rfl
    simp only [hr, List.getElem?_cons_succ, List.getElem?_cons_zero, List.drop_succ_cons, List.drop_zero]
    rw [fromstring_numbers hh, if_neg (by simp), C51_covobs]
    have hnil : fromstring (K := ℝ) (join [' '] []) = [] := by simp [join, fromstring, tokensGo, parseAll]
    rw [hnil]
    rfl
  rw [hload]
  exact zero_model (ascending_years ha) order nmax ho hn (by rw [List.length_map]; exact hl)

end ChaosMagPy.SplineText
