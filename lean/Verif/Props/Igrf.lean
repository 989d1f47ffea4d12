import Verif.Spec.Igrf
import Verif.Lemmas.ShcText
import Verif.Lemmas.SynthCall
import Verif.Props.BSpline
import Verif.Props.Time
import Mathlib.Data.List.GetD
/-!
# C50: the model loaded from an IGRF file interpolates the table
-/
namespace ChaosMagPy.Igrf
open ChaosMagPy.Shc (lines linesGo isSpace tokensGo parseNum tokensGo_word linesGo_line)
open ChaosMagPy.Spec ChaosMagPy.PPoly ChaosMagPy.BSpline Polynomial

/-! ### Reading the text -/

theorem tokensGo_white (pre s : List Char) (h : ∀ c ∈ pre, isSpace c = true) : tokensGo (pre ++ s) [] = tokensGo s [] := by
  induction pre with
  | nil => rfl
  | cons c pre ih =>
    rw [List.cons_append]
    simp only [tokensGo]
    rw [if_pos (h c List.mem_cons_self), if_pos trivial, ih (fun x hx => h x (List.mem_cons_of_mem _ hx))]

theorem tokens_words (ws : List (List Char)) (line : List Char) (h : Words line ws) : tokensGo line [] = ws := by
  induction ws generalizing line with
  | nil =>
    have := tokensGo_white line [] h
    rw [List.append_nil] at this
    rw [this]; rfl
  | cons w ws ih =>
    obtain ⟨pre, rest, rfl, hp, hw, hws, hr, hrest⟩ := h
    have hi := ih rest hrest
    rw [List.append_assoc, tokensGo_white _ _ hp, tokensGo_word w _ _ hws, List.append_nil]
    rcases hr with rfl | ⟨c, r, rfl, hc⟩
    · have : ws = [] := by rw [← hi]; rfl
      subst this
      simp only [tokensGo]
      rw [if_neg (by simpa using hw), List.reverse_reverse]
    · simp only [tokensGo] at hi ⊢
      rw [if_pos hc, if_pos trivial] at hi
      rw [if_pos hc, if_neg (by simpa using hw), List.reverse_reverse, hi]

theorem dropWhile_white (pre s : List Char) (h : ∀ c ∈ pre, isSpace c = true) : (pre ++ s).dropWhile isSpace = s.dropWhile isSpace := by
  induction pre with
  | nil => rfl
  | cons c pre ih =>
    rw [List.cons_append, List.dropWhile_cons, if_pos (h c List.mem_cons_self), ih (fun x hx => h x (List.mem_cons_of_mem _ hx))]

theorem skipped_remark (line : List Char) (h : IsRemark line) : skipped line = true := by
  obtain ⟨pre, rest, hp, rfl | rfl⟩ := h
  · unfold skipped
    rw [dropWhile_white _ _ hp, List.dropWhile_cons, if_neg (by decide)]
    rfl
  · unfold skipped
    rw [dropWhile_white _ _ hp, List.dropWhile_cons, if_neg (by decide)]
    rfl

theorem skipped_blank (line : List Char) (h : Words line []) : skipped line = false := by
  unfold skipped
  have := dropWhile_white line [] h
  rw [List.append_nil] at this
  rw [this]
  rfl

theorem skipped_row (line : List Char) (a : List Char) (ws : List (List Char)) (h : Words line (a :: ws))
    (h1 : a.head? ≠ some '#') (h2 : ¬ (['c', '/', 's'] <+: a)) : skipped line = false := by
  obtain ⟨pre, rest, rfl, hp, hw, hws, hr, -⟩ := h
  unfold skipped
  rw [List.append_assoc, dropWhile_white _ _ hp]
  cases a with
  | nil => exact absurd rfl hw
  | cons x a =>
    have hx := hws x List.mem_cons_self
    rw [List.cons_append, List.dropWhile_cons, if_neg (by rw [hx]; simp)]
    have hhash : x ≠ '#' := fun e => h1 (by rw [e]; rfl)
    have e1 : (['#'].isPrefixOf (x :: (a ++ rest))) = false := by
      simp [List.isPrefixOf, Ne.symm hhash]
    have e2 : (['c', '/', 's'].isPrefixOf (x :: (a ++ rest))) = false := by
      rw [Bool.eq_false_iff]
      intro hpre
      apply h2
      rw [List.isPrefixOf_iff_prefix] at hpre
      have hne : ∀ c r, rest = c :: r → isSpace c = true := by
        intro c r hcr
        rcases hr with rfl | ⟨c', r', rfl, hc⟩
        · cases hcr
        · cases hcr; exact hc
      rcases a with _ | ⟨y, _ | ⟨z, a⟩⟩
      · obtain ⟨t, ht⟩ := hpre
        simp only [List.cons_append, List.nil_append, List.cons.injEq] at ht
        have := hne '/' _ ht.2.symm
        exact absurd this (by decide)
      · obtain ⟨t, ht⟩ := hpre
        simp only [List.cons_append, List.nil_append, List.cons.injEq] at ht
        have := hne 's' _ ht.2.2.symm
        exact absurd this (by decide)
      · obtain ⟨t, ht⟩ := hpre
        simp only [List.cons_append, List.nil_append, List.cons.injEq] at ht
        obtain ⟨rfl, rfl, rfl, -⟩ := ht
        exact ⟨a, rfl⟩
    rw [e1, e2]; rfl

theorem floats_ok (ws : List (List Char)) (xs : List ℝ) (h : List.Forall₂ Denotes ws xs) : floats ws = .ok xs := by
  have : ws.mapM (m := Option) (parseNum (K := ℝ)) = some xs := by
    induction h with
    | nil => rfl
    | cons ha _ ih => rw [List.mapM_cons, Shc.parseNum_of ha, ih]; rfl
  unfold floats
  rw [this]

theorem lines_text (ls : List (List Char)) (h : ∀ l ∈ ls, '\n' ∉ l) : lines (ls.flatMap fun l => l ++ ['\n']) = ls := by
  unfold lines
  induction ls with
  | nil => rfl
  | cons l ls ih =>
    rw [List.flatMap_cons, List.append_assoc, List.singleton_append, linesGo_line l _ _ (h l List.mem_cons_self),
      ih (fun x hx => h x (List.mem_cons_of_mem _ hx))]
    rfl

theorem read_rows (ls : List (List Char)) (rows : List (List ℝ)) (h : Rows ls rows) (b data : List ℝ) :
    ls.foldlM readLine { breaks := some b, data := data } = .ok { breaks := some b, data := data ++ rows.flatten } := by
  induction h generalizing data with
  | nil => simp [pure, Except.pure]
  | remark line ls rows hr _ ih =>
    rw [List.foldlM_cons]
    have : readLine { breaks := some b, data := data } line = .ok { breaks := some b, data := data } := by
      unfold readLine; rw [if_pos (skipped_remark _ hr)]
    rw [this]
    exact ih data
  | blank line ls rows hr _ ih =>
    rw [List.foldlM_cons]
    have : readLine { breaks := some b, data := data } line = .ok { breaks := some b, data := data } := by
      unfold readLine
      rw [skipped_blank _ hr]
      simp only [Bool.false_eq_true, if_false, tokens_words [] line hr]
      rw [List.drop_nil, floats_ok [] [] List.Forall₂.nil]
      simp
    rw [this]
    exact ih data
  | row line ls xs rows hr _ ih =>
    obtain ⟨a, b', c, ws, hw, h1, h2, hd⟩ := hr
    rw [List.append_nil] at hw
    rw [List.foldlM_cons]
    have : readLine { breaks := some b, data := data } line = .ok { breaks := some b, data := data ++ xs } := by
      unfold readLine
      rw [skipped_row _ _ _ hw h1 h2]
      simp only [Bool.false_eq_true, if_false, tokens_words _ line hw]
      rw [List.drop_succ_cons, List.drop_succ_cons, List.drop_succ_cons, List.drop_zero, floats_ok ws xs hd]
    rw [this]
    have := ih (data ++ xs)
    rw [List.flatten_cons, ← List.append_assoc]
    exact this

theorem read_lines (ls : List (List Char)) (years : List ℝ) (rows : List (List ℝ)) (h : IgrfLines ls years rows) (y : ℝ)
    (hy : years.getLast? = some y) :
    ls.foldlM readLine { breaks := none, data := [] } = .ok { breaks := some (years ++ [y + 5]), data := rows.flatten } := by
  induction h with
  | remark line ls years rows hr _ ih =>
    rw [List.foldlM_cons]
    have : readLine { breaks := none, data := [] } line = .ok { breaks := none, data := [] } := by
      unfold readLine; rw [if_pos (skipped_remark _ hr)]
    rw [this]
    exact ih hy
  | header line ls years rows sv hr hrows =>
    obtain ⟨a, b, c, ws, hw, h1, h2, hd⟩ := hr
    rw [List.foldlM_cons]
    have : readLine { breaks := none, data := [] } line = .ok { breaks := some (years ++ [y + 5]), data := [] } := by
      unfold readLine
      rw [skipped_row _ _ _ hw h1 h2]
      have hdl : ((a :: b :: c :: (ws ++ [sv])).dropLast).drop 3 = ws := by
        have : a :: b :: c :: (ws ++ [sv]) = (a :: b :: c :: ws) ++ [sv] := rfl
        rw [this, List.dropLast_concat]; rfl
      simp only [Bool.false_eq_true, if_false, tokens_words _ line hw, hdl, floats_ok ws years hd, hy]
    rw [this]
    exact read_rows ls rows hrows _ []

theorem flatten_getD (rows : List (List ℝ)) (n : ℕ) (h : ∀ r ∈ rows, r.length = n) (i k : ℕ) (hk : k < n) :
    rows.flatten.getD (i * n + k) 0 = (rows.getD i []).getD k 0 := by
  induction rows generalizing i with
  | nil => simp
  | cons r rows ih =>
    have hr := h r List.mem_cons_self
    rw [List.flatten_cons]
    cases i with
    | zero =>
      rw [List.getD_append _ _ _ _ (by rw [hr]; omega)]
      simp
    | succ i =>
      rw [List.getD_append_right _ _ _ _ (by rw [hr]; nlinarith), hr,
        show (i + 1) * n + k - n = i * n + k by rw [Nat.add_mul, Nat.one_mul]; omega, ih (fun x hx => h x (List.mem_cons_of_mem _ hx))]
      rw [List.getD_cons_succ]

theorem flatten_length (rows : List (List ℝ)) (n : ℕ) (h : ∀ r ∈ rows, r.length = n) : rows.flatten.length = rows.length * n := by
  induction rows with
  | nil => simp
  | cons r rows ih =>
    rw [List.flatten_cons, List.length_append, ih (fun x hx => h x (List.mem_cons_of_mem _ hx)), h r List.mem_cons_self, List.length_cons]
    ring

/-! ### Linear splines -/

/-- On piece `j` a spline of order 2 on augmented knots is the chord. -/
theorem piecePoly_linear (breaks : List ℝ) (h : Ascending breaks) (coeffs : ℕ → ℕ → ℝ) (j d : ℕ) (hj : j + 1 < breaks.length) :
    piecePoly breaks 2 coeffs j d = C (coeffs j d) + C ((coeffs (j + 1) d - coeffs j d) / (breaks.getD (j + 1) 0 - breaks.getD j 0)) * (X - C (breaks.getD j 0)) := by
  have hk := (C24_augment breaks h 2).2.2.1
  have hlen := augment_length breaks 2
  have k1 : knot (augmentBreaks breaks 2) (j + 1) = breaks.getD j 0 := by
    have := hk j (by omega); unfold knot; rw [← this]; congr 1; omega
  have k2 : knot (augmentBreaks breaks 2) (j + 2) = breaks.getD (j + 1) 0 := by
    have := hk (j + 1) hj; unfold knot; rw [← this]; congr 1; omega
  have hlt : breaks.getD (j + 1) 0 - breaks.getD j 0 ≠ 0 := by have := h.2 j hj; linarith
  unfold piecePoly splinePoly
  have hb : ∀ i, basis (knot (augmentBreaks breaks 2)) (2 - 1 + j) (2 - 1) i =
      if i = j then C (1 / (breaks.getD (j + 1) 0 - breaks.getD j 0)) * (C (breaks.getD (j + 1) 0) - X)
      else if i = j + 1 then C (1 / (breaks.getD (j + 1) 0 - breaks.getD j 0)) * (X - C (breaks.getD j 0)) else 0 := by
    intro i
    show basis (knot (augmentBreaks breaks 2)) (1 + j) (0 + 1) i = _
    simp only [basis]
    by_cases h1 : i = j
    · subst h1
      rw [if_neg (by omega), if_pos (by omega), if_pos rfl, show i + 0 + 2 = i + 2 by ring, k1, k2]
      ring
    · by_cases h2 : i = j + 1
      · subst h2
        rw [if_pos (by omega), if_neg (by omega), if_neg (by omega), if_pos rfl, show j + 1 + 0 + 1 = j + 2 by ring, k1, k2]
        ring
      · rw [if_neg (by omega), if_neg (by omega), if_neg h1, if_neg h2]
        ring
  simp only [hb]
  have hj1 : j ∈ Finset.range ((augmentBreaks breaks 2).length - 2) := by rw [Finset.mem_range]; omega
  have hj2 : j + 1 ∈ (Finset.range ((augmentBreaks breaks 2).length - 2)).erase j := by
    rw [Finset.mem_erase, Finset.mem_range]; omega
  rw [← Finset.add_sum_erase _ _ hj1, ← Finset.add_sum_erase _ _ hj2, Finset.sum_eq_zero, if_pos rfl, if_neg (by omega), if_pos rfl]
  · have e : C (1 / (breaks.getD (j + 1) 0 - breaks.getD j 0)) * (C (breaks.getD (j + 1) 0) - C (breaks.getD j 0)) = 1 := by
      rw [← C_sub, ← C_mul, one_div_mul_cancel hlt, C_1]
    rw [div_eq_mul_one_div (coeffs (j + 1) d - coeffs j d), C_mul, C_sub]
    linear_combination C (coeffs j d) * e
  · intro x hx
    rw [Finset.mem_erase, Finset.mem_erase] at hx
    rw [if_neg hx.2.1, if_neg hx.1, mul_zero]

/-! ### The loaded model -/

/-- Time (MJD2000) of a year. -/
noncomputable def mjdOf (y : ℝ) : ℝ :=
  match Time.dyearToMjd true y with
  | .ok t => t
  | .error _ => 0

theorem mjdOf_eq (y : ℝ) (h1 : 1708 ≤ y) (h2 : y < 2292) : Time.dyearToMjd true y = .ok (mjdOf y) := by
  have hf : (1708 : ℤ) ≤ ⌊y⌋ ∧ ⌊y⌋ ≤ 2291 := by
    constructor
    · exact Int.le_floor.2 (by exact_mod_cast h1)
    · have : ⌊y⌋ < 2292 := Int.floor_lt.2 (by exact_mod_cast h2)
      omega
  unfold mjdOf
  rw [Time.dyearToMjd_eq y hf]

/-- The epochs of a table that the loader accepts: ascending, in the range of years of `dyear_to_mjd`. -/
structure GoodYears (years : List ℝ) : Prop where
  nonempty : years ≠ []
  ascending : ∀ k, k + 1 < years.length → years.getD k 0 < years.getD (k + 1) 0
  lower : 1708 ≤ years.getD 0 0
  upper : years.getD (years.length - 1) 0 + 5 < 2292

theorem GoodYears.node_lt {years : List ℝ} (h : GoodYears years) (k : ℕ) (hk : k < years.length) : nodeYear years k < nodeYear years (k + 1) := by
  unfold nodeYear
  rw [if_pos hk]
  by_cases h1 : k + 1 < years.length
  · rw [if_pos h1]; exact h.ascending k h1
  · rw [if_neg h1, show years.length - 1 = k by omega]; linarith

theorem GoodYears.node_ge {years : List ℝ} (h : GoodYears years) (k : ℕ) (hk : k ≤ years.length) : 1708 ≤ nodeYear years k := by
  induction k with
  | zero =>
    unfold nodeYear
    rw [if_pos (List.length_pos_iff.2 h.nonempty)]; exact h.lower
  | succ k ih => exact le_trans (ih (by omega)) (h.node_lt k (by omega)).le

theorem GoodYears.node_le {years : List ℝ} (h : GoodYears years) (k : ℕ) (hk : k ≤ years.length) : nodeYear years (years.length - k) < 2292 := by
  induction k with
  | zero =>
    unfold nodeYear
    rw [if_neg (by omega)]; exact h.upper
  | succ k ih =>
    have := h.node_lt (years.length - (k + 1)) (by omega)
    rw [show years.length - (k + 1) + 1 = years.length - k by omega] at this
    exact this.trans (ih (by omega))

theorem GoodYears.node_mjd {years : List ℝ} (h : GoodYears years) (k : ℕ) (hk : k ≤ years.length) :
    Time.dyearToMjd true (nodeYear years k) = .ok (mjdOf (nodeYear years k)) := by
  apply mjdOf_eq _ (h.node_ge k hk)
  have := h.node_le (years.length - k) (by omega)
  rwa [show years.length - (years.length - k) = k by omega] at this

theorem GoodYears.mjd_lt {years : List ℝ} (h : GoodYears years) (k : ℕ) (hk : k < years.length) :
    mjdOf (nodeYear years k) < mjdOf (nodeYear years (k + 1)) := by
  refine Time.C10_dyear_to_mjd_strictMono true _ _ _ _ (h.node_ge k hk.le) ?_ (h.node_lt k hk) (h.node_mjd k hk.le) (h.node_mjd (k + 1) hk)
  have := h.node_le (years.length - (k + 1)) (by omega)
  rwa [show years.length - (years.length - (k + 1)) = k + 1 by omega] at this

/-- Break points of the loaded model. -/
noncomputable def nodes (years : List ℝ) : List ℝ := (List.range (years.length + 1)).map fun k => mjdOf (nodeYear years k)

theorem nodes_length (years : List ℝ) : (nodes years).length = years.length + 1 := by simp [nodes]

theorem nodes_getD (years : List ℝ) (k : ℕ) (hk : k ≤ years.length) : (nodes years).getD k 0 = mjdOf (nodeYear years k) := by
  rw [List.getD_eq_getElem _ _ (by rw [nodes_length]; omega)]
  simp [nodes]

theorem nodes_ascending {years : List ℝ} (h : GoodYears years) : Ascending (nodes years) := by
  have := List.length_pos_iff.2 h.nonempty
  refine ⟨by rw [nodes_length]; omega, fun j hj => ?_⟩
  rw [nodes_length] at hj
  rw [nodes_getD _ _ (by omega), nodes_getD _ _ (by omega)]
  exact h.mjd_lt j (by omega)

theorem years_nodes {years : List ℝ} (h : GoodYears years) (y : ℝ) (hy : years.getLast? = some y) :
    (years ++ [y + 5]) = (List.range (years.length + 1)).map (nodeYear years) := by
  have hlen := List.length_pos_iff.2 h.nonempty
  have hlast : years.getD (years.length - 1) 0 = y := by
    rw [List.getLast?_eq_getElem?] at hy
    rw [List.getD_eq_getElem?_getD, hy]; rfl
  apply List.ext_getElem
  · simp
  · intro i h1 h2
    rw [List.getElem_map, List.getElem_range]
    unfold nodeYear
    simp only [List.length_append, List.length_singleton] at h1
    by_cases hi : i < years.length
    · rw [if_pos hi, List.getElem_append_left hi, List.getD_eq_getElem _ _ hi]
    · rw [if_neg hi, List.getElem_append_right (by omega), hlast]
      simp

theorem nodes_mjd {years : List ℝ} (h : GoodYears years) (y : ℝ) (hy : years.getLast? = some y) :
    (years ++ [y + 5]).mapM (Time.dyearToMjd true) = .ok (nodes years) := by
  rw [years_nodes h y hy, Synth.mapM_ok, nodes, List.forall₂_map_left_iff, List.forall₂_map_right_iff, List.forall₂_same]
  intro k hk
  exact h.node_mjd k (by have := List.mem_range.1 hk; omega)

theorem entry_eq (years : List ℝ) (rows : List (List ℝ)) (hne : years ≠ []) (h : ∀ r ∈ rows, r.length = years.length + 1) (d k : ℕ) (hk : k ≤ years.length) :
    entry rows.flatten (years.length + 1) d k = nodeValue years (rows.getD d []) k := by
  have hpos := List.length_pos_iff.2 hne
  unfold entry nodeValue
  by_cases h1 : k < years.length
  · rw [if_neg (by omega), if_pos h1, flatten_getD rows _ h d k (by omega)]
  · rw [if_pos (by omega), if_neg h1, flatten_getD rows _ h d _ (by omega), flatten_getD rows _ h d _ (by omega)]
    rw [show years.length + 1 - 2 = years.length - 1 by omega, show years.length + 1 - 1 = years.length by omega]
    ring

theorem load_eq (content : List Char) (years : List ℝ) (rows : List (List ℝ)) (h : IgrfText content years rows) (hy : GoodYears years) :
    load content = .ok (fromBspline (augmentBreaks (nodes years) 2) (fun j i => entry rows.flatten (years.length + 1) i j) rows.length 2) := by
  obtain ⟨ls, rfl, hnl, hl, hrow⟩ := h
  obtain ⟨y, hlast⟩ : ∃ y, years.getLast? = some y := ⟨years.getLast hy.nonempty, List.getLast?_eq_some_getLast hy.nonempty⟩
  have hasc : (nodes years).Pairwise (· ≤ ·) := by
    rw [List.pairwise_iff_getElem]
    intro i j hi hj hij
    have := (nodes_ascending hy).sorted i j hij.le hj
    rwa [List.getD_eq_getElem _ _ hi, List.getD_eq_getElem _ _ hj] at this
  unfold load
  rw [lines_text ls hnl, read_lines ls years rows hl y hlast]
  simp only [bind, Except.bind, pure, Except.pure]
  rw [nodes_mjd hy y hlast, flatten_length rows _ hrow]
  simp only [List.length_append, List.length_singleton]
  rw [if_neg (by simp), if_neg (fun hc => hc.2 hasc), Nat.mul_div_cancel _ (by omega)]

/-- **C50.** The model loaded from the text of an IGRF table: it has one break point per epoch and one five years after
the last epoch, one coefficient per row, and at every time between two break points (both included; whatever the other
times of the call are) the coefficients are interpolated linearly (in MJD2000) between the values at the break points:
the tabulated values, and at the last break point the last tabulated value plus five times the secular variation. -/
theorem C50_interpolation (content : List Char) (years : List ℝ) (rows : List (List ℝ)) (h : IgrfText content years rows)
    (hy : GoodYears years) (hr : rows ≠ []) :
    ∃ (b : Base) (T : ℕ → ℝ), load content = .ok b ∧ b.order = 2 ∧ b.dim = rows.length ∧ b.breaks.length = years.length + 1 ∧
      (∀ k ≤ years.length, Time.dyearToMjd true (nodeYear years k) = .ok (T k) ∧ b.breaks.getD k 0 = T k) ∧
      (∀ k < years.length, T k < T (k + 1)) ∧
      ∀ (times : List ℝ) (e : Option Extrap), Known (option e) →
        ∀ (i : ℕ) (t : ℝ), times[i]? = some t → ∀ k < years.length, T k ≤ t → t ≤ T (k + 1) →
          ∃ out v, b.synthCoeffs times none none e = .ok (rows.length, out) ∧ out[i]? = some (some v) ∧
            ∀ d, v d = nodeValue years (rows.getD d []) k +
              (nodeValue years (rows.getD d []) (k + 1) - nodeValue years (rows.getD d []) k) * ((t - T k) / (T (k + 1) - T k)) := by
  have hasc := nodes_ascending hy
  have hdim : 0 < rows.length := List.length_pos_iff.2 hr
  obtain ⟨ls, -, -, -, hrow⟩ := id h
  refine ⟨_, fun k => mjdOf (nodeYear years k), load_eq content years rows h hy, ?_, ?_, ?_, ?_, hy.mjd_lt, ?_⟩
  · rw [fromBspline_eq hasc (by norm_num)]
  · rw [fromBspline_eq hasc (by norm_num)]
  · rw [fromBspline_eq hasc (by norm_num)]; exact nodes_length years
  · intro k hk
    refine ⟨hy.node_mjd k hk, ?_⟩
    rw [fromBspline_eq hasc (by norm_num)]
    exact nodes_getD years k hk
  · intro times e hk i t hi k hkl h1 h2
    simp only at h1 h2 ⊢
    have hlt := hy.mjd_lt k hkl
    have hval : ∀ (j : ℕ), j < years.length → IsPiece (nodes years) j t → ∃ out v,
        (fromBspline (augmentBreaks (nodes years) 2) (fun j i => entry rows.flatten (years.length + 1) i j) rows.length 2).synthCoeffs times none none e = .ok (rows.length, out) ∧
        out[i]? = some (some v) ∧ ∀ d, v d = nodeValue years (rows.getD d []) j +
              (nodeValue years (rows.getD d []) (j + 1) - nodeValue years (rows.getD d []) j) *
                ((t - mjdOf (nodeYear years j)) / (mjdOf (nodeYear years (j + 1)) - mjdOf (nodeYear years j))) := by
      intro j hj hp
      obtain ⟨out, v, a1, a2, a3⟩ := fromBspline_row hasc (by norm_num : 0 < 2) (fun j i => entry rows.flatten (years.length + 1) i j) rows.length hdim
        times none e (Or.inl hk) (Or.inl rfl) i t hi j hp
      refine ⟨out, v, a1, a2, fun d => ?_⟩
      rw [a3 d, piecePoly_linear _ hasc _ _ _ (by rw [nodes_length]; omega), nodes_getD _ _ (by omega), nodes_getD _ _ (by omega),
        entry_eq years rows hy.nonempty hrow d j (by omega), entry_eq years rows hy.nonempty hrow d (j + 1) (by omega)]
      simp
      ring
    by_cases hend : t < mjdOf (nodeYear years (k + 1))
    · exact hval k hkl ⟨by rw [nodes_length]; omega, Or.inl ⟨by rw [nodes_getD _ _ (by omega)]; exact h1, by rw [nodes_getD _ _ (by omega)]; exact hend⟩⟩
    · have hte : t = mjdOf (nodeYear years (k + 1)) := le_antisymm h2 (not_lt.1 hend)
      have hfrac : (t - mjdOf (nodeYear years k)) / (mjdOf (nodeYear years (k + 1)) - mjdOf (nodeYear years k)) = 1 := by
        rw [hte, div_self]; linarith
      by_cases hkk : k + 1 < years.length
      · have hlt' := hy.mjd_lt (k + 1) hkk
        obtain ⟨out, v, a1, a2, a3⟩ := hval (k + 1) hkk ⟨by rw [nodes_length]; omega, Or.inl ⟨by rw [nodes_getD _ _ (by omega), hte], by rw [nodes_getD _ _ (by omega), hte]; exact hlt'⟩⟩
        refine ⟨out, v, a1, a2, fun d => ?_⟩
        rw [a3 d, hfrac, hte, sub_self, zero_div]
        ring
      · refine hval k hkl ⟨by rw [nodes_length]; omega, Or.inr ⟨?_, by rw [nodes_length]; omega⟩⟩
        rw [last_eq _ (ascending_ne hasc), nodes_length, hte, nodes_getD _ _ (by omega)]
        congr 2
        omega

/-- **C50** at the epochs: the tabulated numbers. -/
theorem C50_epochs (content : List Char) (years : List ℝ) (rows : List (List ℝ)) (h : IgrfText content years rows)
    (hy : GoodYears years) (hr : rows ≠ []) :
    ∃ b, load content = .ok b ∧ ∀ k < years.length, ∃ t, Time.dyearToMjd true (years.getD k 0) = .ok t ∧
      ∀ (times : List ℝ) (e : Option Extrap), Known (option e) → ∀ (i : ℕ), times[i]? = some t →
        ∃ out v, b.synthCoeffs times none none e = .ok (rows.length, out) ∧ out[i]? = some (some v) ∧
          ∀ d, v d = (rows.getD d []).getD k 0 := by
  obtain ⟨b, T, hb, -, -, -, hT, hlt, hall⟩ := C50_interpolation content years rows h hy hr
  refine ⟨b, hb, fun k hk => ⟨T k, ?_, ?_⟩⟩
  · have := (hT k hk.le).1
    unfold nodeYear at this
    rwa [if_pos hk] at this
  · intro times e hkn i hi
    obtain ⟨out, v, a1, a2, a3⟩ := hall times e hkn i (T k) hi k hk le_rfl (hlt k hk).le
    refine ⟨out, v, a1, a2, fun d => ?_⟩
    rw [a3 d, sub_self, zero_div, mul_zero, add_zero]
    unfold nodeValue
    rw [if_pos hk]

/-- **C50** at the end of the model: the last tabulated value plus five years of the secular variation. -/
theorem C50_end (content : List Char) (years : List ℝ) (rows : List (List ℝ)) (h : IgrfText content years rows)
    (hy : GoodYears years) (hr : rows ≠ []) :
    ∃ b t, load content = .ok b ∧ Time.dyearToMjd true (years.getD (years.length - 1) 0 + 5) = .ok t ∧
      ∀ (times : List ℝ) (e : Option Extrap), Known (option e) → ∀ (i : ℕ), times[i]? = some t →
        ∃ out v, b.synthCoeffs times none none e = .ok (rows.length, out) ∧ out[i]? = some (some v) ∧
          ∀ d, v d = (rows.getD d []).getD (years.length - 1) 0 + 5 * (rows.getD d []).getD years.length 0 := by
  obtain ⟨b, T, hb, -, -, -, hT, hlt, hall⟩ := C50_interpolation content years rows h hy hr
  have hpos := List.length_pos_iff.2 hy.nonempty
  refine ⟨b, T years.length, hb, ?_, ?_⟩
  · have := (hT years.length le_rfl).1
    unfold nodeYear at this
    rwa [if_neg (by omega)] at this
  · intro times e hkn i hi
    have hl := hlt (years.length - 1) (by omega)
    rw [show years.length - 1 + 1 = years.length by omega] at hl
    obtain ⟨out, v, a1, a2, a3⟩ := hall times e hkn i (T years.length) hi (years.length - 1) (by omega) hl.le
      (by rw [show years.length - 1 + 1 = years.length by omega])
    refine ⟨out, v, a1, a2, fun d => ?_⟩
    rw [a3 d, show years.length - 1 + 1 = years.length by omega, div_self (by linarith)]
    have n1 : nodeValue years (rows.getD d []) years.length = (rows.getD d []).getD (years.length - 1) 0 + 5 * (rows.getD d []).getD years.length 0 := by
      unfold nodeValue
      rw [if_neg (by omega)]
    rw [n1]
    ring

/-- **C50**, secular variation in the last five years (times before the end, all inside): five times the tabulated
value per the length of this interval in units of 365.25 days. -/
theorem C50_secular_variation (content : List Char) (years : List ℝ) (rows : List (List ℝ)) (h : IgrfText content years rows)
    (hy : GoodYears years) (hr : rows ≠ []) :
    ∃ b t0 t1, load content = .ok b ∧ Time.dyearToMjd true (years.getD (years.length - 1) 0) = .ok t0 ∧
      Time.dyearToMjd true (years.getD (years.length - 1) 0 + 5) = .ok t1 ∧ t0 < t1 ∧
      ∀ (times : List ℝ) (e : Option Extrap), (∀ t ∈ times, t0 ≤ t ∧ t ≤ t1) → ∀ (i : ℕ), i < times.length →
        ∃ out v, b.synthCoeffs times none (some 1) e = .ok (rows.length, out) ∧ out[i]? = some (some v) ∧
          ∀ d, v d = 5 * (rows.getD d []).getD years.length 0 / ((t1 - t0) / (365.25 : ℝ)) := by
  have hasc := nodes_ascending hy
  have hdim : 0 < rows.length := List.length_pos_iff.2 hr
  have hpos := List.length_pos_iff.2 hy.nonempty
  obtain ⟨ls, -, -, -, hrow⟩ := id h
  have hlt := hy.mjd_lt (years.length - 1) (by omega)
  rw [show years.length - 1 + 1 = years.length by omega] at hlt
  have e0 : nodeYear years (years.length - 1) = years.getD (years.length - 1) 0 := by unfold nodeYear; rw [if_pos (by omega)]
  have e1 : nodeYear years years.length = years.getD (years.length - 1) 0 + 5 := by unfold nodeYear; rw [if_neg (by omega)]
  refine ⟨_, mjdOf (nodeYear years (years.length - 1)), mjdOf (nodeYear years years.length), load_eq content years rows h hy, ?_, ?_, hlt, ?_⟩
  · have := hy.node_mjd (years.length - 1) (by omega)
    rwa [e0] at this ⊢
  · have := hy.node_mjd years.length le_rfl
    rwa [e1] at this ⊢
  · intro times e hin i hi
    have hi' : times[i]? = some times[i] := List.getElem?_eq_getElem hi
    have hb := hin times[i] (List.getElem_mem hi)
    have hfirst : (nodes years).getD 0 0 ≤ mjdOf (nodeYear years (years.length - 1)) := by
      rw [← nodes_getD _ _ (by omega)]
      exact hasc.sorted 0 _ (by omega) (by rw [nodes_length]; omega)
    have hlast : (nodes years).getD ((nodes years).length - 1) 0 = mjdOf (nodeYear years years.length) := by
      rw [nodes_length, Nat.add_sub_cancel, nodes_getD _ _ le_rfl]
    have hni : ¬ ∃ t ∈ times, t < (nodes years).getD 0 0 ∨ (nodes years).getD ((nodes years).length - 1) 0 < t := by
      rintro ⟨t, ht, hc⟩
      have := hin t ht
      rw [hlast] at hc
      rcases hc with hc | hc <;> linarith
    have hp : IsPiece (nodes years) (years.length - 1) times[i] := by
      refine ⟨by rw [nodes_length]; omega, ?_⟩
      rw [show years.length - 1 + 1 = years.length by omega, nodes_getD _ _ le_rfl, nodes_getD _ _ (by omega), nodes_length,
        last_eq _ (ascending_ne hasc), hlast]
      rcases hb.2.lt_or_eq with hc | hc
      · exact Or.inl ⟨hb.1, hc⟩
      · exact Or.inr ⟨hc, by omega⟩
    obtain ⟨out, v, a1, a2, a3⟩ := fromBspline_row hasc (by norm_num : 0 < 2) (fun j i => entry rows.flatten (years.length + 1) i j) rows.length hdim
      times (some 1) e (Or.inr hni) (Or.inr hni) i times[i] hi' (years.length - 1) hp
    refine ⟨out, v, a1, a2, fun d => ?_⟩
    rw [a3 d, piecePoly_linear _ hasc _ _ _ (by rw [nodes_length]; omega), show years.length - 1 + 1 = years.length by omega,
      nodes_getD _ years.length le_rfl, nodes_getD _ (years.length - 1) (by omega), entry_eq years rows hy.nonempty hrow d (years.length - 1) (by omega),
      entry_eq years rows hy.nonempty hrow d years.length le_rfl]
    have hv : nodeValue years (rows.getD d []) years.length - nodeValue years (rows.getD d []) (years.length - 1) = 5 * (rows.getD d []).getD years.length 0 := by
      unfold nodeValue
      rw [if_neg (by omega), if_pos (by omega)]
      ring
    rw [hv]
    simp
    have : mjdOf (nodeYear years years.length) - mjdOf (nodeYear years (years.length - 1)) ≠ 0 := by linarith
    field_simp

/-- **C50** (finding): if the last epoch is a whole year then the secular variation returned by the model in the last five
years is never exactly the tabulated one, unless this is zero, since no five calendar years have 5 times 365.25 days. -/
theorem C50_secular_variation_differs (y : ℤ) (hy : 1708 ≤ y ∧ y + 5 < 2292) (t0 t1 sv : ℝ) (h0 : Time.dyearToMjd true (y : ℝ) = .ok t0)
    (h1 : Time.dyearToMjd true ((y : ℝ) + 5) = .ok t1) : 5 * sv / ((t1 - t0) / (365.25 : ℝ)) = sv ↔ sv = 0 := by
  have f1 : ⌊(y : ℝ) + 5⌋ = y + 5 := by
    have : (y : ℝ) + 5 = ((y + 5 : ℤ) : ℝ) := by push_cast; ring
    rw [this, Int.floor_intCast]
  have f2 : Int.fract ((y : ℝ) + 5) = 0 := by
    have : (y : ℝ) + 5 = ((y + 5 : ℤ) : ℝ) := by push_cast; ring
    rw [this, Int.fract_intCast]
  rw [Time.dyearToMjd_eq _ (by rw [Int.floor_intCast]; omega), Int.floor_intCast, Int.fract_intCast, zero_mul, add_zero] at h0
  rw [Time.dyearToMjd_eq _ (by rw [f1]; omega), f1, f2, zero_mul, add_zero] at h1
  injection h0 with h0
  injection h1 with h1
  constructor
  · intro h
    by_contra hne
    have hlt : t0 < t1 := Time.C10_dyear_to_mjd_strictMono true (y : ℝ) ((y : ℝ) + 5) t0 t1 (by exact_mod_cast hy.1)
      (by exact_mod_cast hy.2) (by linarith)
      (by rw [Time.dyearToMjd_eq _ (by rw [Int.floor_intCast]; omega), Int.floor_intCast, Int.fract_intCast, zero_mul, add_zero, h0])
      (by rw [Time.dyearToMjd_eq _ (by rw [f1]; omega), f1, f2, zero_mul, add_zero, h1])
    have hd : t1 - t0 ≠ 0 := by linarith
    have : t1 - t0 = 1826.25 := by
      field_simp at h
      norm_num at h ⊢; linarith
    rw [← h0, ← h1, ← Int.cast_sub] at this
    generalize Time.jan1 (y + 5) - 10957 - (Time.jan1 y - 10957) = z at this
    have h4 : ((4 * z : ℤ) : ℝ) = ((7305 : ℤ) : ℝ) := by push_cast; rw [this]; norm_num
    have := Int.cast_injective h4
    omega
  · rintro rfl
    simp

/-! ### A concrete file -/

/-- Words, each preceded by a blank. -/
def sentence (ws : List (List Char)) : List Char := ws.flatMap fun w => ' ' :: w

theorem words_sentence (ws : List (List Char)) (h : ∀ w ∈ ws, Shc.IsToken w) : Words (sentence ws) ws := by
  induction ws with
  | nil => intro c hc; simp [sentence] at hc
  | cons w ws ih =>
    have hw := h w List.mem_cons_self
    refine ⟨[' '], sentence ws, rfl, ?_, hw.1, hw.2, ?_, ih fun x hx => h x (List.mem_cons_of_mem _ hx)⟩
    · intro c hc
      rw [List.mem_singleton] at hc
      subst hc; rfl
    · cases ws with
      | nil => exact Or.inl rfl
      | cons v vs => exact Or.inr ⟨' ', _, rfl, rfl⟩

theorem isRow_sentence (a : List Char) (ha : Shc.IsToken a) (h1 : a.head? ≠ some '#') (h2 : ¬ (['c', '/', 's'] <+: a)) (n m : ℤ) (zs : List ℤ)
    (tail : List (List Char)) (ht : ∀ w ∈ tail, Shc.IsToken w) :
    IsRow (sentence (a :: Shc.intStr n :: Shc.intStr m :: (zs.map Shc.intStr ++ tail))) (zs.map (Int.cast : ℤ → ℝ)) tail := by
  refine ⟨a, Shc.intStr n, Shc.intStr m, zs.map Shc.intStr, words_sentence _ ?_, h1, h2, ?_⟩
  · intro w hw
    simp only [List.mem_cons, List.mem_append, List.mem_map] at hw
    rcases hw with rfl | rfl | rfl | ⟨z, -, rfl⟩ | hw
    · exact ha
    · exact Shc.intStr_token _
    · exact Shc.intStr_token _
    · exact Shc.intStr_token _
    · exact ht w hw
  · rw [List.forall₂_map_left_iff, List.forall₂_map_right_iff, List.forall₂_same]
    intro z _
    exact Shc.parseNum_sound (Shc.parseNum_int z)

/-- A file with a comment, the epochs 1900 and 1905 and two rows. -/
def exFile : List Char :=
  [['#', 'I'], ['c', '/', 's', ' ', 'x'],
    sentence (['g', '/', 'h'] :: Shc.intStr 1 :: Shc.intStr 1 :: ([1900, 1905].map Shc.intStr ++ [['S', 'V']])),
    sentence (['g'] :: Shc.intStr 1 :: Shc.intStr 0 :: ([-31543, -31464, 6].map Shc.intStr ++ [])),
    sentence (['g'] :: Shc.intStr 1 :: Shc.intStr 1 :: ([-2298, -2299, 7].map Shc.intStr ++ []))].flatMap fun l => l ++ ['\n']

theorem digit_ne_newline (w : List Char) (h : Shc.IsToken w) : '\n' ∉ w := fun hc => by
  have := h.2 _ hc
  exact absurd this (by decide)

theorem sentence_no_newline (ws : List (List Char)) (h : ∀ w ∈ ws, Shc.IsToken w) : '\n' ∉ sentence ws := by
  unfold sentence
  intro hc
  rw [List.mem_flatMap] at hc
  obtain ⟨w, hw, hc⟩ := hc
  rcases List.mem_cons.1 hc with hc | hc
  · exact absurd hc (by decide)
  · exact digit_ne_newline w (h w hw) hc

theorem token_of (w : List Char) (h : w ≠ [] ∧ w.all (fun c => !isSpace c) = true) : Shc.IsToken w :=
  ⟨h.1, fun c hc => by simpa using List.all_eq_true.1 h.2 c hc⟩

theorem ex_text : IgrfText exFile [((1900 : ℤ) : ℝ), ((1905 : ℤ) : ℝ)] [[((-31543 : ℤ) : ℝ), ((-31464 : ℤ) : ℝ), ((6 : ℤ) : ℝ)], [((-2298 : ℤ) : ℝ), ((-2299 : ℤ) : ℝ), ((7 : ℤ) : ℝ)]] := by
  have tg : Shc.IsToken ['g'] := token_of _ (by decide)
  have tgh : Shc.IsToken ['g', '/', 'h'] := token_of _ (by decide)
  have tsv : Shc.IsToken ['S', 'V'] := token_of _ (by decide)
  refine ⟨_, rfl, ?_, ?_, ?_⟩
  · intro l hl
    simp only [List.mem_cons, List.not_mem_nil, or_false] at hl
    rcases hl with rfl | rfl | rfl | rfl | rfl
    · decide
    · decide
    all_goals
      apply sentence_no_newline
      intro w hw
      simp only [List.map_cons, List.map_nil, List.cons_append, List.nil_append, List.mem_cons, List.not_mem_nil, or_false] at hw
    · rcases hw with rfl | rfl | rfl | rfl | rfl | rfl
      all_goals first | assumption | exact Shc.intStr_token _
    · rcases hw with rfl | rfl | rfl | rfl | rfl | rfl
      all_goals first | assumption | exact Shc.intStr_token _
    · rcases hw with rfl | rfl | rfl | rfl | rfl | rfl
      all_goals first | assumption | exact Shc.intStr_token _
  · refine .remark _ _ _ _ ⟨[], ['I'], by simp, Or.inl rfl⟩ (.remark _ _ _ _ ⟨[], [' ', 'x'], by simp, Or.inr rfl⟩ (.header _ _ _ _ ['S', 'V'] ?_ (.row _ _ _ _ ?_ (.row _ _ _ _ ?_ .nil))))
    · exact isRow_sentence ['g', '/', 'h'] tgh (by decide) (by decide) 1 1 [1900, 1905] [['S', 'V']] (by intro w hw; rw [List.mem_singleton] at hw; rw [hw]; exact tsv)
    · exact isRow_sentence ['g'] tg (by decide) (by decide) 1 0 [-31543, -31464, 6] [] (by simp)
    · exact isRow_sentence ['g'] tg (by decide) (by decide) 1 1 [-2298, -2299, 7] [] (by simp)
  · intro r hr
    simp only [List.mem_cons, List.not_mem_nil, or_false] at hr
    rcases hr with rfl | rfl <;> rfl

theorem ex_years : GoodYears [((1900 : ℤ) : ℝ), ((1905 : ℤ) : ℝ)] := by
  refine ⟨by simp, ?_, by norm_num, by norm_num⟩
  intro k hk
  have : k = 0 := by simp at hk; omega
  subst this
  norm_num

end ChaosMagPy.Igrf
