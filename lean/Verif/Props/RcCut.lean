import Verif.Model.RcCut
import Verif.Props.RcFile
import Verif.Props.IgrfCut
/-!
# C84: files of the RC-index that are cut short or written in part
-/
namespace ChaosMagPy.Spec
open ChaosMagPy.Rc (Cells)

/-- The complete row of an entry. -/
def fullCells (r : RcEntry) : Cells := ⟨some r.time, some r.rc, some r.external, some r.internal, some r.flag⟩

/-- The row of an entry whose line is cut: the last cell that is left may be wrong (any number, the beginning of the flag), the cells after it are NaN. -/
def CutEntry (c : Cells) (r : RcEntry) : Prop :=
  (∃ x, c = ⟨some x, none, none, none, none⟩) ∨ (∃ x, c = ⟨some r.time, some x, none, none, none⟩) ∨
  (∃ x, c = ⟨some r.time, some r.rc, some x, none, none⟩) ∨ (∃ x, c = ⟨some r.time, some r.rc, some r.external, some x, none⟩) ∨
  ∃ f, f <+: r.flag ∧ c = ⟨some r.time, some r.rc, some r.external, some r.internal, some f⟩

end ChaosMagPy.Spec

namespace ChaosMagPy.Rc
open ChaosMagPy.Spec
open ChaosMagPy.Shc (lines linesGo tokensGo parseNum isSpace CutList linesGo_prefix)
open ChaosMagPy.Igrf (cutList_cases cutList_nil tokens_cut)

/-! ### Reading the beginning of a text -/

theorem floatCell_of {w : List Char} {x : ℝ} (h : Denotes w x) : floatCell (some w) = .ok (some x) := by
  unfold floatCell
  simp only [Shc.parseNum_of h]

theorem floatCell_cases (w : List Char) : floatCell (some w) = .error .valueError ∨ ∃ x, floatCell (some w) = .ok (some x) := by
  unfold floatCell
  cases h : parseNum (K := ℝ) w with
  | none => exact .inl (by simp only [h])
  | some x => exact .inr ⟨x, by simp only [h]⟩

theorem floatCell_none : floatCell none = .ok none := rfl

/-- The words of the beginning of a row. -/
theorem cells_cut {a b c d : List Char} {r : RcEntry} (h1 : Denotes a r.time) (h2 : Denotes b r.rc) (h3 : Denotes c r.external) (h4 : Denotes d r.internal)
    {ws : List (List Char)} (h : CutList ws [a, b, c, d, r.flag]) (hne : ws ≠ []) :
    (∃ e, parseCells ws = .error e) ∨ ∃ cells, CutEntry cells r ∧ parseCells ws = .ok cells := by
  have e1 := floatCell_of h1
  have e2 := floatCell_of h2
  have e3 := floatCell_of h3
  have e4 := floatCell_of h4
  rcases cutList_cases h with rfl | ⟨w, -, rfl⟩ | ⟨t1, rfl, g1⟩
  · exact absurd rfl hne
  · rcases floatCell_cases w with hw | ⟨x, hw⟩
    · exact .inl ⟨.valueError, by simp [parseCells, hw, bind, Except.bind]⟩
    · exact .inr ⟨_, .inl ⟨x, rfl⟩, by simp [parseCells, hw, floatCell_none, bind, Except.bind, pure, Except.pure]⟩
  rcases cutList_cases g1 with rfl | ⟨w, -, rfl⟩ | ⟨t2, rfl, g2⟩
  · exact .inr ⟨_, .inl ⟨r.time, rfl⟩, by simp [parseCells, e1, floatCell_none, bind, Except.bind, pure, Except.pure]⟩
  · rcases floatCell_cases w with hw | ⟨x, hw⟩
    · exact .inl ⟨.valueError, by simp [parseCells, e1, hw, bind, Except.bind]⟩
    · exact .inr ⟨_, .inr (.inl ⟨x, rfl⟩), by simp [parseCells, e1, hw, floatCell_none, bind, Except.bind, pure, Except.pure]⟩
  rcases cutList_cases g2 with rfl | ⟨w, -, rfl⟩ | ⟨t3, rfl, g3⟩
  · exact .inr ⟨_, .inr (.inl ⟨r.rc, rfl⟩), by simp [parseCells, e1, e2, floatCell_none, bind, Except.bind, pure, Except.pure]⟩
  · rcases floatCell_cases w with hw | ⟨x, hw⟩
    · exact .inl ⟨.valueError, by simp [parseCells, e1, e2, hw, bind, Except.bind]⟩
    · exact .inr ⟨_, .inr (.inr (.inl ⟨x, rfl⟩)), by simp [parseCells, e1, e2, hw, floatCell_none, bind, Except.bind, pure, Except.pure]⟩
  rcases cutList_cases g3 with rfl | ⟨w, -, rfl⟩ | ⟨t4, rfl, g4⟩
  · exact .inr ⟨_, .inr (.inr (.inl ⟨r.external, rfl⟩)), by simp [parseCells, e1, e2, e3, floatCell_none, bind, Except.bind, pure, Except.pure]⟩
  · rcases floatCell_cases w with hw | ⟨x, hw⟩
    · exact .inl ⟨.valueError, by simp [parseCells, e1, e2, e3, hw, bind, Except.bind]⟩
    · exact .inr ⟨_, .inr (.inr (.inr (.inl ⟨x, rfl⟩))), by simp [parseCells, e1, e2, e3, hw, bind, Except.bind, pure, Except.pure]⟩
  rcases cutList_cases g4 with rfl | ⟨w, hw, rfl⟩ | ⟨t5, rfl, g5⟩
  · exact .inr ⟨_, .inr (.inr (.inr (.inl ⟨r.internal, rfl⟩))), by simp [parseCells, e1, e2, e3, e4, bind, Except.bind, pure, Except.pure]⟩
  · exact .inr ⟨_, .inr (.inr (.inr (.inr ⟨w, hw, rfl⟩))), by simp [parseCells, e1, e2, e3, e4, bind, Except.bind, pure, Except.pure]⟩
  · rw [cutList_nil g5]
    exact .inr ⟨_, .inr (.inr (.inr (.inr ⟨r.flag, List.prefix_refl _, rfl⟩))), by simp [parseCells, e1, e2, e3, e4, bind, Except.bind, pure, Except.pure]⟩

theorem cells_entry {line : List Char} {r : RcEntry} (h : IsEntry line r) : rowWords line ≠ [] ∧ parseCells (rowWords line) = .ok (fullCells r) := by
  obtain ⟨body, comment, a, b, c, d, rfl, hc, hb, -, hw, h1, h2, h3, h4⟩ := h
  have : rowWords (body ++ comment) = [a, b, c, d, r.flag] := by
    unfold rowWords
    rw [takeWhile_comment body comment hc hb]
    exact Igrf.tokens_words _ _ hw
  rw [this]
  refine ⟨by simp, ?_⟩
  simp [parseCells, floatCell_of h1, floatCell_of h2, floatCell_of h3, floatCell_of h4, fullCells, bind, Except.bind, pure, Except.pure]

/-- The beginning of the line of an entry: no row, an error, or a cut row. -/
theorem entry_cut {line w : List Char} {r : RcEntry} (h : IsEntry line r) (hw : w <+: line) :
    rowWords w = [] ∨ (rowWords w ≠ [] ∧ ((∃ e, parseCells (rowWords w) = .error e) ∨ ∃ cells, CutEntry cells r ∧ parseCells (rowWords w) = .ok cells)) := by
  have hfull := cells_entry h
  obtain ⟨body, comment, a, b, c, d, rfl, hc, hb, -, hwords, h1, h2, h3, h4⟩ := h
  rcases List.prefix_or_prefix_of_prefix hw (List.prefix_append body comment) with hp | ⟨t, rfl⟩
  · have hrw : rowWords w = tokensGo w [] := by
      unfold rowWords
      have := takeWhile_comment w [] (.inl rfl) (fun hm => hb (hp.subset hm))
      rw [List.append_nil] at this
      rw [this]
    by_cases h0 : rowWords w = []
    · exact .inl h0
    · right
      refine ⟨h0, ?_⟩
      rw [hrw] at h0 ⊢
      exact cells_cut h1 h2 h3 h4 (tokens_cut hwords hp) h0
  · right
    have ht : t <+: comment := (List.prefix_append_right_inj body).1 hw
    have hrw : rowWords (body ++ t) = rowWords (body ++ comment) := by
      unfold rowWords
      rw [takeWhile_comment body comment hc hb, takeWhile_comment body t _ hb]
      rcases hc with rfl | ⟨s, rfl⟩
      · exact .inl (List.prefix_nil.1 ht)
      · cases t with
        | nil => exact .inl rfl
        | cons x t =>
          rw [List.cons_prefix_cons] at ht
          exact .inr ⟨t, by rw [ht.1]⟩
    rw [hrw]
    exact ⟨hfull.1, .inr ⟨_, .inr (.inr (.inr (.inr ⟨r.flag, List.prefix_refl _, rfl⟩))), hfull.2⟩⟩

theorem rowWords_nil : rowWords [] = [] := rfl

theorem rowWords_comment (t : List Char) : rowWords ('#' :: t) = [] := by
  unfold rowWords
  rw [List.takeWhile_cons, if_neg (by simp)]
  rfl

/-- The rows of lines. -/
noncomputable def rowsOf (ls : List (List Char)) : Except Error (List Cells) := ((ls.map rowWords).filter (· ≠ [])).mapM parseCells

theorem rowsOf_skip {l : List Char} (h : rowWords l = []) (ls : List (List Char)) : rowsOf (l :: ls) = rowsOf ls := by
  unfold rowsOf
  rw [List.map_cons, h, List.filter_cons_of_neg (by simp)]

theorem rowsOf_cons {l : List Char} (h : rowWords l ≠ []) (ls : List (List Char)) : rowsOf (l :: ls) = (do
    let c ← parseCells (rowWords l)
    let cs ← rowsOf ls
    return c :: cs) := by
  unfold rowsOf
  rw [List.map_cons, List.filter_cons_of_pos (by simpa using h), List.mapM_cons]

theorem rowsOf_nil : rowsOf [] = .ok [] := rfl

/-- What a list of rows of a cut text is. -/
def Outcome (x : Except Error (List Cells)) (rs : List RcEntry) : Prop :=
  (∃ e, x = .error e) ∨ ∃ k, x = .ok ((rs.take k).map fullCells) ∨ ∃ r c, rs[k]? = some r ∧ CutEntry c r ∧ x = .ok ((rs.take k).map fullCells ++ [c])

theorem Outcome.cons {x : Except Error (List Cells)} {rs : List RcEntry} (h : Outcome x rs) (r : RcEntry) : Outcome (do
    let c ← (Except.ok (fullCells r) : Except Error Cells)
    let cs ← x
    return c :: cs) (r :: rs) := by
  rcases h with ⟨e, rfl⟩ | ⟨k, rfl | ⟨r', c, h1, h2, rfl⟩⟩
  · exact .inl ⟨e, rfl⟩
  · exact .inr ⟨k + 1, .inl rfl⟩
  · exact .inr ⟨k + 1, .inr ⟨r', c, by simpa using h1, h2, rfl⟩⟩

theorem rows_outcome {ls : List (List Char)} {rs : List RcEntry} (h : RcLines ls rs) : ∀ a, CutList a ls → Outcome (rowsOf a) rs := by
  have hnil : ∀ rs, Outcome (.ok []) rs := fun rs => .inr ⟨0, .inl rfl⟩
  induction h with
  | nil =>
    intro a ha
    rw [cutList_nil ha]
    exact hnil _
  | comment t ls rs hrest ih =>
    intro a ha
    rcases cutList_cases ha with rfl | ⟨w, hw, rfl⟩ | ⟨a2, rfl, hb⟩
    · exact hnil _
    · have : rowWords w = [] := by
        cases w with
        | nil => rfl
        | cons c w =>
          rw [List.cons_prefix_cons] at hw
          rw [hw.1]
          exact rowWords_comment w
      rw [rowsOf_skip this]
      exact hnil _
    · rw [rowsOf_skip (rowWords_comment t)]
      exact ih a2 hb
  | blank line ls rs h1 _ _ ih =>
    intro a ha
    rcases cutList_cases ha with rfl | ⟨w, hw, rfl⟩ | ⟨a2, rfl, hb⟩
    · exact hnil _
    · rw [rowsOf_skip (rowWords_blank fun c hc => h1 c (hw.subset hc))]
      exact hnil _
    · rw [rowsOf_skip (rowWords_blank h1)]
      exact ih a2 hb
  | entry line ls r rs h1 _ ih =>
    intro a ha
    rcases cutList_cases ha with rfl | ⟨w, hw, rfl⟩ | ⟨a2, rfl, hb⟩
    · exact hnil _
    · rcases entry_cut h1 hw with h | ⟨h, ⟨e, he⟩ | ⟨cells, hc, he⟩⟩
      · rw [rowsOf_skip h]
        exact hnil _
      · rw [rowsOf_cons h, he]
        exact .inl ⟨e, rfl⟩
      · rw [rowsOf_cons h, he]
        exact .inr ⟨0, .inr ⟨r, cells, rfl, hc, rfl⟩⟩
    · obtain ⟨h2, h3⟩ := cells_entry h1
      rw [rowsOf_cons h2, h3]
      exact (ih a2 hb).cons r

/-- **C84** (text). Of the beginning of a file that ends at an arbitrary character, the reader makes an exception or the rows of the first entries, possibly followed
by one row of the next entry, in which the last cell may be wrong and the cells after it are NaN. -/
theorem C84_text (content : List Char) (rs : List RcEntry) (h : RcText content rs) (p : List Char) (hp : p <+: content) :
    (∃ e, readCells p = .error e) ∨ ∃ k, readCells p = .ok ((rs.take k).map fullCells) ∨
      ∃ r c, rs[k]? = some r ∧ CutEntry c r ∧ readCells p = .ok ((rs.take k).map fullCells ++ [c]) := by
  obtain ⟨ls, rfl, hl, h⟩ := h
  have hcut : CutList (lines p) ls := by
    obtain ⟨q, hq⟩ := hp
    have := linesGo_prefix p q []
    rw [hq] at this
    have e := Igrf.lines_text ls hl
    unfold lines at e ⊢
    rwa [e] at this
  exact rows_outcome h _ hcut

theorem rowsOf_full {ls : List (List Char)} {rs : List RcEntry} (h : RcLines ls rs) (a : List (List Char)) : rowsOf (ls ++ a) = (do
    let cs ← rowsOf a
    return rs.map fullCells ++ cs) := by
  induction h with
  | nil => cases h : rowsOf a <;> simp [h, bind, Except.bind, pure, Except.pure]
  | comment t ls rs _ ih =>
    rw [List.cons_append, rowsOf_skip (rowWords_comment t)]
    exact ih
  | blank line ls rs h1 _ _ ih =>
    rw [List.cons_append, rowsOf_skip (rowWords_blank h1)]
    exact ih
  | entry line ls r rs h1 _ ih =>
    obtain ⟨h2, h3⟩ := cells_entry h1
    rw [List.cons_append, rowsOf_cons h2, h3, ih]
    cases h : rowsOf a <;> simp [bind, Except.bind, pure, Except.pure]

/-- **C84** (complete file): no cell is missing. -/
theorem C84_complete (content : List Char) (rs : List RcEntry) (h : RcText content rs) : readCells content = .ok (rs.map fullCells) := by
  obtain ⟨ls, rfl, hl, h⟩ := h
  have := rowsOf_full h []
  rw [List.append_nil, rowsOf_nil] at this
  unfold readCells
  rw [Igrf.lines_text ls hl]
  rw [rowsOf] at this
  rw [this]
  simp [bind, Except.bind, pure, Except.pure]

theorem linesGo_last (w : List Char) (hne : w ≠ []) (h : '\n' ∉ w) : linesGo w [] = [w] := by
  have key : ∀ (s acc : List Char), '\n' ∉ s → acc.reverse ++ s ≠ [] → linesGo s acc = [acc.reverse ++ s] := by
    intro s
    induction s with
    | nil =>
      intro acc _ h0
      have : acc ≠ [] := by
        rintro rfl
        exact h0 rfl
      simp only [linesGo, if_neg this, List.append_nil]
    | cons c s ih =>
      intro acc hm h0
      rw [List.mem_cons, not_or] at hm
      rw [linesGo, if_neg (Ne.symm hm.1), ih (c :: acc) hm.2 (by simp)]
      simp
  exact key w [] h (by simpa using hne)

/-- **C84** (a finding). A file that ends within a time, where a number is left, is accepted; the last row has this number as time and only NaN else. -/
theorem C84_time (ls : List (List Char)) (rs : List RcEntry) (w : List Char) (x : ℝ) (hl : ∀ l ∈ ls, '\n' ∉ l) (h : RcLines ls rs)
    (hw : Denotes w x) (hs : ∀ c ∈ w, isSpace c = false) (hc : '#' ∉ w) :
    readCells (ls.flatMap (fun l => l ++ ['\n']) ++ w) = .ok (rs.map fullCells ++ [⟨some x, none, none, none, none⟩]) := by
  have hnw : '\n' ∉ w := fun hm => by simpa [isSpace] using hs _ hm
  have hne : w ≠ [] := by
    rintro rfl
    have h1 := Shc.parseNum_of (K := ℝ) hw
    have h2 : parseNum (K := ℝ) [] = none := rfl
    rw [h1] at h2
    cases h2
  have hlines : lines (ls.flatMap (fun l => l ++ ['\n']) ++ w) = ls ++ [w] := by
    unfold lines
    clear h
    induction ls with
    | nil => 
      rw [List.flatMap_nil, List.nil_append, List.nil_append]
      exact linesGo_last w hne hnw
    | cons l ls ih =>
      rw [List.flatMap_cons, List.append_assoc, List.append_assoc, List.singleton_append, Shc.linesGo_line l _ _ (hl l List.mem_cons_self),
        ih (fun x hx => hl x (List.mem_cons_of_mem _ hx))]
      simp
  have hrw : rowWords w = [w] := by
    unfold rowWords
    have := takeWhile_comment w [] (.inl rfl) hc
    rw [List.append_nil] at this
    rw [this, Shc.tokensGo_token_end w ⟨hne, hs⟩]
  have := rowsOf_full h [w]
  rw [rowsOf_cons (by rw [hrw]; simp), hrw, rowsOf_nil] at this
  unfold readCells
  rw [hlines]
  rw [rowsOf] at this
  rw [this]
  simp [parseCells, floatCell_of hw, floatCell_none, bind, Except.bind, pure, Except.pure]

/-! ### Interpolation with a point too many -/

/-- The points, sorted by time, where one point is added after sorted ones. -/
theorem sort_append (l : List (ℝ × Option ℝ)) (h : l.Pairwise fun a b => a.1 < b.1) (a : ℝ × Option ℝ) :
    (l ++ [a]).insertionSort (fun a b => a.1 ≤ b.1) = l.filter (fun b => decide (b.1 ≤ a.1)) ++ a :: l.filter (fun b => decide (a.1 < b.1)) := by
  induction l with
  | nil => rfl
  | cons b l ih =>
    rw [List.pairwise_cons] at h
    rw [List.cons_append, List.insertionSort_cons, ih h.2]
    by_cases hb : b.1 ≤ a.1
    · rw [List.filter_cons_of_pos (by simpa using hb), List.filter_cons_of_neg (by simpa using hb), List.cons_append]
      cases hf : l.filter (fun b => decide (b.1 ≤ a.1)) with
      | nil => simp only [List.nil_append, List.orderedInsert, if_pos hb]
      | cons c m =>
        have hc : c ∈ l := List.mem_of_mem_filter (hf ▸ List.mem_cons_self)
        simp only [List.cons_append, List.orderedInsert, if_pos (h.1 c hc).le]
    · have hnone : l.filter (fun b => decide (b.1 ≤ a.1)) = [] := by
        rw [List.filter_eq_nil_iff]
        intro c hc
        have := h.1 c hc
        simp only [decide_eq_true_eq]
        intro h'
        exact hb (by linarith)
      have hall : l.filter (fun b => decide (a.1 < b.1)) = l := by
        rw [List.filter_eq_self]
        intro c hc
        have := h.1 c hc
        simp only [decide_eq_true_eq]
        linarith [not_le.1 hb]
      rw [hnone, hall, List.nil_append, List.filter_cons_of_neg (by simpa using hb), hnone, List.nil_append,
        List.filter_cons_of_pos (by simpa using hb), hall, List.orderedInsert, if_neg hb]
      congr 1
      cases l with
      | nil => rfl
      | cons c l => rw [List.orderedInsert, if_pos (h.1 c List.mem_cons_self).le]

theorem filter_before {l : List (ℝ × Option ℝ)} {x : ℝ} (h : ∀ q ∈ l, q.1 ≤ x) :
    l.filter (fun b => decide (b.1 ≤ x)) = l ∧ l.filter (fun b => decide (x < b.1)) = [] := by
  constructor
  · rw [List.filter_eq_self]
    intro q hq
    simpa using h q hq
  · rw [List.filter_eq_nil_iff]
    intro q hq
    simpa using h q hq

theorem filter_after {l : List (ℝ × Option ℝ)} {x : ℝ} (h : ∀ q ∈ l, ¬ q.1 ≤ x) :
    l.filter (fun b => decide (b.1 ≤ x)) = [] ∧ l.filter (fun b => decide (x < b.1)) = l := by
  constructor
  · rw [List.filter_eq_nil_iff]
    intro q hq
    simpa using h q hq
  · rw [List.filter_eq_self]
    intro q hq
    simpa using h q hq

/-- Interpolation between two neighbours. -/
theorem npInterp_segment (A B : List (ℝ × Option ℝ)) (x0 x1 : ℝ) (y0 y1 : Option ℝ) (h : (A ++ (x0, y0) :: (x1, y1) :: B).Pairwise fun a b => a.1 ≤ b.1) (t : ℝ)
    (h0 : x0 < t) (h1 : t < x1) :
    npInterp (A ++ (x0, y0) :: (x1, y1) :: B) t = segment x0 x1 y0 y1 t := by
  induction A with
  | nil =>
    rw [List.nil_append, npInterp, if_neg (not_le.2 h1), if_neg h0.ne]
  | cons a A ih =>
    rw [List.cons_append, List.pairwise_cons] at h
    obtain ⟨xa, ya⟩ := a
    cases A with
    | nil =>
      rw [List.cons_append, List.nil_append, npInterp, if_pos h0.le]
      exact ih h.2
    | cons b A =>
      obtain ⟨xb, yb⟩ := b
      rw [List.cons_append, List.cons_append, npInterp, if_pos]
      · exact ih h.2
      · have := (List.pairwise_cons.1 h.2).1 (x0, y0) (by simp)
        simp only at this
        linarith

/-- Interpolation at a point that is alone at its time. -/
theorem npInterp_point (A B : List (ℝ × Option ℝ)) (x0 : ℝ) (y0 : Option ℝ) (h : (A ++ (x0, y0) :: B).Pairwise fun a b => a.1 ≤ b.1)
    (hB : ∀ b ∈ B, x0 < b.1) : npInterp (A ++ (x0, y0) :: B) x0 = y0 := by
  induction A with
  | nil =>
    cases B with
    | nil => rfl
    | cons b B =>
      obtain ⟨xb, yb⟩ := b
      rw [List.nil_append, npInterp, if_neg (not_le.2 (hB (xb, yb) List.mem_cons_self)), if_pos rfl]
  | cons a A ih =>
    rw [List.cons_append, List.pairwise_cons] at h
    obtain ⟨xa, ya⟩ := a
    cases A with
    | nil =>
      rw [List.cons_append, List.nil_append, npInterp, if_pos le_rfl]
      exact ih h.2
    | cons b A =>
      obtain ⟨xb, yb⟩ := b
      rw [List.cons_append, List.cons_append, npInterp, if_pos]
      · exact ih h.2
      · exact (List.pairwise_cons.1 h.2).1 (x0, y0) (by simp)

/-- Inside of the bounds, on points that a sort leaves alone. -/
theorem rcAt_of {points s : List (ℝ × Option ℝ)} (hs : points.insertionSort (fun a b => a.1 ≤ b.1) = s) (t : ℝ) (lo hi : ℝ × Option ℝ)
    (h1 : s.head? = some lo) (h2 : s.getLast? = some hi) (h3 : lo.1 ≤ t) (h4 : t ≤ hi.1) : rcAt points t = .ok (npInterp s t) := by
  unfold rcAt
  simp only
  rw [hs, h1, h2]
  simp only
  rw [if_neg (by rintro (h | h) <;> linarith)]

theorem head_le {s : List (ℝ × Option ℝ)} (h : s.Pairwise fun a b => a.1 ≤ b.1) {p : ℝ × Option ℝ} (hp : p ∈ s) : ∃ lo, s.head? = some lo ∧ lo.1 ≤ p.1 := by
  cases s with
  | nil => cases hp
  | cons a s =>
    refine ⟨a, rfl, ?_⟩
    rcases List.mem_cons.1 hp with rfl | hp
    · exact le_rfl
    · exact (List.pairwise_cons.1 h).1 p hp

theorem le_last {s : List (ℝ × Option ℝ)} (h : s.Pairwise fun a b => a.1 ≤ b.1) {p : ℝ × Option ℝ} (hp : p ∈ s) : ∃ hi, s.getLast? = some hi ∧ p.1 ≤ hi.1 := by
  have hne : s ≠ [] := List.ne_nil_of_mem hp
  refine ⟨s.getLast hne, List.getLast?_eq_some_getLast hne, ?_⟩
  obtain ⟨i, hi, rfl⟩ := List.getElem_of_mem hp
  rw [List.getLast_eq_getElem]
  by_cases hc : i = s.length - 1
  · subst hc; exact le_rfl
  · exact List.pairwise_iff_getElem.1 h i (s.length - 1) hi (by omega) (by omega)

theorem sorted_pairwise (points : List (ℝ × Option ℝ)) : (points.insertionSort fun a b => a.1 ≤ b.1).Pairwise fun a b => a.1 ≤ b.1 := by
  have : Std.Total (fun a b : ℝ × Option ℝ => a.1 ≤ b.1) := ⟨fun a b => le_total a.1 b.1⟩
  have : IsTrans (ℝ × Option ℝ) (fun a b => a.1 ≤ b.1) := ⟨fun a b c h1 h2 => le_trans h1 h2⟩
  exact List.pairwise_insertionSort _ _

/-- The value at a time between two neighbours of the sorted points. -/
theorem rcAt_segment {points A B : List (ℝ × Option ℝ)} {x0 x1 : ℝ} {y0 y1 : Option ℝ} (hs : points.insertionSort (fun a b => a.1 ≤ b.1) = A ++ (x0, y0) :: (x1, y1) :: B) (t : ℝ)
    (h0 : x0 < t) (h1 : t < x1) : rcAt points t = .ok (segment x0 x1 y0 y1 t) := by
  have hp := sorted_pairwise points
  rw [hs] at hp
  obtain ⟨lo, h2, h3⟩ := head_le hp (p := (x0, y0)) (by simp)
  obtain ⟨hi, h4, h5⟩ := le_last hp (p := (x1, y1)) (by simp)
  simp only at h3 h5
  rw [rcAt_of hs t lo hi h2 h4 (by linarith) (by linarith), npInterp_segment A B x0 x1 y0 y1 hp t h0 h1]

theorem rcAt_point {points A B : List (ℝ × Option ℝ)} {x0 : ℝ} {y0 : Option ℝ} (hs : points.insertionSort (fun a b => a.1 ≤ b.1) = A ++ (x0, y0) :: B)
    (hB : ∀ b ∈ B, x0 < b.1) : rcAt points x0 = .ok y0 := by
  have hp := sorted_pairwise points
  rw [hs] at hp
  obtain ⟨lo, h2, h3⟩ := head_le hp (p := (x0, y0)) (by simp)
  obtain ⟨hi, h4, h5⟩ := le_last hp (p := (x0, y0)) (by simp)
  rw [rcAt_of hs x0 lo hi h2 h4 h3 h5, npInterp_point A B x0 y0 hp hB]

/-- **C84** (the other times). A further point (a wrong time, with any value or NaN) after points in ascending order does not change the interpolation between two
neighbouring times, if it is outside of these. -/
theorem C84_kept (A B : List (ℝ × Option ℝ)) (t0 a t1 b : ℝ) (h : (A ++ (t0, some a) :: (t1, some b) :: B).Pairwise fun p q => p.1 < q.1) (x : ℝ) (v : Option ℝ)
    (hx : x < t0 ∨ t1 < x) (t : ℝ) (h0 : t0 ≤ t) (h1 : t ≤ t1) :
    rcAt (A ++ (t0, some a) :: (t1, some b) :: B ++ [(x, v)]) t = .ok (some (a + (b - a) * ((t - t0) / (t1 - t0)))) := by
  have hsort := sort_append _ h (x, v)
  obtain ⟨hA, hB, hAB⟩ := List.pairwise_append.1 h
  rw [List.pairwise_cons, List.pairwise_cons] at hB
  have h01 : t0 < t1 := hB.1 (t1, some b) (by simp)
  obtain ⟨A', B', hs, hB'⟩ : ∃ A' B', (A ++ (t0, some a) :: (t1, some b) :: B ++ [(x, v)]).insertionSort (fun a b => a.1 ≤ b.1) =
      A' ++ (t0, some a) :: (t1, some b) :: B' ∧ ∀ q ∈ B', t1 < q.1 := by
    rw [hsort]
    simp only
    rcases hx with hx | hx
    · refine ⟨A.filter (fun q => decide (q.1 ≤ x)) ++ (x, v) :: A.filter (fun q => decide (x < q.1)), B, ?_, fun q hq => hB.2.1 q hq⟩
      have hb1 : ∀ q ∈ B, ¬ q.1 ≤ x := fun q hq => by have := hB.2.1 q hq; simp only at this; linarith
      rw [List.filter_append, List.filter_append, List.filter_cons_of_neg (by simpa using hx), List.filter_cons_of_neg (by simp; linarith),
        List.filter_cons_of_pos (by simpa using hx), List.filter_cons_of_pos (by simp; linarith),
        (filter_after hb1).1, (filter_after hb1).2]
      simp
    · refine ⟨A, B.filter (fun q => decide (q.1 ≤ x)) ++ (x, v) :: B.filter (fun q => decide (x < q.1)), ?_, ?_⟩
      · have ha1 : ∀ q ∈ A, q.1 ≤ x := fun q hq => by have := hAB q hq (t0, some a) (by simp); simp only at this; linarith
        rw [List.filter_append, List.filter_append, List.filter_cons_of_pos (by simp; linarith), List.filter_cons_of_pos (by simp; linarith),
          List.filter_cons_of_neg (by simp; linarith), List.filter_cons_of_neg (by simp; linarith),
          (filter_before ha1).1, (filter_before ha1).2]
        simp
      · intro q hq
        rcases List.mem_append.1 hq with hq | hq
        · exact hB.2.1 q (List.mem_of_mem_filter hq)
        · rcases List.mem_cons.1 hq with rfl | hq
          · exact hx
          · exact hB.2.1 q (List.mem_of_mem_filter hq)
  rcases h0.lt_or_eq with h0 | rfl
  · rcases h1.lt_or_eq with h1 | rfl
    · rw [rcAt_segment hs t h0 h1, segment]
      congr 2
      ring
    · have : A' ++ (t0, some a) :: (t, some b) :: B' = (A' ++ [(t0, some a)]) ++ (t, some b) :: B' := by simp
      rw [rcAt_point (hs.trans this) hB', div_self (by linarith)]
      congr 2
      ring
  · rw [rcAt_point hs (fun q hq => by
      rcases List.mem_cons.1 hq with rfl | hq
      · exact h01
      · exact h01.trans (hB' q hq)), sub_self, zero_div]
    congr 2
    ring

/-- **C84** (a finding). A further point without value between two neighbouring times makes the index NaN everywhere between these. -/
theorem C84_lost (A B : List (ℝ × Option ℝ)) (t0 a t1 b : ℝ) (h : (A ++ (t0, some a) :: (t1, some b) :: B).Pairwise fun p q => p.1 < q.1) (x : ℝ)
    (hx0 : t0 < x) (hx1 : x < t1) (t : ℝ) (h0 : t0 < t) (h1 : t < t1) :
    rcAt (A ++ (t0, some a) :: (t1, some b) :: B ++ [(x, none)]) t = .ok none := by
  have hsort := sort_append _ h (x, none)
  obtain ⟨hA, hB, hAB⟩ := List.pairwise_append.1 h
  rw [List.pairwise_cons, List.pairwise_cons] at hB
  have ha1 : ∀ q ∈ A, q.1 ≤ x := fun q hq => by have := hAB q hq (t0, some a) (by simp); simp only at this; linarith
  have hb1 : ∀ q ∈ B, ¬ q.1 ≤ x := fun q hq => by have := hB.2.1 q hq; simp only at this; linarith
  have hs : (A ++ (t0, some a) :: (t1, some b) :: B ++ [(x, none)]).insertionSort (fun a b => a.1 ≤ b.1) =
      A ++ (t0, some a) :: (x, none) :: (t1, some b) :: B := by
    rw [hsort]
    simp only
    rw [List.filter_append, List.filter_append, List.filter_cons_of_pos (by simp; linarith), List.filter_cons_of_neg (by simp; linarith),
      List.filter_cons_of_neg (by simp; linarith), List.filter_cons_of_pos (by simp; linarith),
      (filter_before ha1).1, (filter_before ha1).2,
      (filter_after hb1).1, (filter_after hb1).2]
    simp
  rcases lt_trichotomy t x with hlt | rfl | hgt
  · rw [rcAt_segment hs t h0 hlt]; rfl
  · have : A ++ (t0, some a) :: (t, none) :: (t1, some b) :: B = (A ++ [(t0, some a)]) ++ (t, none) :: (t1, some b) :: B := by simp
    exact rcAt_point (hs.trans this) (fun q hq => by
      rcases List.mem_cons.1 hq with rfl | hq
      · exact h1
      · exact h1.trans (hB.2.1 q hq))
  · have : A ++ (t0, some a) :: (x, none) :: (t1, some b) :: B = (A ++ [(t0, some a)]) ++ (x, none) :: (t1, some b) :: B := by simp
    rw [rcAt_segment (hs.trans this) t hgt h1]; rfl

/-- **C84** (a finding). If the value of the last row is missing, the index at times up to this row is NaN; without the row these times are refused. -/
theorem C84_end (A : List (ℝ × Option ℝ)) (t0 a : ℝ) (h : (A ++ [(t0, some a)]).Pairwise fun p q => p.1 < q.1) (x : ℝ) (t : ℝ) (h0 : t0 < t) (h1 : t ≤ x) :
    rcAt (A ++ [(t0, some a)] ++ [(x, none)]) t = .ok none ∧ rcAt (A ++ [(t0, some a)]) t = .error .valueError := by
  obtain ⟨hA, hB, hAB⟩ := List.pairwise_append.1 h
  have ha1 : ∀ q ∈ A, q.1 ≤ x := fun q hq => by have := hAB q hq (t0, some a) (by simp); simp only at this; linarith
  have hs : (A ++ [(t0, some a)] ++ [(x, none)]).insertionSort (fun a b => a.1 ≤ b.1) = A ++ (t0, some a) :: (x, none) :: [] := by
    rw [sort_append _ h (x, none)]
    simp only
    rw [List.filter_append, List.filter_append, List.filter_cons_of_pos (by simp; linarith), List.filter_cons_of_neg (by simp; linarith),
      (filter_before ha1).1, (filter_before ha1).2]
    simp
  constructor
  · rcases h1.lt_or_eq with h1 | rfl
    · rw [rcAt_segment hs t h0 h1]; rfl
    · have : A ++ (t0, some a) :: (t, none) :: [] = (A ++ [(t0, some a)]) ++ (t, none) :: [] := by simp
      exact rcAt_point (hs.trans this) (by simp)
  · have hs : (A ++ [(t0, some a)]).insertionSort (fun a b => a.1 ≤ b.1) = A ++ [(t0, some a)] := by
      rw [sort_append A hA (t0, some a)]
      simp only
      have ha2 : ∀ q ∈ A, q.1 ≤ t0 := fun q hq => (hAB q hq (t0, some a) (by simp)).le
      rw [(filter_before ha2).1, (filter_before ha2).2]
    unfold rcAt
    simp only
    rw [hs, List.getLast?_append, List.getLast?_singleton]
    cases hh : (A ++ [(t0, some a)]).head? with
    | none => rfl
    | some lo =>
      simp only [Option.some_or]
      rw [if_pos (.inr h0)]

/-! ### Crash of `save_RC_h5file` -/

theorem crashed_datasets (fs : FS) (path : String) (t : Table) (k : ℕ) :
    ∃ x, crashedH5 fs path t k path = some (.h5 ([("time", .floats t.time), ("RC", .floats t.rc), ("RC_e", .floats t.rcE), ("RC_i", .floats t.rcI), ("flag", x)].take k)) ∧
      ∀ p, p ≠ path → crashedH5 fs path t k p = fs p := by
  have h1 : ¬ ("time" = "flag") := by decide
  have h2 : ¬ ("RC" = "flag") := by decide
  have h3 : ¬ ("RC_e" = "flag") := by decide
  have h4 : ¬ ("RC_i" = "flag") := by decide
  by_cases hk : 5 ≤ k
  · obtain ⟨fs', e1, e2, e3⟩ := fold_columns fs path t
    have hc : crashedH5 fs path t k = fs' := by
      unfold crashedH5
      rw [List.take_of_length_le (by simpa [columns] using hk), e1]
    rw [hc]
    exact ⟨_, by rw [e3, List.take_of_length_le (by simpa using hk)], e2⟩
  · refine ⟨.bytes [], ?_⟩
    have : k = 0 ∨ k = 1 ∨ k = 2 ∨ k = 3 ∨ k = 4 := by omega
    rcases this with rfl | rfl | rfl | rfl | rfl
    all_goals
      simp only [crashedH5, columns, List.take_succ_cons, List.take_zero, List.foldl_cons, List.foldl_nil, writeColumn, Bool.false_eq_true, if_false, h1, h2, h3, h4]
      refine ⟨?_, ?_⟩
      · simp only [addDataset, createH5, if_true, List.nil_append, List.cons_append]
      · intro p hp
        simp only [addDataset, createH5, if_neg hp]

/-- **C84** (HDF5). After a crash of `save_RC_h5file` the RC-index of the file is, for each source, that of the complete file, or `synth_coeffs_sm` raises
KeyError; the other files are unchanged. -/
theorem C84_h5 (fs : FS) (path : String) (t : Table) (k : ℕ) (source : String) (hs : source = "external" ∨ source = "internal") :
    (h5Columns (crashedH5 fs path t k) path source = .error .keyError ∨
      h5Columns (crashedH5 fs path t k) path source = .ok (t.time, if source = "external" then t.rcE else t.rcI)) ∧
    (4 ≤ k → h5Columns (crashedH5 fs path t k) path source = .ok (t.time, if source = "external" then t.rcE else t.rcI)) ∧
    ∀ p, p ≠ path → crashedH5 fs path t k p = fs p := by
  have hcols : String.ofList ("RC_".toList ++ "external".toList.take 1) = "RC_e" ∧ String.ofList ("RC_".toList ++ "internal".toList.take 1) = "RC_i" := by
    decide
  have hne : ¬ ("internal" = "external") := by decide
  obtain ⟨x, h1, h2⟩ := crashed_datasets fs path t k
  have hk : k = 0 ∨ k = 1 ∨ k = 2 ∨ k = 3 ∨ k = 4 ∨ 5 ≤ k := by omega
  have h5 : ∀ n, 5 ≤ n → [("time", Dataset.floats t.time), ("RC", .floats t.rc), ("RC_e", .floats t.rcE), ("RC_i", .floats t.rcI), ("flag", x)].take n =
      [("time", .floats t.time), ("RC", .floats t.rc), ("RC_e", .floats t.rcE), ("RC_i", .floats t.rcI), ("flag", x)] := by
    intro n hn
    exact List.take_of_length_le (by simpa using hn)
  refine ⟨?_, ?_, h2⟩
  · unfold h5Columns
    rw [h1]
    rcases hs with rfl | rfl
    · rw [if_pos rfl, hcols.1]
      rcases hk with rfl | rfl | rfl | rfl | rfl | hk
      · exact .inl rfl
      · exact .inl rfl
      · exact .inl rfl
      · exact .inr rfl
      · exact .inr rfl
      · rw [h5 k hk]; exact .inr rfl
    · rw [if_neg hne, hcols.2]
      rcases hk with rfl | rfl | rfl | rfl | rfl | hk
      · exact .inl rfl
      · exact .inl rfl
      · exact .inl rfl
      · exact .inl rfl
      · exact .inr rfl
      · rw [h5 k hk]; exact .inr rfl
  · intro h4
    unfold h5Columns
    rw [h1]
    rcases hs with rfl | rfl
    · rw [if_pos rfl, hcols.1]
      rcases hk with rfl | rfl | rfl | rfl | rfl | hk
      iterate 4 omega
      · rfl
      · rw [h5 k hk]; rfl
    · rw [if_neg hne, hcols.2]
      rcases hk with rfl | rfl | rfl | rfl | rfl | hk
      iterate 4 omega
      · rfl
      · rw [h5 k hk]; rfl

end ChaosMagPy.Rc
