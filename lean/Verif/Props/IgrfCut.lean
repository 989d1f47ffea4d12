import Verif.Props.Igrf
import Verif.Props.ShcCut
/-!
# C83: IGRF files that are cut short
-/
namespace ChaosMagPy.Igrf
open ChaosMagPy.Shc (lines linesGo isSpace tokensGo parseNum CutList CutNums tokensGo_prefix linesGo_prefix)
open ChaosMagPy.Spec ChaosMagPy.PPoly ChaosMagPy.BSpline

/-- The first rows, where of the last one only the beginning may be left, with a wrong last number. -/
def CutRows (rows' rows : List (List ℝ)) : Prop :=
  ∃ r, rows' = rows.take r ∨ ∃ row l, rows[r]? = some row ∧ CutNums l row ∧ l ≠ [] ∧ rows' = rows.take r ++ [l]

theorem CutRows.cons {rows' rows : List (List ℝ)} (x : List ℝ) (h : CutRows rows' rows) : CutRows (x :: rows') (x :: rows) := by
  obtain ⟨r, rfl | ⟨row, l, h1, h2, h3, rfl⟩⟩ := h
  · exact ⟨r + 1, .inl rfl⟩
  · exact ⟨r + 1, .inr ⟨row, l, by simpa using h1, h2, h3, rfl⟩⟩

/-- A cut list: empty, or only the beginning of the first item, or the first item and a cut rest. -/
theorem cutList_cases {a ls : List (List Char)} {l : List Char} (h : CutList a (l :: ls)) :
    a = [] ∨ (∃ w, w <+: l ∧ a = [w]) ∨ ∃ a2, a = l :: a2 ∧ CutList a2 ls := by
  obtain ⟨k, rfl | ⟨w', w, h1, h2, rfl⟩⟩ := h
  · cases k with
    | zero => exact .inl rfl
    | succ k => exact .inr (.inr ⟨_, rfl, k, .inl rfl⟩)
  · cases k with
    | zero =>
      right; left
      simp only [List.getElem?_cons_zero, Option.some.injEq] at h1
      exact ⟨w', h1 ▸ h2, rfl⟩
    | succ k =>
      right; right
      simp only [List.getElem?_cons_succ] at h1
      exact ⟨_, rfl, k, .inr ⟨w', w, h1, h2, rfl⟩⟩

theorem cutList_nil {a : List (List Char)} (h : CutList a []) : a = [] := by
  obtain ⟨k, rfl | ⟨w', w, h1, -, -⟩⟩ := h
  · simp
  · simp at h1

/-- The words of the beginning of a line. -/
theorem tokens_cut {l w : List Char} {ws : List (List Char)} (h : Words l ws) (hw : w <+: l) : CutList (tokensGo w []) ws := by
  obtain ⟨q, rfl⟩ := hw
  have := tokensGo_prefix w q []
  rwa [tokens_words ws _ h] at this

theorem cutList_length {a b : List (List Char)} (h : CutList a b) : a.length ≤ b.length := by
  obtain ⟨k, rfl | ⟨w', w, h1, h2, rfl⟩⟩ := h
  · rw [List.length_take]; omega
  · have hk : k < b.length := by
      by_contra hc
      rw [List.getElem?_eq_none (by omega)] at h1
      cases h1
    rw [List.length_append, List.length_take, List.length_singleton]; omega

/-- The beginning of a comment is a comment or has at most one word. -/
theorem remark_cut {l w : List Char} (h : IsRemark l) (hw : w <+: l) : skipped w = true ∨ (skipped w = false ∧ (tokensGo w []).length ≤ 1) := by
  cases hs : skipped w with
  | true => exact .inl rfl
  | false =>
    right
    refine ⟨rfl, ?_⟩
    obtain ⟨pre, rest, hp, h⟩ := h
    have key : ∀ r, l = pre ++ r → (∀ t, t <+: r → skipped (pre ++ t) = true ∨ ∀ c ∈ t, isSpace c = false) → (tokensGo w []).length ≤ 1 := by
      intro r hr ht
      rw [hr] at hw
      rcases List.prefix_or_prefix_of_prefix hw (List.prefix_append pre r) with h1 | ⟨t, rfl⟩
      · rw [tokens_words [] w (fun c hc => hp c (h1.subset hc))]
        simp
      · have htr : t <+: r := (List.prefix_append_right_inj pre).1 hw
        rcases ht t htr with h2 | h2
        · rw [h2] at hs; cases hs
        · rw [tokensGo_white _ _ hp]
          by_cases h0 : t = []
          · rw [h0]; simp [tokensGo]
          · rw [Shc.tokensGo_token_end t ⟨h0, h2⟩]
            simp
    rcases h with h | h
    · refine key _ h ?_
      intro t ht
      cases t with
      | nil => exact .inr (by simp)
      | cons c t =>
        rw [List.cons_prefix_cons] at ht
        left
        exact skipped_remark _ ⟨pre, t, hp, .inl (by rw [ht.1])⟩
    · refine key _ h ?_
      intro t ht
      rcases t with _ | ⟨c1, _ | ⟨c2, _ | ⟨c3, t⟩⟩⟩
      · exact .inr (by simp)
      · right
        rw [List.cons_prefix_cons] at ht
        intro c hc
        rw [List.mem_singleton] at hc
        rw [hc, ht.1]; rfl
      · right
        rw [List.cons_prefix_cons, List.cons_prefix_cons] at ht
        intro c hc
        simp only [List.mem_cons, List.not_mem_nil, or_false] at hc
        rcases hc with rfl | rfl
        · rw [ht.1]; rfl
        · rw [ht.2.1]; rfl
      · left
        rw [List.cons_prefix_cons, List.cons_prefix_cons, List.cons_prefix_cons] at ht
        exact skipped_remark _ ⟨pre, t, hp, .inr (by rw [ht.1, ht.2.1, ht.2.2.1])⟩

/-- The beginning of a row is no comment. -/
theorem row_cut_skipped {l w a : List Char} {ws : List (List Char)} (h : Words l (a :: ws)) (h1 : a.head? ≠ some '#') (h2 : ¬ (['c', '/', 's'] <+: a))
    (hw : w <+: l) : skipped w = false := by
  have hl := skipped_row l a ws h h1 h2
  rw [Bool.eq_false_iff]
  intro hs
  rw [Bool.eq_false_iff] at hl
  apply hl
  obtain ⟨q, rfl⟩ := hw
  have hd : ∀ p : List Char, p ≠ [] → p <+: w.dropWhile isSpace → p <+: (w ++ q).dropWhile isSpace := by
    intro p hp hpw
    have hne : w.dropWhile isSpace ≠ [] := by
      intro h0
      rw [h0] at hpw
      exact hp (List.prefix_nil.1 hpw)
    rw [List.dropWhile_append, if_neg (by simpa using hne)]
    exact hpw.trans (List.prefix_append _ _)
  unfold skipped at hs ⊢
  rw [Bool.or_eq_true, List.isPrefixOf_iff_prefix, List.isPrefixOf_iff_prefix] at hs ⊢
  rcases hs with hs | hs
  · exact .inl (hd _ (by simp) hs)
  · exact .inr (hd _ (by simp) hs)

theorem floats_inv {ws : List (List Char)} {xs : List ℝ} (h : floats ws = .ok xs) : List.Forall₂ Denotes ws xs := by
  unfold floats at h
  cases hm : ws.mapM (m := Option) (parseNum (K := ℝ)) with
  | none => rw [hm] at h; cases h
  | some ys =>
    rw [hm] at h
    injection h with h
    subst h
    induction ws generalizing ys with
    | nil =>
      rw [List.mapM_nil] at hm
      injection hm with hm
      rw [← hm]
      exact .nil
    | cons w ws ih =>
      rw [List.mapM_cons] at hm
      cases hw : parseNum (K := ℝ) w with
      | none => rw [hw] at hm; cases hm
      | some x =>
        rw [hw] at hm
        cases hr : ws.mapM (m := Option) (parseNum (K := ℝ)) with
        | none => rw [hr] at hm; cases hm
        | some zs =>
          rw [hr] at hm
          injection hm with hm
          rw [← hm]
          exact .cons (Shc.parseNum_sound hw) (ih zs hr)

theorem denotes_unique {ws : List (List Char)} {xs ys : List ℝ} (h1 : List.Forall₂ Denotes ws xs) (h2 : List.Forall₂ Denotes ws ys) : xs = ys := by
  have := (floats_ok ws xs h1).symm.trans (floats_ok ws ys h2)
  injection this

/-- The numbers of the beginning of a row. -/
theorem cutNums_words {ws ws' : List (List Char)} {xs xs' : List ℝ} (h : CutList ws' ws) (h1 : List.Forall₂ Denotes ws xs) (h2 : List.Forall₂ Denotes ws' xs') :
    CutNums xs' xs := by
  obtain ⟨k, rfl | ⟨w', w, hk, -, rfl⟩⟩ := h
  · exact ⟨k, .inl (denotes_unique h2 (List.forall₂_take k h1))⟩
  · have hk : k < ws.length := by
      by_contra hc
      rw [List.getElem?_eq_none (by omega)] at hk
      cases hk
    obtain ⟨as, bs, ha, hb, rfl⟩ : ∃ as bs, List.Forall₂ Denotes (ws.take k) as ∧ List.Forall₂ Denotes [w'] bs ∧ xs' = as ++ bs := by
      have hl := h2.length_eq
      rw [List.length_append] at hl
      refine ⟨xs'.take (ws.take k).length, xs'.drop (ws.take k).length, ?_, ?_, (List.take_append_drop _ _).symm⟩
      · have := List.forall₂_take (ws.take k).length h2
        rwa [List.take_left] at this
      · have := List.forall₂_drop (ws.take k).length h2
        rwa [List.drop_left] at this
    have e := denotes_unique ha (List.forall₂_take k h1)
    subst e
    cases hb with
    | cons hx ht =>
      cases ht
      exact ⟨k, .inr ⟨by rw [← h1.length_eq]; exact hk, _, rfl⟩⟩

theorem drop3_cut {a b c : List Char} {ws t : List (List Char)} (h : CutList t (a :: b :: c :: ws)) :
    t.length ≤ 3 ∨ ∃ ws', t = a :: b :: c :: ws' ∧ CutList ws' ws ∧ ws' ≠ [] := by
  rcases cutList_cases h with rfl | ⟨w, -, rfl⟩ | ⟨t1, rfl, h1⟩
  · exact .inl (by simp)
  · exact .inl (by simp)
  · rcases cutList_cases h1 with rfl | ⟨w, -, rfl⟩ | ⟨t2, rfl, h2⟩
    · exact .inl (by simp)
    · exact .inl (by simp)
    · rcases cutList_cases h2 with rfl | ⟨w, -, rfl⟩ | ⟨t3, rfl, h3⟩
      · exact .inl (by simp)
      · exact .inl (by simp)
      · by_cases h0 : t3 = []
        · subst h0; exact .inl (by simp)
        · exact .inr ⟨t3, rfl, h3, h0⟩

/-- A line with at most three words adds nothing. -/
theorem readLine_short (b data : List ℝ) (w : List Char) (hs : skipped w = false) (h : (tokensGo w []).length ≤ 3) :
    readLine { breaks := some b, data := data } w = .ok { breaks := some b, data := data } := by
  unfold readLine
  rw [hs]
  simp only [Bool.false_eq_true, if_false]
  rw [List.drop_eq_nil_of_le h, floats_ok [] [] List.Forall₂.nil]
  simp

theorem foldlM_single (s : State) (w : List Char) : [w].foldlM readLine s = readLine s w := by
  rw [List.foldlM_cons]
  cases readLine s w <;> rfl

/-- The rows of a cut text. -/
theorem rows_cut {ls : List (List Char)} {rows : List (List ℝ)} (h : Rows ls rows) : ∀ a : List (List Char), CutList a ls →
    (∀ b data, ∃ e, a.foldlM readLine { breaks := some b, data := data } = .error e) ∨
    ∃ a' rows', Rows a' rows' ∧ CutRows rows' rows ∧ (∀ l ∈ a', ∃ l0 ∈ ls, l <+: l0) ∧
      ∀ b data, a.foldlM readLine { breaks := some b, data := data } = a'.foldlM readLine { breaks := some b, data := data } := by
  have hempty : ∀ (rows : List (List ℝ)) (ls : List (List Char)) (a : List (List Char)), (∀ b data, a.foldlM readLine { breaks := some b, data := data } = .ok { breaks := some b, data := data }) →
      ∃ a' rows', Rows a' rows' ∧ CutRows rows' rows ∧ (∀ l ∈ a', ∃ l0 ∈ ls, l <+: l0) ∧
        ∀ b data, a.foldlM readLine { breaks := some b, data := data } = a'.foldlM readLine { breaks := some b, data := data } := by
    intro rows ls a ha
    refine ⟨[], [], .nil, ⟨0, .inl rfl⟩, by simp, fun b data => ?_⟩
    rw [ha]
    rfl
  induction h with
  | nil =>
    intro a ha
    rw [cutList_nil ha]
    exact .inr (hempty _ _ _ fun b data => rfl)
  | remark line ls rows hr hrest ih =>
    intro a ha
    rcases cutList_cases ha with rfl | ⟨w, hw, rfl⟩ | ⟨a2, rfl, hb⟩
    · exact .inr (hempty _ _ _ fun b data => rfl)
    · right
      refine hempty _ _ _ fun b data => ?_
      rw [foldlM_single]
      rcases remark_cut hr hw with h | ⟨h, h1⟩
      · unfold readLine; rw [if_pos h]
      · exact readLine_short b data w h (by omega)
    · have hl : ∀ b data, readLine { breaks := some b, data := data } line = .ok { breaks := some b, data := data } := by
        intro b data
        unfold readLine; rw [if_pos (skipped_remark _ hr)]
      rcases ih a2 hb with h | ⟨a', rows', h1, h2, h3, h4⟩
      · left
        intro b data
        obtain ⟨e, he⟩ := h b data
        refine ⟨e, ?_⟩
        rw [List.foldlM_cons, hl]
        exact he
      · right
        refine ⟨a', rows', h1, h2, fun l hl => ?_, fun b data => ?_⟩
        · obtain ⟨l0, h5, h6⟩ := h3 l hl
          exact ⟨l0, List.mem_cons_of_mem _ h5, h6⟩
        · rw [List.foldlM_cons, hl]
          exact h4 b data
  | blank line ls rows hr hrest ih =>
    intro a ha
    have hl : ∀ b data, readLine { breaks := some b, data := data } line = .ok { breaks := some b, data := data } := by
      intro b data
      exact readLine_short b data line (skipped_blank _ hr) (by rw [tokens_words [] line hr]; simp)
    rcases cutList_cases ha with rfl | ⟨w, hw, rfl⟩ | ⟨a2, rfl, hb⟩
    · exact .inr (hempty _ _ _ fun b data => rfl)
    · right
      refine hempty _ _ _ fun b data => ?_
      have hwb : Words w [] := fun c hc => hr c (hw.subset hc)
      rw [foldlM_single]
      exact readLine_short b data w (skipped_blank _ hwb) (by rw [tokens_words [] w hwb]; simp)
    · rcases ih a2 hb with h | ⟨a', rows', h1, h2, h3, h4⟩
      · left
        intro b data
        obtain ⟨e, he⟩ := h b data
        refine ⟨e, ?_⟩
        rw [List.foldlM_cons, hl]
        exact he
      · right
        refine ⟨a', rows', h1, h2, fun l hl => ?_, fun b data => ?_⟩
        · obtain ⟨l0, h5, h6⟩ := h3 l hl
          exact ⟨l0, List.mem_cons_of_mem _ h5, h6⟩
        · rw [List.foldlM_cons, hl]
          exact h4 b data
  | row line ls xs rows hr hrest ih =>
    intro a ha
    obtain ⟨a1, b1, c1, ws, hw1, h1, h2, hd⟩ := id hr
    rw [List.append_nil] at hw1
    rcases cutList_cases ha with rfl | ⟨w, hw, rfl⟩ | ⟨a2, rfl, hb⟩
    · exact .inr (hempty _ _ _ fun b data => rfl)
    · have hs := row_cut_skipped hw1 h1 h2 hw
      rcases drop3_cut (tokens_cut hw1 hw) with h3 | ⟨ws', h3, h4, h5⟩
      · right
        refine hempty _ _ _ fun b data => ?_
        rw [foldlM_single]
        exact readLine_short b data w hs h3
      · cases hf : floats ws' with
        | error e =>
          left
          intro b data
          refine ⟨e, ?_⟩
          rw [foldlM_single]
          unfold readLine
          rw [hs, h3]
          simp only [Bool.false_eq_true, if_false, List.drop_succ_cons, List.drop_zero, hf]
        | ok xs' =>
          right
          have hd' := floats_inv hf
          refine ⟨[w], [xs'], .row w [] xs' [] ⟨a1, b1, c1, ws', ?_, h1, h2, hd'⟩ .nil, ⟨0, .inr ⟨xs, xs', rfl, cutNums_words h4 hd hd', ?_, rfl⟩⟩, ?_, fun b data => rfl⟩
          · rw [List.append_nil, ← h3]
            exact Shc.words_tokensGo w [] (by simp)
          · rintro rfl
            cases hd'
            exact h5 rfl
          · intro l hl
            rw [List.mem_singleton] at hl
            exact ⟨line, List.mem_cons_self, hl ▸ hw⟩
    · have hl : ∀ b data, readLine { breaks := some b, data := data } line = .ok { breaks := some b, data := data ++ xs } := by
        intro b data
        unfold readLine
        rw [skipped_row _ _ _ hw1 h1 h2]
        simp only [Bool.false_eq_true, if_false, tokens_words _ line hw1]
        rw [List.drop_succ_cons, List.drop_succ_cons, List.drop_succ_cons, List.drop_zero, floats_ok ws xs hd]
      rcases ih a2 hb with h | ⟨a', rows', h3, h4, h5, h6⟩
      · left
        intro b data
        obtain ⟨e, he⟩ := h b (data ++ xs)
        refine ⟨e, ?_⟩
        rw [List.foldlM_cons, hl]
        exact he
      · right
        refine ⟨line :: a', xs :: rows', .row line a' xs rows' hr h3, h4.cons xs, fun l hl => ?_, fun b data => ?_⟩
        · rcases List.mem_cons.1 hl with rfl | hl
          · exact ⟨l, List.mem_cons_self, List.prefix_refl _⟩
          · obtain ⟨l0, h7, h8⟩ := h5 l hl
            exact ⟨l0, List.mem_cons_of_mem _ h7, h8⟩
        · rw [List.foldlM_cons, List.foldlM_cons, hl]
          exact h6 b (data ++ xs)

/-- The whole cut text. -/
theorem lines_cut {ls : List (List Char)} {years : List ℝ} {rows : List (List ℝ)} (h : IgrfLines ls years rows) (hne : years ≠ []) : ∀ a : List (List Char), CutList a ls →
    (∃ e, a.foldlM readLine { breaks := none, data := [] } = .error e) ∨
    (∃ s, a.foldlM readLine { breaks := none, data := [] } = .ok s ∧ s.data = []) ∨
    ∃ a' rows', IgrfLines a' years rows' ∧ CutRows rows' rows ∧ (∀ l ∈ a', ∃ l0 ∈ ls, l <+: l0) ∧
      a.foldlM readLine { breaks := none, data := [] } = a'.foldlM readLine { breaks := none, data := [] } := by
  have hone : ∀ w, (∃ e, [w].foldlM readLine { breaks := none, data := [] } = .error e) ∨
      (∃ s, [w].foldlM readLine { breaks := none, data := [] } = .ok s ∧ s.data = []) := by
    intro w
    rw [foldlM_single]
    unfold readLine
    simp only
    by_cases hs : skipped w = true
    · rw [if_pos hs]
      exact .inr ⟨_, rfl, rfl⟩
    · rw [if_neg hs]
      cases floats ((tokensGo w []).dropLast.drop 3) with
      | error e => exact .inl ⟨e, rfl⟩
      | ok xs =>
        cases hx : xs.getLast? with
        | none => simp only [hx]; exact .inl ⟨_, rfl⟩
        | some y => simp only [hx]; exact .inr ⟨_, rfl, rfl⟩
  induction h with
  | remark line ls years rows hr hrest ih =>
    intro a ha
    rcases cutList_cases ha with rfl | ⟨w, hw, rfl⟩ | ⟨a2, rfl, hb⟩
    · exact .inr (.inl ⟨_, rfl, rfl⟩)
    · rcases hone w with h | h
      · exact .inl h
      · exact .inr (.inl h)
    · have hl : readLine { breaks := none, data := [] } line = .ok { breaks := none, data := [] } := by
        unfold readLine; rw [if_pos (skipped_remark _ hr)]
      have he : (line :: a2).foldlM readLine { breaks := none, data := [] } = a2.foldlM readLine { breaks := none, data := [] } := by
        rw [List.foldlM_cons, hl]; rfl
      rw [he]
      rcases ih hne a2 hb with h | h | ⟨a', rows', h1, h2, h3, h4⟩
      · exact .inl h
      · exact .inr (.inl h)
      · right; right
        refine ⟨a', rows', h1, h2, fun l hl => ?_, h4⟩
        obtain ⟨l0, h5, h6⟩ := h3 l hl
        exact ⟨l0, List.mem_cons_of_mem _ h5, h6⟩
  | header line ls years rows sv hr hrows =>
    intro a ha
    rcases cutList_cases ha with rfl | ⟨w, hw, rfl⟩ | ⟨a2, rfl, hb⟩
    · exact .inr (.inl ⟨_, rfl, rfl⟩)
    · rcases hone w with h | h
      · exact .inl h
      · exact .inr (.inl h)
    · obtain ⟨y, hlast⟩ : ∃ y, years.getLast? = some y := ⟨years.getLast hne, List.getLast?_eq_some_getLast hne⟩
      have hl : ∃ b, readLine { breaks := none, data := [] } line = .ok { breaks := some b, data := [] } := by
        have := read_lines [line] years [] (.header line [] years [] sv hr .nil) y hlast
        rw [foldlM_single] at this
        exact ⟨_, this⟩
      obtain ⟨b, hl⟩ := hl
      rcases rows_cut hrows a2 hb with h | ⟨a', rows', h1, h2, h3, h4⟩
      · obtain ⟨e, he⟩ := h b []
        refine .inl ⟨e, ?_⟩
        rw [List.foldlM_cons, hl]
        exact he
      · right; right
        refine ⟨line :: a', rows', .header line a' years rows' sv hr h1, h2, fun l hl => ?_, ?_⟩
        · rcases List.mem_cons.1 hl with rfl | hl
          · exact ⟨l, List.mem_cons_self, List.prefix_refl _⟩
          · obtain ⟨l0, h7, h8⟩ := h3 l hl
            exact ⟨l0, List.mem_cons_of_mem _ h7, h8⟩
        · rw [List.foldlM_cons, List.foldlM_cons, hl]
          exact h4 b []


/-- The reader depends on the lines only by what the loop makes of them. -/
theorem load_congr {p q : List Char} (h : (lines p).foldlM readLine { breaks := none, data := [] } = (lines q).foldlM readLine { breaks := none, data := [] }) :
    load p = load q := by
  unfold load
  rw [h]

theorem load_error {p : List Char} {e : Error} (h : (lines p).foldlM readLine { breaks := none, data := [] } = .error e) : load p = .error e := by
  unfold load
  rw [h]
  rfl

/-- Without data: an exception or a model without coefficients. -/
theorem load_empty {p : List Char} {s : State} (h : (lines p).foldlM readLine { breaks := none, data := [] } = .ok s) (hs : s.data = []) :
    (∃ e, load p = .error e) ∨ ∃ b, load p = .ok b ∧ b.dim = 0 := by
  unfold load
  rw [h]
  simp only [bind, Except.bind, pure, Except.pure, hs]
  cases hb : s.breaks with
  | none => exact .inl ⟨_, rfl⟩
  | some breaks =>
    simp only [List.length_nil, Nat.zero_mod, ne_eq, not_true_eq_false, if_false, false_and]
    cases breaks.mapM (Time.dyearToMjd true) with
    | error e => exact .inl ⟨_, rfl⟩
    | ok mjd =>
      right
      refine ⟨_, rfl, ?_⟩
      rw [Nat.zero_div]
      rfl

/-- A row that is not complete. -/
theorem load_ragged {p : List Char} {breaks data : List ℝ} (h : (lines p).foldlM readLine { breaks := none, data := [] } = .ok { breaks := some breaks, data := data })
    (hd : data.length % breaks.length ≠ 0) : load p = .error .valueError := by
  unfold load
  rw [h]
  simp only [bind, Except.bind]
  rw [if_pos hd]
  rfl

theorem prefix_no_newline {ls a : List (List Char)} (h : ∀ l ∈ ls, '\n' ∉ l) (ha : ∀ l ∈ a, ∃ l0 ∈ ls, l <+: l0) : ∀ l ∈ a, '\n' ∉ l := by
  intro l hl hn
  obtain ⟨l0, h1, h2⟩ := ha l hl
  exact h l0 h1 (h2.subset hn)

theorem take_dropLast (rows : List (List ℝ)) (r : ℕ) (hr : r < rows.length) (hne : rows.getD r [] ≠ []) :
    ∃ x, rows.take (r + 1) = rows.take r ++ [(rows.getD r []).dropLast ++ [x]] := by
  refine ⟨(rows.getD r []).getLast hne, ?_⟩
  rw [List.dropLast_append_getLast, List.take_succ, List.getD_eq_getElem?_getD, List.getElem?_eq_getElem hr]
  rfl

/-- **C83** for IGRF. Of every beginning of a file (a file that is cut at an arbitrary character) the reader makes an exception, a model without coefficients, or
exactly what it makes of a complete file with the first rows of the table, where of the last of these rows at most the last number, the secular variation, is wrong. -/
theorem C83_igrf (content : List Char) (years : List ℝ) (rows : List (List ℝ)) (h : IgrfText content years rows) (hy : GoodYears years) (p : List Char) (hp : p <+: content) :
    (∃ e, load p = .error e) ∨ (∃ b, load p = .ok b ∧ b.dim = 0) ∨
    ∃ r x content', r < rows.length ∧ IgrfText content' years (rows.take r ++ [(rows.getD r []).dropLast ++ [x]]) ∧ load p = load content' := by
  obtain ⟨ls, rfl, hnl, hl, hrow⟩ := h
  obtain ⟨y, hlast⟩ : ∃ y, years.getLast? = some y := ⟨years.getLast hy.nonempty, List.getLast?_eq_some_getLast hy.nonempty⟩
  have hcut : CutList (lines p) ls := by
    obtain ⟨q, hq⟩ := hp
    have := linesGo_prefix p q []
    rw [hq] at this
    have e := lines_text ls hnl
    unfold lines at e ⊢
    rwa [e] at this
  have hlen : ∀ r, r < rows.length → (rows.getD r []).length = years.length + 1 := by
    intro r hr
    rw [List.getD_eq_getElem _ _ hr]
    exact hrow _ (List.getElem_mem hr)
  rcases lines_cut hl hy.nonempty _ hcut with ⟨e, h⟩ | ⟨s, h, hs⟩ | ⟨a', rows', h1, h2, h3, h4⟩
  · exact .inl ⟨e, load_error h⟩
  · rcases load_empty h hs with h | h
    · exact .inl h
    · exact .inr (.inl h)
  · have hr := read_lines a' years rows' h1 y hlast
    have hnl' := prefix_no_newline hnl h3
    have good : ∀ r x, r < rows.length → rows' = rows.take r ++ [(rows.getD r []).dropLast ++ [x]] →
        ∃ r x content', r < rows.length ∧ IgrfText content' years (rows.take r ++ [(rows.getD r []).dropLast ++ [x]]) ∧ load p = load content' := by
      intro r x hrl hr'
      refine ⟨r, x, _, hrl, ⟨a', rfl, hnl', hr' ▸ h1, ?_⟩, load_congr ?_⟩
      · intro row hm
        rcases List.mem_append.1 hm with hm | hm
        · exact hrow _ (List.mem_of_mem_take hm)
        · rw [List.mem_singleton] at hm
          rw [hm, List.length_append, List.length_dropLast, hlen r hrl]
          rfl
      · rw [lines_text a' hnl']
        exact h4
    obtain ⟨r, hr' | ⟨row, l, hrow1, hcl, hl0, hr'⟩⟩ := h2
    · by_cases hz : rows' = []
      · rw [hz] at hr
        rcases load_empty (h4.trans hr) rfl with h | h
        · exact .inl h
        · exact .inr (.inl h)
      · right; right
        have h0 : r ≠ 0 := by
          rintro rfl
          exact hz (by rw [hr']; rfl)
        have hrows : rows ≠ [] := by
          rintro rfl
          exact hz (by rw [hr', List.take_nil])
        have hpos := List.length_pos_iff.2 hrows
        have hm : rows' = rows.take (min r rows.length - 1 + 1) := by
          rw [hr', show min r rows.length - 1 + 1 = min r rows.length by omega]
          by_cases hc : r ≤ rows.length
          · rw [min_eq_left hc]
          · rw [min_eq_right (by omega), List.take_length, List.take_of_length_le (by omega)]
        have hlt : min r rows.length - 1 < rows.length := by omega
        obtain ⟨x, hx⟩ := take_dropLast rows (min r rows.length - 1) hlt (by
          intro hc
          have := hlen _ hlt
          rw [hc] at this
          simp at this)
        exact good _ x hlt (hm.trans hx)
    · have hrl : r < rows.length := by
        by_contra hc
        rw [List.getElem?_eq_none (by omega)] at hrow1
        cases hrow1
      have hrow2 : rows.getD r [] = row := by rw [List.getD_eq_getElem?_getD, hrow1]; rfl
      have hrowl := hlen r hrl
      rw [hrow2] at hrowl
      by_cases hll : l.length = years.length + 1
      · right; right
        obtain ⟨x, hx⟩ : ∃ x, l = row.dropLast ++ [x] := by
          obtain ⟨k, hk | ⟨hk, x, hx⟩⟩ := hcl
          · rw [hk, List.length_take] at hll
            rw [hk, List.take_of_length_le (by omega)]
            have hne : row ≠ [] := by
              rintro rfl
              simp at hrowl
            exact ⟨row.getLast hne, (List.dropLast_append_getLast hne).symm⟩
          · refine ⟨x, ?_⟩
            rw [hx, List.length_append, List.length_take, List.length_singleton] at hll
            rw [hx, List.dropLast_eq_take, show row.length - 1 = k by omega]
        exact good r x hrl (by rw [hr', hrow2, hx])
      · left
        refine ⟨_, load_ragged (h4.trans hr) ?_⟩
        have hpos := List.length_pos_iff.2 hl0
        have hle : l.length ≤ years.length + 1 := by
          obtain ⟨k, hk | ⟨hk, x, hx⟩⟩ := hcl
          · rw [hk, List.length_take]; omega
          · rw [hx, List.length_append, List.length_take, List.length_singleton]; omega
        rw [hr', List.flatten_append, List.length_append, flatten_length (rows.take r) (years.length + 1) (fun x hx => hrow x (List.mem_of_mem_take hx)), List.length_append,
          List.flatten_singleton, List.length_singleton, Nat.add_comm, Nat.add_mul_mod_self_right, Nat.mod_eq_of_lt (by omega)]
        omega

theorem rows_take {ls : List (List Char)} {rows : List (List ℝ)} (h : Rows ls rows) (r : ℕ) (hr : r ≤ rows.length) : ∃ k, Rows (ls.take k) (rows.take r) := by
  induction h generalizing r with
  | nil => exact ⟨0, by rw [List.take_nil, List.take_nil]; exact .nil⟩
  | remark line ls rows hm hrest ih =>
    obtain ⟨k, hk⟩ := ih r hr
    exact ⟨k + 1, .remark line _ _ hm hk⟩
  | blank line ls rows hm hrest ih =>
    obtain ⟨k, hk⟩ := ih r hr
    exact ⟨k + 1, .blank line _ _ hm hk⟩
  | row line ls xs rows hm hrest ih =>
    cases r with
    | zero => exact ⟨0, .nil⟩
    | succ r =>
      obtain ⟨k, hk⟩ := ih r (by simpa using hr)
      exact ⟨k + 1, .row line _ xs _ hm hk⟩

theorem lines_take {ls : List (List Char)} {years : List ℝ} {rows : List (List ℝ)} (h : IgrfLines ls years rows) (r : ℕ) (hr : r ≤ rows.length) :
    ∃ k, IgrfLines (ls.take k) years (rows.take r) := by
  induction h with
  | remark line ls years rows hm hrest ih =>
    obtain ⟨k, hk⟩ := ih hr
    exact ⟨k + 1, .remark line _ _ _ hm hk⟩
  | header line ls years rows sv hm hrows =>
    obtain ⟨k, hk⟩ := rows_take hrows r hr
    exact ⟨k + 1, .header line _ years _ sv hm hk⟩

/-- **C83** for IGRF (a finding): a file that ends after any of its rows is accepted without an exception, the other coefficients are missing. -/
theorem C83_igrf_rows (content : List Char) (years : List ℝ) (rows : List (List ℝ)) (h : IgrfText content years rows) (hy : GoodYears years) (r : ℕ) (hr : r ≤ rows.length) :
    ∃ p b, p <+: content ∧ IgrfText p years (rows.take r) ∧ load p = .ok b ∧ b.dim = r := by
  obtain ⟨ls, rfl, hnl, hl, hrow⟩ := h
  obtain ⟨k, hk⟩ := lines_take hl r hr
  have ht : IgrfText ((ls.take k).flatMap fun l => l ++ ['\n']) years (rows.take r) :=
    ⟨ls.take k, rfl, fun l hm => hnl l (List.mem_of_mem_take hm), hk, fun x hx => hrow x (List.mem_of_mem_take hx)⟩
  refine ⟨_, _, ?_, ht, load_eq _ _ _ ht hy, ?_⟩
  · refine ⟨(ls.drop k).flatMap fun l => l ++ ['\n'], ?_⟩
    rw [← List.flatMap_append, List.take_append_drop]
  · show (rows.take r).length = r
    rw [List.length_take, min_eq_left hr]

end ChaosMagPy.Igrf
