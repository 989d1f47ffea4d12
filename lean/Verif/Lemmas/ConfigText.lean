import Verif.Model.ConfigText
import Verif.Lemmas.ShcText
/-!
# Lemmas about the text of configuration files
-/
namespace ChaosMagPy.ConfigText
open ChaosMagPy.Config
open ChaosMagPy.Shc (natVal isDigit intStr natStr)

/-! ### A text followed by another text -/

theorem while_append (p : Char → Bool) (s t : List Char) (h : s.dropWhile p ≠ []) :
    (s ++ t).takeWhile p = s.takeWhile p ∧ (s ++ t).dropWhile p = s.dropWhile p ++ t := by
  induction s with
  | nil => exact absurd rfl h
  | cons c s ih =>
    rw [List.cons_append, List.takeWhile_cons, List.dropWhile_cons, List.takeWhile_cons, List.dropWhile_cons]
    rw [List.dropWhile_cons] at h
    by_cases hc : p c = true
    · rw [if_pos hc] at h
      rw [if_pos hc, if_pos hc, if_pos hc, if_pos hc, (ih h).1, (ih h).2]
      exact ⟨rfl, rfl⟩
    · rw [if_neg hc, if_neg hc, if_neg hc, if_neg hc]
      exact ⟨rfl, rfl⟩

theorem skipWs_append (s t : List Char) (h : skipWs s ≠ []) : skipWs (s ++ t) = skipWs s ++ t := (while_append isWs s t h).2

theorem head_append {s : List Char} {c : Char} (h : s.head? = some c) (t : List Char) : (s ++ t).head? = some c ∧ (s ++ t).tail = s.tail ++ t := by
  cases s with
  | nil => cases h
  | cons a s => exact ⟨h, rfl⟩

theorem hex4_append {s : List Char} {v : ℕ} {r : List Char} (h : hex4 s = some (v, r)) (t : List Char) : hex4 (s ++ t) = some (v, r ++ t) := by
  match s, h with
  | a :: b :: c :: d :: s, h =>
    simp only [hex4, List.cons_append] at h ⊢
    cases ha : hexVal a with
    | none => rw [ha] at h; cases h
    | some a' =>
    cases hb : hexVal b with
    | none => rw [ha, hb] at h; cases h
    | some b' =>
    cases hc : hexVal c with
    | none => rw [ha, hb, hc] at h; cases h
    | some c' =>
    cases hd : hexVal d with
    | none => rw [ha, hb, hc, hd] at h; cases h
    | some d' =>
      rw [ha, hb, hc, hd] at h
      simp only [bind, Option.bind, pure, Option.some.injEq, Prod.mk.injEq] at h ⊢
      exact ⟨h.1, by rw [h.2]⟩
  | [], h => cases h
  | [_], h => cases h
  | [_, _], h => cases h
  | [_, _, _], h => cases h

theorem unicodeEscape_append {s : List Char} {x : Char} {r : List Char} (h : unicodeEscape s = some (x, r)) (t : List Char) :
    unicodeEscape (s ++ t) = some (x, r ++ t) := by
  unfold unicodeEscape at h ⊢
  cases h1 : hex4 s with
  | none => rw [h1] at h; cases h
  | some p =>
    obtain ⟨v, r1⟩ := p
    rw [h1] at h
    rw [hex4_append h1]
    simp only [bind, Option.bind] at h ⊢
    by_cases c1 : 55296 ≤ v ∧ v ≤ 56319
    · rw [if_pos c1] at h ⊢
      by_cases c2 : r1.take 2 = ['\\', 'u']
      · have hr1 : 2 ≤ r1.length := by
          by_contra hc
          have := congrArg List.length c2
          rw [List.length_take] at this
          simp only [List.length_cons, List.length_nil] at this
          omega
        rw [if_pos c2] at h
        rw [List.take_append_of_le_length hr1, if_pos c2]
        cases h2 : hex4 (r1.drop 2) with
        | none => rw [h2] at h; cases h
        | some q =>
          obtain ⟨w, r2⟩ := q
          rw [h2] at h
          rw [List.drop_append_of_le_length hr1, hex4_append h2]
          simp only at h ⊢
          by_cases c3 : 56320 ≤ w ∧ w ≤ 57343
          · rw [if_pos c3] at h ⊢
            simp only [pure, Option.some.injEq, Prod.mk.injEq] at h ⊢
            exact ⟨h.1, by rw [h.2]⟩
          · rw [if_neg c3] at h; cases h
      · rw [if_neg c2] at h; cases h
    · rw [if_neg c1] at h ⊢
      by_cases c2 : 56320 ≤ v ∧ v ≤ 57343
      · rw [if_pos c2] at h; cases h
      · rw [if_neg c2] at h ⊢
        simp only [pure, Option.some.injEq, Prod.mk.injEq] at h ⊢
        exact ⟨h.1, by rw [h.2]⟩

theorem nextChar_append {s : List Char} {x : Option Char} {r : List Char} (h : nextChar s = some (x, r)) (t : List Char) :
    nextChar (s ++ t) = some (x, r ++ t) := by
  cases s with
  | nil => cases h
  | cons c s =>
    simp only [nextChar, List.cons_append] at h ⊢
    split_ifs at h ⊢ with h1 h2 h3
    · simp only [Option.some.injEq, Prod.mk.injEq] at h ⊢
      exact ⟨h.1, by rw [h.2]⟩
    · cases s with
      | nil => cases h
      | cons e s =>
        simp only [List.cons_append] at h ⊢
        split_ifs at h ⊢ with h4
        · cases hu : unicodeEscape s with
          | none => rw [hu] at h; cases h
          | some p =>
            obtain ⟨y, r'⟩ := p
            rw [hu] at h
            rw [unicodeEscape_append hu]
            simp only [Option.map_some, Option.some.injEq, Prod.mk.injEq] at h ⊢
            exact ⟨h.1, by rw [h.2]⟩
        · cases hu : simpleEscape e with
          | none => rw [hu] at h; cases h
          | some y =>
            rw [hu] at h
            simp only [Option.map_some, Option.some.injEq, Prod.mk.injEq] at h ⊢
            exact ⟨h.1, by rw [h.2]⟩
    · simp only [Option.some.injEq, Prod.mk.injEq] at h ⊢
      exact ⟨h.1, by rw [h.2]⟩

theorem parseStrGo_append {n m : ℕ} (hm : n ≤ m) {s : List Char} {x r : List Char} (h : parseStrGo n s = some (x, r)) (t : List Char) :
    parseStrGo m (s ++ t) = some (x, r ++ t) := by
  induction n generalizing m s x r with
  | zero => cases h
  | succ n ih =>
    obtain ⟨m, rfl⟩ : ∃ k, m = k + 1 := ⟨m - 1, by omega⟩
    simp only [parseStrGo] at h ⊢
    cases h1 : nextChar s with
    | none => rw [h1] at h; cases h
    | some p =>
      obtain ⟨c, r1⟩ := p
      rw [h1] at h
      rw [nextChar_append h1]
      cases c with
      | none =>
        simp only [Option.some.injEq, Prod.mk.injEq] at h ⊢
        exact ⟨h.1, by rw [h.2]⟩
      | some c =>
        simp only at h ⊢
        cases h2 : parseStrGo n r1 with
        | none => rw [h2] at h; cases h
        | some q =>
          obtain ⟨y, r2⟩ := q
          rw [h2] at h
          simp only [Option.map_some, Option.some.injEq, Prod.mk.injEq] at h
          rw [ih (m := m) (by omega) h2]
          simp only [Option.map_some, Option.some.injEq, Prod.mk.injEq]
          exact ⟨h.1, by rw [h.2]⟩

theorem parseStr_append {s : List Char} {x : String} {r : List Char} (h : parseStr s = some (x, r)) (t : List Char) : parseStr (s ++ t) = some (x, r ++ t) := by
  unfold parseStr at h ⊢
  cases h1 : parseStrGo (s.length + 1) s with
  | none => rw [h1] at h; cases h
  | some p =>
    obtain ⟨y, r'⟩ := p
    rw [h1] at h
    rw [parseStrGo_append (by rw [List.length_append]; omega) h1]
    simp only [Option.map_some, Option.some.injEq, Prod.mk.injEq] at h ⊢
    exact ⟨h.1, by rw [h.2]⟩

/-! ### Numbers -/

/-- Characters that may follow a value. -/
def isDelim (c : Char) : Bool := isWs c || c == ',' || c == ']' || c == '}'

/-- The text begins with a character that may follow a value. -/
def DelimHead (r : List Char) : Prop := ∃ c r', r = c :: r' ∧ isDelim c = true

theorem isDelim_cases {c : Char} (h : isDelim c = true) : c = ' ' ∨ c = '\t' ∨ c = '\n' ∨ c = '\r' ∨ c = ',' ∨ c = ']' ∨ c = '}' := by
  simp only [isDelim, isWs, Bool.or_eq_true, beq_iff_eq] at h
  tauto

theorem delim_not_digit {c : Char} (h : isDelim c = true) : isDigit c = false ∧ c ≠ '.' ∧ c ≠ 'e' ∧ c ≠ 'E' := by
  rcases isDelim_cases h with rfl | rfl | rfl | rfl | rfl | rfl | rfl <;> decide

theorem intPart_append {s : List Char} (h : (intPart s).2 ≠ []) (t : List Char) : intPart (s ++ t) = ((intPart s).1, (intPart s).2 ++ t) := by
  unfold intPart at h ⊢
  by_cases h0 : s.head? = some '0'
  · rw [if_pos h0, if_pos (head_append h0 t).1, (head_append h0 t).2]
  · rw [if_neg h0] at h
    have hs : s ≠ [] := by
      rintro rfl
      exact h rfl
    have h0' : (s ++ t).head? ≠ some '0' := by
      cases s with
      | nil => exact absurd rfl hs
      | cons c s => exact h0
    rw [if_neg h0, if_neg h0', (while_append isDigit s t h).1, (while_append isDigit s t h).2]

theorem fracPart_append {s : List Char} (h : ∃ c r, (fracPart s).2 = c :: r ∧ c ≠ '.') (t : List Char) :
    fracPart (s ++ t) = ((fracPart s).1, (fracPart s).2 ++ t) := by
  obtain ⟨c, r, h, hc⟩ := h
  unfold fracPart at h ⊢
  by_cases h0 : s.head? = some '.'
  · cases s with
    | nil => cases h0
    | cons d s =>
      injection h0 with h0
      subst h0
      simp only [List.head?_cons, List.tail_cons, List.cons_append] at h ⊢
      by_cases h1 : s.takeWhile isDigit = []
      · rw [if_neg (fun hh => hh.2 h1)] at h
        injection h with h2
        exact absurd h2.symm hc
      · rw [if_pos ⟨trivial, h1⟩] at h
        have hne : s.dropWhile isDigit ≠ [] := by
          intro hh
          rw [hh] at h
          cases h
        rw [(while_append isDigit s t hne).1, (while_append isDigit s t hne).2, if_pos ⟨trivial, h1⟩, if_pos ⟨trivial, h1⟩]
  · have hs : s ≠ [] := by
      rintro rfl
      simp at h
    have h0' : (s ++ t).head? ≠ some '.' := by
      cases s with
      | nil => exact absurd rfl hs
      | cons c s => exact h0
    rw [if_neg (fun hh => h0' hh.1), if_neg (fun hh => h0 hh.1)]

theorem expSign_append {s : List Char} (h : s ≠ []) (t : List Char) : expSign (s ++ t) = ((expSign s).1, (expSign s).2 ++ t) := by
  cases s with
  | nil => exact absurd rfl h
  | cons c s =>
    have e : ∀ w : List Char, expSign (c :: w) = if c = '+' then (['+'], w) else if c = '-' then (['-'], w) else ([], c :: w) := by
      intro w
      by_cases h1 : c = '+'
      · subst h1; rfl
      · by_cases h2 : c = '-'
        · subst h2; rfl
        · rw [if_neg h1, if_neg h2]
          unfold expSign
          rw [if_neg (fun hh : (c :: w).head? = some '+' => h1 (Option.some.inj hh)), if_neg (fun hh : (c :: w).head? = some '-' => h2 (Option.some.inj hh))]
    rw [List.cons_append, e, e]
    by_cases h1 : c = '+'
    · simp only [if_pos h1]
    · by_cases h2 : c = '-'
      · simp only [if_neg h1, if_pos h2]
      · simp only [if_neg h1, if_neg h2, List.cons_append]

theorem expPart_append {s : List Char} (h : ∃ c r, (expPart s).2 = c :: r ∧ c ≠ 'e' ∧ c ≠ 'E') (t : List Char) :
    expPart (s ++ t) = ((expPart s).1, (expPart s).2 ++ t) := by
  obtain ⟨c, r, h, hc, hC⟩ := h
  cases s with
  | nil => cases h
  | cons d s =>
    simp only [expPart, List.cons_append] at h ⊢
    by_cases h0 : d = 'e' ∨ d = 'E'
    · by_cases h1 : (expSign s).2.takeWhile isDigit = []
      · rw [if_neg (fun hh => hh.2 h1)] at h
        injection h with h2
        subst h2
        rcases h0 with h0 | h0
        · exact absurd h0 hc
        · exact absurd h0 hC
      · rw [if_pos ⟨h0, h1⟩] at h
        have hs : s ≠ [] := by
          rintro rfl
          exact h1 rfl
        have hne : (expSign s).2.dropWhile isDigit ≠ [] := by
          intro hh
          rw [hh] at h
          cases h
        rw [expSign_append hs]
        simp only
        rw [(while_append isDigit _ t hne).1, (while_append isDigit _ t hne).2, if_pos ⟨h0, h1⟩, if_pos ⟨h0, h1⟩]
    · rw [if_neg (fun hh => h0 hh.1), if_neg (fun hh => h0 hh.1)]
      rfl

/-- What follows a fraction or an exponent does not get longer. -/
theorem expPart_head {s : List Char} (h : (expPart s).2 ≠ []) : s ≠ [] := by
  rintro rfl
  exact h rfl

theorem parseNumber_append {ft : FloatText} {s : List Char} {x : Sc} {r : List Char} (h : parseNumber ft s = some (x, r)) (hr : DelimHead r) (t : List Char) :
    parseNumber ft (s ++ t) = some (x, r ++ t) := by
  obtain ⟨c, r', rfl, hc⟩ := hr
  obtain ⟨hc1, hc2, hc3, hc4⟩ := delim_not_digit hc
  unfold parseNumber at h ⊢
  have hs : s ≠ [] := by
    rintro rfl
    simp [intPart] at h
  have hhead : (s ++ t).head? = s.head? := by
    cases s with
    | nil => exact absurd rfl hs
    | cons a s => rfl
  rw [hhead]
  generalize hneg : decide (s.head? = some '-') = neg at h ⊢
  have hs' : (if neg = true then (s ++ t).tail else s ++ t) = (if neg = true then s.tail else s) ++ t := by
    cases s with
    | nil => exact absurd rfl hs
    | cons a s => split_ifs <;> rfl
  simp only at h ⊢
  rw [hs']
  generalize (if neg = true then s.tail else s) = u at h ⊢
  by_cases ha : (intPart u).1 = []
  · rw [if_pos ha] at h; cases h
  rw [if_neg ha] at h
  by_cases hfe : (fracPart (intPart u).2).1 = [] ∧ (expPart (fracPart (intPart u).2).2).1 = []
  · -- integer
    rw [if_pos hfe] at h
    simp only [Option.some.injEq, Prod.mk.injEq] at h
    obtain ⟨hx, hr⟩ := h
    have h3 : expPart (fracPart (intPart u).2).2 = ([], c :: r') := Prod.ext hfe.2 hr
    have h4 : (fracPart (intPart u).2).2 = c :: r' := by
      cases hv : (fracPart (intPart u).2).2 with
      | nil => rw [hv] at h3; cases h3
      | cons d w =>
        rw [hv] at h3
        simp only [expPart] at h3
        split_ifs at h3
        · cases h3
        · exact (Prod.mk.inj h3).2
    have h5 : (intPart u).2 = c :: r' := by
      have hf := hfe.1
      unfold fracPart at hf h4
      split_ifs at hf h4
      exact h4
    have hi := intPart_append (s := u) (by rw [h5]; simp) t
    rw [hi]
    simp only
    have hf := fracPart_append (s := (intPart u).2) ⟨c, r', h4, hc2⟩ t
    rw [hf]
    simp only
    have he := expPart_append (s := (fracPart (intPart u).2).2) ⟨c, r', hr, hc3, hc4⟩ t
    rw [he]
    simp only
    rw [if_neg ha, if_pos hfe, hr, ← hx]
  · rw [if_neg hfe] at h
    simp only [Option.some.injEq, Prod.mk.injEq] at h
    obtain ⟨hx, hr⟩ := h
    have h4 : ∃ d w, (fracPart (intPart u).2).2 = d :: w ∧ d ≠ '.' := by
      cases hv : (fracPart (intPart u).2).2 with
      | nil => rw [hv] at hr; cases hr
      | cons d w =>
        refine ⟨d, w, rfl, ?_⟩
        rintro rfl
        rw [hv] at hr
        simp only [expPart] at hr
        rw [if_neg (by rintro ⟨h | h, -⟩ <;> exact absurd h (by decide))] at hr
        injection hr with h6
        exact hc2 h6.symm
    have h5 : (intPart u).2 ≠ [] := by
      intro hn
      obtain ⟨d, w, h4, -⟩ := h4
      rw [hn] at h4
      simp [fracPart] at h4
    rw [intPart_append h5 t]
    simp only
    rw [fracPart_append h4 t]
    simp only
    rw [expPart_append ⟨c, r', hr, hc3, hc4⟩ t]
    simp only
    rw [if_neg ha, if_neg hfe, hr, ← hx]

theorem strip_append {w s r : List Char} (h : strip w s = some r) (t : List Char) : strip w (s ++ t) = some (r ++ t) := by
  unfold strip at h ⊢
  split_ifs at h with h1
  injection h with h
  have hl : w.length ≤ s.length := by
    have := congrArg List.length h1
    rw [List.length_take] at this
    omega
  rw [List.take_append_of_le_length hl, if_pos h1, List.drop_append_of_le_length hl, h]

theorem strip_map {α : Type} {w s : List Char} {x y : α} {r : List Char} (h : (strip w s).map (fun r => (x, r)) = some (y, r)) (t : List Char) :
    (strip w (s ++ t)).map (fun r => (x, r)) = some (y, r ++ t) := by
  cases h1 : strip w s with
  | none => rw [h1] at h; cases h
  | some r' =>
    rw [h1] at h
    rw [strip_append h1]
    simp only [Option.map_some, Option.some.injEq, Prod.mk.injEq] at h ⊢
    exact ⟨h.1, by rw [h.2]⟩

theorem parseAtom_append {ft : FloatText} {s : List Char} {x : Sc} {r : List Char} (h : parseAtom ft s = some (x, r)) (hr : DelimHead r) (t : List Char) :
    parseAtom ft (s ++ t) = some (x, r ++ t) := by
  cases s with
  | nil => simp [parseAtom, parseNumber, intPart] at h
  | cons c s =>
    unfold parseAtom at h ⊢
    have e : (c :: s ++ t).head? = (c :: s).head? := rfl
    rw [e]
    split_ifs at h ⊢ with h1 h2 h3 h4 h5 h6 h7 h8
    · exact strip_map h t
    · exact strip_map h t
    · exact strip_map h t
    · exact strip_map h t
    · exact strip_map h t
    · exact strip_map h t
    · exfalso
      apply h7
      refine ⟨h6.1, ?_⟩
      have h9 : (s ++ t).head? = some 'I' := h6.2
      cases s with
      | nil =>
        have hc : c = '-' := Option.some.inj h6.1
        subst hc
        exfalso
        simp [parseNumber, intPart] at h
      | cons d s => exact h9
    · exfalso
      apply h6
      refine ⟨h8.1, ?_⟩
      exact (head_append (s := s) h8.2 t).1
    · exact parseNumber_append h hr t

/-! ### Values -/

theorem delimHead_of_skip {r : List Char} {c : Char} (h : (skipWs r).head? = some c) (hc : isDelim c = true) : DelimHead r := by
  cases r with
  | nil => cases h
  | cons d r =>
    refine ⟨d, r, rfl, ?_⟩
    unfold skipWs at h
    rw [List.dropWhile_cons] at h
    split_ifs at h with hd
    · simp [isDelim, hd]
    · injection h with h
      rw [h]; exact hc

theorem skip_head {r : List Char} {c : Char} (h : (skipWs r).head? = some c) (t : List Char) :
    (skipWs (r ++ t)).head? = some c ∧ (skipWs (r ++ t)).tail = (skipWs r).tail ++ t := by
  have : skipWs r ≠ [] := by
    intro hn
    rw [hn] at h
    cases h
  rw [skipWs_append r t this]
  exact head_append h t

theorem skip_tail_append {s : List Char} {α : Type} {f : List Char → Option α} (h : f (skipWs s) ≠ none) (hn : f [] = none) (t : List Char) :
    skipWs (s ++ t) = skipWs s ++ t := by
  refine skipWs_append s t ?_
  intro hs
  rw [hs] at h
  exact h hn

theorem parse_append (ft : FloatText) (n : ℕ) :
    (∀ m s x r t, n ≤ m → parseValue ft n s = some (x, r) → DelimHead r → parseValue ft m (s ++ t) = some (x, r ++ t)) ∧
    (∀ m s x r t, n ≤ m → parseElems ft n s = some (x, r) → parseElems ft m (s ++ t) = some (x, r ++ t)) ∧
    (∀ m s x r t, n ≤ m → parseMembers ft n s = some (x, r) → parseMembers ft m (s ++ t) = some (x, r ++ t)) := by
  induction n with
  | zero =>
    refine ⟨?_, ?_, ?_⟩
    · intro m s x r t _ h
      simp [parseValue] at h
    · intro m s x r t _ h
      simp [parseElems] at h
    · intro m s x r t _ h
      simp [parseMembers] at h
  | succ n ih =>
    obtain ⟨ihV, ihE, ihM⟩ := ih
    have hE0 : ∀ k, parseElems ft k [] = none := by
      intro k
      cases k with
      | zero => simp [parseElems]
      | succ k => cases k <;> simp [parseElems, parseValue]
    have hM0 : ∀ k, parseMembers ft k [] = none := by
      intro k
      cases k <;> simp [parseMembers]
    have hV0 : ∀ k, parseValue ft k [] = none := by
      intro k
      cases k <;> simp [parseValue]
    refine ⟨?_, ?_, ?_⟩
    · intro m s x r t hm h hr
      obtain ⟨m, rfl⟩ : ∃ k, m = k + 1 := ⟨m - 1, by omega⟩
      cases s with
      | nil => simp [parseValue] at h
      | cons c s =>
        rw [List.cons_append]
        simp only [parseValue] at h ⊢
        split_ifs at h with h1 h2 h3 h4 h5
        · rw [if_pos h1]
          cases hp : parseStr s with
          | none => rw [hp] at h; cases h
          | some p =>
            obtain ⟨y, r1⟩ := p
            rw [hp] at h
            rw [parseStr_append hp]
            simp only [Option.map_some, Option.some.injEq, Prod.mk.injEq] at h ⊢
            exact ⟨h.1, by rw [h.2]⟩
        · rw [if_neg h1, if_pos h2, if_pos (skip_head h3 t).1, (skip_head h3 t).2]
          simp only [Option.some.injEq, Prod.mk.injEq] at h ⊢
          exact ⟨h.1, by rw [h.2]⟩
        · cases hp : parseElems ft n (skipWs s) with
          | none => rw [hp] at h; cases h
          | some p =>
            obtain ⟨y, r1⟩ := p
            rw [hp] at h
            have hsk : skipWs (s ++ t) = skipWs s ++ t := skip_tail_append (f := parseElems ft n) (by rw [hp]; simp) (hE0 n) t
            have hne : skipWs s ≠ [] := by
              intro hn
              rw [hn, hE0] at hp
              cases hp
            have h3' : ¬ (skipWs (s ++ t)).head? = some ']' := by
              rw [hsk]
              cases hq : skipWs s with
              | nil => exact absurd hq hne
              | cons a b => rw [hq] at h3; exact h3
            rw [if_neg h1, if_pos h2, if_neg h3', hsk, ihE m _ _ _ t (by omega) hp]
            simp only [Option.map_some, Option.some.injEq, Prod.mk.injEq] at h ⊢
            exact ⟨h.1, by rw [h.2]⟩
        · rw [if_neg h1, if_neg h2, if_pos h4, if_pos (skip_head h5 t).1, (skip_head h5 t).2]
          simp only [Option.some.injEq, Prod.mk.injEq] at h ⊢
          exact ⟨h.1, by rw [h.2]⟩
        · cases hp : parseMembers ft n (skipWs s) with
          | none => rw [hp] at h; cases h
          | some p =>
            obtain ⟨y, r1⟩ := p
            rw [hp] at h
            have hsk : skipWs (s ++ t) = skipWs s ++ t := skip_tail_append (f := parseMembers ft n) (by rw [hp]; simp) (hM0 n) t
            have hne : skipWs s ≠ [] := by
              intro hn
              rw [hn, hM0] at hp
              cases hp
            have h3' : ¬ (skipWs (s ++ t)).head? = some '}' := by
              rw [hsk]
              cases hq : skipWs s with
              | nil => exact absurd hq hne
              | cons a b => rw [hq] at h5; exact h5
            rw [if_neg h1, if_neg h2, if_pos h4, if_neg h3', hsk, ihM m _ _ _ t (by omega) hp]
            simp only [Option.map_some, Option.some.injEq, Prod.mk.injEq] at h ⊢
            exact ⟨h.1, by rw [h.2]⟩
        · rw [if_neg h1, if_neg h2, if_neg h4]
          cases hp : parseAtom ft (c :: s) with
          | none => rw [hp] at h; cases h
          | some p =>
            obtain ⟨y, r1⟩ := p
            rw [hp] at h
            simp only [Option.map_some, Option.some.injEq, Prod.mk.injEq] at h
            have := parseAtom_append hp (by rw [h.2]; exact hr) t
            rw [List.cons_append] at this
            rw [this]
            simp only [Option.map_some, Option.some.injEq, Prod.mk.injEq]
            exact ⟨h.1, by rw [h.2]⟩
    · intro m s x r t hm h
      obtain ⟨m, rfl⟩ : ∃ k, m = k + 1 := ⟨m - 1, by omega⟩
      simp only [parseElems] at h ⊢
      cases hp : parseValue ft n s with
      | none => rw [hp] at h; cases h
      | some p =>
        obtain ⟨v, r1⟩ := p
        rw [hp] at h
        simp only at h
        split_ifs at h with h1 h2
        · rw [ihV m s v r1 t (by omega) hp (delimHead_of_skip h1 (by decide))]
          simp only
          rw [if_pos (skip_head h1 t).1, (skip_head h1 t).2]
          simp only [Option.some.injEq, Prod.mk.injEq] at h ⊢
          exact ⟨h.1, by rw [h.2]⟩
        · rw [ihV m s v r1 t (by omega) hp (delimHead_of_skip h2 (by decide))]
          simp only
          rw [if_neg (by rw [(skip_head h2 t).1]; decide), if_pos (skip_head h2 t).1, (skip_head h2 t).2]
          cases hq : parseElems ft n (skipWs (skipWs r1).tail) with
          | none => rw [hq] at h; cases h
          | some q =>
            obtain ⟨y, r2⟩ := q
            rw [hq] at h
            rw [skip_tail_append (f := parseElems ft n) (by rw [hq]; simp) (hE0 n) t, ihE m _ _ _ t (by omega) hq]
            simp only [Option.map_some, Option.some.injEq, Prod.mk.injEq] at h ⊢
            exact ⟨h.1, by rw [h.2]⟩
    · intro m s x r t hm h
      obtain ⟨m, rfl⟩ : ∃ k, m = k + 1 := ⟨m - 1, by omega⟩
      simp only [parseMembers] at h ⊢
      split_ifs at h with h1
      rw [if_pos (head_append h1 t).1, (head_append h1 t).2]
      cases hk : parseStr s.tail with
      | none => rw [hk] at h; cases h
      | some p =>
        obtain ⟨k, r0⟩ := p
        rw [hk] at h
        rw [parseStr_append hk]
        simp only at h ⊢
        split_ifs at h with h2
        rw [if_pos (skip_head h2 t).1, (skip_head h2 t).2]
        cases hp : parseValue ft n (skipWs (skipWs r0).tail) with
        | none => rw [hp] at h; cases h
        | some p =>
          obtain ⟨v, r1⟩ := p
          rw [hp] at h
          simp only at h
          rw [skip_tail_append (f := parseValue ft n) (by rw [hp]; simp) (hV0 n) t]
          split_ifs at h with h3 h4
          · rw [ihV m _ v r1 t (by omega) hp (delimHead_of_skip h3 (by decide))]
            simp only
            rw [if_pos (skip_head h3 t).1, (skip_head h3 t).2]
            simp only [Option.some.injEq, Prod.mk.injEq] at h ⊢
            exact ⟨h.1, by rw [h.2]⟩
          · rw [ihV m _ v r1 t (by omega) hp (delimHead_of_skip h4 (by decide))]
            simp only
            rw [if_neg (by rw [(skip_head h4 t).1]; decide), if_pos (skip_head h4 t).1, (skip_head h4 t).2]
            cases hq : parseMembers ft n (skipWs (skipWs r1).tail) with
            | none => rw [hq] at h; cases h
            | some q =>
              obtain ⟨y, r2⟩ := q
              rw [hq] at h
              rw [skip_tail_append (f := parseMembers ft n) (by rw [hq]; simp) (hM0 n) t, ihM m _ _ _ t (by omega) hq]
              simp only [Option.map_some, Option.some.injEq, Prod.mk.injEq] at h ⊢
              exact ⟨h.1, by rw [h.2]⟩

end ChaosMagPy.ConfigText
