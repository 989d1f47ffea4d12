import Verif.Model.SplineText
import Verif.Props.Igrf
/-!
# C51: reading the text files of spline models
-/
namespace ChaosMagPy.Spec
open ChaosMagPy.Shc (isSpace)

/-- The text consists of numbers, separated (and possibly surrounded) by white space; exponents are marked by `marks`. -/
def NumbersWith (marks text : List Char) (xs : List ℝ) : Prop := ∃ ws, Words text ws ∧ List.Forall₂ (DenotesWith marks) ws xs

/-- With the usual exponents. -/
def Numbers (text : List Char) (xs : List ℝ) : Prop := NumbersWith ['e', 'E'] text xs

end ChaosMagPy.Spec

namespace ChaosMagPy.SplineText
open ChaosMagPy.Spec ChaosMagPy.BSpline
open ChaosMagPy.Shc (isSpace tokensGo parseAll scanNum fromstring)

/-! ### Tokens -/

theorem parseAll_denotes {ws : List (List Char)} {xs : List ℝ} (h : List.Forall₂ Denotes ws xs) : parseAll (K := ℝ) ws = xs := by
  induction h with
  | nil => rfl
  | cons ha _ ih =>
    simp only [parseAll]
    rw [Shc.parseNum_of_scan.1 (Shc.parseNum_of ha)]
    simp only
    rw [ih]

theorem fromstring_numbers {s : List Char} {xs : List ℝ} (h : Numbers s xs) : fromstring (K := ℝ) s = xs := by
  obtain ⟨ws, h1, h2⟩ := h
  unfold fromstring
  rw [Igrf.tokens_words ws s h1]
  exact parseAll_denotes h2

/-- A white space character separates. -/
theorem tokens_split (a b acc : List Char) (c : Char) (hc : isSpace c = true) :
    tokensGo (a ++ c :: b) acc = tokensGo a acc ++ tokensGo b [] := by
  induction a generalizing acc with
  | nil =>
    simp only [List.nil_append, tokensGo]
    rw [if_pos hc]
    split_ifs <;> simp
  | cons x a ih =>
    rw [List.cons_append]
    simp only [tokensGo]
    split_ifs with h1 h2
    · exact ih []
    · rw [ih []]
      rfl
    · exact ih (x :: acc)

theorem tokens_space (c : Char) (hc : isSpace c = true) (s : List Char) : tokensGo (c :: s) [] = tokensGo s [] := by
  have := tokens_split [] s [] c hc
  rw [List.nil_append] at this
  rw [this]
  rfl

theorem readlines_line (l s acc : List Char) (h : '\n' ∉ l) : readlinesGo (l ++ '\n' :: s) acc = (acc.reverse ++ l ++ ['\n']) :: readlinesGo s [] := by
  induction l generalizing acc with
  | nil => simp [readlinesGo]
  | cons c l ih =>
    rw [List.mem_cons, not_or] at h
    rw [List.cons_append]
    simp only [readlinesGo]
    rw [if_neg (fun e => h.1 e.symm), ih (c :: acc) h.2]
    simp

theorem readlines_last (l acc : List Char) (h : '\n' ∉ l) : readlinesGo l acc = if acc.reverse ++ l = [] then [] else [acc.reverse ++ l] := by
  induction l generalizing acc with
  | nil => simp [readlinesGo]
  | cons c l ih =>
    rw [List.mem_cons, not_or] at h
    simp only [readlinesGo]
    rw [if_neg (fun e => h.1 e.symm), ih (c :: acc) h.2]
    simp

/-- Every text is a line without line end, or a line and another text. -/
theorem text_induction {P : List Char → Prop} (last : ∀ l, '\n' ∉ l → P l) (line : ∀ l s, '\n' ∉ l → P s → P (l ++ '\n' :: s)) (s : List Char) : P s := by
  generalize hn : s.length = n
  induction n using Nat.strong_induction_on generalizing s with
  | _ n ih =>
    by_cases h : '\n' ∈ s
    · have := List.append_of_mem h
      obtain ⟨a, b, hab, ha⟩ : ∃ a b, s = a ++ '\n' :: b ∧ '\n' ∉ a := by
        clear hn ih this
        induction s with
        | nil => cases h
        | cons c s ih =>
          by_cases hc : c = '\n'
          · exact ⟨[], s, by rw [hc]; rfl, by simp⟩
          · obtain ⟨a, b, rfl, ha⟩ := ih (by rcases List.mem_cons.1 h with h | h; exact absurd h.symm hc; exact h)
            exact ⟨c :: a, b, rfl, by simp [ha, Ne.symm hc]⟩
      subst hab
      refine line a b ha (ih _ ?_ b rfl)
      rw [← hn]
      simp
      omega
    · exact last s h

/-- Joining the lines with blanks does not change the tokens. -/
theorem tokens_join (sep : List Char) (hs : ∀ c ∈ sep, isSpace c = true) (s : List Char) : tokensGo (join sep (readlines s)) [] = tokensGo s [] := by
  refine text_induction (P := fun s => tokensGo (join sep (readlines s)) [] = tokensGo s []) ?_ ?_ s
  · intro l hl
    unfold readlines join
    rw [readlines_last l [] hl]
    split_ifs with h
    · rw [List.reverse_nil, List.nil_append] at h
      rw [h]
      rfl
    · simp
  · intro l s hl ih
    have hsp : ∀ t, tokensGo (sep ++ t) [] = tokensGo t [] := fun t => Igrf.tokensGo_white sep t hs
    unfold readlines join at *
    rw [readlines_line l s [] hl]
    rw [tokens_split l s [] '\n' rfl]
    cases hr : readlinesGo s [] with
    | nil =>
      rw [hr] at ih
      rw [← ih]
      simp only [List.reverse_nil, List.nil_append, List.intersperse_singleton, List.flatten_cons, List.flatten_nil, List.append_nil]
      exact tokens_split l [] [] '\n' rfl
    | cons x xs =>
      rw [hr] at ih
      rw [← ih]
      simp only [List.reverse_nil, List.nil_append, List.intersperse_cons₂, List.flatten_cons, List.append_assoc, List.cons_append]
      rw [tokens_split l _ [] '\n' rfl, hsp]

theorem fromstring_join {sep : List Char} (hs : ∀ c ∈ sep, isSpace c = true) {s : List Char} {xs : List ℝ} (h : Numbers s xs) :
    fromstring (K := ℝ) (join sep (readlines s)) = xs := by
  rw [← fromstring_numbers h]
  unfold fromstring
  rw [tokens_join sep hs]

theorem numbers_newline {s : List Char} {xs : List ℝ} (h : Numbers s xs) : fromstring (K := ℝ) (s ++ ['\n']) = xs := by
  rw [← fromstring_numbers h]
  unfold fromstring
  rw [tokens_split s [] [] '\n' rfl]
  simp [tokensGo]

/-! ### Files -/

/-- **C51** (CovObs files). The first line is ignored; the second has the degree, a number that is not used, the order and the years of the break points;
then follow the coefficients, in any number of lines, all in decimal notation and separated by white space. Such a file is read as the spline model of
these numbers (see `C51_padded`). -/
theorem C51_covobs_file (title header body : List Char) (nmax order : ℕ) (x : ℝ) (years data : List ℝ) (h1 : '\n' ∉ title) (h2 : '\n' ∉ header)
    (hh : Numbers header ([(nmax : ℝ), x, (order : ℝ)] ++ years)) (hb : Numbers body data) :
    loadCovObs (title ++ '\n' :: (header ++ '\n' :: body)) = loadSpline (years.map fun y => (y - 2000) * 365.25) order nmax data := by
  unfold loadCovObs
  have hr : readlines (title ++ '\n' :: (header ++ '\n' :: body)) = (title ++ ['\n']) :: (header ++ ['\n']) :: readlines body := by
    unfold readlines
    rw [readlines_line _ _ _ h1, readlines_line _ _ _ h2]
    rfl
  simp only [hr, List.getElem?_cons_succ, List.getElem?_cons_zero, List.drop_succ_cons, List.drop_zero]
  rw [numbers_newline hh, if_neg (by simp), fromstring_join (by simp; rfl) hb]
  exact C51_covobs nmax order x years data

/-- **C51** (gufm1 files). The first line is ignored; then follow the degree, the number of B-splines (four less than the number of break points), the
years of the break points and the coefficients. -/
theorem C51_gufm1_file (title body : List Char) (nmax : ℕ) (years data : List ℝ) (h4 : 4 ≤ years.length) (h1 : '\n' ∉ title)
    (hb : Numbers body ([(nmax : ℝ), ((years.length - 4 : ℕ) : ℝ)] ++ years ++ data)) :
    loadGufm1 (title ++ '\n' :: body) = loadSpline (years.map fun y => (y - 2000) * 365.25) 4 nmax data := by
  unfold loadGufm1
  have hr : readlines (title ++ '\n' :: body) = (title ++ ['\n']) :: readlines body := by
    unfold readlines
    rw [readlines_line _ _ _ h1]
    rfl
  simp only [hr, List.drop_succ_cons, List.drop_zero]
  rw [fromstring_join (by intro c hc; have : c = ' ' := by simpa using hc
                          rw [this]; rfl) hb, if_neg (by simp)]
  exact C51_gufm1 nmax years data h4

/-- The replacement of the exponent letter. -/
theorem map_D_words {ws : List (List Char)} {s : List Char} (h : Words s ws) :
    Words (s.map fun c => if c = 'D' then 'E' else c) (ws.map fun w => w.map fun c => if c = 'D' then 'E' else c) := by
  have hsp : ∀ c, isSpace (if c = 'D' then 'E' else c) = isSpace c := by
    intro c
    split_ifs with h
    · rw [h]; rfl
    · rfl
  induction ws generalizing s with
  | nil =>
    intro c hc
    obtain ⟨d, hd, rfl⟩ := List.mem_map.1 hc
    rw [hsp]
    exact h d hd
  | cons w ws ih =>
    obtain ⟨pre, rest, rfl, hp, hw, hws, hr, hrest⟩ := h
    refine ⟨_, rest.map fun c => if c = 'D' then 'E' else c, by rw [List.map_append, List.map_append], ?_, by simpa using hw, ?_, ?_, ih hrest⟩
    · intro c hc
      obtain ⟨d, hd, rfl⟩ := List.mem_map.1 hc
      rw [hsp]
      exact hp d hd
    · intro c hc
      obtain ⟨d, hd, rfl⟩ := List.mem_map.1 hc
      rw [hsp]
      exact hws d hd
    · rcases hr with rfl | ⟨c, r, rfl, hc⟩
      · exact .inl rfl
      · exact .inr ⟨_, _, rfl, by rw [hsp]; exact hc⟩

theorem map_id_of {s : List Char} (h : 'D' ∉ s) : (s.map fun c => if c = 'D' then 'E' else c) = s := by
  induction s with
  | nil => rfl
  | cons c s ih =>
    rw [List.mem_cons, not_or] at h
    rw [List.map_cons, if_neg (fun e => h.1 e.symm), ih h.2]

theorem digits_no_D {s : List Char} (h : AllDigits s) : 'D' ∉ s := fun hc => absurd (h _ hc).2 (by decide)

theorem sign_no_D {s : List Char} {σ : ℤ} (h : IsSign s σ) : 'D' ∉ s := by
  rcases h with ⟨rfl, -⟩ | ⟨rfl, -⟩ | ⟨rfl, -⟩ <;> decide

theorem map_D_denotes {w : List Char} {x : ℝ} (h : DenotesWith ['e', 'E', 'D'] w x) : Denotes (w.map fun c => if c = 'D' then 'E' else c) x := by
  obtain ⟨sg, σ, a, p, f, e, k, hs, ha, hf, hne, hp, he, rfl, rfl⟩ := h
  have hpd : 'D' ∉ p := by rcases hp with rfl | ⟨rfl, -⟩ <;> decide
  refine ⟨sg, σ, a, p, f, e.map fun c => if c = 'D' then 'E' else c, k, hs, ha, hf, hne, hp, ?_, ?_, rfl⟩
  · rcases he with ⟨rfl, rfl⟩ | ⟨m, hm, t, τ, d, ht, hd, hne', rfl, rfl⟩
    · exact .inl ⟨rfl, rfl⟩
    · refine .inr ⟨if m = 'D' then 'E' else m, ?_, t, τ, d, ht, hd, hne', ?_, rfl⟩
      · simp only [List.mem_cons, List.not_mem_nil, or_false] at hm ⊢
        rcases hm with rfl | rfl | rfl <;> decide
      · rw [List.map_cons, List.map_append, map_id_of (sign_no_D ht), map_id_of (digits_no_D hd)]
  · rw [List.map_append, List.map_append, List.map_append, List.map_append, map_id_of (sign_no_D hs), map_id_of (digits_no_D ha), map_id_of hpd,
      map_id_of (digits_no_D hf)]

/-- **C51** (CALS7K files). The whole text consists of numbers, with exponents marked by e, E or D: six numbers of which the fifth is the degree, the number of
B-splines (four less than the number of break points), the years of the break points and the coefficients. -/
theorem C51_cals7k_file (content : List Char) (nmax : ℕ) (a b c d e : ℝ) (years data : List ℝ) (h4 : 4 ≤ years.length)
    (hc : NumbersWith ['e', 'E', 'D'] content ([a, b, c, d, (nmax : ℝ), e, ((years.length - 4 : ℕ) : ℝ)] ++ years ++ data)) :
    loadCals7k content = loadSpline (years.map fun y => (y - 2000) * 365.25) 4 nmax data := by
  obtain ⟨ws, h1, h2⟩ := hc
  have hn : Numbers (content.map fun c => if c = 'D' then 'E' else c) ([a, b, c, d, (nmax : ℝ), e, ((years.length - 4 : ℕ) : ℝ)] ++ years ++ data) := by
    refine ⟨_, map_D_words h1, ?_⟩
    rw [List.forall₂_map_left_iff]
    exact h2.imp fun _ _ h => map_D_denotes h
  unfold loadCals7k
  simp only
  rw [fromstring_numbers hn, if_neg (by simp)]
  exact C51_cals7k nmax a b c d e years data h4

/-- A number with an exponent in the notation of Fortran: 1.5D+02 is 150. -/
example : DenotesWith ['e', 'E', 'D'] ['1', '.', '5', 'D', '+', '0', '2'] (150 : ℝ) := by
  refine ⟨[], 1, ['1'], ['.'], ['5'], ['D', '+', '0', '2'], 2, .inl ⟨rfl, rfl⟩, by simp [AllDigits], by simp [AllDigits], .inl (by simp), .inl rfl,
    .inr ⟨'D', by simp, ['+'], 1, ['0', '2'], .inr (.inl ⟨rfl, rfl⟩), ?_, by simp, rfl, rfl⟩, rfl, ?_⟩
  · intro c hc
    simp only [List.mem_cons, List.not_mem_nil, or_false] at hc
    rcases hc with rfl | rfl <;> decide
  · have h1 : digitsValue ['1'] = 1 := rfl
    have h2 : digitsValue ['5'] = 5 := rfl
    rw [h1, h2]
    norm_num

/-- A line of numbers. -/
example : Numbers [' ', '2', '\n', ' ', '3'] [2, 3] := by
  refine ⟨[['2'], ['3']], ⟨[' '], ['\n', ' ', '3'], rfl, by simp; rfl, by simp, by simp; rfl, .inr ⟨'\n', _, rfl, rfl⟩, ['\n', ' '], [], rfl, ?_, by simp, by simp; rfl, .inl rfl,
    by intro c hc; cases hc⟩, ?_⟩
  · intro c hc
    simp only [List.mem_cons, List.not_mem_nil, or_false] at hc
    rcases hc with rfl | rfl <;> rfl
  · have key : ∀ c : Char, '0' ≤ c ∧ c ≤ '9' → Denotes [c] ((digitsValue [c] : ℕ) : ℝ) := fun c hc =>
      ⟨[], 1, [c], [], [], [], 0, .inl ⟨rfl, rfl⟩, by simpa [AllDigits] using hc, (fun _ h => nomatch h), .inl (by simp), .inr ⟨rfl, rfl⟩, .inl ⟨rfl, rfl⟩, rfl,
        by simp [digitsValue]⟩
    have h2 := key '2' (by decide)
    have h3 := key '3' (by decide)
    exact .cons (by simpa [digitsValue, Denotes] using h2) (.cons (by simpa [digitsValue, Denotes] using h3) .nil)

end ChaosMagPy.SplineText
