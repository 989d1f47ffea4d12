import Verif.Props.Shc
import Verif.Props.SplineText
/-!
# C73: shc-files cut short
-/
namespace ChaosMagPy.Spec
open ChaosMagPy.Shc (isSpace)

/-- A comment line: the first character that is not white space is a `#`. -/
def IsHashLine (line : List Char) : Prop := ∃ pre rest, line = pre ++ '#' :: rest ∧ ∀ c ∈ pre, isSpace c = true

/-- A line of numbers. -/
def IsNumberLine {K : Type} [Field K] (line : List Char) : Prop := ∃ ws, Words line ws ∧ ∀ w ∈ ws, ∃ x : K, Denotes w x

/-- The text of an shc-file: comments, a line of numbers (the parameters), then lines of numbers (or none: blank lines) and comments. -/
def IsShcText (K : Type) [Field K] (content : List Char) : Prop :=
  ∃ cs l ls, content = (cs ++ l :: ls).flatMap (fun l => l ++ ['\n']) ∧ (∀ x ∈ cs ++ l :: ls, '\n' ∉ x) ∧ (∀ c ∈ cs, IsHashLine c) ∧
    IsNumberLine (K := K) l ∧ ∀ x ∈ ls, IsHashLine x ∨ IsNumberLine (K := K) x

end ChaosMagPy.Spec

namespace ChaosMagPy.Shc
open ChaosMagPy.Time
open ChaosMagPy.Index
open ChaosMagPy.Spec

/-! ### Lines and words of a prefix -/

theorem linesGo_acc (q acc : List Char) (h : acc ≠ []) : ∃ l rest, linesGo q acc = l :: rest ∧ acc.reverse <+: l := by
  induction q generalizing acc with
  | nil => exact ⟨acc.reverse, [], by simp [linesGo, h], List.prefix_refl _⟩
  | cons c q ih =>
    simp only [linesGo]
    split_ifs
    · exact ⟨_, _, rfl, List.prefix_refl _⟩
    · obtain ⟨l, rest, h1, h2⟩ := ih (c :: acc) (by simp)
      refine ⟨l, rest, h1, ?_⟩
      rw [List.reverse_cons] at h2
      exact (List.prefix_append _ _).trans h2

theorem tokensGo_acc (q acc : List Char) (h : acc ≠ []) : ∃ l rest, tokensGo q acc = l :: rest ∧ acc.reverse <+: l := by
  induction q generalizing acc with
  | nil => exact ⟨acc.reverse, [], by simp [tokensGo, h], List.prefix_refl _⟩
  | cons c q ih =>
    simp only [tokensGo]
    split_ifs
    · exact ⟨_, _, rfl, List.prefix_refl _⟩
    · obtain ⟨l, rest, h1, h2⟩ := ih (c :: acc) (by simp)
      refine ⟨l, rest, h1, ?_⟩
      rw [List.reverse_cons] at h2
      exact (List.prefix_append _ _).trans h2

/-- `a` is the beginning of the list `b`, where of the last item only the beginning may be left. -/
def CutList (a b : List (List Char)) : Prop :=
  ∃ k, a = b.take k ∨ ∃ w' w, b[k]? = some w ∧ w' <+: w ∧ a = b.take k ++ [w']

theorem CutList.cons {a b : List (List Char)} (x : List Char) (h : CutList a b) : CutList (x :: a) (x :: b) := by
  obtain ⟨k, h⟩ := h
  refine ⟨k + 1, ?_⟩
  rcases h with rfl | ⟨w', w, h1, h2, rfl⟩
  · exact .inl rfl
  · exact .inr ⟨w', w, by simpa using h1, h2, rfl⟩

theorem cutList_head {l w : List Char} {rest : List (List Char)} (h : w <+: l) : CutList [w] (l :: rest) := ⟨0, .inr ⟨w, l, rfl, h, rfl⟩⟩

theorem linesGo_prefix (p q acc : List Char) : CutList (linesGo p acc) (linesGo (p ++ q) acc) := by
  induction p generalizing acc with
  | nil =>
    by_cases h : acc = []
    · subst h
      exact ⟨0, .inl rfl⟩
    · obtain ⟨l, rest, h1, h2⟩ := linesGo_acc q acc h
      rw [List.nil_append, h1]
      simp only [linesGo, if_neg h]
      exact cutList_head h2
  | cons c p ih =>
    rw [List.cons_append]
    simp only [linesGo]
    split_ifs
    · exact (ih []).cons _
    · exact ih _

theorem tokensGo_prefix (p q acc : List Char) : CutList (tokensGo p acc) (tokensGo (p ++ q) acc) := by
  induction p generalizing acc with
  | nil =>
    by_cases h : acc = []
    · subst h
      exact ⟨0, .inl rfl⟩
    · obtain ⟨l, rest, h1, h2⟩ := tokensGo_acc q acc h
      rw [List.nil_append, h1]
      simp only [tokensGo, if_neg h]
      exact cutList_head h2
  | cons c p ih =>
    rw [List.cons_append]
    simp only [tokensGo]
    split_ifs
    · exact ih []
    · exact (ih []).cons _
    · exact ih _

/-! ### Numbers -/

section
variable {K : Type} [Field K] [LinearOrder K] [IsStrictOrderedRing K] [FloorRing K]

/-- All words are numbers. -/
def AllNum (K : Type) [Field K] (ts : List (List Char)) : Prop := ∀ t ∈ ts, ∃ x : K, scanNum t = some (x, [])

/-- The list `a` is the beginning of the list `b`, where the last number may be another. -/
def CutNums (a b : List K) : Prop := ∃ k, a = b.take k ∨ (k < b.length ∧ ∃ x, a = b.take k ++ [x])

theorem parseAll_append (a b : List (List Char)) (ha : AllNum K a) : parseAll (K := K) (a ++ b) = parseAll (K := K) a ++ parseAll (K := K) b ∧
    (parseAll (K := K) a).length = a.length := by
  induction a with
  | nil => exact ⟨rfl, rfl⟩
  | cons t a ih =>
    obtain ⟨x, hx⟩ := ha t List.mem_cons_self
    obtain ⟨h1, h2⟩ := ih (fun t ht => ha t (List.mem_cons_of_mem _ ht))
    rw [List.cons_append]
    simp only [parseAll, hx]
    exact ⟨by rw [h1]; rfl, by rw [List.length_cons, List.length_cons, h2]⟩

theorem parseAll_one (w : List Char) : parseAll (K := K) [w] = [] ∨ ∃ x, parseAll (K := K) [w] = [x] := by
  simp only [parseAll]
  cases h : scanNum (K := K) w with
  | none => exact .inl rfl
  | some p =>
    obtain ⟨x, r⟩ := p
    right
    cases r with
    | nil => exact ⟨x, rfl⟩
    | cons c r => exact ⟨x, rfl⟩

theorem cutNums_tokens {a b : List (List Char)} (h : CutList a b) (hb : AllNum K b) : CutNums (parseAll (K := K) a) (parseAll (K := K) b) := by
  obtain ⟨k, h⟩ := h
  have hk : AllNum K (b.take k) := fun t ht => hb t (List.mem_of_mem_take ht)
  obtain ⟨h1, h2⟩ := parseAll_append (b.take k) (b.drop k) hk
  have htake : parseAll (K := K) (b.take k) = (parseAll (K := K) b).take (min k b.length) := by
    rw [List.take_append_drop] at h1
    conv_rhs => rw [h1, List.take_append_of_le_length (by rw [h2, List.length_take]), List.take_of_length_le (by rw [h2, List.length_take])]
  refine ⟨min k b.length, ?_⟩
  rcases h with rfl | ⟨w', w, h3, -, rfl⟩
  · exact .inl htake
  · have hlt : k < b.length := by
      by_contra hc
      rw [List.getElem?_eq_none (by omega)] at h3
      cases h3
    rw [(parseAll_append (b.take k) [w'] hk).1, htake]
    have hlb := (parseAll_append b [] hb).2
    rcases parseAll_one (K := K) w' with h | ⟨x, h⟩
    · rw [h, List.append_nil]
      exact .inl rfl
    · rw [h]
      exact .inr ⟨by rw [hlb]; omega, x, rfl⟩

theorem cutNums_line {l l' : List Char} (h : l' <+: l) (hl : AllNum K (tokensGo l [])) : CutNums (fromstring (K := K) l') (fromstring (K := K) l) := by
  obtain ⟨q, rfl⟩ := h
  exact cutNums_tokens (tokensGo_prefix l' q []) hl

theorem CutNums.append {a b : List K} (h : CutNums a b) (pre rest : List K) : CutNums (pre ++ a) (pre ++ (b ++ rest)) := by
  obtain ⟨k, h⟩ := h
  refine ⟨pre.length + min k b.length, ?_⟩
  have ht : (pre ++ (b ++ rest)).take (pre.length + min k b.length) = pre ++ b.take k := by
    rw [List.take_append, List.take_of_length_le (by omega), Nat.add_sub_cancel_left, List.take_append_of_le_length (by omega)]
    congr 1
    rcases le_total k b.length with h | h
    · rw [min_eq_left h]
    · rw [min_eq_right h, List.take_of_length_le le_rfl, List.take_of_length_le h]
  rcases h with rfl | ⟨hk, x, rfl⟩
  · exact .inl ht.symm
  · right
    refine ⟨by rw [List.length_append, List.length_append]; omega, x, ?_⟩
    rw [ht, List.append_assoc]

/-! ### Comments -/

theorem dropWhile_append_space (pre s : List Char) (h : ∀ c ∈ pre, isSpace c = true) : (pre ++ s).dropWhile isSpace = s.dropWhile isSpace := by
  induction pre with
  | nil => rfl
  | cons c pre ih =>
    rw [List.cons_append, List.dropWhile_cons, if_pos (h c List.mem_cons_self), ih (fun x hx => h x (List.mem_cons_of_mem _ hx))]

theorem isComment_iff (l : List Char) : isComment l = true ↔ IsHashLine l := by
  constructor
  · intro h
    unfold isComment at h
    refine ⟨l.takeWhile isSpace, (l.dropWhile isSpace).tail, ?_, ?_⟩
    · have := List.takeWhile_append_dropWhile (p := isSpace) (l := l)
      cases hd : l.dropWhile isSpace with
      | nil => rw [hd] at h; cases h
      | cons c t =>
        rw [hd] at h this
        have hc : c = '#' := by
          by_contra hc
          split at h
          · rename_i heq
            injection heq with h1
            exact hc h1
          · cases h
        rw [hc] at this
        exact this.symm
    · intro c hc
      exact List.all_eq_true.1 List.all_takeWhile c hc
  · rintro ⟨pre, rest, rfl, h⟩
    unfold isComment
    rw [dropWhile_append_space _ _ h, List.dropWhile_cons, if_neg (by decide)]
    rfl

theorem comment_prefix {l l' : List Char} (h : l' <+: l) (hc : isComment l' = true) : isComment l = true := by
  obtain ⟨q, rfl⟩ := h
  obtain ⟨pre, rest, rfl, h⟩ := (isComment_iff _).1 hc
  exact (isComment_iff _).2 ⟨pre, rest ++ q, by simp, h⟩

theorem prefix_comment {l l' : List Char} (h : l' <+: l) (hc : isComment l = true) : isComment l' = true ∨ fromstring (K := K) l' = [] := by
  obtain ⟨pre, rest, rfl, hp⟩ := (isComment_iff _).1 hc
  have hor : l' <+: pre ∨ ∃ t, l' = pre ++ t ∧ t <+: '#' :: rest := by
    rcases List.prefix_or_prefix_of_prefix h (List.prefix_append pre ('#' :: rest)) with h1 | ⟨t, rfl⟩
    · exact .inl h1
    · exact .inr ⟨t, rfl, (List.prefix_append_right_inj pre).1 h⟩
  rcases hor with h | ⟨t, rfl, ht⟩
  · right
    have : tokensGo l' [] = [] := Igrf.tokens_words [] l' (fun c hc => hp c (h.subset hc))
    unfold fromstring
    rw [this]
    rfl
  · cases t with
    | nil =>
      right
      rw [List.append_nil]
      have : tokensGo pre [] = [] := Igrf.tokens_words [] pre hp
      unfold fromstring
      rw [this]
      rfl
    | cons c t =>
      left
      rw [List.cons_prefix_cons] at ht
      rw [ht.1]
      exact (isComment_iff _).2 ⟨pre, t, rfl, hp⟩

/-- The numbers of the data lines. -/
def dataOf (ls : List (List Char)) : List K := ls.flatMap fun l => if isComment l then [] else fromstring l

theorem loadLine_fold (v : List ℤ) (d : List K) (ls : List (List Char)) : ls.foldl loadLine (⟨some v, d⟩ : LoadState K) = ⟨some v, d ++ dataOf ls⟩ := by
  induction ls generalizing d with
  | nil => simp [dataOf]
  | cons l ls ih =>
    rw [List.foldl_cons]
    have : loadLine (⟨some v, d⟩ : LoadState K) l = ⟨some v, d ++ if isComment l then [] else fromstring l⟩ := by
      unfold loadLine
      split_ifs with h
      · rw [List.append_nil]
      · rfl
    rw [this, ih]
    simp only [dataOf, List.flatMap_cons, List.append_assoc]

theorem cutNums_data {a b : List (List Char)} (h : CutList a b) (hb : ∀ l ∈ b, isComment l = true ∨ AllNum K (tokensGo l [])) :
    CutNums (dataOf (K := K) a) (dataOf (K := K) b) := by
  obtain ⟨k, h⟩ := h
  have hsplit : b = b.take k ++ b.drop k := (List.take_append_drop k b).symm
  have happ : ∀ x y : List (List Char), dataOf (K := K) (x ++ y) = dataOf (K := K) x ++ dataOf (K := K) y := fun x y => List.flatMap_append
  rcases h with rfl | ⟨w', w, h1, h2, rfl⟩
  · conv_rhs => rw [hsplit, happ]
    exact ⟨(dataOf (K := K) (b.take k)).length, .inl (by rw [List.take_left])⟩
  · have hd : b.drop k = w :: b.drop (k + 1) := by
      obtain ⟨hk, hw⟩ := List.getElem?_eq_some_iff.1 h1
      rw [List.drop_eq_getElem_cons hk, hw]
    rw [hd] at hsplit
    have hb' : dataOf (K := K) b = dataOf (K := K) (b.take k) ++ ((if isComment w then [] else fromstring w) ++ dataOf (K := K) (b.drop (k + 1))) := by
      conv_lhs => rw [hsplit, happ]
      simp only [dataOf, List.flatMap_cons]
    rw [hb', happ]
    apply CutNums.append
    simp only [dataOf, List.flatMap_cons, List.flatMap_nil, List.append_nil]
    have hw := List.mem_of_getElem? h1
    by_cases hc : isComment w = true
    · rw [if_pos hc]
      have : (if isComment w' = true then [] else fromstring (K := K) w') = [] := by
        rcases prefix_comment (K := K) h2 hc with h | h
        · rw [if_pos h]
        · rw [h]; simp
      rw [this]
      exact ⟨0, .inl rfl⟩
    · rw [if_neg hc, if_neg (fun h => hc (comment_prefix h2 h))]
      rcases hb w hw with h | h
      · exact absurd h hc
      · exact cutNums_line h2 h

/-! ### The reader -/

/-- What the reader does with the numbers. -/
theorem loadShc_eq (leap : Option Bool) (content : List Char) (v : List ℤ) (d : List K)
    (h : (lines content).foldl loadLine (⟨none, []⟩ : LoadState K) = ⟨some v, d⟩) (L : Loaded K) :
    loadShc leap content = .ok L ↔ (∃ N : ℕ, (["nmin", "nmax", "N", "order", "step"].zip v).lookup "N" = some (N : ℤ) ∧
      (d.drop N).length % (N + 2) = 0 ∧ (d.take N).mapM (dyearToMjd (leap.getD true)) = .ok L.mjd ∧
      L.coeffs = (chunks (N + 2) (d.drop N)).map (fun r => r.drop 2) ∧ L.params = ["nmin", "nmax", "N", "order", "step"].zip v) ∨
      ((["nmin", "nmax", "N", "order", "step"].zip v).lookup "N" = some (-1) ∧ d.dropLast.mapM (dyearToMjd (leap.getD true)) = .ok L.mjd ∧
      L.coeffs = (chunks 1 (d.drop (d.length - 1))).map (fun r => r.drop 2) ∧ L.params = ["nmin", "nmax", "N", "order", "step"].zip v) := by
  unfold loadShc
  simp only [h]
  cases hl : (["nmin", "nmax", "N", "order", "step"].zip v).lookup "N" with
  | none => simp
  | some N =>
    simp only
    by_cases hN : N < 0
    · rw [if_pos hN]
      unfold loadNegative
      by_cases hN1 : N < -1
      · rw [if_pos hN1]
        constructor
        · intro h; cases h
        · rintro (⟨M, h1, -⟩ | ⟨h1, -⟩)
          · injection h1 with h1
            omega
          · injection h1 with h1
            omega
      · rw [if_neg hN1]
        have hN2 : N = -1 := by omega
        subst hN2
        cases hd : d.dropLast.mapM (dyearToMjd (leap.getD true)) with
        | error e =>
          constructor
          · intro h; cases h
          · rintro (⟨M, h1, -⟩ | ⟨-, h2, -⟩)
            · injection h1 with h1
              omega
            · cases h2
        | ok mjd =>
          simp only
          constructor
          · intro h
            injection h with h
            subst h
            exact .inr ⟨trivial, rfl, rfl, rfl⟩
          · rintro (⟨M, h1, -⟩ | ⟨-, h3, h4, h5⟩)
            · injection h1 with h1
              omega
            · injection h3 with h3
              obtain ⟨a, b, c⟩ := L
              simp only at h3 h4 h5
              rw [h3, h4, h5]
    · rw [if_neg hN]
      obtain ⟨M, rfl⟩ := Int.eq_ofNat_of_zero_le (not_lt.1 hN)
      rw [Int.toNat_natCast]
      have hneg : ¬ (some ((M : ℕ) : ℤ) = some (-1)) := by
        intro h
        injection h with h
        omega
      split_ifs with hm
      · constructor
        · intro h; cases h
        · rintro (⟨M', h1, h2, -⟩ | ⟨h1, -⟩)
          · injection h1 with h1
            rw [Int.natCast_inj] at h1
            subst h1
            exact absurd h2 hm
          · exact absurd h1 hneg
      · rw [not_not] at hm
        cases hd : (d.take M).mapM (dyearToMjd (leap.getD true)) with
        | error e =>
          constructor
          · intro h; cases h
          · rintro (⟨M', h1, h2, h3, -⟩ | ⟨h1, -⟩)
            · injection h1 with h1
              rw [Int.natCast_inj] at h1
              subst h1
              rw [hd] at h3
              cases h3
            · exact absurd h1 hneg
        | ok mjd =>
          simp only
          constructor
          · intro h
            injection h with h
            subst h
            exact .inl ⟨M, rfl, hm, hd, rfl, rfl⟩
          · rintro (⟨M', h1, h2, h3, h4, h5⟩ | ⟨h1, -⟩)
            · injection h1 with h1
              rw [Int.natCast_inj] at h1
              subst h1
              rw [hd] at h3
              injection h3 with h3
              obtain ⟨a, b, c⟩ := L
              simp only at h3 h4 h5
              rw [h3, h4, h5]
            · exact absurd h1 hneg

/-- The row `a` is the row `b`, or all but the last value of it. -/
def SameButLast (a b : List K) : Prop := a.length = b.length ∧ a.dropLast = b.dropLast

theorem CutNums.spec {a b : List K} (h : CutNums a b) : a.length ≤ b.length ∧ ∀ j, j + 1 < a.length → a[j]? = b[j]? := by
  obtain ⟨k, rfl | ⟨hk, x, rfl⟩⟩ := h
  · refine ⟨by rw [List.length_take]; omega, fun j hj => ?_⟩
    rw [List.length_take] at hj
    rw [List.getElem?_take_of_lt (by omega)]
  · have hl : (b.take k).length = k := by rw [List.length_take]; omega
    rw [List.length_append, hl]
    refine ⟨by simpa using hk, fun j hj => ?_⟩
    have hj : j < k := by simpa using hj
    rw [List.getElem?_append_left (by omega), List.getElem?_take_of_lt hj]

/-- Rows of the cut table. -/
theorem chunks_cut (N : ℕ) {a b : List K} (h : CutNums a b) (hb : b.length % (N + 2) = 0) (ha : a.length % (N + 2) = 0) (i : ℕ) (row : List K)
    (hrow : (chunks (N + 2) a)[i]? = some row) :
    (chunks (N + 2) a).length ≤ (chunks (N + 2) b).length ∧
    ∃ row', (chunks (N + 2) b)[i]? = some row' ∧ (row.drop 2 = row'.drop 2 ∨ (i + 1 = (chunks (N + 2) a).length ∧ SameButLast (row.drop 2) (row'.drop 2))) := by
  obtain ⟨hl, hj⟩ := h.spec
  have la : (chunks (N + 2) a).length = a.length / (N + 2) := by simp [chunks]
  have lb : (chunks (N + 2) b).length = b.length / (N + 2) := by simp [chunks]
  have hi : i < a.length / (N + 2) := by
    rw [← la]
    exact (List.getElem?_eq_some_iff.1 hrow).1
  have hle : a.length / (N + 2) ≤ b.length / (N + 2) := Nat.div_le_div_right hl
  have hmul : (i + 1) * (N + 2) ≤ a.length := by
    calc (i + 1) * (N + 2) ≤ a.length / (N + 2) * (N + 2) := Nat.mul_le_mul_right _ hi
      _ ≤ a.length := Nat.div_mul_le_self _ _
  have ra : row = (a.drop (i * (N + 2))).take (N + 2) := by
    unfold chunks at hrow
    rw [List.getElem?_map, List.getElem?_range hi] at hrow
    exact (Option.some.inj hrow).symm
  have rb : (chunks (N + 2) b)[i]? = some ((b.drop (i * (N + 2))).take (N + 2)) := by
    unfold chunks
    rw [List.getElem?_map, List.getElem?_range (by omega)]
    rfl
  refine ⟨by rw [la, lb]; exact hle, _, rb, ?_⟩
  have hlen : row.length = N + 2 := by
    rw [ra, List.length_take, List.length_drop, Nat.add_one_mul] at *
    omega
  have hlen' : ((b.drop (i * (N + 2))).take (N + 2)).length = N + 2 := by
    rw [List.length_take, List.length_drop]
    rw [Nat.add_one_mul] at hmul
    omega
  have hget : ∀ j, j < N + 2 → i * (N + 2) + j + 1 < a.length → row[j]? = ((b.drop (i * (N + 2))).take (N + 2))[j]? := by
    intro j h1 h2
    rw [ra, List.getElem?_take_of_lt h1, List.getElem?_take_of_lt h1, List.getElem?_drop, List.getElem?_drop]
    exact hj _ h2
  rw [Nat.add_one_mul] at hmul
  by_cases hlast : i + 1 = a.length / (N + 2)
  · right
    refine ⟨by rw [la]; exact hlast, by rw [List.length_drop, List.length_drop, hlen, hlen'], ?_⟩
    apply List.ext_getElem?
    intro j
    rw [List.dropLast_eq_take, List.dropLast_eq_take, List.length_drop, List.length_drop, hlen, hlen']
    by_cases hjN : j < N + 2 - 2 - 1
    · rw [List.getElem?_take_of_lt hjN, List.getElem?_take_of_lt hjN, List.getElem?_drop, List.getElem?_drop]
      exact hget _ (by omega) (by omega)
    · rw [List.getElem?_eq_none (by rw [List.length_take]; omega), List.getElem?_eq_none (by rw [List.length_take]; omega)]
  · left
    have hmul2 : (i + 1 + 1) * (N + 2) ≤ a.length := by
      calc (i + 1 + 1) * (N + 2) ≤ a.length / (N + 2) * (N + 2) := Nat.mul_le_mul_right _ (by omega)
        _ ≤ a.length := Nat.div_mul_le_self _ _
    rw [Nat.add_one_mul, Nat.add_one_mul] at hmul2
    congr 1
    apply List.ext_getElem?
    intro j
    by_cases hjN : j < N + 2
    · exact hget j hjN (by omega)
    · rw [List.getElem?_eq_none (by omega), List.getElem?_eq_none (by omega)]

/-- Reading a part of a file: an error, or nothing at all of the coefficients, or the first rows of the coefficients with the same parameters
and times; only the last value of the last row may be wrong. -/
def CutLoaded (part : Except Error (Loaded K)) (L : Loaded K) : Prop :=
  ∀ L', part = .ok L' → L'.coeffs = [] ∨
    (L'.params = L.params ∧ L'.mjd = L.mjd ∧ L'.coeffs.length ≤ L.coeffs.length ∧
      ∀ i row, L'.coeffs[i]? = some row → ∃ row', L.coeffs[i]? = some row' ∧
        (row = row' ∨ (i + 1 = L'.coeffs.length ∧ SameButLast row row')))

theorem chunks_nil (w : ℕ) : chunks w ([] : List K) = [] := by simp [chunks]

/-- The numbers decide. -/
theorem cutLoaded_numbers (leap : Option Bool) (c p : List Char) (v : List ℤ) (d d' : List K)
    (hc : (lines c).foldl loadLine (⟨none, []⟩ : LoadState K) = ⟨some v, d⟩) (hp : (lines p).foldl loadLine (⟨none, []⟩ : LoadState K) = ⟨some v, d'⟩)
    (h : CutNums d' d) (L : Loaded K) (hL : loadShc leap c = .ok L) (hneg : L.params.lookup "N" ≠ some (-1)) : CutLoaded (loadShc leap p) L := by
  intro L' hL'
  rcases (loadShc_eq leap c v d hc L).1 hL with ⟨N, n1, n2, n3, n4, n5⟩ | ⟨n1, -, -, n5⟩
  swap
  · rw [n5] at hneg
    exact absurd n1 hneg
  rcases (loadShc_eq leap p v d' hp L').1 hL' with ⟨N', m1, m2, m3, m4, m5⟩ | ⟨m1, -⟩
  swap
  · rw [n5] at hneg
    exact absurd m1 hneg
  rw [n1] at m1
  injection m1 with m1
  rw [Int.natCast_inj] at m1
  subst m1
  by_cases hnil : d'.drop N = []
  · left
    rw [m4, hnil, chunks_nil]
    rfl
  right
  have hlong : N < d'.length := by
    by_contra hc
    exact hnil (List.drop_eq_nil_of_le (by omega))
  -- the times are complete
  have htime : d'.take N = d.take N ∧ CutNums (d'.drop N) (d.drop N) := by
    obtain ⟨k, rfl | ⟨hk, x, rfl⟩⟩ := h
    · rw [List.length_take] at hlong
      refine ⟨by rw [List.take_take]; congr 1; omega, k - N, .inl ?_⟩
      rw [List.drop_take]
    · rw [List.length_append, List.length_take] at hlong
      simp only [List.length_cons, List.length_nil] at hlong
      have hkN : N ≤ k := by omega
      have hlt : N ≤ (d.take k).length := by rw [List.length_take]; omega
      refine ⟨?_, k - N, .inr ⟨by rw [List.length_drop]; omega, x, ?_⟩⟩
      · rw [List.take_append_of_le_length hlt, List.take_take]
        congr 1; omega
      · rw [List.drop_append_of_le_length hlt, List.drop_take]
  refine ⟨by rw [m5, n5], ?_, ?_, ?_⟩
  · rw [htime.1, n3] at m3
    injection m3 with m3
    exact m3.symm
  · rw [m4, n4, List.length_map, List.length_map]
    have la : ∀ x : List K, (chunks (N + 2) x).length = x.length / (N + 2) := fun x => by simp [chunks]
    rw [la, la]
    exact Nat.div_le_div_right htime.2.spec.1
  · intro i row hrow
    rw [m4, List.getElem?_map] at hrow
    cases hr : (chunks (N + 2) (d'.drop N))[i]? with
    | none => rw [hr] at hrow; cases hrow
    | some r =>
      rw [hr] at hrow
      simp only [Option.map_some, Option.some.injEq] at hrow
      obtain ⟨-, row', h1, h2⟩ := chunks_cut N htime.2 n2 m2 i r hr
      refine ⟨row'.drop 2, by rw [n4, List.getElem?_map, h1]; rfl, ?_⟩
      rw [← hrow, m4, List.length_map]
      exact h2

/-- Without the number of times nothing is read. -/
theorem no_N {v : List ℤ} (h : v.length < 3) : (["nmin", "nmax", "N", "order", "step"].zip v).lookup "N" = none := by
  match v, h with
  | [], _ => rfl
  | [a], _ => rfl
  | [a, b], _ => rfl

theorem allNum_of {line : List Char} (h : IsNumberLine (K := K) line) : AllNum K (tokensGo line []) := by
  obtain ⟨ws, h1, h2⟩ := h
  rw [Igrf.tokens_words ws line h1]
  intro w hw
  obtain ⟨x, hx⟩ := h2 w hw
  exact ⟨x, parseNum_of_scan.1 (parseNum_of hx)⟩

theorem numberLine_not_comment {line : List Char} (h : IsNumberLine (K := K) line) : isComment line = false := by
  rw [← Bool.not_eq_true, isComment_iff]
  rintro ⟨pre, rest, rfl, hp⟩
  obtain ⟨ws, h1, h2⟩ := h
  have ht := Igrf.tokens_words ws _ h1
  rw [Igrf.tokensGo_white pre _ hp] at ht
  simp only [tokensGo] at ht
  rw [if_neg (by decide)] at ht
  obtain ⟨l, r, h3, h4⟩ := tokensGo_acc rest ['#'] (by simp)
  rw [h3] at ht
  subst ht
  obtain ⟨x, hx⟩ := h2 l List.mem_cons_self
  obtain ⟨t, rfl⟩ := h4
  have := parseNum_of hx
  have hnone : parseNum (K := K) (['#'].reverse ++ t) = none := by
    simp [parseNum, scanNum, scanSign, scanUnsigned, hash_not_digit]
  rw [hnone] at this
  cases this

/-- Take of an append with a middle element. -/
theorem cutList_append {a cs ls : List (List Char)} {l : List Char} (h : CutList a (cs ++ l :: ls)) :
    CutList a cs ∨ (∃ l', l' <+: l ∧ a = cs ++ [l']) ∨ ∃ b, CutList b ls ∧ a = cs ++ l :: b := by
  induction cs generalizing a with
  | nil =>
    obtain ⟨k, h⟩ := h
    rw [List.nil_append] at h
    cases k with
    | zero =>
      rcases h with rfl | ⟨w', w, h1, h2, rfl⟩
      · exact .inl ⟨0, .inl rfl⟩
      · injection h1 with h1
        subst h1
        exact .inr (.inl ⟨w', h2, rfl⟩)
    | succ k =>
      rcases h with rfl | ⟨w', w, h1, h2, rfl⟩
      · exact .inr (.inr ⟨ls.take k, ⟨k, .inl rfl⟩, rfl⟩)
      · exact .inr (.inr ⟨ls.take k ++ [w'], ⟨k, .inr ⟨w', w, by simpa using h1, h2, rfl⟩⟩, rfl⟩)
  | cons c cs ih =>
    obtain ⟨k, h⟩ := h
    cases k with
    | zero =>
      rcases h with rfl | ⟨w', w, h1, h2, rfl⟩
      · exact .inl ⟨0, .inl rfl⟩
      · exact .inl ⟨0, .inr ⟨w', w, h1, h2, rfl⟩⟩
    | succ k =>
      obtain ⟨a', rfl, ha⟩ : ∃ a', a = c :: a' ∧ CutList a' (cs ++ l :: ls) := by
        rcases h with rfl | ⟨w', w, h1, h2, rfl⟩
        · exact ⟨_, rfl, k, .inl rfl⟩
        · exact ⟨_, rfl, k, .inr ⟨w', w, by simpa using h1, h2, rfl⟩⟩
      rcases ih ha with h | ⟨l', h1, h2⟩ | ⟨b, h1, h2⟩
      · exact .inl (h.cons c)
      · exact .inr (.inl ⟨l', h1, by rw [h2]; rfl⟩)
      · exact .inr (.inr ⟨b, h1, by rw [h2]; rfl⟩)

/-- **C73.** A file that was cut off at any place (by a crash while it was written, or by an interrupted copy): the reader raises an exception, or it
returns no coefficients at all, or it returns the parameters, the times and the first rows of the coefficients; in the last of these rows the last
value may be wrong (some of its digits are missing), all others are right. -/
theorem C73_cut (leap : Option Bool) (content p : List Char) (h : IsShcText K content) (L : Loaded K) (hL : loadShc leap content = .ok L)
    (hneg : L.params.lookup "N" ≠ some (-1)) (hp : p <+: content) : CutLoaded (loadShc leap p) L := by
  obtain ⟨cs, l, ls, rfl, hn, hcs, hl, hls⟩ := h
  obtain ⟨q, hq⟩ := hp
  have hlines := Igrf.lines_text _ hn
  have hcut : CutList (lines p) (cs ++ l :: ls) := by
    rw [← hlines, ← hq]
    exact linesGo_prefix p q []
  have hcs' : ∀ x ∈ cs, isComment x = true := fun x hx => (isComment_iff x).2 (hcs x hx)
  have hlc := numberLine_not_comment hl
  have first : ∀ x : List Char, isComment x = false → loadLine (⟨none, []⟩ : LoadState K) x = ⟨some ((fromstring (K := K) x).map truncZ), []⟩ := by
    intro x hx
    unfold loadLine
    rw [hx]
    rfl
  have hfull : (lines ((cs ++ l :: ls).flatMap fun l => l ++ ['\n'])).foldl loadLine (⟨none, []⟩ : LoadState K) =
      ⟨some ((fromstring (K := K) l).map truncZ), dataOf ls⟩ := by
    rw [hlines, List.foldl_append, loadLine_comments _ _ hcs', List.foldl_cons, first l hlc, loadLine_fold, List.nil_append]
  rcases cutList_append hcut with hcut | ⟨l', h1, h2⟩ | ⟨b, h1, h2⟩
  · -- the cut is in the comments
    intro L' hL'
    exfalso
    obtain ⟨k, hk⟩ := hcut
    have hk' : ∀ x ∈ cs.take k, isComment x = true := fun x hx => hcs' x (List.mem_of_mem_take hx)
    have hnone : ∀ s : LoadState K, s = ⟨none, []⟩ → (lines p).foldl loadLine (⟨none, []⟩ : LoadState K) ≠ s := by
      intro s hs h
      rw [hs] at h
      unfold loadShc at hL'
      simp only [h] at hL'
      cases hL'
    rcases hk with hk | ⟨w', w, h1, h2, hk⟩
    · exact hnone _ rfl (by rw [hk, loadLine_comments _ _ hk'])
    · have hw := hcs' w (List.mem_of_getElem? h1)
      rcases prefix_comment (K := K) h2 hw with h | h
      · refine hnone _ rfl ?_
        rw [hk, loadLine_comments]
        intro x hx
        rcases List.mem_append.1 hx with hx | hx
        · exact hk' x hx
        · rw [List.mem_singleton.1 hx]
          exact h
      · by_cases hc : isComment w' = true
        · refine hnone _ rfl ?_
          rw [hk, loadLine_comments]
          intro x hx
          rcases List.mem_append.1 hx with hx | hx
          · exact hk' x hx
          · rw [List.mem_singleton.1 hx]
            exact hc
        · rw [Bool.not_eq_true] at hc
          have hf : (lines p).foldl loadLine (⟨none, []⟩ : LoadState K) = ⟨some [], []⟩ := by
            rw [hk, List.foldl_append, loadLine_comments _ _ hk', List.foldl_cons, first w' hc, h]
            rfl
          rcases (loadShc_eq leap p [] [] hf L').1 hL' with ⟨N, n1, -⟩ | ⟨n1, -⟩
          all_goals
            rw [no_N (by simp)] at n1
            cases n1
  · -- in the line of parameters
    intro L' hL'
    left
    have hc : isComment l' = false := by
      rw [← Bool.not_eq_true]
      intro hc
      rw [comment_prefix h1 hc] at hlc
      cases hlc
    have hf : (lines p).foldl loadLine (⟨none, []⟩ : LoadState K) = ⟨some ((fromstring (K := K) l').map truncZ), []⟩ := by
      rw [h2, List.foldl_append, loadLine_comments _ _ hcs', List.foldl_cons, first l' hc]
      rfl
    rcases (loadShc_eq leap p _ [] hf L').1 hL' with ⟨N, -, -, -, n4, -⟩ | ⟨-, -, n4, -⟩
    all_goals
      rw [n4, List.drop_nil, chunks_nil]
      rfl
  · -- later
    have hf : (lines p).foldl loadLine (⟨none, []⟩ : LoadState K) = ⟨some ((fromstring (K := K) l).map truncZ), dataOf b⟩ := by
      rw [h2, List.foldl_append, loadLine_comments _ _ hcs', List.foldl_cons, first l hlc, loadLine_fold, List.nil_append]
    refine cutLoaded_numbers leap _ p _ _ _ hfull hf (cutNums_data h1 ?_) L hL hneg
    intro x hx
    rcases hls x hx with h | h
    · exact .inl ((isComment_iff x).2 h)
    · exact .inr (allNum_of h)

/-! ### Saved files -/

theorem words_space {c : Char} (hc : isSpace c = true) {s : List Char} {ws : List (List Char)} (h : Words s ws) : Words (c :: s) ws := by
  cases ws with
  | nil =>
    intro x hx
    rcases List.mem_cons.1 hx with rfl | hx
    · exact hc
    · exact h x hx
  | cons w ws =>
    obtain ⟨pre, rest, rfl, h1, h2⟩ := h
    refine ⟨c :: pre, rest, rfl, ?_, h2⟩
    intro x hx
    rcases List.mem_cons.1 hx with rfl | hx
    · exact hc
    · exact h1 x hx

/-- Every line consists of its tokens. -/
theorem words_tokensGo (s acc : List Char) (h : ∀ c ∈ acc, isSpace c = false) : Words (acc.reverse ++ s) (tokensGo s acc) := by
  induction s generalizing acc with
  | nil =>
    rw [List.append_nil]
    simp only [tokensGo]
    split_ifs with ha
    · rw [ha]
      exact fun c hc => nomatch hc
    · exact ⟨[], [], by simp, (fun c hc => nomatch hc), by simpa using ha, (by simpa using h), .inl rfl, fun c hc => nomatch hc⟩
  | cons c s ih =>
    simp only [tokensGo]
    split_ifs with h1 h2
    · rw [h2]
      exact words_space h1 (ih [] (fun c hc => nomatch hc))
    · exact ⟨[], c :: s, by simp, (fun c hc => nomatch hc), by simpa using h2, (by simpa using h), .inr ⟨c, s, rfl, h1⟩,
        words_space h1 (ih [] (fun c hc => nomatch hc))⟩
    · have := ih (c :: acc) (by
        intro x hx
        rcases List.mem_cons.1 hx with rfl | hx
        · exact Bool.not_eq_true _ |>.mp h1
        · exact h x hx)
      rw [List.reverse_cons, List.append_assoc] at this
      exact this

theorem numberLine_of {line : List Char} (h : AllNum K (tokensGo line [])) : IsNumberLine (K := K) line := by
  refine ⟨_, words_tokensGo line [] (fun c hc => nomatch hc), ?_⟩
  intro w hw
  obtain ⟨x, hx⟩ := h w hw
  exact ⟨x, parseNum_sound (parseNum_of_scan.2 hx)⟩

/-- A text that ends with a line end consists of its lines. -/
theorem text_lines (s : List Char) (h : s = [] ∨ s.getLast? = some '\n') : s = (lines s).flatMap (fun l => l ++ ['\n']) ∧ ∀ x ∈ lines s, '\n' ∉ x := by
  refine SplineText.text_induction (P := fun s => (s = [] ∨ s.getLast? = some '\n') → s = (lines s).flatMap (fun l => l ++ ['\n']) ∧ ∀ x ∈ lines s, '\n' ∉ x)
    ?_ ?_ s h
  · intro l hl h
    have : l = [] := by
      rcases h with h | h
      · exact h
      · exact absurd (List.mem_of_getLast? h) hl
    rw [this]
    exact ⟨rfl, fun x hx => nomatch hx⟩
  · intro l s hl ih h
    have hs : s = [] ∨ s.getLast? = some '\n' := by
      cases s with
      | nil => exact .inl rfl
      | cons c s =>
        right
        rcases h with h | h
        · simp at h
        · rw [List.getLast?_append_of_ne_nil _ (by simp), List.getLast?_cons_cons] at h
          exact h
    obtain ⟨h1, h2⟩ := ih hs
    have hlin : lines (l ++ '\n' :: s) = l :: lines s := by
      unfold lines
      rw [linesGo_line l s [] hl]
      rfl
    rw [hlin]
    refine ⟨?_, ?_⟩
    · rw [List.flatMap_cons, ← h1]
      simp
    · intro x hx
      rcases List.mem_cons.1 hx with rfl | hx
      · exact hl
      · exact h2 x hx

theorem allNum_fields {α : Type} (l : List α) (v : α → K) (k : ℕ) : AllNum K (tokensGo (List.replicate k ' ' ++ fieldsText (l.map fun x => asField (v x))) []) := by
  rw [tokensGo_spaces, (tokensGo_fields _ (asField_token l v)).1, List.map_map]
  intro t ht
  obtain ⟨x, -, rfl⟩ := List.mem_map.1 ht
  exact ⟨_, parseNum_of_scan.1 (parseNum_fixed8 (v x))⟩

theorem rows_lines (c : Arr K) (ls : List (ℕ × ℤ)) (row : ℕ) (h : (writeRows c row ls).2 = none) :
    (∀ l ∈ linesGo (writeRows c row ls).1 [], IsNumberLine (K := K) l) ∧ ((writeRows c row ls).1 = [] ∨ (writeRows c row ls).1.getLast? = some '\n') := by
  induction ls generalizing row with
  | nil => exact ⟨fun x hx => (by simp [writeRows, linesGo] at hx), .inl rfl⟩
  | cons l ls ih =>
    obtain ⟨n, m⟩ := l
    simp only [writeRows, Written.andThen] at h ⊢
    split_ifs at h ⊢ with hr
    simp only at h ⊢
    obtain ⟨ih1, ih2⟩ := ih (row + 1) h
    rw [flatMap_field]
    set fs := (List.range c.rows).map (fun x => asField (c.get x row)) with hfs
    have ht : ∀ f ∈ fs, IsToken f.2 := asField_token _ _
    have hline : intStr n ++ ' ' :: intStr m ++ (fieldsText fs ++ ['\n'] ++ (writeRows c (row + 1) ls).1) =
        (intStr n ++ ' ' :: (intStr m ++ fieldsText fs)) ++ '\n' :: (writeRows c (row + 1) ls).1 := by simp
    have hno : '\n' ∉ intStr n ++ ' ' :: (intStr m ++ fieldsText fs) := by
      simp only [List.mem_append, List.mem_cons, not_or]
      exact ⟨token_no_newline _ (intStr_token _), by decide, token_no_newline _ (intStr_token _),
        fieldsText_no_newline _ ht⟩
    rw [hline, linesGo_line _ _ _ hno]
    constructor
    · intro x hx
      rcases List.mem_cons.1 hx with rfl | hx
      · apply numberLine_of
        simp only [List.reverse_nil, List.nil_append]
        rw [tokensGo_token_space _ _ (intStr_token _), (tokensGo_fields fs ht).2 _ (intStr_token _)]
        intro t ht
        rcases List.mem_cons.1 ht with rfl | ht
        · exact ⟨_, scanNum_int _⟩
        rcases List.mem_cons.1 ht with rfl | ht
        · exact ⟨_, scanNum_int _⟩
        · rw [hfs, List.map_map] at ht
          obtain ⟨x, -, rfl⟩ := List.mem_map.1 ht
          exact ⟨_, parseNum_of_scan.1 (parseNum_fixed8 _)⟩
      · exact ih1 x hx
    · right
      rw [List.getLast?_append_of_ne_nil _ (by simp)]
      rcases ih2 with h | h
      · rw [h]; rfl
      · cases hw : (writeRows c (row + 1) ls).1 with
        | nil => rfl
        | cons a b =>
          rw [List.getLast?_cons_cons, ← hw]
          exact h

theorem writeTimes_inv (leap : Bool) (ts : List K) (w : List Char) (h : writeTimes leap ts = (w, none)) :
    ∃ ys : List K, w = fieldsText (ys.map fun y => asField y) ++ ['\n'] := by
  induction ts generalizing w with
  | nil =>
    injection h with h
    exact ⟨[], by rw [← h]; rfl⟩
  | cons t ts ih =>
    simp only [writeTimes] at h
    cases hy : mjdToDyear leap t with
    | error e => rw [hy] at h; cases h
    | ok y =>
      rw [hy] at h
      simp only [Written.andThen] at h
      injection h with h1 h2
      obtain ⟨ys, hys⟩ := ih (writeTimes leap ts).1 (by rw [← h2])
      refine ⟨y :: ys, ?_⟩
      rw [← h1, hys]
      simp [fieldsText, field, asField]

/-- A file that was written without exception is an shc-text. -/
theorem saved_text (date : List Char) (times : List K) (coeffs : Arr K) (order : Option ℤ) (nmin : Option ℕ) (nmax : Option ℤ)
    (leap : Option Bool) (header : List Char) (content : List Char) (hdate : '\n' ∉ date)
    (hheader : ∀ l ∈ lines (header ++ ['#']), isComment l = true)
    (hs : saveShc date (.array times) coeffs order nmin nmax leap (some header) = .ok (content, none)) : IsShcText K content := by
  unfold saveShc at hs
  simp only [Option.getD_some] at hs
  split_ifs at hs with hw
  injection hs with hs
  generalize horder : order.getD 1 = order at hs
  generalize hnmin : nmin.getD 1 = nmin at hs hw
  generalize hnmax : (nmax.getD ↑(nmaxOfDim coeffs.cols)).toNat = nmax at hs
  generalize hleap : leap.getD true = leap at hs
  generalize sliceCols coeffs (nmin ^ 2 - 1) ((nmax + 1) ^ 2 - 1) = cut at hs
  -- nothing was raised
  cases ht : (writeTimes leap times).2 with
  | some e => simp only [writeTimeLine, Written.andThen, ht] at hs; cases hs
  | none =>
  cases hr : (writeRows cut 0 (labels nmin nmax)).2 with
  | some e => simp only [writeTimeLine, Written.andThen, ht, hr] at hs; cases hs
  | none =>
  obtain ⟨ys, hys⟩ := writeTimes_inv leap times (writeTimes leap times).1 (by rw [← ht])
  simp only [writeTimeLine, Written.andThen, ht, hr, hys] at hs
  injection hs with hs _
  set fs := ys.map (fun y => asField y) with hfs
  have hft : ∀ f ∈ fs, IsToken f.2 := asField_token ys id
  obtain ⟨hrl, hrn⟩ := rows_lines cut (labels nmin nmax) 0 hr
  have hs1 : '\n' ∉ " Created on ".toList ++ date ++ " UTC.".toList := by
    rw [List.mem_append, List.mem_append, not_or, not_or]
    exact ⟨⟨by decide, hdate⟩, by decide⟩
  have e1 : content = header ++ '#' :: ((" Created on ".toList ++ date ++ " UTC.".toList) ++ '\n' ::
        (("# Leap years are accounted for in decimal years format (".toList ++
          (if leap then "True".toList else "False".toList) ++ ").".toList) ++ '\n' ::
        ((intStr nmin ++ ' ' :: (intStr nmax ++ ' ' :: (intStr times.length ++ ' ' :: (intStr order ++ ' ' ::
          intStr (order - 1))))) ++ '\n' :: (([' ', ' '] ++ fieldsText fs) ++ '\n' ::
            (writeRows cut 0 (labels nmin nmax)).1)))) := by
    rw [← hs]
    unfold commentLines
    rw [show "# Created on ".toList = '#' :: " Created on ".toList from rfl]
    simp only [List.append_assoc, List.cons_append, List.nil_append, TimeArg.size]
  have n2 : '\n' ∉ "# Leap years are accounted for in decimal years format (".toList ++
      (if leap then "True".toList else "False".toList) ++ ").".toList := by
    have hall : ∀ b : Bool, ("# Leap years are accounted for in decimal years format (".toList ++
        (if b then "True".toList else "False".toList) ++ ").".toList).all (· != '\n') = true := by
      intro b; cases b <;> rfl
    intro hmem
    have := List.all_eq_true.1 (hall leap) _ hmem
    simp at this
  have n3 : '\n' ∉ intStr nmin ++ ' ' :: (intStr nmax ++ ' ' :: (intStr times.length ++ ' ' :: (intStr order ++ ' ' ::
          intStr (order - 1)))) := by
    simp only [List.mem_append, List.mem_cons, not_or]
    exact ⟨token_no_newline _ (intStr_token _), by decide, token_no_newline _ (intStr_token _), by decide,
      token_no_newline _ (intStr_token _), by decide, token_no_newline _ (intStr_token _), by decide,
      token_no_newline _ (intStr_token _)⟩
  have n4 : '\n' ∉ [' ', ' '] ++ fieldsText fs := by
    rw [List.mem_append, not_or]
    exact ⟨by decide, fieldsText_no_newline _ hft⟩
  obtain ⟨C, hL, hLc⟩ := linesGo_header header _ (("# Leap years are accounted for in decimal years format (".toList ++
          (if leap then "True".toList else "False".toList) ++ ").".toList) ++ '\n' ::
        ((intStr nmin ++ ' ' :: (intStr nmax ++ ' ' :: (intStr times.length ++ ' ' :: (intStr order ++ ' ' ::
          intStr (order - 1))))) ++ '\n' :: (([' ', ' '] ++ fieldsText fs) ++ '\n' ::
            (writeRows cut 0 (labels nmin nmax)).1))) [] hs1 hheader
  rw [linesGo_line _ _ _ n2, linesGo_line _ _ _ n3, linesGo_line _ _ _ n4, ← e1] at hL
  simp only [List.reverse_nil, List.nil_append] at hL
  have hlast : content.getLast? = some '\n' := by
    have : ∃ t, content = t ++ '\n' :: (writeRows cut 0 (labels nmin nmax)).1 := by
      rw [← hs]
      exact ⟨header ++ commentLines date leap nmin nmax times.length order ++ ([' ', ' '] ++ fieldsText fs), by simp [TimeArg.size]⟩
    obtain ⟨t, ht⟩ := this
    rw [ht, List.getLast?_append_of_ne_nil _ (by simp)]
    rcases hrn with h | h
    · rw [h]; rfl
    · cases hw : (writeRows cut 0 (labels nmin nmax)).1 with
      | nil => rfl
      | cons a b =>
        rw [List.getLast?_cons_cons, ← hw]
        exact h
  obtain ⟨t1, t2⟩ := text_lines content (.inr hlast)
  have hL' : lines content = (C ++ ["# Leap years are accounted for in decimal years format (".toList ++
          (if leap then "True".toList else "False".toList) ++ ").".toList]) ++
      (intStr nmin ++ ' ' :: (intStr nmax ++ ' ' :: (intStr times.length ++ ' ' :: (intStr order ++ ' ' ::
          intStr (order - 1))))) :: (([' ', ' '] ++ fieldsText fs) :: linesGo (writeRows cut 0 (labels nmin nmax)).1 []) := by
    unfold lines
    rw [hL, List.append_cons C]
  refine ⟨_, _, _, by rw [← hL']; exact t1, by rw [← hL']; exact t2, ?_, ?_, ?_⟩
  · intro l hl
    rw [List.mem_append, List.mem_singleton] at hl
    rw [← isComment_iff]
    rcases hl with hl | rfl
    · exact hLc l hl
    · cases leap <;> rfl
  · apply numberLine_of
    rw [tokensGo_token_space _ _ (intStr_token _), tokensGo_token_space _ _ (intStr_token _),
      tokensGo_token_space _ _ (intStr_token _), tokensGo_token_space _ _ (intStr_token _),
      tokensGo_token_end _ (intStr_token _)]
    intro t ht
    simp only [List.mem_cons, List.not_mem_nil, or_false] at ht
    rcases ht with rfl | rfl | rfl | rfl | rfl <;> exact ⟨_, scanNum_int _⟩
  · intro x hx
    right
    rcases List.mem_cons.1 hx with rfl | hx
    · exact numberLine_of (allNum_fields ys id 2)
    · exact hrl x hx

theorem params_nonneg (a b : ℤ) (N : ℕ) (c d : ℤ) :
    ([("nmin", a), ("nmax", b), ("N", (N : ℤ)), ("order", c), ("step", d)] : List (String × ℤ)).lookup "N" ≠ some (-1) := by
  have e : ([("nmin", a), ("nmax", b), ("N", (N : ℤ)), ("order", c), ("step", d)] : List (String × ℤ)).lookup "N" = some (N : ℤ) := rfl
  rw [e]
  intro h
  injection h with h
  omega

/-- **C73** (crash while saving). A call of `save_shcfile` that would have succeeded is stopped at any point: what is in the file is a beginning of the
complete text, and `load_shcfile` then raises, or returns no coefficients, or the first rows of those of the complete file (`C13_roundtrip`) with at most
the last value of the last row wrong. -/
theorem C73_crash (date : List Char) (times : List K) (coeffs : Arr K) (order : ℤ) (nmin nmax : ℕ)
    (leap : Bool) (header : List Char) (hdate : '\n' ∉ date)
    (hheader : ∀ l ∈ lines (header ++ ['#']), isComment l = true)
    (h0 : 1 ≤ nmin) (h1 : nmin ≤ nmax) (hc : nmax * (nmax + 2) ≤ coeffs.cols)
    (hr : coeffs.rows = times.length) (ht : ∀ t ∈ times, InWindow leap t) :
    ∃ (content : List Char) (L : Loaded K),
      saveShc date (.array times) coeffs (some order) (some nmin) (some nmax) (some leap) (some header) = .ok (content, none) ∧
      loadShc (some leap) content = .ok L ∧ ∀ p, p <+: content → CutLoaded (loadShc (some leap) p) L := by
  obtain ⟨content, L, h1, h2, h3, -⟩ := C13_roundtrip date times coeffs order nmin nmax leap header hdate hheader h0 h1 hc hr ht
  refine ⟨content, L, h1, h2, fun p hp => C73_cut (some leap) content p (saved_text _ _ _ _ _ _ _ _ _ hdate hheader h1) L h2 ?_ hp⟩
  rw [h3]
  exact params_nonneg _ _ _ _ _

end

/-- Coefficients of degree one at one time. -/
def exampleCoeffs : Arr ℚ := { rows := 1, cols := 3, get := fun _ j => if j = 2 then 12 else 5 }

set_option maxRecDepth 100000 in
/-- **C73, finding.** The wrong value is not detected: a saved file that is cut inside of its last number can be read without an exception, with all rows;
here the coefficient 12 comes back as 1. -/
theorem C73_silent : ∃ content p : List Char, saveShc [] (.array [(0 : ℚ)]) exampleCoeffs (some 1) (some 1) (some 1) (some false) (some []) = .ok (content, none) ∧
    p <+: content ∧ (∃ L, loadShc (K := ℚ) (some false) content = .ok L ∧ L.mjd = [0] ∧ L.coeffs = [[5], [5], [12]]) ∧
    ∃ L, loadShc (K := ℚ) (some false) p = .ok L ∧ L.mjd = [0] ∧ L.coeffs = [[5], [5], [1]] := by
  have key : ∀ (t : List Char) (c : List (List ℚ)), (match loadShc (K := ℚ) (some false) t with
      | .ok L => decide (L.mjd = [0] ∧ L.coeffs = c)
      | .error _ => false) = true → ∃ L, loadShc (K := ℚ) (some false) t = .ok L ∧ L.mjd = [0] ∧ L.coeffs = c := by
    intro t c h
    cases hl : loadShc (K := ℚ) (some false) t with
    | error e => rw [hl] at h; cases h
    | ok L =>
      rw [hl] at h
      exact ⟨L, rfl, of_decide_eq_true h⟩
  have hs : saveShc [] (.array [(0 : ℚ)]) exampleCoeffs (some 1) (some 1) (some 1) (some false) (some []) =
      .ok (Written.andThen (commentLines [] false 1 1 1 1, none) (Written.andThen (writeTimeLine false (.array [(0 : ℚ)]))
        (writeRows (sliceCols exampleCoeffs 0 3) 0 (labels 1 1)))) := by
    unfold saveShc
    simp only [Option.getD_some]
    rw [if_neg (by decide)]
    rfl
  refine ⟨(Written.andThen (commentLines [] false 1 1 1 1, none) (Written.andThen (writeTimeLine false (.array [(0 : ℚ)]))
    (writeRows (sliceCols exampleCoeffs 0 3) 0 (labels 1 1)))).1, _, ?_, List.take_prefix 166 _, key _ _ ?_, key _ _ ?_⟩
  · rw [hs]
    have : (Written.andThen (commentLines [] false 1 1 1 1, none) (Written.andThen (writeTimeLine false (.array [(0 : ℚ)]))
      (writeRows (sliceCols exampleCoeffs 0 3) 0 (labels 1 1)))).2 = none := by decide +kernel
    exact congrArg Except.ok (Prod.ext rfl this)
  · decide +kernel
  · decide +kernel

end ChaosMagPy.Shc
