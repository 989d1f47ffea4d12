import Verif.Props.ShcCut
/-!
# C81: shc-files of any content
-/
namespace ChaosMagPy.Spec
open ChaosMagPy.Shc (isSpace)

/-- The words of the line are the numbers `xs`, one after the other. -/
def NumberWords {K : Type} [Field K] (line : List Char) (xs : List K) : Prop := ∃ ws, Words line ws ∧ List.Forall₂ Denotes ws xs

/-- The numbers in the lines, however they are distributed; lines of comments do not count. -/
inductive Data {K : Type} [Field K] : List (List Char) → List K → Prop
  | nil : Data [] []
  | comment {l : List Char} {ls : List (List Char)} {xs : List K} : IsHashLine l → Data ls xs → Data (l :: ls) xs
  | line {l : List Char} {ls : List (List Char)} {a xs : List K} : NumberWords l a → Data ls xs → Data (l :: ls) (a ++ xs)

/-- The text with these lines. -/
def textOf (ls : List (List Char)) : List Char := ls.flatMap fun l => l ++ ['\n']

/-- No number can begin like this word: its first character is no digit, sign or point (nor the beginning of inf or nan). -/
def NoNumber (w : List Char) : Prop := ∃ c r, w = c :: r ∧ c ∉ "0123456789+-.iInN".toList

end ChaosMagPy.Spec

namespace ChaosMagPy.Shc
open ChaosMagPy.Time
open ChaosMagPy.Index
open ChaosMagPy.Spec

section
variable {K : Type} [Field K] [LinearOrder K] [IsStrictOrderedRing K] [FloorRing K]

theorem fromstring_numbers {l : List Char} {xs : List K} (h : NumberWords l xs) : fromstring (K := K) l = xs ∧ isComment l = false := by
  obtain ⟨ws, h1, h2⟩ := h
  constructor
  · unfold fromstring
    rw [Igrf.tokens_words ws l h1]
    clear h1
    induction h2 with
    | nil => rfl
    | cons h _ ih =>
      simp only [parseAll, parseNum_of_scan.1 (parseNum_of h), ih]
  · apply numberLine_not_comment (K := K)
    refine ⟨ws, h1, ?_⟩
    clear h1
    induction h2 with
    | nil => exact fun w hw => nomatch hw
    | cons h _ ih =>
      intro w hw
      rcases List.mem_cons.1 hw with rfl | hw
      · exact ⟨_, h⟩
      · exact ih w hw

theorem dataOf_data {ls : List (List Char)} {xs : List K} (h : Data ls xs) : dataOf (K := K) ls = xs := by
  induction h with
  | nil => rfl
  | comment hl _ ih =>
    unfold dataOf at ih ⊢
    rw [List.flatMap_cons, ih, if_pos ((isComment_iff _).2 hl), List.nil_append]
  | line hl _ ih =>
    unfold dataOf at ih ⊢
    rw [List.flatMap_cons, ih, (fromstring_numbers hl).2, (fromstring_numbers hl).1]
    rfl

/-- The state of the reading loop at the end of a text. -/
theorem fold_text (cs : List (List Char)) (l : List Char) (ls : List (List Char)) (hn : ∀ x ∈ cs ++ l :: ls, '\n' ∉ x) (hc : ∀ c ∈ cs, IsHashLine c)
    (hl : ¬ IsHashLine l) : (lines (textOf (cs ++ l :: ls))).foldl loadLine (⟨none, []⟩ : LoadState K) =
      ⟨some ((fromstring (K := K) l).map truncZ), dataOf ls⟩ := by
  unfold textOf
  rw [Igrf.lines_text _ hn, List.foldl_append, loadLine_comments cs _ (fun c h => (isComment_iff c).2 (hc c h)), List.foldl_cons]
  have hl' : ¬ isComment l = true := fun h => hl ((isComment_iff l).1 h)
  have : loadLine (⟨none, []⟩ : LoadState K) l = ⟨some ((fromstring (K := K) l).map truncZ), []⟩ := by
    unfold loadLine
    rw [if_neg hl']
  rw [this, loadLine_fold, List.nil_append]

/-- What the reader does after the loop. -/
def finish (leap : Bool) (s : LoadState K) : Except Error (Loaded K) :=
  match s.values with
  | none => .error .unboundLocalError
  | some values =>
    let parameters := ["nmin", "nmax", "N", "order", "step"].zip values
    match parameters.lookup "N" with
    | none => .error .keyError
    | some N =>
      if N < 0 then loadNegative leap parameters s.data N
      else
        let time := s.data.take N.toNat
        let rest := s.data.drop N.toNat
        if rest.length % (N.toNat + 2) ≠ 0 then .error .valueError
        else
          let coeffs := (chunks (N.toNat + 2) rest).map (fun r => r.drop 2)
          match time.mapM (dyearToMjd leap) with
          | .error _ => .error .valueError
          | .ok mjd => .ok { mjd, coeffs, params := parameters }

theorem loadShc_finish (leap : Option Bool) (content : List Char) :
    loadShc leap content = finish (leap.getD true) ((lines content).foldl loadLine (⟨none, []⟩ : LoadState K)) := rfl

theorem map_truncZ (ps : List ℤ) : (ps.map (fun z : ℤ => (z : K))).map truncZ = ps := by
  rw [List.map_map]
  conv_rhs => rw [← List.map_id ps]
  exact List.map_congr_left fun z _ => truncZ_int z

theorem lookup_N (a b N : ℤ) (more : List ℤ) : (["nmin", "nmax", "N", "order", "step"].zip (a :: b :: N :: more)).lookup "N" = some N := rfl

/-- **C81** (any layout). A text of comments, a line with at least three integers, the third of them the number of times `N ≥ 0`, and then in any layout (any
distribution over lines, white space and comments) the times and the rows (two numbers, then one for each time) is read as these times and rows. The
other parameters are only returned, the first two numbers of each row are not looked at, and the number of rows is arbitrary. -/
theorem C81_reads (leap : Option Bool) (cs : List (List Char)) (l : List Char) (ls : List (List Char)) (nmin nmax : ℤ) (more : List ℤ)
    (times : List K) (rows : List (K × K × List K)) (hn : ∀ x ∈ cs ++ l :: ls, '\n' ∉ x) (hc : ∀ c ∈ cs, IsHashLine c)
    (hl : NumberWords (K := K) l ((nmin :: nmax :: (times.length : ℤ) :: more).map (fun z : ℤ => (z : K)))) (hr : ∀ r ∈ rows, r.2.2.length = times.length)
    (hd : Data ls (times ++ rows.flatMap (fun r => r.1 :: r.2.1 :: r.2.2))) :
    (∀ mjd, times.mapM (dyearToMjd (leap.getD true)) = .ok mjd → ∃ L, loadShc leap (textOf (cs ++ l :: ls)) = .ok L ∧ L.mjd = mjd ∧
      L.coeffs = rows.map (fun r => r.2.2) ∧ L.params = ["nmin", "nmax", "N", "order", "step"].zip (nmin :: nmax :: (times.length : ℤ) :: more)) ∧
    (∀ e, times.mapM (dyearToMjd (leap.getD true)) = .error e → loadShc (K := K) leap (textOf (cs ++ l :: ls)) = .error .valueError) := by
  obtain ⟨f1, f2⟩ := fromstring_numbers hl
  have hnl : ¬ IsHashLine l := by
    rw [← isComment_iff, f2]
    exact Bool.false_ne_true
  obtain ⟨c1, c2⟩ := chunks_flatMap (times.length + 2) (by omega) rows (fun r : K × K × List K => r.1 :: r.2.1 :: r.2.2)
    (fun r h => by simp [hr r h])
  have hfin : loadShc leap (textOf (cs ++ l :: ls)) = match times.mapM (dyearToMjd (leap.getD true)) with
      | .error _ => .error .valueError
      | .ok mjd => .ok { mjd, coeffs := rows.map (fun r => r.2.2), params := ["nmin", "nmax", "N", "order", "step"].zip (nmin :: nmax :: (times.length : ℤ) :: more) } := by
    rw [loadShc_finish, fold_text cs l ls hn hc hnl, f1, map_truncZ, dataOf_data hd]
    unfold finish
    simp only [lookup_N]
    rw [if_neg (by omega)]
    simp only [Int.toNat_natCast, List.take_left, List.drop_left]
    rw [c1, c2, if_neg (by simp), List.map_map]
    rfl
  rw [hfin]
  constructor
  · intro mjd h
    rw [h]
    exact ⟨_, rfl, rfl, rfl, rfl⟩
  · intro e h
    rw [h]

/-- **C81** (every outcome). For a text of comments, a line of at least three integers and any other numbers: a number of times `N ≥ 0` gives a ValueError if the numbers after the
first `N` do not fill whole rows of `N + 2`, or if one of the first `N` numbers is no decimal year; `N = -1` is not refused; `N ≤ -2` gives a ValueError. -/
theorem C81_numbers (leap : Option Bool) (cs : List (List Char)) (l : List Char) (ls : List (List Char)) (nmin nmax N : ℤ) (more : List ℤ)
    (d : List K) (hn : ∀ x ∈ cs ++ l :: ls, '\n' ∉ x) (hc : ∀ c ∈ cs, IsHashLine c)
    (hl : NumberWords (K := K) l ((nmin :: nmax :: N :: more).map (fun z : ℤ => (z : K)))) (hd : Data ls d) :
    ((∃ L : Loaded K, loadShc leap (textOf (cs ++ l :: ls)) = .ok L) ↔ (0 ≤ N ∧ (N + 2) ∣ ((d.length - N.toNat : ℕ) : ℤ) ∧
        ∃ mjd, (d.take N.toNat).mapM (dyearToMjd (leap.getD true)) = .ok mjd) ∨
      (N = -1 ∧ ∃ mjd, d.dropLast.mapM (dyearToMjd (leap.getD true)) = .ok mjd)) ∧
    (∀ e, loadShc (K := K) leap (textOf (cs ++ l :: ls)) = .error e → e = .valueError) := by
  obtain ⟨f1, f2⟩ := fromstring_numbers hl
  have hnl : ¬ IsHashLine l := by
    rw [← isComment_iff, f2]
    exact Bool.false_ne_true
  rw [loadShc_finish, fold_text cs l ls hn hc hnl, f1, map_truncZ, dataOf_data hd]
  unfold finish
  simp only [lookup_N]
  by_cases hN : N < 0
  · rw [if_pos hN]
    unfold loadNegative
    by_cases h1 : N < -1
    · rw [if_pos h1]
      refine ⟨⟨fun h => ?_, fun h => ?_⟩, fun e h => (Except.error.inj h).symm⟩
      · obtain ⟨L, h⟩ := h; cases h
      · omega
    · rw [if_neg h1]
      cases hm : d.dropLast.mapM (dyearToMjd (leap.getD true)) with
      | error e =>
        refine ⟨⟨fun h => ?_, fun h => ?_⟩, fun e h => (Except.error.inj h).symm⟩
        · obtain ⟨L, h⟩ := h; cases h
        · rcases h with h | ⟨-, mjd, h⟩
          · omega
          · cases h
      | ok mjd =>
        refine ⟨⟨fun _ => .inr ⟨by omega, mjd, rfl⟩, fun _ => ⟨_, rfl⟩⟩, fun e h => ?_⟩
        cases h
  · rw [if_neg hN]
    obtain ⟨M, rfl⟩ := Int.eq_ofNat_of_zero_le (not_lt.1 hN)
    simp only [Int.toNat_natCast, List.length_drop]
    have hdvd : ((M : ℤ) + 2 ∣ ((d.length - M : ℕ) : ℤ)) ↔ (d.length - M) % (M + 2) = 0 := by
      rw [show ((M : ℤ) + 2) = ((M + 2 : ℕ) : ℤ) by push_cast; rfl, Int.natCast_dvd_natCast]
      exact Nat.dvd_iff_mod_eq_zero
    by_cases hm : (d.length - M) % (M + 2) = 0
    · rw [if_neg (not_not.2 hm)]
      cases ht : (d.take M).mapM (dyearToMjd (leap.getD true)) with
      | error e =>
        refine ⟨⟨fun h => ?_, fun h => ?_⟩, fun e h => (Except.error.inj h).symm⟩
        · obtain ⟨L, h⟩ := h; cases h
        · rcases h with ⟨-, -, mjd, h⟩ | ⟨h, -⟩
          · cases h
          · omega
      | ok mjd =>
        refine ⟨⟨fun _ => .inl ⟨by omega, hdvd.2 hm, mjd, rfl⟩, fun _ => ⟨_, rfl⟩⟩, fun e h => ?_⟩
        cases h
    · rw [if_pos hm]
      refine ⟨⟨fun h => ?_, fun h => ?_⟩, fun e h => (Except.error.inj h).symm⟩
      · obtain ⟨L, h⟩ := h; cases h
      · rcases h with ⟨-, h, -⟩ | ⟨h, -⟩
        · exact absurd (hdvd.1 h) hm
        · omega

theorem chunks_length (w : ℕ) (x : List K) (r : List K) (h : r ∈ chunks w x) : r.length = w := by
  unfold chunks at h
  obtain ⟨i, hi, rfl⟩ := List.mem_map.1 h
  rw [List.mem_range] at hi
  rw [List.length_take, List.length_drop]
  have h1 : (i + 1) * w ≤ x.length := by
    calc (i + 1) * w ≤ x.length / w * w := Nat.mul_le_mul_right _ hi
      _ ≤ x.length := Nat.div_mul_le_self _ _
  rw [Nat.add_mul, Nat.one_mul] at h1
  omega

theorem mapM_length {α β ε : Type} (f : α → Except ε β) (l : List α) (l' : List β) (h : l.mapM f = .ok l') : l'.length = l.length :=
  ((Synth.mapM_ok f l l').1 h).length_eq.symm

/-- **C81** (what is returned is consistent). Whatever the file contains: if the reader returns, there is a number of times `N ≥ -1` among the parameters, and for `N ≥ 0`
every row has exactly `N` coefficients, and there are `N` times unless there is no row (then there may be fewer). -/
theorem C81_any_text (leap : Option Bool) (content : List Char) (L : Loaded K) (h : loadShc leap content = .ok L) :
    ∃ N : ℤ, L.params.lookup "N" = some N ∧ -1 ≤ N ∧ (0 ≤ N → (∀ r ∈ L.coeffs, (r.length : ℤ) = N) ∧ (L.mjd.length : ℤ) ≤ N ∧
      (L.coeffs ≠ [] → (L.mjd.length : ℤ) = N)) ∧ (N = -1 → ∀ r ∈ L.coeffs, r = []) := by
  have hs : ∃ v d, (lines content).foldl loadLine (⟨none, []⟩ : LoadState K) = ⟨v, d⟩ := ⟨_, _, rfl⟩
  obtain ⟨v, d, hs⟩ := hs
  cases v with
  | none =>
    rw [loadShc_finish, hs] at h
    cases h
  | some v =>
    rw [loadShc_eq leap content v d hs] at h
    rcases h with ⟨N, h1, h2, h3, h4, h5⟩ | ⟨h1, h2, h3, h4⟩
    · have hl : L.mjd.length = min N d.length := by rw [mapM_length _ _ _ h3, List.length_take]
      refine ⟨N, by rw [h5, h1], by omega, fun _ => ⟨?_, by omega, fun hne => ?_⟩, fun h => by omega⟩
      · intro r hr
        rw [h4] at hr
        obtain ⟨q, hq, rfl⟩ := List.mem_map.1 hr
        rw [List.length_drop, chunks_length _ _ _ hq]
        omega
      · by_contra hc
        have : d.length < N := by omega
        apply hne
        rw [h4, List.drop_of_length_le (by omega), chunks_nil]
        rfl
    · refine ⟨-1, by rw [h4, h1], le_rfl, fun h => by omega, fun _ => ?_⟩
      intro r hr
      rw [h3] at hr
      obtain ⟨q, hq, rfl⟩ := List.mem_map.1 hr
      rw [List.drop_of_length_le]
      rw [chunks_length _ _ _ hq]
      omega

/-- **C81** (comments). A line of comment anywhere in the file changes nothing. -/
theorem C81_comments (leap : Option Bool) (a b : List (List Char)) (c : List Char) (hn : ∀ x ∈ a ++ c :: b, '\n' ∉ x) (hc : IsHashLine c) :
    loadShc (K := K) leap (textOf (a ++ c :: b)) = loadShc leap (textOf (a ++ b)) := by
  unfold textOf
  rw [loadShc_finish, loadShc_finish, Igrf.lines_text _ hn, Igrf.lines_text _ (fun x hx => hn x ?_), List.foldl_append, List.foldl_append, List.foldl_cons]
  · congr 2
    unfold loadLine
    rw [if_pos ((isComment_iff c).2 hc)]
  · rw [List.mem_append] at hx ⊢
    exact hx.imp_right (List.mem_cons_of_mem _)

theorem linesGo_final (s acc : List Char) (h : (acc.reverse ++ s).getLast? ≠ some '\n') (hne : acc.reverse ++ s ≠ []) (hacc : '\n' ∉ acc) :
    linesGo (s ++ ['\n']) acc = linesGo s acc := by
  induction s generalizing acc with
  | nil =>
    have : acc ≠ [] := by
      rintro rfl
      exact hne rfl
    simp [linesGo, this]
  | cons c s ih =>
    rw [List.cons_append]
    simp only [linesGo]
    by_cases hc : c = '\n'
    · rw [if_pos hc, if_pos hc]
      congr 1
      subst hc
      by_cases hs : s = []
      · subst hs
        simp at h
      · apply ih []
        · rw [List.getLast?_append_of_ne_nil _ (by simp)] at h
          rw [List.reverse_nil, List.nil_append]
          rwa [show ('\n' :: s : List Char) = ['\n'] ++ s from rfl, List.getLast?_append_of_ne_nil _ hs] at h
        · simpa using hs
        · simp
    · rw [if_neg hc, if_neg hc]
      apply ih
      · simpa using h
      · simp
      · simp [hacc, Ne.symm hc]

/-- **C81** (last line). The line end after the last line may be missing. -/
theorem C81_final_newline (leap : Option Bool) (content : List Char) (hne : content ≠ []) (h : content.getLast? ≠ some '\n') :
    loadShc (K := K) leap (content ++ ['\n']) = loadShc leap content := by
  rw [loadShc_finish, loadShc_finish]
  unfold lines
  rw [linesGo_final content [] (by simpa using h) (by simpa using hne) (by simp)]

/-- **C81** (nothing but comments). A file without a line that is no comment (also an empty file) gives an UnboundLocalError; no other does. -/
theorem C81_only_comments (leap : Option Bool) (ls : List (List Char)) (hn : ∀ x ∈ ls, '\n' ∉ x) :
    loadShc (K := K) leap (textOf ls) = .error .unboundLocalError ↔ ∀ l ∈ ls, IsHashLine l := by
  constructor
  · intro h
    by_contra hc
    push Not at hc
    obtain ⟨l, hl, hnl⟩ := hc
    have hsome : ∀ (ls : List (List Char)) (s : LoadState K), (s.values ≠ none ∨ ∃ l ∈ ls, ¬ IsHashLine l) → (ls.foldl loadLine s).values ≠ none := by
      intro ls
      induction ls with
      | nil =>
        intro s h
        rcases h with h | ⟨l, h, -⟩
        · exact h
        · cases h
      | cons l ls ih =>
        intro s h
        rw [List.foldl_cons]
        apply ih
        by_cases hl : IsHashLine l
        · rcases h with h | ⟨x, hx, hxl⟩
          · left
            unfold loadLine
            rw [if_pos ((isComment_iff l).2 hl)]
            exact h
          · rcases List.mem_cons.1 hx with rfl | hx
            · exact absurd hl hxl
            · exact .inr ⟨x, hx, hxl⟩
        · left
          unfold loadLine
          rw [if_neg (fun h => hl ((isComment_iff l).1 h))]
          cases hv : s.values with
          | none => simp
          | some v => simp [hv]
    have := hsome ls ⟨none, []⟩ (.inr ⟨l, hl, hnl⟩)
    unfold textOf at h
    rw [loadShc_finish, Igrf.lines_text _ hn] at h
    cases hv : (ls.foldl loadLine (⟨none, []⟩ : LoadState K)).values with
    | none => exact this hv
    | some v =>
      unfold finish at h
      rw [hv] at h
      simp only at h
      split at h
      · cases h
      · split_ifs at h
        · unfold loadNegative at h
          split_ifs at h
          · cases h
          · split at h <;> cases h
        · cases h
        · split at h <;> cases h
  · intro h
    unfold textOf
    rw [loadShc_finish, Igrf.lines_text _ hn, loadLine_comments ls _ (fun l hl => (isComment_iff l).2 (h l hl))]
    rfl

/-- **C81** (too few parameters). If the first line that is no comment contains fewer than three numbers, a KeyError is raised, whatever follows: in particular
if it is blank. -/
theorem C81_few_parameters (leap : Option Bool) (cs : List (List Char)) (l : List Char) (ls : List (List Char)) (ps : List K)
    (hn : ∀ x ∈ cs ++ l :: ls, '\n' ∉ x) (hc : ∀ c ∈ cs, IsHashLine c) (hl : NumberWords l ps) (hps : ps.length < 3) :
    loadShc (K := K) leap (textOf (cs ++ l :: ls)) = .error .keyError := by
  obtain ⟨f1, f2⟩ := fromstring_numbers hl
  have hnl : ¬ IsHashLine l := by
    rw [← isComment_iff, f2]
    exact Bool.false_ne_true
  rw [loadShc_finish, fold_text cs l ls hn hc hnl, f1]
  unfold finish
  simp only
  rw [no_N (by rw [List.length_map]; exact hps)]

theorem scanNum_none {w : List Char} (h : NoNumber w) : scanNum (K := K) w = none := by
  obtain ⟨c, r, rfl, hc⟩ := h
  have hne : ∀ k : Char, k ∈ "0123456789+-.iInN".toList → c ≠ k := by
    rintro k hk rfl
    exact hc hk
  have hs : scanSign (c :: r) = (false, c :: r) := by
    unfold scanSign
    split
    · rename_i heq
      injection heq with h1
      exact absurd h1 (hne '-' (by decide))
    · rename_i heq
      injection heq with h1
      exact absurd h1 (hne '+' (by decide))
    · rfl
  have hd : isDigit c = false := by
    rw [← Bool.not_eq_true]
    intro h
    have hm : ∀ n : ℕ, 48 ≤ n → n ≤ 57 → Char.ofNat n ∈ "0123456789+-.iInN".toList := by
      intro n h1 h2
      interval_cases n <;> decide
    unfold isDigit at h
    rw [Bool.and_eq_true, decide_eq_true_eq, decide_eq_true_eq] at h
    have := hm c.toNat h.1 h.2
    rw [Char.ofNat_toNat] at this
    exact hc this
  unfold scanNum
  rw [hs]
  simp only
  unfold scanUnsigned
  simp only [List.takeWhile_cons, List.dropWhile_cons, hd, Bool.false_eq_true, if_false, List.head?_cons]
  have hp : ¬ (some c = some '.') := by
    intro h
    exact hne '.' (by decide) (Option.some.inj h)
  rw [if_neg hp, if_neg hp]
  simp

/-- **C81, finding.** A word that is no number is not refused: it and everything after it on its line are left out (NumPy only emits a DeprecationWarning). -/
theorem C81_garbage (leap : Option Bool) (a b : List (List Char)) (l l' w : List Char) (ws vs : List (List Char))
    (hn : ∀ x ∈ a ++ l :: b, '\n' ∉ x) (hn' : '\n' ∉ l') (hl : Words l (ws ++ w :: vs)) (hl' : Words l' ws) (hws : ∀ v ∈ ws, ∃ x : K, Denotes v x)
    (hw : NoNumber w) (hc : ¬ IsHashLine l) :
    loadShc (K := K) leap (textOf (a ++ l :: b)) = loadShc leap (textOf (a ++ l' :: b)) := by
  have hc1 : isComment l = false := by
    rw [← Bool.not_eq_true, isComment_iff]
    exact hc
  have hc2 : isComment l' = false := numberLine_not_comment (K := K) ⟨ws, hl', hws⟩
  have hall : AllNum K ws := by
    intro v hv
    obtain ⟨x, hx⟩ := hws v hv
    exact ⟨x, parseNum_of_scan.1 (parseNum_of hx)⟩
  have hf : fromstring (K := K) l = fromstring (K := K) l' := by
    unfold fromstring
    rw [Igrf.tokens_words _ l hl, Igrf.tokens_words _ l' hl', (parseAll_append ws (w :: vs) hall).1]
    have : parseAll (K := K) (w :: vs) = [] := by
      simp only [parseAll, scanNum_none hw]
    rw [this, List.append_nil]
  unfold textOf
  have hn2 : ∀ x ∈ a ++ l' :: b, '\n' ∉ x := by
    intro x hx
    rcases List.mem_append.1 hx with h | h
    · exact hn x (List.mem_append_left _ h)
    · rcases List.mem_cons.1 h with rfl | h
      · exact hn'
      · exact hn x (List.mem_append_right _ (List.mem_cons_of_mem _ h))
  rw [loadShc_finish, loadShc_finish, Igrf.lines_text _ hn, Igrf.lines_text _ hn2, List.foldl_append, List.foldl_append, List.foldl_cons, List.foldl_cons]
  congr 2
  unfold loadLine
  rw [hc1, hc2, hf]

end
end ChaosMagPy.Shc
