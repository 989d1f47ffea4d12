import Verif.Props.ShcAny
/-!
# Concrete cases for C81

Each example applies one theorem to concrete arguments for which all its hypotheses hold.
-/
namespace ChaosMagPy.Shc
open ChaosMagPy.Time ChaosMagPy.Spec

/-- The numbers of a concrete line. -/
theorem numbers_of {l : List Char} {xs : List ℚ} (h : (tokensGo l []).map (parseNum (K := ℚ)) = xs.map some) : NumberWords l xs := by
  refine ⟨_, words_tokensGo l [] (fun c hc => nomatch hc), ?_⟩
  generalize tokensGo l [] = ws at h
  induction ws generalizing xs with
  | nil =>
    cases xs with
    | nil => exact .nil
    | cons x xs => cases h
  | cons w ws ih =>
    cases xs with
    | nil => cases h
    | cons x xs =>
      injection h with h1 h2
      exact .cons (parseNum_sound h1) (ih h2)

/-- A comment in the middle. -/
theorem hash_of {l : List Char} (h : isComment l = true) : IsHashLine l := (isComment_iff l).1 h

/-- Lines with two times and two rows, in no particular layout. -/
def exLines : List (List Char) := [" 2000.0".toList, "2.001E3 1 0 5.5".toList, "  # remark".toList, "-6 9".toList, [], "9 .5 2.".toList]

theorem exData : Data exLines ([2000, 2001] ++ ([(1, 0, [5.5, -6]), (9, 9, [0.5, 2])] : List (ℚ × ℚ × List ℚ)).flatMap (fun r => r.1 :: r.2.1 :: r.2.2)) := by
  have h := Data.line (K := ℚ) (a := [2000]) (numbers_of (l := " 2000.0".toList) (by decide +kernel)) (.line (a := [2001, 1, 0, 5.5])
    (numbers_of (l := "2.001E3 1 0 5.5".toList) (by decide +kernel)) (.comment (hash_of (l := "  # remark".toList) (by decide)) (.line (a := [-6, 9])
    (numbers_of (l := "-6 9".toList) (by decide +kernel)) (.line (a := []) (numbers_of (l := []) rfl) (.line (a := [9, 0.5, 2])
    (numbers_of (l := "9 .5 2.".toList) (by decide +kernel)) .nil)))))
  exact h

/-- The parameter line. -/
theorem exPar : NumberWords (K := ℚ) "1 7 2 6".toList (([1, 7, 2, 6] : List ℤ).map (fun z : ℤ => (z : ℚ))) := numbers_of (by decide +kernel)

theorem exNoNewline : ∀ x ∈ ["#".toList] ++ "1 7 2 6".toList :: exLines, '\n' ∉ x := by decide

theorem exTimes : ([2000, 2001] : List ℚ).mapM (dyearToMjd true) = .ok [0, 366] := by decide +kernel

/-- C81_reads: two rows although nmax is 7; the order 9 of the second row is not noticed. -/
example : ∃ L : Loaded ℚ, loadShc (some true) (textOf (["#".toList] ++ "1 7 2 6".toList :: exLines)) = .ok L ∧ L.mjd = [0, 366] ∧
    L.coeffs = [[5.5, -6], [0.5, 2]] := by
  obtain ⟨L, h1, h2, h3, -⟩ := (C81_reads (K := ℚ) (some true) ["#".toList] "1 7 2 6".toList exLines 1 7 [6] [2000, 2001] [(1, 0, [5.5, -6]), (9, 9, [0.5, 2])]
    exNoNewline (fun c hc => hash_of (by rw [List.mem_singleton.1 hc]; decide)) exPar (by simp) exData).1 _ exTimes
  exact ⟨L, h1, h2, h3⟩

/-- C81_numbers: the same lines with one number more on the parameter line's count do not load. -/
example : ¬ ∃ L : Loaded ℚ, loadShc (some true) (textOf ([] ++ "1 7 3 6".toList :: exLines)) = .ok L := by
  rw [(C81_numbers (K := ℚ) (some true) [] "1 7 3 6".toList exLines 1 7 3 [6] _ (by decide) (fun c hc => nomatch hc)
    (numbers_of (by decide +kernel)) exData).1]
  rintro (⟨-, h, -⟩ | ⟨h, -⟩)
  · revert h
    decide
  · omega

/-- C81_numbers: the number of times -1. -/
example : ∃ L : Loaded ℚ, loadShc (some true) (textOf ([] ++ "1 1 -1".toList :: ["2000 2001 0".toList])) = .ok L :=
  (C81_numbers (K := ℚ) (some true) [] "1 1 -1".toList ["2000 2001 0".toList] 1 1 (-1) [] [2000, 2001, 0] (by decide) (fun c hc => nomatch hc)
    (numbers_of (by decide +kernel)) (by
      have h := Data.line (K := ℚ) (a := [2000, 2001, 0]) (numbers_of (l := "2000 2001 0".toList) (by decide +kernel)) .nil
      exact h)).1.2 (.inr ⟨rfl, [0, 366], exTimes⟩)

/-- C81_any_text: the file above. -/
example (L : Loaded ℚ) (h : loadShc (some true) (textOf (["#".toList] ++ "1 7 2 6".toList :: exLines)) = .ok L) : ∃ N : ℤ, L.params.lookup "N" = some N ∧ -1 ≤ N := by
  obtain ⟨N, h1, h2, -⟩ := C81_any_text (K := ℚ) _ _ L h
  exact ⟨N, h1, h2⟩

/-- C81_comments, C81_final_newline. -/
example : loadShc (K := ℚ) none (textOf (["1 1 0".toList] ++ "  # here".toList :: ["1 0".toList])) = loadShc none "1 1 0\n1 0".toList := by
  rw [C81_comments none ["1 1 0".toList] ["1 0".toList] "  # here".toList (by decide) (hash_of (by decide)),
    ← C81_final_newline none "1 1 0\n1 0".toList (by decide) (by decide)]
  rfl

/-- C81_only_comments: the empty file, and a file that is not only comments. -/
example : loadShc (K := ℚ) none [] = .error .unboundLocalError ∧ loadShc (K := ℚ) none "# a\n1 1 0\n".toList ≠ .error .unboundLocalError := by
  refine ⟨(C81_only_comments (K := ℚ) none [] (fun x hx => nomatch hx)).2 (fun x hx => nomatch hx), fun h => ?_⟩
  have h' := (C81_only_comments (K := ℚ) none ["# a".toList, "1 1 0".toList] (by decide)).1 h _ (List.mem_cons_of_mem _ List.mem_cons_self)
  rw [← isComment_iff] at h'
  revert h'
  decide

/-- C81_few_parameters: a blank line before the parameter line. -/
example : loadShc (K := ℚ) none (textOf (["# a".toList] ++ [] :: ["1 1 1 2 1".toList, "2000".toList])) = .error .keyError :=
  C81_few_parameters none ["# a".toList] [] _ [] (by decide) (fun c hc => hash_of (by rw [List.mem_singleton.1 hc]; decide)) (numbers_of rfl) (by simp)

/-- C81_garbage: a mistyped number. -/
example : loadShc (K := ℚ) none (textOf (["1 1 1 2 1".toList] ++ "2000 x1 0 5".toList :: [])) = loadShc none (textOf (["1 1 1 2 1".toList] ++ "2000".toList :: [])) := by
  refine C81_garbage none ["1 1 1 2 1".toList] [] "2000 x1 0 5".toList "2000".toList "x1".toList ["2000".toList] ["0".toList, "5".toList] (by decide) (by decide)
    ?_ ?_ ?_ ⟨'x', ['1'], rfl, by decide⟩ ?_
  · exact words_tokensGo "2000 x1 0 5".toList [] (fun c hc => nomatch hc)
  · exact words_tokensGo "2000".toList [] (fun c hc => nomatch hc)
  · intro v hv
    rw [List.mem_singleton] at hv
    exact ⟨2000, parseNum_sound (by rw [hv]; decide +kernel)⟩
  · rw [← isComment_iff]
    decide

end ChaosMagPy.Shc
