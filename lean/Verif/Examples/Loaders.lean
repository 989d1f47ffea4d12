import Verif.Props.Igrf
import Verif.Props.MatfileSteps
import Verif.Props.RcFile
import Verif.Props.ShcCut
import Verif.Props.SplineText
/-!
# Concrete cases for C13, C50, C51, C58, C59, C72, C73, C76

Each example applies one theorem to concrete arguments for which all its hypotheses hold.
-/
namespace ChaosMagPy.Igrf
open ChaosMagPy.Spec

/-- C50_epochs, C50_interpolation, C50_end, C50_secular_variation: a file with the epochs 1900 and 1905. -/
example := C50_epochs exFile _ _ ex_text ex_years (by simp)
example := C50_interpolation exFile _ _ ex_text ex_years (by simp)
example := C50_end exFile _ _ ex_text ex_years (by simp)
example := C50_secular_variation exFile _ _ ex_text ex_years (by simp)

/-- C50_secular_variation_differs: the last epoch 2020, secular variation 7. -/
example : ∃ t0 t1 : ℝ, Time.dyearToMjd true ((2020 : ℤ) : ℝ) = .ok t0 ∧ Time.dyearToMjd true (((2020 : ℤ) : ℝ) + 5) = .ok t1 ∧
    5 * (7 : ℝ) / ((t1 - t0) / (365.25 : ℝ)) ≠ 7 := by
  have h0 := Time.dyearToMjd_eq (K := ℝ) ((2020 : ℤ) : ℝ) (by rw [Int.floor_intCast]; norm_num)
  have h1 := Time.dyearToMjd_eq (K := ℝ) (((2020 : ℤ) : ℝ) + 5) (by
    have : ((2020 : ℤ) : ℝ) + 5 = ((2025 : ℤ) : ℝ) := by norm_num
    rw [this, Int.floor_intCast]; norm_num)
  refine ⟨_, _, h0, h1, fun h => ?_⟩
  have := (C50_secular_variation_differs 2020 (by norm_num) _ _ 7 h0 h1).1 h
  norm_num at this

end ChaosMagPy.Igrf

namespace ChaosMagPy.Matfile

/-- C58_reload. -/
example : ∃ file' m, save false none m = .ok file' ∧ load "M" (some ["a", "b"]) file' = .ok m := by
  obtain ⟨f, m, h, hc⟩ := ex_consistent
  obtain ⟨f', h1, h2⟩ := C58_reload false none "M" (some ["a", "b"]) f m h hc
  exact ⟨f', m, h1, h2⟩

/-- C58_calibration: the model with all parts, saved without the option to squeeze. -/
example : ∃ file, save true none exModel = .ok file ∧ ∀ name sats m', load name sats file ≠ .ok m' :=
  ⟨_, rfl, fun name sats m' => C58_calibration true none exModel _ _ rfl (by simp) (Or.inl rfl) rfl name sats m'⟩

/-- Offsets of the external field on one interval. -/
def exSingle : DeltaA := ⟨⟨[2], [0, 2]⟩, ⟨[2], [0, 2]⟩, ⟨[2], [0, 2]⟩, ⟨[1, 1], [1]⟩, ⟨[1, 1], [3]⟩, ⟨[1, 1], [5]⟩⟩

/-- C58_single_interval. -/
example : ∃ file, save false none { exModel with delta := some exSingle } = .ok file ∧ ∀ name sats m', load name sats file ≠ .ok m' :=
  ⟨_, rfl, fun name sats m' => C58_single_interval false none { exModel with delta := some exSingle } _ exSingle rfl rfl rfl name sats m'⟩

/-- C58_equal_intervals: two satellites with two intervals each. -/
example := C58_equal_intervals false none "M" exTdep ⟨⟨by simp [exTdep], by simp [exTdep], rfl, rfl⟩, by simp [exTdep], rfl, rfl⟩ [("b", exB), ("c", exB)] 2
  (by simp) le_rfl (by simp)
  (by
    intro x hx
    simp only [List.mem_cons, List.not_mem_nil, or_false] at hx
    rcases hx with rfl | rfl <;> exact ⟨exB_sized, rfl, by simp [exB, PPoly.first, PPoly.last]⟩)
  ⟨[2, 3], [1, 0, 0, 0, 1, 0]⟩ rfl
  (by
    intro i hi
    simp only [List.length_cons, List.length_nil] at hi
    have : i = 0 ∨ i = 1 := by omega
    rcases this with rfl | rfl <;> exact ⟨_, rfl⟩)

/-- C58_names, C58_prerotation_required: the file of the model with all parts. -/
example : ∃ file, load "M" (some ["a", "b"]) file = .ok exModel ∧ (∃ e b, Dict.get (loadMatfile file) "model_Euler" = .ok (.struct e) ∧
    Dict.get e "t_break_Euler" = .ok b ∧ b.len = .ok 2) ∧ ∃ v, ("params", v) ∈ file := by
  obtain ⟨f, _, h⟩ := C58_exact false none exModel exMeta ex_storable ex_plain
  obtain ⟨md, e, b, hm, h1, h2, h3, -⟩ := C58_names "M" (some ["a", "b"]) f exModel _ h rfl
  cases hm
  obtain ⟨v, _, _, h4, -⟩ := C58_prerotation_required "M" (some ["a", "b"]) f exModel _ h rfl (by simp)
  exact ⟨f, h, ⟨e, b, h1, h2, h3⟩, v, h4⟩

/-- C58_optional: only a time-dependent part. -/
example := C58_optional false none "M" exTdep ⟨⟨by simp [exTdep], by simp [exTdep], rfl, rfl⟩, by simp [exTdep], rfl, rfl⟩ none

theorem exB_ascending : PPoly.Ascending exB.breaks := by
  refine ⟨by simp [exB], fun j hj => ?_⟩
  have : j = 0 ∨ j = 1 := by simp [exB] at hj; omega
  rcases this with rfl | rfl <;> simp [exB]

/-- C59_outside: three days after the last break point, constant extrapolation. -/
example : ∃ rows v, synthEuler exModel [5] "b" none none (some (.str "constant")) = .ok (3, rows) ∧ rows[0]? = some (some v) ∧
    ∀ d < 3, v d = exB.coeffs.data.getD (3 * 1 + d) 0 :=
  C59_outside exModel _ "b" exB rfl (by simp) (by simp) exB_sized exB_ascending [5] (some (.str "constant")) (by simp [PPoly.option, PPoly.Known]) (by decide) 0 5 rfl 1
    (Or.inr ⟨by simp [exB, PPoly.last]; norm_num, rfl⟩)

/-- C59_rates: the first derivative in the first interval. -/
example : ∃ rows v, synthEuler exModel [1 / 2] "b" none (some 1) none = .ok (3, rows) ∧ rows[0]? = some (some v) ∧ ∀ d < 3, v d = (0 : ℝ) := by
  obtain ⟨rows, h1, -, h2⟩ := C59_rates exModel _ "b" exB rfl (by simp) (by simp) exB_sized exB_ascending [1 / 2] (by simp) none (some 1) none
    (Or.inr (by simp [PPoly.Outside, exB, BaseA.base, PPoly.first, PPoly.last]; norm_num))
  obtain ⟨v, h3, h4⟩ := h2 0 (1 / 2) 0 rfl (by simp [PPoly.IsPiece, exB]; norm_num) (by simp [exB, PPoly.last]; norm_num)
  exact ⟨rows, v, h1, h3, fun d hd => by rw [h4 d hd, if_neg (by simp)]⟩

/-- C76_crash, C76_crash_model, C76_crash_over: a crash after the first write. -/
example : ∃ f m' M, crashed false none exModel none 1 = some f ∧ load "M" (some ["a", "b"]) f = .ok m' ∧ PartsOf m' (asStored exModel) ∧
    load "M" (some ["a", "b"]) M = .ok (asStored exModel) := by
  obtain ⟨t, ht, hf⟩ := ex_storable.tdep
  cases ht
  obtain ⟨f, hc, -⟩ := ex_crashed
  obtain ⟨f', h1, h2⟩ := C76_full false none exModel exMeta ex_storable (by simp [exModel]) (by simp [exModel]) (by simp [exModel]) (by simp [exModel]) none
  have hl : load "M" (some ["a", "b"]) f = .ok ⟨"M", some exTdep, none, none, none, none, none, none, some ⟨none, ["a", "b"]⟩⟩ := by
    have hc' : crashed false none exModel none 1 = some ([(Write.var "pp" (.struct (ppFields false exTdep)))].foldl Write.apply []) := by
      obtain ⟨a, b, E, d, e, g, hw, _, _, _, ha⟩ := performed_shape false none exModel
      have hv := ha (.struct (ppFields false exTdep)) (by
        change onSome (some exTdep) (toPP false) = _
        unfold onSome; simp only; rw [toPP_sized false hf.sized]; rfl)
      unfold crashed fileAfter
      rw [hw, hv]
      rfl
    obtain rfl := Option.some.inj (hc.symm.trans hc')
    exact load_first false "M" exTdep hf (some ["a", "b"])
  have p1 := C76_crash false none exModel 1 f f' hc (by rw [h1]) "M" (some ["a", "b"]) _ _ hl h2
  have p2 := (C76_crash_model false none exModel exMeta ex_storable 1 f hc _ hl).1
  exact ⟨f, _, f', hc, hl, p2, h2⟩

example : ∃ file f, save false none exModel = .ok file ∧ crashed false none exModel (some [("extra", .null)]) 1 = some f ∧
    ∃ k, (∀ name sats, load name sats f = load name sats (file.take k ++ [("extra", .null)])) ∨ ∃ E, file[k]? = some ("model_Euler", .struct E) := by
  obtain ⟨file, hs, _⟩ := C58_roundtrip false none exModel exMeta ex_storable
  obtain ⟨f, hf⟩ : ∃ f, crashed false none exModel (some [("extra", .null)]) 1 = some f := by
    unfold crashed fileAfter
    split_ifs
    · exact ⟨_, rfl⟩
    · exact ⟨_, rfl⟩
  obtain ⟨k, h | ⟨E, _, h, _⟩⟩ := C76_crash_over false none exModel file hs (some [("extra", .null)]) 1 f hf
  · exact ⟨file, f, hs, hf, k, Or.inl h⟩
  · exact ⟨file, f, hs, hf, k, Or.inr ⟨E, h⟩⟩

end ChaosMagPy.Matfile

namespace ChaosMagPy.Rc
open ChaosMagPy.Spec
open ChaosMagPy.Shc (isSpace)

/-- A folder with the file of `ex_text`. -/
noncomputable def exFs : FS := fun p => if p = "RC.dat" then
  some (.text ("# RC-index".toList ++ '\n' :: '\n' :: ['1', ' ', '7', ' ', '5', ' ', '2', ' ', 'D', ' ', '#', 'x', '\n'])) else none

theorem exFs_file : exFs "RC.dat" = some (.text ("# RC-index".toList ++ '\n' :: '\n' :: ['1', ' ', '7', ' ', '5', ' ', '2', ' ', 'D', ' ', '#', 'x', '\n'])) :=
  if_pos rfl

/-- C72_read, C72_save, C72_equivalent. -/
example := C72_read exFs "RC.dat" _ _ exFs_file ex_text.1
example := C72_save (fun _ => true) exFs "RC.h5" "RC.dat" _ _ exFs_file ex_text.1 rfl (by
  intro r hr
  rw [List.mem_singleton] at hr
  subst hr
  exact ex_text.2.1)
example := C72_equivalent (fun _ => true) exFs "RC.h5" "RC.dat" _ _ exFs_file ex_text.1 rfl

theorem one_word (d : Char) (hd : isSpace d = false) : ∀ c ∈ [d], isSpace c = false := by
  intro c hc
  rw [List.mem_singleton.1 hc]
  exact hd

/-- Five words of one character. -/
theorem five_words (a b c d e : Char) (ha : isSpace a = false) (hb : isSpace b = false) (hc : isSpace c = false) (hd : isSpace d = false)
    (he : isSpace e = false) : Words [a, ' ', b, ' ', c, ' ', d, ' ', e, ' '] [[a], [b], [c], [d], [e]] := by
  have h5 : Words ([e] ++ ' ' :: []) [[e]] := words_cons (by simp) (one_word _ he) (by
    intro c hc
    rw [List.mem_singleton.1 hc]
    rfl)
  exact words_cons (w := [a]) (by simp) (one_word _ ha) (words_blank (words_cons (w := [b]) (by simp) (one_word _ hb) (words_blank
    (words_cons (w := [c]) (by simp) (one_word _ hc) (words_blank (words_cons (w := [d]) (by simp) (one_word _ hd) (words_blank h5)))))))

/-- C72_nonascii: the flag `é`. -/
example : ∃ fs', saveH5 (fun _ => true) (fun _ => some (.text ['1', ' ', '7', ' ', '5', ' ', '2', ' ', 'é', ' ', '\n'])) "RC.h5" "RC.dat" = (fs', true) := by
  have ht : RcText ['1', ' ', '7', ' ', '5', ' ', '2', ' ', 'é', ' ', '\n'] [⟨1, 7, 5, 2, ['é']⟩] := by
    refine ⟨[['1', ' ', '7', ' ', '5', ' ', '2', ' ', 'é', ' ']], by decide, by decide, .entry _ _ _ _ ?_ .nil⟩
    refine ⟨['1', ' ', '7', ' ', '5', ' ', '2', ' ', 'é', ' '], [], ['1'], ['7'], ['5'], ['2'], rfl, .inl rfl, by decide, ?_,
      five_words '1' '7' '5' '2' 'é' rfl rfl rfl rfl (by decide), ?_, ?_, ?_, ?_⟩
    · intro c hc hs
      simp only [List.mem_cons, List.not_mem_nil, or_false] at hc
      rcases hc with rfl | rfl | rfl | rfl | rfl | rfl | rfl | rfl | rfl | rfl <;> first | exact .inl rfl | exact absurd hs (by decide)
    · simpa [digitsValue] using denotes_digit '1' (by decide)
    · simpa [digitsValue] using denotes_digit '7' (by decide)
    · simpa [digitsValue] using denotes_digit '5' (by decide)
    · simpa [digitsValue] using denotes_digit '2' (by decide)
  obtain ⟨fs', h, -⟩ := C72_nonascii (fun _ => true) (fun _ => some (.text ['1', ' ', '7', ' ', '5', ' ', '2', ' ', 'é', ' ', '\n'])) "RC.h5" "RC.dat" _ _ rfl
    ht rfl ⟨_, List.mem_singleton.2 rfl, ex_text.2.2⟩
  exact ⟨fs', h⟩

/-- A letter is not a number. -/
theorem letter_no_number (x : ℝ) : ¬ Denotes ['x'] x := by
  rintro ⟨s, σ, a, point, f, e, k, hs, ha, hf, hne, hp, he, hw, -⟩
  rcases hs with ⟨rfl, -⟩ | ⟨rfl, -⟩ | ⟨rfl, -⟩
  · cases a with
    | nil =>
      rcases hp with rfl | ⟨rfl, rfl⟩
      · simp at hw
      · simp at hne
    | cons c a =>
      simp only [List.nil_append, List.cons_append, List.cons.injEq] at hw
      have := ha c (by simp)
      rw [← hw.1] at this
      revert this
      decide
  · simp at hw
  · simp at hw

/-- C72_read_error: the second value is not a number. -/
example : loadDat (fun _ => some (.text ['1', ' ', 'x', ' ', '5', ' ', '2', ' ', 'D', ' ', '\n'])) "RC.dat" = .error .valueError :=
  C72_read_error _ "RC.dat" [] [] ['1', ' ', 'x', ' ', '5', ' ', '2', ' ', 'D', ' '] [] ['1'] ['x'] ['5'] ['2'] ['D'] rfl (by decide) .nil (by decide)
    (five_words '1' 'x' '5' '2' 'D' rfl (by decide) rfl rfl (by decide)) ⟨['x'], by simp, letter_no_number⟩

end ChaosMagPy.Rc

namespace ChaosMagPy.Shc
open ChaosMagPy.Spec ChaosMagPy.Time ChaosMagPy.Index

/-- Coefficients of degree 3 for two epochs. -/
def exTwo : Arr ℚ := { rows := 2, cols := 15, get := fun i j => i - 2.5 * j }

/-- C13_defaults: 15 columns are degree 3. -/
example := (C13_defaults (K := ℚ) "2024-01-01".toList (.array [0, 366]) exTwo 3 (by decide)).1

/-- C13_exact_numbers: a number with three decimals. -/
example (y : ℚ) (h : IsRound8 (2.125 : ℚ) y) : y = 2.125 := C13_exact_numbers 2.125 y 212500000 (by norm_num) h

/-- C13_scalar_time_fails, C13_short_coeffs, C13_window_error. -/
example := C13_scalar_time_fails (K := ℚ) "2024-01-01".toList 366 exTwo none 1 3 none none (by omega)
example := C13_short_coeffs (K := ℚ) "2024-01-01".toList [0, 366] exTwo none 1 4 none none (by omega) (by omega) (by decide)
example := C13_window_error (K := ℚ) "2024-01-01".toList (.array [0, 366]) exTwo none 3 2 none none (by omega)

/-- C73_crash: degrees 2 to 3. C73_cut: the saved file and one of its prefixes. -/
example : ∃ (content : List Char) (L : Loaded ℚ), loadShc (some false) content = .ok L ∧ CutLoaded (loadShc (some false) (content.take 100)) L := by
  obtain ⟨content, L, -, h2, h3⟩ := C73_crash (K := ℚ) "2024-01-01".toList [0, 366] exTwo 2 2 3 false "# my model\n".toList (by decide) (by decide)
    (by norm_num) (by norm_num) (by decide) rfl (fun _ _ h => nomatch h)
  exact ⟨content, L, h2, h3 _ (List.take_prefix _ _)⟩
example : ∃ (content : List Char) (L : Loaded ℚ), loadShc (some false) content = .ok L ∧ CutLoaded (loadShc (some false) (content.take 100)) L := by
  obtain ⟨content, L, h1, h2, h3, -⟩ := C13_roundtrip (K := ℚ) "2024-01-01".toList [0, 366] exTwo 2 2 3 false "# my model\n".toList (by decide) (by decide)
    (by norm_num) (by norm_num) (by decide) rfl (fun _ _ h => nomatch h)
  exact ⟨content, L, h2, C73_cut (some false) content _ (saved_text (K := ℚ) "2024-01-01".toList [0, 366] exTwo _ _ _ _
    "# my model\n".toList content (by decide) (by decide) h1) L h2 (by rw [h3]; exact params_nonneg _ _ _ _ _) (List.take_prefix _ _)⟩

end ChaosMagPy.Shc

namespace ChaosMagPy.SplineText
open ChaosMagPy.Spec ChaosMagPy.BSpline
open ChaosMagPy.Shc (isSpace)

theorem digit_no_space (d : Char) (h : '0' ≤ d ∧ d ≤ '9') : isSpace d = false := by
  by_contra hs
  rw [Bool.not_eq_false] at hs
  simp only [isSpace, Bool.or_eq_true, beq_iff_eq] at hs
  rcases hs with ((((rfl | rfl) | rfl) | rfl) | rfl) | rfl <;> exact absurd h (by decide)

/-- Digits, each followed by a blank, are numbers. -/
theorem numbers_digits (marks : List Char) (ds : List Char) (h : ∀ d ∈ ds, '0' ≤ d ∧ d ≤ '9') :
    NumbersWith marks (ds.flatMap fun d => [d, ' ']) (ds.map fun d => ((digitsValue [d] : ℕ) : ℝ)) := by
  refine ⟨ds.map fun d => [d], ?_, ?_⟩
  · have hblank : ∀ ds : List Char, (∀ d ∈ ds, '0' ≤ d ∧ d ≤ '9') → Words (' ' :: (ds.flatMap fun d => [d, ' '])) (ds.map fun d => [d]) := by
      intro ds
      induction ds with
      | nil => intro _ c hc; rw [List.mem_singleton.1 hc]; rfl
      | cons d ds ih =>
        intro h
        have hd := h d (by simp)
        refine ⟨[' '], ' ' :: (ds.flatMap fun d => [d, ' ']), rfl, by intro c hc; rw [List.mem_singleton.1 hc]; rfl, by simp, ?_, .inr ⟨' ', _, rfl, rfl⟩,
          ih fun x hx => h x (by simp [hx])⟩
        intro c hc
        rw [List.mem_singleton.1 hc]
        exact digit_no_space d hd
    cases ds with
    | nil => intro c hc; cases hc
    | cons d ds =>
      refine ⟨[], ' ' :: (ds.flatMap fun d => [d, ' ']), rfl, (fun _ h => nomatch h), by simp, ?_, .inr ⟨' ', _, rfl, rfl⟩,
        hblank ds fun x hx => h x (by simp [hx])⟩
      intro c hc
      rw [List.mem_singleton.1 hc]
      exact digit_no_space d (h d (by simp))
  · rw [List.forall₂_map_left_iff, List.forall₂_map_right_iff]
    refine List.forall₂_same.2 fun c hc => ?_
    exact ⟨[], 1, [c], [], [], [], 0, .inl ⟨rfl, rfl⟩, by simpa [AllDigits] using h c hc, (fun _ h => nomatch h), .inl (by simp), .inr ⟨rfl, rfl⟩,
      .inl ⟨rfl, rfl⟩, rfl, by simp [digitsValue]⟩

/-- C51_gufm1_file: degree 1, one B-spline, five break points. -/
example : loadGufm1 (['g', 'u', 'f', 'm'] ++ '\n' :: (['1', '1', '1', '2', '3', '4', '5', '7', '8', '9'].flatMap fun d => [d, ' '])) =
    loadSpline ([1, 2, 3, 4, 5].map fun y => (y - 2000) * 365.25) 4 1 [7, 8, 9] :=
  C51_gufm1_file ['g', 'u', 'f', 'm'] _ 1 [1, 2, 3, 4, 5] [7, 8, 9] (by simp) (by decide) (by
    have := numbers_digits ['e', 'E'] ['1', '1', '1', '2', '3', '4', '5', '7', '8', '9'] (by decide)
    simpa [Numbers, digitsValue] using this)

/-- C51_cals7k_file. -/
example : loadCals7k (['0', '0', '0', '0', '1', '0', '1', '1', '2', '3', '4', '5', '7', '8', '9'].flatMap fun d => [d, ' ']) =
    loadSpline ([1, 2, 3, 4, 5].map fun y => (y - 2000) * 365.25) 4 1 [7, 8, 9] :=
  C51_cals7k_file _ 1 0 0 0 0 0 [1, 2, 3, 4, 5] [7, 8, 9] (by simp) (by
    have := numbers_digits ['e', 'E', 'D'] ['0', '0', '0', '0', '1', '0', '1', '1', '2', '3', '4', '5', '7', '8', '9'] (by decide)
    simpa [digitsValue] using this)

/-- C51_covobs_file. -/
example : loadCovObs (['C', 'O', 'V'] ++ '\n' :: ((['1', '1', '4', '1', '2', '3', '4', '5'].flatMap fun d => [d, ' ']) ++ '\n' ::
    (['7', '8', '9'].flatMap fun d => [d, ' ']))) = loadSpline ([1, 2, 3, 4, 5].map fun y => (y - 2000) * 365.25) 4 1 [7, 8, 9] :=
  C51_covobs_file ['C', 'O', 'V'] (['1', '1', '4', '1', '2', '3', '4', '5'].flatMap fun d => [d, ' ']) _ 1 4 1 [1, 2, 3, 4, 5] [7, 8, 9] (by decide) (by decide) (by
    have := numbers_digits ['e', 'E'] ['1', '1', '4', '1', '2', '3', '4', '5'] (by decide)
    simpa [Numbers, digitsValue] using this) (by
    have := numbers_digits ['e', 'E'] ['7', '8', '9'] (by decide)
    simpa [Numbers, digitsValue] using this)

end ChaosMagPy.SplineText
