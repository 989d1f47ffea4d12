import Verif.Examples.Loaders
import Verif.Props.SplineCut
import Verif.Props.IgrfCut
import Verif.Props.RcCut
/-!
# Concrete cases for C83, C84

Each example applies one theorem to concrete arguments for which all its hypotheses hold.
-/
namespace ChaosMagPy.Igrf

/-- C83_igrf: the file with the epochs 1900 and 1905, cut after 40 characters. C83_igrf_rows: cut after the first row. -/
example := C83_igrf exFile _ _ ex_text ex_years (exFile.take 40) (List.take_prefix _ _)
example := C83_igrf_rows exFile _ _ ex_text ex_years 1 (by simp)

end ChaosMagPy.Igrf

namespace ChaosMagPy.SplineText
open ChaosMagPy.Spec ChaosMagPy.BSpline

/-- C83_gufm1: degree 1, one B-spline, five break points; cut after an arbitrary number of characters. -/
example (k : ℕ) : CutSpline (loadGufm1 ((['g', 'u', 'f', 'm'] ++ '\n' :: (['1', '1', '1', '2', '3', '4', '5', '7', '8', '9'].flatMap fun d => [d, ' '])).take k))
    ([1, 2, 3, 4, 5].map fun y => (y - 2000) * 365.25) 4 1 [7, 8, 9] :=
  C83_gufm1 ['g', 'u', 'f', 'm'] _ 1 [1, 2, 3, 4, 5] [7, 8, 9] (by norm_num) (by simp) (by decide) (by simp) (by
    have := numbers_digits ['e', 'E'] ['1', '1', '1', '2', '3', '4', '5', '7', '8', '9'] (by decide)
    simpa [Numbers, digitsValue] using this) _ (List.take_prefix _ _)

/-- C83_cals7k. -/
example (k : ℕ) : CutSpline (loadCals7k ((['0', '0', '0', '0', '1', '0', '1', '1', '2', '3', '4', '5', '7', '8', '9'].flatMap fun d => [d, ' ']).take k))
    ([1, 2, 3, 4, 5].map fun y => (y - 2000) * 365.25) 4 1 [7, 8, 9] :=
  C83_cals7k _ 1 0 0 0 0 0 [1, 2, 3, 4, 5] [7, 8, 9] (by norm_num) (by simp) (by simp) (by
    have := numbers_digits ['e', 'E', 'D'] ['0', '0', '0', '0', '1', '0', '1', '1', '2', '3', '4', '5', '7', '8', '9'] (by decide)
    simpa [digitsValue] using this) _ (List.take_prefix _ _)

/-- C83_covobs. -/
example (k : ℕ) : CutSpline (loadCovObs ((['C', 'O', 'V'] ++ '\n' :: ((['1', '1', '4', '1', '2', '3', '4', '5'].flatMap fun d => [d, ' ']) ++ '\n' ::
    (['7', '8', '9'].flatMap fun d => [d, ' ']))).take k)) ([1, 2, 3, 4, 5].map fun y => (y - 2000) * 365.25) 4 1 [7, 8, 9] :=
  C83_covobs ['C', 'O', 'V'] (['1', '1', '4', '1', '2', '3', '4', '5'].flatMap fun d => [d, ' ']) _ 1 4 1 [1, 2, 3, 4, 5] [7, 8, 9] (by norm_num) (by norm_num) (by simp)
    (by decide) (by decide) (by simp) (by
    have := numbers_digits ['e', 'E'] ['1', '1', '4', '1', '2', '3', '4', '5'] (by decide)
    simpa [Numbers, digitsValue] using this) (by
    have := numbers_digits ['e', 'E'] ['7', '8', '9'] (by decide)
    simpa [Numbers, digitsValue] using this) _ (List.take_prefix _ _)

theorem ascending_three : PPoly.Ascending [1, 2, 3] := by
  refine ⟨by simp, fun j hj => ?_⟩
  have : j = 0 ∨ j = 1 := by simp at hj; omega
  rcases this with rfl | rfl <;> norm_num

/-- C83_gufm1_zero, C83_cals7k_zero, C83_covobs_zero: files that end after the third break point. -/
example : ∃ b, loadGufm1 (['g', 'u', 'f', 'm'] ++ '\n' :: (['1', '1', '1', '2', '3'].flatMap fun d => [d, ' '])) = .ok b ∧ IsZeroModel b := by
  obtain ⟨b, h1, -, h2, -⟩ := C83_gufm1_zero ['g', 'u', 'f', 'm'] (['1', '1', '1', '2', '3'].flatMap fun d => [d, ' ']) 1 1 [1, 2, 3] (by norm_num) ascending_three
    (by simp) (by decide) (by
    have := numbers_digits ['e', 'E'] ['1', '1', '1', '2', '3'] (by decide)
    simpa [Numbers, digitsValue] using this)
  exact ⟨b, h1, h2⟩
example : ∃ b, loadCals7k (['0', '0', '0', '0', '1', '0', '1', '1', '2', '3'].flatMap fun d => [d, ' ']) = .ok b ∧ IsZeroModel b := by
  obtain ⟨b, h1, -, h2, -⟩ := C83_cals7k_zero (['0', '0', '0', '0', '1', '0', '1', '1', '2', '3'].flatMap fun d => [d, ' ']) 1 1 0 0 0 0 0 [1, 2, 3] (by norm_num)
    ascending_three (by simp) (by
    have := numbers_digits ['e', 'E', 'D'] ['0', '0', '0', '0', '1', '0', '1', '1', '2', '3'] (by decide)
    simpa [digitsValue] using this)
  exact ⟨b, h1, h2⟩
example : ∃ b, loadCovObs (['C', 'O', 'V'] ++ '\n' :: (['1', '1', '4', '1', '2', '3'].flatMap fun d => [d, ' '])) = .ok b ∧ IsZeroModel b := by
  obtain ⟨b, h1, -, h2, -⟩ := C83_covobs_zero ['C', 'O', 'V'] (['1', '1', '4', '1', '2', '3'].flatMap fun d => [d, ' ']) 1 4 1 [1, 2, 3] (by norm_num) (by norm_num)
    ascending_three (by simp) (by decide) (by decide) (by
    have := numbers_digits ['e', 'E'] ['1', '1', '4', '1', '2', '3'] (by decide)
    simpa [Numbers, digitsValue] using this)
  exact ⟨b, h1, h2⟩

end ChaosMagPy.SplineText

namespace ChaosMagPy.Rc
open ChaosMagPy.Spec

/-- C84_text: the file with one entry cut after an arbitrary number of characters. C84_complete: the whole file. -/
example (n : ℕ) := C84_text _ _ ex_text.1 (("# RC-index".toList ++ '\n' :: '\n' :: ['1', ' ', '7', ' ', '5', ' ', '2', ' ', 'D', ' ', '#', 'x', '\n']).take n) (List.take_prefix _ _)
example := C84_complete _ _ ex_text.1

/-- C84_time: after the entries (none here, and a comment) the time `12` is cut to `1`. -/
example : readCells (['#', '\n'] ++ ['1']) = .ok [⟨some 1, none, none, none, none⟩] := by
  have := C84_time [['#']] [] ['1'] 1 (by decide) (.comment [] _ _ .nil) (by simpa [digitsValue] using denotes_digit '1' (by decide)) (by decide) (by decide)
  simpa using this

/-- C84_kept, C84_lost, C84_end: hourly values, the last time is cut from 25 to 2 or its value is missing. -/
example : rcAt ([(1, some 4), (3, some 8), (5, some 0)] ++ [(2, none)]) 4 = .ok (some (8 + (0 - 8) * ((4 - 3) / (5 - 3)))) :=
  C84_kept [(1, some 4)] [] 3 8 5 0 (by norm_num) 2 none (by norm_num) 4 (by norm_num) (by norm_num)
example : rcAt ([(1, some 4), (3, some 8), (5, some 0)] ++ [(2, none)]) (5 / 2) = .ok none :=
  C84_lost [] [(5, some 0)] 1 4 3 8 (by norm_num) 2 (by norm_num) (by norm_num) (5 / 2) (by norm_num) (by norm_num)
example : rcAt ([(1, some 4)] ++ [(3, some 8)] ++ [(5, none)]) 4 = .ok none := (C84_end [(1, some 4)] 3 8 (by norm_num) 5 4 (by norm_num) (by norm_num)).1

/-- C84_h5: a crash after three columns, internal part. -/
example (fs : FS) := C84_h5 fs "RC.h5" ⟨[1, 2], [3, 4], [5, 6], [7, 8], [['D'], ['D']]⟩ 3 "internal" (.inr rfl)

end ChaosMagPy.Rc
