import Verif.Props.Time
import Verif.Props.FloatTime
import Verif.Props.FloatAngle
/-!
# Concrete cases for C07–C12, C70, C71

Each example applies one theorem to concrete arguments for which all its hypotheses hold.
-/
namespace ChaosMagPy.Time
open Spec

/-- C07_type_error: years given as 32-bit integers. -/
example : isLeapYear .int32 [2000] = .error .typeError := C07_type_error .int32 (by decide) [2000]

/-- C07_year_length of 1900. -/
example : ∃ a b : ℚ, mjd2000 ℚ 1900 = .ok a ∧ mjd2000 ℚ (1900 + 1) = .ok b ∧ b - a = 365 := by
  obtain ⟨a, b, h1, h2, h3⟩ := C07_year_length (K := ℚ) 1900 (by decide)
  rw [if_neg (by decide)] at h3
  exact ⟨a, b, h1, h2, h3⟩

theorem exLeapDay : Date.Valid ⟨2004, 2, 29⟩ := ⟨by decide, by decide, by decide, by decide⟩

theorem exLeapDay_days : DaysFromEpoch ⟨2004, 2, 29⟩ 1520 := by
  rw [daysFromEpoch_iff _ exLeapDay]; decide

/-- C08_day_count_exists. -/
example : ∃! n : Int, DaysFromEpoch ⟨2004, 2, 29⟩ n := C08_day_count_exists _ exLeapDay

/-- C08_mjd2000_exact: noon of 2004-02-29. -/
example : mjd2000 ℚ 2004 2 29 12 = .ok 1520.5 := by
  have := C08_mjd2000_exact (K := ℚ) ⟨2004, 2, 29⟩ exLeapDay (by decide) 1520 exLeapDay_days 12 0 0 0 0 (by decide)
  norm_num at this ⊢
  exact this

/-- C08_mjd2000_general with arguments that leave the 64-bit range: a thousand years of hours. -/
example := C08_mjd2000_general (K := ℚ) ⟨2004, 2, 29⟩ exLeapDay (by decide) 1520 exLeapDay_days 8766000 (-5) 0 0 0

/-- C08_error_iff: 29 February 2003 is refused. -/
example : mjd2000 ℚ 2003 2 29 0 0 0 0 0 = .error .valueError :=
  (C08_error_iff (K := ℚ) 2003 2 29 0 0 0 0 0).2 (fun h => absurd h.2.2.2.2.2.2.2 (by decide))

/-- C08_next_day at the end of February. -/
example : ∃ a : ℚ, mjd2000 ℚ 2004 2 29 = .ok a ∧ mjd2000 ℚ 2004 3 1 = .ok (a + 1) :=
  C08_next_day (K := ℚ) ⟨2004, 2, 29⟩ exLeapDay (by decide)

/-- C09_dyear_roundtrip. -/
example : ∃ t : ℚ, dyearToMjd true (2015.5 : ℚ) = .ok t ∧ mjdToDyear true t = .ok 2015.5 :=
  C09_dyear_roundtrip (K := ℚ) 2015.5 (by norm_num)

theorem exBounds : mjd2000 ℚ 1708 = .ok (-106651) ∧ mjd2000 ℚ 2292 = .ok 106651 := by
  have h1 := mjd2000_jan1 (K := ℚ) 1708 (by omega)
  have h2 := mjd2000_jan1 (K := ℚ) 2292 (by omega)
  rw [show jan1 1708 = -95694 by decide] at h1
  rw [show jan1 2292 = 117608 by decide] at h2
  norm_num at h1 h2
  exact ⟨h1, h2⟩

/-- C09_mjd_roundtrip: noon of 31 December 2000. -/
example : ∃ x : ℚ, mjdToDyear true (365.5 : ℚ) = .ok x ∧ dyearToMjd true x = .ok 365.5 :=
  C09_mjd_roundtrip (K := ℚ) 365.5 _ _ exBounds.1 exBounds.2 (by norm_num)

/-- C09_no_leap_roundtrip (no hypotheses but the ordered field). -/
example := C09_no_leap_roundtrip (K := ℚ) 2015.5

/-- C10_dyear_to_mjd_strictMono across a new year. -/
example (s t : ℚ) (hs : dyearToMjd true (1999.99 : ℚ) = .ok s) (ht : dyearToMjd true (2000 : ℚ) = .ok t) : s < t :=
  C10_dyear_to_mjd_strictMono (K := ℚ) true 1999.99 2000 s t (by norm_num) (by norm_num) (by norm_num) hs ht

/-- Both calls of the example above do return. -/
example : ∃ s t : ℚ, dyearToMjd true (1999.99 : ℚ) = .ok s ∧ dyearToMjd true (2000 : ℚ) = .ok t :=
  let ⟨s, hs, _⟩ := C09_dyear_roundtrip (K := ℚ) 1999.99 (by norm_num)
  let ⟨t, ht, _⟩ := C09_dyear_roundtrip (K := ℚ) 2000 (by norm_num)
  ⟨s, t, hs, ht⟩

/-- C10_mjd_to_dyear_strictMono across a new year; both calls return. -/
example : ∃ x z : ℚ, mjdToDyear true (-1 / 2 : ℚ) = .ok x ∧ mjdToDyear true (0 : ℚ) = .ok z ∧ x < z := by
  obtain ⟨x, hx, _⟩ := C09_mjd_roundtrip (K := ℚ) (-1 / 2) _ _ exBounds.1 exBounds.2 (by norm_num)
  obtain ⟨z, hz, _⟩ := C09_mjd_roundtrip (K := ℚ) 0 _ _ exBounds.1 exBounds.2 (by norm_num)
  exact ⟨x, z, hx, hz, C10_mjd_to_dyear_strictMono (K := ℚ) true _ _ (-1 / 2) 0 x z exBounds.1 exBounds.2 (by norm_num) (by norm_num)
    (by norm_num) hx hz⟩

/-- C10_year_start of 2004. -/
example : ∃ t : ℚ, mjd2000 ℚ 2004 = .ok t ∧ dyearToMjd true (2004 : ℚ) = .ok t ∧ mjdToDyear true t = .ok 2004 := by
  have := C10_year_start (K := ℚ) 2004 (by decide)
  push_cast at this
  exact this

/-- C11_date_roundtrip of a date before 2000. -/
example : |mjd2000OfDatetime ℚ (timestamp (-1000.1 : ℚ)) - (-1000.1)| < 1 / 86400000000000 :=
  (C11_date_roundtrip (K := ℚ) (-1000.1) (by norm_num)).1

/-- C11_instant_roundtrip: one nanosecond before 1970. -/
example : timestamp (mjd2000OfDatetime ℚ (-1)) = -1 := C11_instant_roundtrip (K := ℚ) (-1) (by norm_num) (by norm_num)

end ChaosMagPy.Time

namespace ChaosMagPy.Float
open ChaosMagPy.Spec ChaosMagPy.Time ChaosMagPy.Time.Spec

theorem exDouble (m e : ℤ) (x : ℝ) (hm : |m| ≤ 2 ^ 53) (h1 : -1074 ≤ e) (h2 : e < 971) (hx : x = (m : ℝ) * (2 : ℝ) ^ e) : IsDouble x :=
  hx ▸ double_of hm h1 h2

theorem exYear : IsDouble 2015.5 := exDouble 4031 (-1) _ (by norm_num) (by norm_num) (by norm_num) (by norm_num)

theorem exBounds (R : Rounding) : mjd2000 R 1708 = .ok (-106651) ∧ mjd2000 R 2292 = .ok 106651 := by
  have h1 := mjd2000_jan1_rnd R 1708 (by omega)
  have h2 := mjd2000_jan1_rnd R 2292 (by omega)
  rw [show jan1 1708 = -95694 by decide] at h1
  rw [show jan1 2292 = 117608 by decide] at h2
  norm_num at h1 h2
  exact ⟨h1, h2⟩

/-- C70_dyear_roundtrip. -/
example (R : Rounding) : ∃ m, dyearToMjd R true 2015.5 = .ok m ∧ mjdToDyear R true m = .ok 2015.5 :=
  C70_dyear_roundtrip R true exYear (by norm_num)

/-- C70_mjd_roundtrip. -/
example (R : Rounding) : ∃ t x', mjdToDyear R true 5660.1 = .ok t ∧ dyearToMjd R true t = .ok x' ∧ |x' - 5660.1| < 1 / 10 ^ 10 :=
  C70_mjd_roundtrip R (exBounds R).1 (exBounds R).2 (by norm_num)

/-- C70_accuracy. -/
example (R : Rounding) := C70_accuracy R true (t := 2015.5) (x := 5660.1) (by norm_num) (exBounds R).1 (exBounds R).2 (by norm_num)

/-- C70_strictMono across half a year; both calls return. -/
example (R : Rounding) : ∃ a b, dyearToMjd R true 2015 = .ok a ∧ dyearToMjd R true 2015.5 = .ok b ∧ a < b := by
  have h0 : IsDouble 2015 := exDouble 2015 0 _ (by norm_num) (by norm_num) (by norm_num) (by norm_num)
  obtain ⟨a, ha, _⟩ := C70_dyear_roundtrip R true h0 (by norm_num)
  obtain ⟨b, hb, _⟩ := C70_dyear_roundtrip R true exYear (by norm_num)
  exact ⟨a, b, ha, hb, C70_strictMono R true h0 exYear (by norm_num) (by norm_num) (by norm_num) ha hb⟩

/-- C70_midnight of 2004-02-29. -/
example (R : Rounding) := C70_midnight R ⟨2004, 2, 29⟩ exLeapDay (by decide) 1520 exLeapDay_days (by norm_num) (by norm_num)

/-- C70_timestamp: an instant of 2020 is off by less than 250 ns after the conversion to days and back. -/
example (R : Rounding) : |timestamp R (mjd2000OfDatetime R 1577836800123456789) - 1577836800123456789| < 250 :=
  (C70_timestamp R 1577836800123456789 (by norm_num) (by norm_num)).2 (by norm_num)

/-- C71_center_azimuth. -/
example (R : Rounding) : ∃ k : ℤ, centerAzimuth R 270.5 = 270.5 - 360 * k :=
  (C71_center_azimuth R (exDouble 541 (-1) _ (by norm_num) (by norm_num) (by norm_num) (by norm_num))).2.2.2.1 (by norm_num)

/-- C71_local_time at 3 in the morning and 45 degrees west. -/
example (R : Rounding) := C71_local_time R (time := 1 / 8) (phi := -45 - 1 / 2 ^ 47)
  (exDouble 1 (-3) _ (by norm_num) (by norm_num) (by norm_num) (by norm_num)) (by rw [abs_of_pos (by norm_num)]; norm_num)
  (by rw [abs_of_neg (by norm_num)]; norm_num)

/-- C12_degree_float: 200 numbers hold the coefficients of degree 13. -/
example (R : Rounding) : degreeOf R 200 = 13 := C12_degree_float R 200 13 (by norm_num) (by norm_num) (by norm_num)

/-- C12_degree_from_float: the coefficients of degrees 14 to 90. -/
example (R : Rounding) : degreeFrom R ((90 + 1) ^ 2 - 14 ^ 2) 14 = 90 := C12_degree_from_float R 14 90 (by norm_num) (by norm_num)

end ChaosMagPy.Float
