import Verif.Lemmas.Time
/-!
# Properties C07-C11: calendar and time conversions (`chaosmagpy/data_utils.py`)
-/
namespace ChaosMagPy.Time
open Spec

section
variable {K : Type*} [Field K] [LinearOrder K] [IsStrictOrderedRing K]

/-! ### bridge between the model and the calendar -/

theorem parseDate_valid {d : Date} (hv : d.Valid) (hy : 1000 ≤ d.year.natAbs ∧ d.year.natAbs ≤ 9999) :
    parseDate d.year d.month d.day = .ok (d.year, d.month, d.day) := by
  obtain ⟨h1, h2, h3, h4⟩ := hv
  have hl := npMonthLengths_get d.year d.month h1 h2
  unfold parseDate
  rw [if_neg (by omega), if_neg (by omega), if_neg]
  · simp
  · simp only [Int.toNat_natCast, hl]
    omega

theorem mjd2000_eq {d : Date} (hv : d.Valid) (hy : 1000 ≤ d.year.natAbs ∧ d.year.natAbs ≤ 9999)
    (h mi s us ns : Int) :
    mjd2000 K d.year d.month d.day h mi s us ns =
      .ok ((wrap64 ((dn d - dn epoch) * dayNs + timeOfDay h mi s us ns) : Int) / (nsPerDay : K)) := by
  have key : wrap64 (wrap64 (wrap64 (wrap64 (wrap64 (wrap64 (wrap64 (npDays d.year d.month d.day * nsPerDay)
      + wrap64 (h * 3600000000000)) + wrap64 (mi * 60000000000)) + wrap64 (s * 1000000000))
      + wrap64 (us * 1000)) + wrap64 ns) - epochNs)
      = wrap64 ((dn d - dn epoch) * dayNs + timeOfDay h mi s us ns) := by
    simp only [wrap64_add]
    rw [epochNs, wrap64_sub]
    congr 1
    have e : npDays 2000 1 1 = dn epoch := rfl
    have e2 : npDays d.year d.month d.day = dn d := rfl
    rw [e, e2]
    unfold nsPerDay dayNs timeOfDay
    ring
  unfold mjd2000
  rw [parseDate_valid hv hy]
  simp only [nsToMjd]
  rw [key]

/-! ## C07 -/

/-- **C07, rule.**  On 64-bit integer input `is_leap_year` returns, for every entry, whether the year
is a Gregorian leap year. -/
theorem C07_is_leap_year (ys : List Int) :
    isLeapYear .int64 ys = .ok (ys.map fun y => decide (Leap y)) := by
  simp only [isLeapYear, DType.isSubInt, not_true, if_false]
  congr 1
  apply List.map_congr_left
  intro y _
  rw [Bool.eq_iff_iff, isLeap_iff]; simp

/-- **C07, rejection.**  Input of any other element type raises `TypeError` - decimal years, but also
32-bit or unsigned integer years (`np.issubdtype(dtype, int)` only admits the default integer). -/
theorem C07_type_error (t : DType) (ht : t ≠ .int64) (ys : List Int) :
    isLeapYear t ys = .error .typeError := by
  cases t <;> first | exact absurd rfl ht | rfl

/-- **C07, length of the year.**  The 1 January dates of consecutive years are 366 days apart exactly
in leap years, 365 days otherwise, for all years whose 1 January `mjd2000` can represent. -/
theorem C07_year_length (y : Int) (hy : 1708 ≤ y ∧ y ≤ 2291) :
    ∃ a b : K, mjd2000 K y = .ok a ∧ mjd2000 K (y + 1) = .ok b ∧
      b - a = if (isLeap y = true) then 366 else 365 := by
  have hv : ∀ z : Int, Date.Valid ⟨z, 1, 1⟩ := fun z =>
    ⟨le_refl _, by simp, le_refl _, by simp [monthLength]⟩
  have hd : ∀ z : Int, dn ⟨z, 1, 1⟩ = jan1 z := fun z => by simp [dn, npDays_eq]
  have ha := mjd2000_eq (K := K) (hv y) ⟨by simp only; omega, by simp only; omega⟩ 0 0 0 0 0
  have hb := mjd2000_eq (K := K) (hv (y + 1)) ⟨by simp only; omega, by simp only; omega⟩ 0 0 0 0 0
  have hz : timeOfDay 0 0 0 0 0 = 0 := rfl
  rw [hd, dn_epoch, hz, add_zero, wrap64_of_range] at ha hb
  · refine ⟨_, _, ha, hb, ?_⟩
    have h1 := jan1_succ y
    have hl : (isLeap y = true) ↔ Leap y := isLeap_iff y
    have hK : (nsPerDay : K) ≠ 0 := by norm_num [nsPerDay]
    rw [h1]
    have e : (dayNs : Int) = nsPerDay := rfl
    rw [e]
    by_cases h : Leap y
    · rw [if_pos h, if_pos (hl.2 h)]
      push_cast
      field_simp
      ring
    · rw [if_neg h, if_neg (fun h' => h (hl.1 h'))]
      push_cast
      field_simp
      ring
  · unfold jan1 dayNs; omega
  · unfold jan1 dayNs; omega
  · unfold jan1 dayNs; omega
  · unfold jan1 dayNs; omega

/-- C07 hypotheses are met, including a century that is not a leap year and the leap century. -/
example : (1708 ≤ (1900 : Int) ∧ (1900 : Int) ≤ 2291) ∧ ¬ Leap 1900 ∧ Leap 2000 ∧ Leap 1904 := by decide

/-! ## C08 -/

/-- **C08, every date has a day count.**  Every existing date lies exactly one number of days from
2000-01-01 (so the next theorems speak about all dates). -/
theorem C08_day_count_exists (d : Date) (hv : d.Valid) : ∃! n : Int, DaysFromEpoch d n :=
  ⟨dn d - dn epoch, (daysFromEpoch_iff d hv _).2 rfl, fun n hn => (daysFromEpoch_iff d hv n).1 hn⟩

/-- **C08, general.**  For every existing date with a four-digit year, `n` days from 2000-01-01, and
arbitrary (also negative or large) hour ... nanosecond arguments, `mjd2000` returns the exact number of
nanoseconds since 2000-01-01, reduced to 64 bits, divided by the nanoseconds of a day. -/
theorem C08_mjd2000_general (d : Date) (hv : d.Valid)
    (hy : 1000 ≤ d.year.natAbs ∧ d.year.natAbs ≤ 9999) (n : Int) (hn : DaysFromEpoch d n)
    (h mi s us ns : Int) :
    ∃ N : Int, N % 2^64 = (n * dayNs + timeOfDay h mi s us ns) % 2^64 ∧ -2^63 ≤ N ∧ N < 2^63 ∧
      mjd2000 K d.year d.month d.day h mi s us ns = .ok ((N : K) / (dayNs : K)) := by
  have hn' := (daysFromEpoch_iff d hv n).1 hn
  refine ⟨_, wrap64_emod _, (wrap64_range _).1, (wrap64_range _).2, ?_⟩
  rw [mjd2000_eq hv hy, hn']
  rfl

/-- **C08, exactness.**  Within ±2^63 nanoseconds of 2000-01-01 (1707-09-22 to 2292-04-10) the result is
the exact number of days: `n` plus the fraction of the day. -/
theorem C08_mjd2000_exact (d : Date) (hv : d.Valid)
    (hy : 1000 ≤ d.year.natAbs ∧ d.year.natAbs ≤ 9999) (n : Int) (hn : DaysFromEpoch d n)
    (h mi s us ns : Int) (hr : -2^63 ≤ n * dayNs + timeOfDay h mi s us ns ∧
      n * dayNs + timeOfDay h mi s us ns < 2^63) :
    mjd2000 K d.year d.month d.day h mi s us ns =
      .ok ((n : K) + h / 24 + mi / (24 * 60) + s / (24 * 60 * 60) + us / (24 * 60 * 60 * 1000000)
        + ns / (24 * 60 * 60 * 1000000000)) := by
  have hn' := (daysFromEpoch_iff d hv n).1 hn
  rw [mjd2000_eq hv hy, ← hn', wrap64_of_range hr.1 hr.2]
  congr 1
  unfold dayNs timeOfDay nsPerDay
  push_cast
  ring

/-- **C08, successive days.**  The next calendar day (across months, years, centuries) is exactly one
day later, as long as both are in range. -/
theorem C08_next_day (d : Date) (hv : d.Valid) (hy : 1708 ≤ d.year ∧ d.year ≤ 2291) :
    ∃ a : K, mjd2000 K d.year d.month d.day = .ok a ∧
      mjd2000 K (nextDay d).year (nextDay d).month (nextDay d).day = .ok (a + 1) := by
  obtain ⟨h1, h2⟩ := dn_next d hv
  have hb := dn_bounds d hv
  have hby : (nextDay d).year = d.year ∨ (nextDay d).year = d.year + 1 := by
    unfold nextDay; split_ifs <;> simp
  have l1 : jan1 1708 ≤ jan1 d.year := jan1_le_iff.2 hy.1
  have l2 : jan1 (d.year + 1) ≤ jan1 2292 := jan1_le_iff.2 (by omega)
  have e1 : jan1 1708 = -95694 := by decide
  have e2 : jan1 2292 = 117608 := by decide
  have ha := mjd2000_eq (K := K) hv ⟨by omega, by omega⟩ 0 0 0 0 0
  have hb' := mjd2000_eq (K := K) h2 ⟨by omega, by omega⟩ 0 0 0 0 0
  have hz : timeOfDay 0 0 0 0 0 = 0 := rfl
  rw [dn_epoch, hz, add_zero, wrap64_of_range] at ha hb'
  · refine ⟨_, ha, ?_⟩
    rw [hb', h1]
    have e : (dayNs : Int) = nsPerDay := rfl
    have hK : (nsPerDay : K) ≠ 0 := by norm_num [nsPerDay]
    rw [e]
    congr 1
    push_cast
    field_simp
    ring
  all_goals (unfold dayNs; omega)

/-- **C08, errors.**  `mjd2000` raises `ValueError` exactly if the date does not exist or the year does
not have four digits. -/
theorem C08_error_iff (y m dd h mi s us ns : Int) :
    (mjd2000 K y m dd h mi s us ns = .error .valueError ↔
      ¬ (1000 ≤ y.natAbs ∧ y.natAbs ≤ 9999 ∧ 1 ≤ m ∧ 1 ≤ dd ∧
        Date.Valid ⟨y, m.toNat, dd.toNat⟩)) := by
  constructor
  · rintro he ⟨h1, h2, h3, h4, hv⟩
    have := mjd2000_eq (K := K) hv ⟨h1, h2⟩ h mi s us ns
    have e1 : ((m.toNat : Nat) : Int) = m := by omega
    have e2 : ((dd.toNat : Nat) : Int) = dd := by omega
    simp only [e1, e2] at this
    rw [this] at he
    cases he
  · intro hn
    have hp : parseDate y m dd = .error .valueError := by
      unfold parseDate
      split_ifs with a b c
      · rfl
      · rfl
      · rfl
      · exfalso
        apply hn
        have hl := npMonthLengths_get y m.toNat (by omega) (by omega)
        rw [hl] at c
        refine ⟨by omega, by omega, by omega, by omega, ?_, ?_, ?_, ?_⟩ <;> simp only <;> omega
    unfold mjd2000
    rw [hp]

/-- **C08, boundary of exactness.**  Outside the window the result is wrong: 1 January 1700 (109572 days
before the epoch) is reported as a date in the future. -/
theorem C08_wrap_witness :
    DaysFromEpoch ⟨1700, 1, 1⟩ (-109572) ∧
      ∃ x : ℚ, mjd2000 ℚ 1700 1 1 = .ok x ∧ 0 < x ∧ x ≠ -109572 := by
  have hv : Date.Valid ⟨1700, 1, 1⟩ := ⟨le_refl _, by decide, le_refl _, by decide⟩
  constructor
  · rw [daysFromEpoch_iff _ hv]; decide
  · have := mjd2000_eq (K := ℚ) hv ⟨by decide, by decide⟩ 0 0 0 0 0
    have e : wrap64 ((dn ⟨1700, 1, 1⟩ - dn epoch) * dayNs + timeOfDay 0 0 0 0 0)
        = 8979723273709551616 := by decide
    rw [e] at this
    exact ⟨_, this, by norm_num [nsPerDay], by norm_num [nsPerDay]⟩

/-- C08 hypotheses are met by 29 February 2004, 13:52:15. -/
example : Date.Valid ⟨2004, 2, 29⟩ ∧ DaysFromEpoch ⟨2004, 2, 29⟩ 1520 ∧
    (-2^63 ≤ 1520 * dayNs + timeOfDay 13 52 15 0 0 ∧ 1520 * dayNs + timeOfDay 13 52 15 0 0 < 2^63) := by
  have hv : Date.Valid ⟨2004, 2, 29⟩ := ⟨by decide, by decide, by decide, by decide⟩
  refine ⟨hv, ?_, by decide⟩
  rw [daysFromEpoch_iff _ hv]; decide

/-! ## C09, C10 -/

/-- Exact modified Julian date of 1 January of year `y` (`mjd2000` agrees in the safe range). -/
theorem mjd2000_jan1 (y : Int) (hy : 1708 ≤ y ∧ y ≤ 2292) :
    mjd2000 K y 1 1 = .ok ((jan1 y - 10957 : Int) : K) := by
  have hv : Date.Valid ⟨y, 1, 1⟩ := ⟨le_refl _, by simp, le_refl _, by simp [monthLength]⟩
  have hd : dn ⟨y, 1, 1⟩ = jan1 y := by simp [dn, npDays_eq]
  have ha := mjd2000_eq (K := K) hv ⟨by simp only; omega, by simp only; omega⟩ 0 0 0 0 0
  have hz : timeOfDay 0 0 0 0 0 = 0 := rfl
  rw [hd, dn_epoch, hz, add_zero, wrap64_of_range] at ha
  · have e : (mjd2000 K y 1 1 : Except Err K) = mjd2000 K y ((1 : Nat) : Int) ((1 : Nat) : Int) := rfl
    rw [e, ha]
    congr 1
    unfold dayNs nsPerDay
    push_cast
    field_simp
  · unfold jan1 dayNs; omega
  · unfold jan1 dayNs; omega

/-- Length of a year as a field element. -/
def yl (K : Type*) [Field K] (y : Int) : K := if isLeap y then 366 else 365

theorem yl_pos (y : Int) : (0 : K) < yl K y := by unfold yl; split_ifs <;> norm_num

theorem yl_eq (y : Int) : ((jan1 (y + 1) - 10957 : Int) : K) = ((jan1 y - 10957 : Int) : K) + yl K y := by
  rw [jan1_succ]
  unfold yl
  by_cases h : Leap y
  · rw [if_pos h, if_pos ((isLeap_iff y).2 h)]; push_cast; ring
  · rw [if_neg h, if_neg (fun h' => h ((isLeap_iff y).1 h'))]; push_cast; ring

variable [FloorRing K]

theorem dyearToMjd_eq (x : K) (hx : 1708 ≤ ⌊x⌋ ∧ ⌊x⌋ ≤ 2291) :
    dyearToMjd true x = .ok (((jan1 ⌊x⌋ - 10957 : Int) : K) + Int.fract x * yl K ⌊x⌋) := by
  unfold dyearToMjd
  simp only [if_true]
  rw [mjd2000_jan1 ⌊x⌋ ⟨hx.1, by omega⟩]
  simp only [yl]

theorem mjdToDyear_eq (t : K) (y : Int) (hy : 1708 ≤ y ∧ y ≤ 2291)
    (h1 : ((jan1 y - 10957 : Int) : K) ≤ t) (h2 : t < ((jan1 (y + 1) - 10957 : Int) : K)) :
    mjdToDyear true t = .ok ((y : K) + (t - ((jan1 y - 10957 : Int) : K)) / yl K y) := by
  have hf1 : jan1 y - 10957 ≤ ⌊t⌋ := Int.le_floor.2 h1
  have hf2 : ⌊t⌋ < jan1 (y + 1) - 10957 := Int.floor_lt.2 h2
  have hs := npYearOfDays_spec (⌊t⌋ + npDays 2000 1 1)
  rw [npDays_epoch] at hs
  have hyy : npYearOfDays (⌊t⌋ + npDays 2000 1 1) = y := by
    rw [npDays_epoch]
    exact year_unique hs.1 hs.2 (by omega) (by omega)
  unfold mjdToDyear
  simp only [if_true, hyy, sub_add_cancel]
  rw [mjd2000_jan1 y ⟨hy.1, by omega⟩]
  simp only [yl]

/-- **C09, there and back (decimal year).**  With leap years, for every decimal year `x` from 1708 up to
(not including) 2292: both conversions succeed and return `x`. -/
theorem C09_dyear_roundtrip (x : K) (hx : 1708 ≤ x ∧ x < 2292) :
    ∃ t : K, dyearToMjd true x = .ok t ∧ mjdToDyear true t = .ok x := by
  have h1 : (1708 : Int) ≤ ⌊x⌋ := Int.le_floor.2 (by exact_mod_cast hx.1)
  have h2 : ⌊x⌋ ≤ 2291 := by
    have : ⌊x⌋ < 2292 := Int.floor_lt.2 (by exact_mod_cast hx.2)
    omega
  refine ⟨_, dyearToMjd_eq x ⟨h1, h2⟩, ?_⟩
  have hp : (0 : K) < yl K ⌊x⌋ := yl_pos _
  rw [mjdToDyear_eq _ ⌊x⌋ ⟨h1, h2⟩]
  · congr 1
    rw [add_sub_cancel_left, mul_div_assoc, div_self hp.ne', mul_one]
    exact Int.floor_add_fract x
  · have := mul_nonneg (Int.fract_nonneg x) hp.le
    linarith
  · rw [yl_eq]
    have := mul_lt_mul_of_pos_right (Int.fract_lt_one x) hp
    linarith

/-- **C09, there and back (modified Julian date).**  With leap years, for every time `t` between
1 January 1708 and 1 January 2292 (as given by `mjd2000`). -/
theorem C09_mjd_roundtrip (t a b : K) (ha : mjd2000 K 1708 = .ok a) (hb : mjd2000 K 2292 = .ok b)
    (ht : a ≤ t ∧ t < b) : ∃ x : K, mjdToDyear true t = .ok x ∧ dyearToMjd true x = .ok t := by
  rw [show (mjd2000 K 1708 : Except Err K) = mjd2000 K 1708 1 1 from rfl,
    mjd2000_jan1 1708 (by omega)] at ha
  rw [show (mjd2000 K 2292 : Except Err K) = mjd2000 K 2292 1 1 from rfl,
    mjd2000_jan1 2292 (by omega)] at hb
  have ha' := Except.ok.inj ha
  have hb' := Except.ok.inj hb
  rw [← ha', ← hb'] at ht
  clear ha hb ha' hb'
  have hs := npYearOfDays_spec (⌊t⌋ + 10957)
  obtain ⟨y, hyd⟩ : ∃ y, y = npYearOfDays (⌊t⌋ + 10957) := ⟨_, rfl⟩
  rw [← hyd] at hs
  have f1 : jan1 1708 - 10957 ≤ ⌊t⌋ := Int.le_floor.2 ht.1
  have f2 : ⌊t⌋ < jan1 2292 - 10957 := Int.floor_lt.2 ht.2
  have hy1 : 1708 ≤ y := by
    by_contra hc
    have : jan1 (y + 1) ≤ jan1 1708 := jan1_le_iff.2 (by omega)
    omega
  have hy2 : y ≤ 2291 := by
    by_contra hc
    have : jan1 2292 ≤ jan1 y := jan1_le_iff.2 (by omega)
    omega
  have g1 : ((jan1 y - 10957 : Int) : K) ≤ t := Int.le_floor.1 (by omega)
  have g2 : t < ((jan1 (y + 1) - 10957 : Int) : K) := Int.floor_lt.1 (by omega)
  have hp : (0 : K) < yl K y := yl_pos _
  refine ⟨_, mjdToDyear_eq t y ⟨hy1, hy2⟩ g1 g2, ?_⟩
  rw [yl_eq] at g2
  obtain ⟨f, hf⟩ : ∃ f : K, f = (t - ((jan1 y - 10957 : Int) : K)) / yl K y := ⟨_, rfl⟩
  have hf0 : 0 ≤ f := by rw [hf]; exact div_nonneg (by linarith) hp.le
  have hf1 : f < 1 := by rw [hf, div_lt_one hp]; linarith
  rw [← hf]
  have hfl : ⌊(y : K) + f⌋ = y := by
    rw [Int.floor_eq_iff]
    constructor
    · linarith
    · linarith
  rw [dyearToMjd_eq _ (by rw [hfl]; omega), hfl]
  congr 1
  have hfr : Int.fract ((y : K) + f) = f := by
    rw [Int.fract, hfl]; ring
  rw [hfr, hf, div_mul_cancel₀ _ hp.ne']
  ring

/-- **C09, without leap years**: the two conversions are inverse for all times. -/
theorem C09_no_leap_roundtrip (x : K) :
    (∃ t : K, dyearToMjd false x = .ok t ∧ mjdToDyear false t = .ok x) ∧
    (∃ y : K, mjdToDyear false x = .ok y ∧ dyearToMjd false y = .ok x) := by
  constructor
  · refine ⟨_, rfl, ?_⟩
    simp only [mjdToDyear, Bool.false_eq_true, if_false]
    congr 1
    have : (365.25 : K) ≠ 0 := by norm_num
    field_simp
    ring
  · refine ⟨_, rfl, ?_⟩
    simp only [dyearToMjd, Bool.false_eq_true, if_false]
    congr 1
    have : (365.25 : K) ≠ 0 := by norm_num
    field_simp
    ring

/-- **C10, monotone.**  `dyear_to_mjd` is strictly increasing (both conventions). -/
theorem C10_dyear_to_mjd_strictMono (leap : Bool) (x z s t : K) (hx : 1708 ≤ x) (hz : z < 2292)
    (hlt : x < z) (hs : dyearToMjd leap x = .ok s) (ht : dyearToMjd leap z = .ok t) : s < t := by
  cases leap with
  | false =>
    simp only [dyearToMjd, Bool.false_eq_true, if_false, Except.ok.injEq] at hs ht
    rw [← hs, ← ht]
    have : (0 : K) < 365.25 := by norm_num
    exact mul_lt_mul_of_pos_right (by linarith) this
  | true =>
    have hx1 : (1708 : Int) ≤ ⌊x⌋ := Int.le_floor.2 (by exact_mod_cast hx)
    have hz2 : ⌊z⌋ ≤ 2291 := by
      have : ⌊z⌋ < 2292 := Int.floor_lt.2 (by exact_mod_cast hz)
      omega
    have hfl : ⌊x⌋ ≤ ⌊z⌋ := Int.floor_le_floor hlt.le
    rw [dyearToMjd_eq x ⟨hx1, by omega⟩] at hs
    rw [dyearToMjd_eq z ⟨by omega, hz2⟩] at ht
    rw [← Except.ok.inj hs, ← Except.ok.inj ht]
    rcases lt_or_eq_of_le hfl with hc | hc
    · have e1 : jan1 (⌊x⌋ + 1) ≤ jan1 ⌊z⌋ := jan1_le_iff.2 hc
      have e2 : ((jan1 (⌊x⌋ + 1) - 10957 : Int) : K) ≤ ((jan1 ⌊z⌋ - 10957 : Int) : K) := by
        exact_mod_cast (by omega : jan1 (⌊x⌋ + 1) - 10957 ≤ jan1 ⌊z⌋ - 10957)
      rw [yl_eq] at e2
      have a := mul_lt_mul_of_pos_right (Int.fract_lt_one x) (yl_pos (K := K) ⌊x⌋)
      have b := mul_nonneg (Int.fract_nonneg z) (yl_pos (K := K) ⌊z⌋).le
      linarith
    · rw [← hc]
      have hfr : Int.fract x < Int.fract z := by
        unfold Int.fract; rw [← hc]; linarith
      have := mul_lt_mul_of_pos_right hfr (yl_pos (K := K) ⌊x⌋)
      linarith

/-- **C10, monotone.**  `mjd_to_dyear` is strictly increasing (both conventions). -/
theorem C10_mjd_to_dyear_strictMono (leap : Bool) (a b s t x z : K)
    (ha : mjd2000 K 1708 = .ok a) (hb : mjd2000 K 2292 = .ok b) (hs : a ≤ s) (ht : t < b)
    (hlt : s < t) (hx : mjdToDyear leap s = .ok x) (hz : mjdToDyear leap t = .ok z) : x < z := by
  cases leap with
  | false =>
    simp only [mjdToDyear, Bool.false_eq_true, if_false, Except.ok.injEq] at hx hz
    rw [← hx, ← hz]
    have : (0 : K) < 365.25 := by norm_num
    have := div_lt_div_of_pos_right hlt this
    linarith
  | true =>
    obtain ⟨x', h1, h2⟩ := C09_mjd_roundtrip s a b ha hb ⟨hs, lt_trans hlt ht⟩
    obtain ⟨z', h3, h4⟩ := C09_mjd_roundtrip t a b ha hb ⟨le_trans hs hlt.le, ht⟩
    rw [hx] at h1; rw [hz] at h3
    cases h1; cases h3
    -- bounds of x and z
    have bound : ∀ u v : K, a ≤ u → u < b → mjdToDyear true u = .ok v → 1708 ≤ v ∧ v < 2292 := by
      intro u v hu1 hu2 huv
      rw [show (mjd2000 K 1708 : Except Err K) = mjd2000 K 1708 1 1 from rfl,
        mjd2000_jan1 1708 (by omega)] at ha
      rw [show (mjd2000 K 2292 : Except Err K) = mjd2000 K 2292 1 1 from rfl,
        mjd2000_jan1 2292 (by omega)] at hb
      have ha' := Except.ok.inj ha
      have hb' := Except.ok.inj hb
      rw [← ha'] at hu1
      rw [← hb'] at hu2
      have hsp := npYearOfDays_spec (⌊u⌋ + 10957)
      obtain ⟨y, hyd⟩ : ∃ y, y = npYearOfDays (⌊u⌋ + 10957) := ⟨_, rfl⟩
      rw [← hyd] at hsp
      have f1 : jan1 1708 - 10957 ≤ ⌊u⌋ := Int.le_floor.2 hu1
      have f2 : ⌊u⌋ < jan1 2292 - 10957 := Int.floor_lt.2 hu2
      have hy1 : 1708 ≤ y := by
        by_contra hc
        have : jan1 (y + 1) ≤ jan1 1708 := jan1_le_iff.2 (by omega)
        omega
      have hy2 : y ≤ 2291 := by
        by_contra hc
        have : jan1 2292 ≤ jan1 y := jan1_le_iff.2 (by omega)
        omega
      have g1 : ((jan1 y - 10957 : Int) : K) ≤ u := Int.le_floor.1 (by omega)
      have g2 : u < ((jan1 (y + 1) - 10957 : Int) : K) := Int.floor_lt.1 (by omega)
      rw [mjdToDyear_eq u y ⟨hy1, hy2⟩ g1 g2] at huv
      have hv := Except.ok.inj huv
      have hp : (0 : K) < yl K y := yl_pos _
      rw [yl_eq] at g2
      have q0 : 0 ≤ (u - ((jan1 y - 10957 : Int) : K)) / yl K y := div_nonneg (by linarith) hp.le
      have q1 : (u - ((jan1 y - 10957 : Int) : K)) / yl K y < 1 := by
        rw [div_lt_one hp]; linarith
      have c1 : (1708 : K) ≤ (y : K) := by exact_mod_cast hy1
      have c2 : (y : K) ≤ 2291 := by exact_mod_cast hy2
      constructor <;> linarith
    have bx := bound s x hs (lt_trans hlt ht) hx
    have bz := bound t z (le_trans hs hlt.le) ht hz
    by_contra hc
    rcases lt_or_eq_of_le (not_lt.1 hc) with h | h
    · have := C10_dyear_to_mjd_strictMono true z x t s bz.1 bx.2 h h4 h2
      linarith
    · rw [h] at h4
      rw [h4] at h2
      have := Except.ok.inj h2
      linarith

/-- **C10, year boundaries.**  1 January of year `y` and the decimal year `y.0` correspond to each other
under both conversions. -/
theorem C10_year_start (y : Int) (hy : 1708 ≤ y ∧ y ≤ 2291) :
    ∃ t : K, mjd2000 K y = .ok t ∧ dyearToMjd true (y : K) = .ok t ∧ mjdToDyear true t = .ok (y : K) := by
  refine ⟨_, mjd2000_jan1 y ⟨hy.1, by omega⟩, ?_, ?_⟩
  · have := dyearToMjd_eq (K := K) (y : K) (by rw [Int.floor_intCast]; exact hy)
    rw [this, Int.floor_intCast, Int.fract_intCast]
    congr 1; ring
  · rw [mjdToDyear_eq _ y hy (le_refl _)]
    · congr 1; simp
    · rw [yl_eq]; linarith [yl_pos (K := K) y]

/-- C09/C10 hypotheses are met (31 December of a leap year). -/
example : (1708 : ℚ) ≤ 2000.998 ∧ (2000.998 : ℚ) < 2292 ∧
    ∃ a b : ℚ, mjd2000 ℚ 1708 = .ok a ∧ mjd2000 ℚ 2292 = .ok b ∧ a ≤ 365.5 ∧ (365.5 : ℚ) < b := by
  refine ⟨by norm_num, by norm_num, _, _, mjd2000_jan1 1708 (by omega), mjd2000_jan1 2292 (by omega), ?_, ?_⟩
  · have : jan1 1708 = -95694 := by decide
    rw [this]; norm_num
  · have : jan1 2292 = 117608 := by decide
    rw [this]; norm_num

/-! ## C11 -/

/-- **C11, instant → date → instant.**  For every 64-bit nanosecond instant whose distance from
2000-01-01 also fits 64 bits, `timestamp(mjd2000(instant))` is the instant. -/
theorem C11_instant_roundtrip (ns : Int) (h : -2^63 ≤ ns ∧ ns < 2^63)
    (h' : -2^63 ≤ ns - 946684800000000000) :
    timestamp (mjd2000OfDatetime K ns) = ns := by
  unfold timestamp mjd2000OfDatetime nsToMjd
  rw [epochNs_eq, wrap64_of_range (x := ns - 946684800000000000) (by omega) (by omega)]
  have e : ((ns - 946684800000000000 : Int) : K) / (nsPerDay : K) * 86400000000000
      = ((ns - 946684800000000000 : Int) : K) := by
    unfold nsPerDay
    push_cast
    field_simp
  rw [e]
  have ht : truncZ (((ns - 946684800000000000 : Int)) : K) = ns - 946684800000000000 := by
    unfold truncZ
    split_ifs
    · exact Int.floor_intCast _
    · exact Int.ceil_intCast _
  rw [ht, wrap64_of_range (x := ns - 946684800000000000) (by omega) (by omega)]
  rw [wrap64_of_range (by omega) (by omega)]
  exact Int.sub_add_cancel _ _

/-- **C11, date → instant → date.**  For every real `t` within about ±106751 days (2^63 ns) of the epoch,
`mjd2000(timestamp(t))` is at most one nanosecond away from `t` (strictly less), on the side of the epoch,
and exactly `t` if `t` is a whole number of nanoseconds. -/
theorem C11_date_roundtrip (t : K) (h : -(2^63 : K) < t * 86400000000000 ∧ t * 86400000000000 < 2^63) :
    |mjd2000OfDatetime K (timestamp t) - t| < 1 / 86400000000000 ∧
    |mjd2000OfDatetime K (timestamp t)| ≤ |t| ∧
    (∀ n : Int, t = n / 86400000000000 → mjd2000OfDatetime K (timestamp t) = t) := by
  obtain ⟨u, hu⟩ : ∃ u : K, u = t * 86400000000000 := ⟨_, rfl⟩
  rw [← hu] at h
  have hr : -2^63 ≤ truncZ u ∧ truncZ u < 2^63 := by
    unfold truncZ
    split_ifs with h0
    · constructor
      · have : 0 ≤ ⌊u⌋ := Int.floor_nonneg.2 h0
        omega
      · exact Int.floor_lt.2 (by exact_mod_cast h.2)
    · constructor
      · have : (-2^63 : Int) < ⌈u⌉ := Int.lt_ceil.2 (by exact_mod_cast h.1)
        omega
      · have : ⌈u⌉ ≤ 0 := Int.ceil_le.2 (by push_cast; linarith)
        omega
  have hm : mjd2000OfDatetime K (timestamp t) = (truncZ u : K) / 86400000000000 := by
    unfold mjd2000OfDatetime nsToMjd timestamp
    rw [← hu]
    have : wrap64 (wrap64 (wrap64 (truncZ u) + epochNs) - epochNs) = truncZ u := by
      have h1 : wrap64 (truncZ u) = truncZ u := wrap64_of_range hr.1 hr.2
      rw [h1]
      have h2 : wrap64 (wrap64 (truncZ u + epochNs) - epochNs) = wrap64 (truncZ u) := by
        apply wrap64_congr
        have := wrap64_emod (truncZ u + epochNs)
        omega
      rw [h2, h1]
    rw [this]
    unfold nsPerDay
    norm_num
  have ht : t = u / 86400000000000 := by rw [hu]; field_simp
  have hpos : (0 : K) < 86400000000000 := by norm_num
  have herr : |(truncZ u : K) - u| < 1 := by
    unfold truncZ
    split_ifs with h0
    · rw [abs_lt]
      have h1 := Int.floor_le u
      have h2 := Int.lt_floor_add_one u
      constructor <;> linarith
    · rw [abs_lt]
      have h1 := Int.le_ceil u
      have h2 := Int.ceil_lt_add_one u
      constructor <;> linarith
  have hside : |(truncZ u : K)| ≤ |u| := by
    unfold truncZ
    split_ifs with h0
    · have h1 := Int.floor_le u
      have h2 : (0 : K) ≤ (⌊u⌋ : K) := by exact_mod_cast Int.floor_nonneg.2 h0
      rw [abs_of_nonneg h2, abs_of_nonneg h0]; exact h1
    · have h1 := Int.le_ceil u
      have h2 : (⌈u⌉ : K) ≤ 0 := by
        have : ⌈u⌉ ≤ 0 := Int.ceil_le.2 (by push_cast; linarith)
        exact_mod_cast this
      rw [abs_of_nonpos h2, abs_of_neg (not_le.1 h0)]; linarith
  refine ⟨?_, ?_, ?_⟩
  · rw [hm]
    have : (truncZ u : K) / 86400000000000 - t = ((truncZ u : K) - u) / 86400000000000 := by
      rw [sub_div, ← ht]
    rw [this, abs_div, abs_of_pos hpos]
    exact div_lt_div_of_pos_right herr hpos
  · rw [hm, ht, abs_div, abs_div, abs_of_pos hpos]
    exact div_le_div_of_nonneg_right hside hpos.le
  · intro n hn
    have hun : u = (n : K) := by rw [hu, hn]; field_simp
    rw [hm]
    have : truncZ u = n := by
      rw [hun]; unfold truncZ
      split_ifs
      · exact Int.floor_intCast _
      · exact Int.ceil_intCast _
    rw [this, hn]

/-- C11 hypotheses are met, on both sides of the epoch. -/
example : (-(2^63 : ℚ) < 0.53245 * 86400000000000 ∧ (0.53245 : ℚ) * 86400000000000 < 2^63) ∧
    (-(2^63 : ℚ) < (-1000.1) * 86400000000000 ∧ ((-1000.1) : ℚ) * 86400000000000 < 2^63) := by
  norm_num

end
end ChaosMagPy.Time
