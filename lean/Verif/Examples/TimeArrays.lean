import Verif.Props.TimeArr
/-!
# Concrete cases for C80

Each example applies one theorem to concrete arguments for which all its hypotheses hold.
-/
namespace ChaosMagPy.TimeArr
open ChaosMagPy.Time ChaosMagPy.NumPy ChaosMagPy.Spec

/-- C80_date_string: 29 February exists in 2004 and not in 2003; the year 999 has too few digits. -/
example : GoodDate 2004 2 29 ∧ ¬ GoodDate 2003 2 29 ∧ ¬ GoodDate 999 1 1 ∧ GoodDate (-1000) 12 31 ∧
    ∃ t, isoDate (((Shc.intStr 2004 ++ ['-']) ++ zfill2 (Shc.intStr 2) ++ ['-']) ++ zfill2 (Shc.intStr 29)) = .ok t ∧ (t.2.2 : ℤ) = 29 := by
  have h : GoodDate 2004 2 29 := ⟨by decide, by decide, by decide, by decide, by decide, by decide, by decide, by decide⟩
  obtain ⟨t, ht⟩ := (C80_date_string 2004 2 29).1.2 h
  refine ⟨h, fun k => absurd k.2.2.2.2.2.2.2 (by decide), fun k => absurd k.1 (by decide),
    ⟨by decide, by decide, by decide, by decide, by decide, by decide, by decide, by decide⟩, t, ht, ((C80_date_string 2004 2 29).2 t ht).2.2⟩

/-- Five years. -/
def exYears : Arr ℤ := ⟨[5], fun i => 2000 + i.headD 0⟩

/-- C80_mjd2000: February 1 in five years at three hours. -/
example : ∃ a, mjd2000 ℚ (.ints exYears) (scalar 2) (scalar 1) ⟨[3, 1], fun i => 6 * i.headD 0⟩ (scalar 0) (scalar 0) (scalar 0) (scalar 0) = .ok a ∧
    a.shape = [3, 5] ∧ Time.mjd2000 ℚ 2004 2 1 12 0 0 0 0 = .ok (a.get [2, 4]) := by
  obtain ⟨h1, h2, -⟩ := C80_mjd2000 (K := ℚ) exYears (scalar 2) (scalar 1) ⟨[3, 1], fun i => 6 * i.headD 0⟩ (scalar 0) (scalar 0) (scalar 0) (scalar 0) _ rfl
  obtain ⟨a, ha⟩ := h1.2 ⟨by decide, fun G hG i hi => by
    have : G = [5] := (Option.some.inj hG).symm.trans (by decide)
    subst this
    have hy : exYears.at i = 2000 + i.headD 0 := by rw [at_valid exYears i hi]; rfl
    have hi' : i.headD 0 < 5 := by
      cases i with
      | nil => simp [Valid] at hi
      | cons k t => simp [Valid] at hi; exact hi.1
    have h2 : (scalar (2 : ℤ)).at i = 2 := rfl
    have h1 : (scalar (1 : ℤ)).at i = 1 := rfl
    rw [hy, h2, h1]
    refine ⟨by omega, by omega, by norm_num, by norm_num, le_of_lt Nat.one_lt_two, by simp, le_refl 1, ?_⟩
    show 1 ≤ Time.Spec.monthLength _ 2
    unfold Time.Spec.monthLength
    split_ifs <;> omega⟩
  obtain ⟨h3, h4⟩ := h2 a ha
  have hs : a.shape = [3, 5] := (Option.some.inj h3).symm.trans (by decide)
  exact ⟨a, ha, hs, h4 [2, 4] (by rw [hs]; simp [Valid])⟩

/-- C80_mjd2000: one wrong date in the array, and shapes that do not fit. -/
example : mjd2000 ℚ (.ints ⟨[2], fun i => if i = [0] then 2000 else 200⟩) (scalar 1) (scalar 1) (scalar 0) (scalar 0) (scalar 0) (scalar 0) (scalar 0)
      = .error .valueError ∧
    mjd2000 ℚ (.ints exYears) (scalar 1) (scalar 1) ⟨[2], fun _ => 0⟩ (scalar 0) (scalar 0) (scalar 0) (scalar 0) = .error .valueError := by
  constructor
  · obtain ⟨h1, -, h3⟩ := C80_mjd2000 (K := ℚ) ⟨[2], fun i => if i = [0] then 2000 else 200⟩ (scalar 1) (scalar 1) (scalar 0) (scalar 0) (scalar 0)
      (scalar 0) (scalar 0) _ rfl
    cases hr : mjd2000 ℚ (.ints ⟨[2], fun i => if i = [0] then 2000 else 200⟩) (scalar 1) (scalar 1) (scalar 0) (scalar 0) (scalar 0) (scalar 0) (scalar 0) with
    | error e => rw [h3 e hr]
    | ok a => exact absurd ((h1.1 ⟨a, hr⟩).2 [2] (by decide) [1] (by simp [Valid])).1 (by decide)
  · obtain ⟨h1, -, h3⟩ := C80_mjd2000 (K := ℚ) exYears (scalar 1) (scalar 1) ⟨[2], fun _ => 0⟩ (scalar 0) (scalar 0) (scalar 0) (scalar 0) _ rfl
    cases hr : mjd2000 ℚ (.ints exYears) (scalar 1) (scalar 1) ⟨[2], fun _ => 0⟩ (scalar 0) (scalar 0) (scalar 0) (scalar 0) with
    | error e => rw [h3 e hr]
    | ok a => exact absurd (by decide) (h1.1 ⟨a, hr⟩).1

/-- C80_is_leap_year: years as 64-bit integers and as 32-bit integers. -/
example : (∃ b, isLeapYear .int64 exYears = .ok b ∧ b.get [4] = true ∧ b.get [1] = false) ∧ isLeapYear .int32 exYears = .error .typeError :=
  ⟨⟨_, C80_is_leap_year .int64 exYears, by decide, by decide⟩, C80_is_leap_year .int32 exYears⟩

/-- Two times in decimal years. -/
def exDyears : Arr ℚ := ⟨[2], fun i => if i = [0] then 2000.5 else 1999.25⟩

theorem exDyears_range : ∀ i, Valid exDyears.shape i → 1708 ≤ exDyears.get i ∧ exDyears.get i < 2292 := by
  intro i _
  show (1708 : ℚ) ≤ (if i = [0] then 2000.5 else 1999.25) ∧ (if i = [0] then (2000.5 : ℚ) else 1999.25) < 2292
  split_ifs <;> norm_num

/-- C80_dyear_to_mjd, C80_mjd_to_dyear, C80_dyear_roundtrip: there and back. -/
example : ∃ t b, dyearToMjd none exDyears = .ok t ∧ Time.dyearToMjd true (2000.5 : ℚ) = .ok (t.get [0]) ∧ mjdToDyear none t = .ok b ∧
    Time.mjdToDyear true (t.get [1]) = .ok (b.get [1]) ∧ b.get [1] = 1999.25 := by
  obtain ⟨t, h1, h2, b, h3, h4, h5⟩ := C80_dyear_roundtrip none exDyears exDyears_range
  have v : Valid exDyears.shape [0] ∧ Valid exDyears.shape [1] := ⟨by simp [Valid, exDyears], by simp [Valid, exDyears]⟩
  exact ⟨t, b, h1, ((C80_dyear_to_mjd none exDyears).2.1 t h1).2 [0] v.1, h3, ((C80_mjd_to_dyear none t).2.1 b h3).2 [1] (by rw [h2]; exact v.2), h5 [1] v.2⟩

/-- C80_dyear_to_mjd: one year with three digits makes the call fail. -/
example : dyearToMjd (some true) (⟨[2], fun i => if i = [0] then 2000 else 999.5⟩ : Arr ℚ) = .error .valueError := by
  obtain ⟨h1, -, h3⟩ := C80_dyear_to_mjd (some true) (⟨[2], fun i => if i = [0] then 2000 else 999.5⟩ : Arr ℚ)
  have hbad : Time.dyearToMjd true (999.5 : ℚ) = .error .valueError := by
    unfold Time.dyearToMjd
    have hf : ⌊(999.5 : ℚ)⌋ = 999 := by rw [Int.floor_eq_iff]; norm_num
    have he : Time.mjd2000 ℚ 999 1 1 = .error .valueError := (C08_error_iff 999 1 1 0 0 0 0 0).2 fun k => absurd k.1 (by decide)
    simp only [if_true, hf, he]
  cases hr : dyearToMjd (some true) (⟨[2], fun i => if i = [0] then 2000 else 999.5⟩ : Arr ℚ) with
  | ok b =>
    obtain ⟨x, hx⟩ := h1.1 ⟨b, hr⟩ [1] (by simp [Valid])
    have : Time.dyearToMjd true (999.5 : ℚ) = .ok x := hx
    rw [hbad] at this
    cases this
  | error e =>
    obtain ⟨i, hi, he⟩ := h3 e hr
    beta_reduce at he
    by_cases h0 : i = [0]
    · subst h0
      have e1 : Time.dyearToMjd true (2000 : ℚ) = .error e := he
      obtain ⟨x, hx, -⟩ := C09_dyear_roundtrip (2000 : ℚ) ⟨by norm_num, by norm_num⟩
      rw [hx] at e1
      cases e1
    · have e1 : Time.dyearToMjd true (999.5 : ℚ) = .error e := by
        simp only [if_neg h0] at he
        exact he
      rw [hbad] at e1
      cases e1
      rfl

/-- C80_timestamp: noon of two days. -/
example : (timestamp (⟨[2], fun _ => 0.5⟩ : Arr ℚ)).shape = [2] ∧ (timestamp (⟨[2], fun _ => 0.5⟩ : Arr ℚ)).get [1] = Time.timestamp (0.5 : ℚ) :=
  ⟨(C80_timestamp _).1, (C80_timestamp _).2 [1]⟩

/-- C80_datetimes: `datetime.datetime(2002, 3, 4)`. -/
example : ∃ b : Arr ℚ, mjd2000 ℚ (.objects ⟨[2], fun _ => .datetime 2002 3 4 0 0 0 0⟩) (scalar 1) (scalar 1) (scalar 0) (scalar 0) (scalar 0) (scalar 0) (scalar 0) = .ok b ∧
    Time.mjd2000 ℚ 2002 3 4 0 0 0 0 0 = .ok (b.get [1]) := by
  obtain ⟨b, h1, -, h3⟩ := C80_datetimes (K := ℚ) ⟨[2], fun _ => .datetime 2002 3 4 0 0 0 0⟩ (scalar 1) (scalar 1) (scalar 0) (scalar 0) (scalar 0) (scalar 0) (scalar 0)
  exact ⟨b, h1, h3 [1] 2002 3 4 0 0 0 0 rfl (by norm_num) (by norm_num) ⟨by decide, by decide, by decide, by decide⟩⟩

/-- C80_stamps: `datetime64[D]`, 11000 days after 1970. -/
example : ∃ b : Arr ℚ, mjd2000 ℚ (.stamps .D (scalar 11000)) (scalar 1) (scalar 1) (scalar 0) (scalar 0) (scalar 0) (scalar 0) (scalar 0) = .ok b ∧ b.get [] = 43 := by
  obtain ⟨b, h1, -, h3⟩ := C80_stamps (K := ℚ) .D (scalar 11000) (scalar 1) (scalar 1) (scalar 0) (scalar 0) (scalar 0) (scalar 0) (scalar 0)
  refine ⟨b, h1, ?_⟩
  rw [h3 [] (by decide) (by decide)]
  show ((11000 : ℤ) : ℚ) / ((1 : ℤ) : ℚ) - 10957 = 43
  norm_num

/-- C80_instant_roundtrip: two instants. -/
example : ∃ b : Arr ℚ, mjd2000 ℚ (.stamps .ns ⟨[2], fun i => if i = [0] then 1 else 1000000000000000001⟩) (scalar 1) (scalar 1) (scalar 0) (scalar 0) (scalar 0)
      (scalar 0) (scalar 0) = .ok b ∧ (timestamp b).get [1] = 1000000000000000001 := by
  obtain ⟨b, h1, -, h3⟩ := C80_instant_roundtrip (K := ℚ) ⟨[2], fun i => if i = [0] then 1 else 1000000000000000001⟩ (scalar 1) (scalar 1) (scalar 0) (scalar 0)
    (scalar 0) (scalar 0) (scalar 0) (by intro i _; dsimp only; split_ifs <;> norm_num)
  exact ⟨b, h1, h3 [1] (by simp [Valid])⟩

/-- C80_object_years: the year 2010 as a Python integer. -/
example : ∃ b : Arr ℚ, mjd2000 ℚ (.objects (scalar (.int 2010))) (scalar 1) (scalar 1) (scalar 0) (scalar 0) (scalar 0) (scalar 0) (scalar 0) = .ok b ∧ b.get [] < 0 := by
  obtain ⟨b, h1, -, h3⟩ := C80_object_years (K := ℚ) (scalar (.int 2010)) (scalar 1) (scalar 1) (scalar 0) (scalar 0) (scalar 0) (scalar 0) (scalar 0)
  obtain ⟨-, h⟩ := h3 [] 2010 rfl (by norm_num) (by norm_num)
  exact ⟨b, h1, lt_of_le_of_lt h (by norm_num)⟩

end ChaosMagPy.TimeArr
