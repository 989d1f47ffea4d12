import Verif.Lemmas.Float
import Verif.Model.FloatTime
import Verif.Props.Time
/-!
# C70: time conversions in floating point arithmetic
-/
namespace ChaosMagPy.Float
open ChaosMagPy.Spec ChaosMagPy.Time ChaosMagPy.Time.Spec

variable (R : Rounding)

/-! ### Numeric forms of the error bounds -/

theorem err_one {x : ℝ} (h : |x| ≤ 1) : |R x - x| ≤ 1 / 2 ^ 54 := by
  have := rnd_err R (x := x) (k := 0) (by norm_num; exact h) (by norm_num) (by norm_num)
  norm_num at this ⊢
  exact this

theorem err_two {x : ℝ} (h : |x| ≤ 2) : |R x - x| ≤ 1 / 2 ^ 53 := by
  have := rnd_err R (x := x) (k := 1) (by norm_num; exact h) (by norm_num) (by norm_num)
  norm_num at this ⊢
  exact this

theorem err_9 {x : ℝ} (h : |x| ≤ 512) : |R x - x| ≤ 1 / 2 ^ 45 := by
  have := rnd_err R (x := x) (k := 9) (by norm_num; exact h) (by norm_num) (by norm_num)
  norm_num at this ⊢
  exact this

theorem err_12 {x : ℝ} (h : |x| ≤ 4096) : |R x - x| ≤ 1 / 2 ^ 42 := by
  have := rnd_err R (x := x) (k := 12) (by norm_num; exact h) (by norm_num) (by norm_num)
  norm_num at this ⊢
  exact this

theorem err_17 {x : ℝ} (h : |x| ≤ 131072) : |R x - x| ≤ 1 / 2 ^ 37 := by
  have := rnd_err R (x := x) (k := 17) (by norm_num; exact h) (by norm_num) (by norm_num)
  norm_num at this ⊢
  exact this

theorem err_18 {x : ℝ} (h : |x| ≤ 262144) : |R x - x| ≤ 1 / 2 ^ 36 := by
  have := rnd_err R (x := x) (k := 18) (by norm_num; exact h) (by norm_num) (by norm_num)
  norm_num at this ⊢
  exact this

theorem small_ok {x : ℝ} (h : |x| ≤ 2 ^ 64) : |x| ≤ 2 ^ 1000 := h.trans (pow_le_pow_right₀ (by norm_num) (by norm_num))

/-- The rounding of a number between two integers is between them. -/
theorem rnd_between {x : ℝ} {a b : ℤ} (ha : |a| ≤ 2 ^ 53) (hb : |b| ≤ 2 ^ 53) (h1 : (a : ℝ) ≤ x) (h2 : x ≤ b) : (a : ℝ) ≤ R x ∧ R x ≤ b := by
  have ha' : |(a : ℝ)| ≤ 2 ^ 53 := by exact_mod_cast ha
  have hb' : |(b : ℝ)| ≤ 2 ^ 53 := by exact_mod_cast hb
  have hx : |x| ≤ 2 ^ 53 := by
    rw [abs_le] at *
    constructor <;> linarith
  have key : (2 : ℝ) ^ 53 ≤ 2 ^ 1000 := pow_le_pow_right₀ (by norm_num) (by norm_num)
  have m1 := rnd_mono R (ha'.trans key) (hx.trans key) h1
  have m2 := rnd_mono R (hx.trans key) (hb'.trans key) h2
  rw [rnd_int R ha] at m1
  rw [rnd_int R hb] at m2
  exact ⟨m1, m2⟩

theorem small_ok' {x : ℝ} (h : |x| ≤ 262144) : |x| ≤ 2 ^ 1000 := small_ok (h.trans (by norm_num))

/-- A double between 1024 and 4096 is a multiple of `2^-42`. -/
theorem dyear_multiple {t : ℝ} (hd : IsDouble t) (h : 1024 ≤ t) : ∃ a : ℤ, t = a / 2 ^ 42 := by
  obtain ⟨a, ha⟩ := double_multiple hd (k := 10) (by norm_num; exact h.trans (le_abs_self t))
  exact ⟨a, by rw [ha]; norm_num; ring⟩

/-- A number close to a double above 1024 is rounded to it. -/
theorem dyear_rnd {t x : ℝ} (hd : IsDouble t) (h : 1024 < t) (h2 : t ≤ 4096) (hx : |x - t| < 1 / 2 ^ 43) : R x = t := by
  refine rnd_eq R hd (k := 10) (by norm_num; exact h.trans_le (le_abs_self t)) (small_ok' ?_) (by norm_num at hx ⊢; exact hx)
  have := abs_lt.1 hx
  norm_num at this
  rw [abs_le]
  constructor <;> linarith

/-! ### Dates -/

theorem mjd2000_rnd {d : Date} (hv : d.Valid) (hy : 1000 ≤ d.year.natAbs ∧ d.year.natAbs ≤ 9999) (h mi s us ns : Int) :
    mjd2000 R d.year d.month d.day h mi s us ns =
      .ok (R (R ((wrap64 ((dn d - dn epoch) * dayNs + timeOfDay h mi s us ns) : Int) : ℝ) / R ((nsPerDay : Int) : ℝ))) := by
  have key : wrap64 (wrap64 (wrap64 (wrap64 (wrap64 (wrap64 (wrap64 (npDays d.year d.month d.day * nsPerDay)
      + wrap64 (h * 3600000000000)) + wrap64 (mi * 60000000000)) + wrap64 (s * 1000000000))
      + wrap64 (us * 1000)) + wrap64 ns) - epochNs)
      = wrap64 ((dn d - dn epoch) * dayNs + timeOfDay h mi s us ns) := by
    simp only [wrap64_add]
    rw [epochNs, wrap64_sub]
    congr 1
    have e : npDays 2000 1 1 = dn epoch := rfl
    have e2 : npDays d.year d.month d.day = dn d := rfl
    rw [e, e2]
    unfold nsPerDay dayNs timeOfDay
    ring
  unfold mjd2000
  rw [parseDate_valid hv hy]
  simp only [nsToMjd]
  rw [key]

theorem rnd_perDay : R ((nsPerDay : Int) : ℝ) = ((nsPerDay : Int) : ℝ) := rnd_int R (by decide)

/-- Whole days are exact. -/
theorem days_exact {n : ℤ} (hn : |n| ≤ 131072) : R (R ((n * dayNs : Int) : ℝ) / R ((nsPerDay : Int) : ℝ)) = n := by
  have h1 : R ((n * dayNs : Int) : ℝ) = ((n * dayNs : Int) : ℝ) := by
    have e : ((n * dayNs : Int) : ℝ) = ((n * 1318359375 : ℤ) : ℝ) * (2 : ℝ) ^ (16 : ℤ) := by
      unfold dayNs
      push_cast
      norm_num
      ring
    rw [e]
    refine rnd_double R (double_of ?_ (by norm_num) (by norm_num)) (small_ok ?_)
    · rw [abs_mul]
      have : |(1318359375 : ℤ)| = 1318359375 := by norm_num
      rw [this]
      omega
    · have h2 : |((n * 1318359375 : ℤ) : ℝ)| ≤ 131072 * 1318359375 := by
        rw [Int.cast_mul, abs_mul]
        have h3 : |(n : ℝ)| ≤ 131072 := by exact_mod_cast hn
        have h4 : |((1318359375 : ℤ) : ℝ)| = 1318359375 := by norm_num
        rw [h4]
        exact mul_le_mul_of_nonneg_right h3 (by norm_num)
      rw [abs_mul]
      have h5 : |(2 : ℝ) ^ (16 : ℤ)| = 65536 := by norm_num
      rw [h5]
      refine (mul_le_mul_of_nonneg_right h2 (by norm_num)).trans (by norm_num)
  rw [h1, rnd_perDay]
  have e : ((n * dayNs : Int) : ℝ) / ((nsPerDay : Int) : ℝ) = n := by
    unfold dayNs nsPerDay
    push_cast
    field_simp
  rw [e]
  exact rnd_int R (hn.trans (by norm_num))

theorem jan1_bound (y : ℤ) (hy : 1708 ≤ y ∧ y ≤ 2292) : -106700 ≤ jan1 y - 10957 ∧ jan1 y - 10957 ≤ 106700 := by
  unfold jan1
  omega

theorem mjd2000_jan1_rnd (y : ℤ) (hy : 1708 ≤ y ∧ y ≤ 2292) : mjd2000 R y 1 1 = .ok ((jan1 y - 10957 : ℤ) : ℝ) := by
  have hv : Date.Valid ⟨y, 1, 1⟩ := ⟨le_refl _, by simp, le_refl _, by simp [monthLength]⟩
  have hd : dn ⟨y, 1, 1⟩ = jan1 y := by simp [dn, npDays_eq]
  have ha := mjd2000_rnd R hv ⟨by simp only; omega, by simp only; omega⟩ 0 0 0 0 0
  have hz : timeOfDay 0 0 0 0 0 = 0 := rfl
  have hb := jan1_bound y hy
  rw [hd, dn_epoch, hz, add_zero, wrap64_of_range (by unfold dayNs; omega) (by unfold dayNs; omega), days_exact R (by rw [abs_le]; omega)] at ha
  exact ha

theorem remainder_one {t : ℝ} (h : 0 ≤ t) : remainder R t 1 = Int.fract t := by
  have hf : fmod t 1 = Int.fract t := by
    unfold fmod truncZ
    rw [div_one, if_pos h, mul_one]
    rfl
  unfold remainder
  simp only [hf]
  split_ifs with h1 h2
  · exact h1.symm
  · rfl
  · exfalso
    apply h2
    have := Int.fract_nonneg t
    apply propext
    constructor <;> intro h3 <;> linarith

theorem yl_range (y : ℤ) : 365 ≤ yl ℝ y ∧ yl ℝ y ≤ 366 := by
  unfold yl
  split_ifs <;> norm_num

theorem dyearToMjd_rnd {t : ℝ} (hy : 1708 ≤ ⌊t⌋ ∧ ⌊t⌋ ≤ 2292) :
    dyearToMjd R true t = .ok (R (((jan1 ⌊t⌋ - 10957 : ℤ) : ℝ) + R (Int.fract t * yl ℝ ⌊t⌋))) := by
  have h0 : 0 ≤ t := by
    have : (1708 : ℝ) ≤ (⌊t⌋ : ℝ) := by exact_mod_cast hy.1
    linarith [Int.floor_le t]
  unfold dyearToMjd
  simp only [if_true]
  rw [mjd2000_jan1_rnd R _ hy, remainder_one R h0]
  rfl

theorem mjdToDyear_rnd (t : ℝ) (y : Int) (hy : 1708 ≤ y ∧ y ≤ 2291) (h1 : ((jan1 y - 10957 : Int) : ℝ) ≤ t) (h2 : t < ((jan1 (y + 1) - 10957 : Int) : ℝ)) :
    mjdToDyear R true t = .ok (R ((y : ℝ) + R (R (t - ((jan1 y - 10957 : Int) : ℝ)) / yl ℝ y))) := by
  have hf1 : jan1 y - 10957 ≤ ⌊t⌋ := Int.le_floor.2 h1
  have hf2 : ⌊t⌋ < jan1 (y + 1) - 10957 := Int.floor_lt.2 h2
  have hs := npYearOfDays_spec (⌊t⌋ + npDays 2000 1 1)
  rw [npDays_epoch] at hs
  have hyy : npYearOfDays (⌊t⌋ + npDays 2000 1 1) = y := by
    rw [npDays_epoch]
    exact year_unique hs.1 hs.2 (by omega) (by omega)
  unfold mjdToDyear
  simp only [if_true, hyy, sub_add_cancel]
  rw [mjd2000_jan1_rnd R y ⟨hy.1, by omega⟩, rnd_int R (m := y) (by rw [abs_le]; omega)]
  simp only [yl]

theorem dyear_main {t : ℝ} (hd : IsDouble t) (ht : 1708 ≤ t ∧ t < 2292) :
    ∃ m, dyearToMjd R true t = .ok m ∧ ((jan1 ⌊t⌋ - 10957 : ℤ) : ℝ) ≤ m ∧ m < ((jan1 (⌊t⌋ + 1) - 10957 : ℤ) : ℝ) ∧ mjdToDyear R true m = .ok t := by
  have hy1 : (1708 : Int) ≤ ⌊t⌋ := Int.le_floor.2 (by exact_mod_cast ht.1)
  have hy2 : ⌊t⌋ ≤ 2291 := by
    have : ⌊t⌋ < 2292 := Int.floor_lt.2 (by exact_mod_cast ht.2)
    omega
  refine ⟨_, dyearToMjd_rnd R ⟨hy1, by omega⟩, ?_⟩
  obtain ⟨a, ha⟩ := dyear_multiple hd (by linarith)
  have hyl := yl_eq (K := ℝ) ⌊t⌋
  obtain ⟨hD1, hD2⟩ := yl_range ⌊t⌋
  have hjb := jan1_bound ⌊t⌋ ⟨hy1, by omega⟩
  have hfl := Int.floor_add_fract t
  have hf0 := Int.fract_nonneg t
  -- the fraction of the year is at most 1 - 2^-42
  have hf1 : Int.fract t ≤ 1 - 1 / 2 ^ 42 := by
    have h1 := Int.fract_lt_one t
    have h2 : Int.fract t = ((a - ⌊t⌋ * 2 ^ 42 : ℤ) : ℝ) / 2 ^ 42 := by
      rw [Int.fract, eq_div_iff (by norm_num), sub_mul]
      conv_lhs => rw [ha]
      rw [div_mul_cancel₀ _ (by norm_num), ← ha]
      push_cast
      ring
    rw [h2, div_lt_one (by norm_num)] at h1
    have h3 : a - ⌊t⌋ * 2 ^ 42 < 2 ^ 42 := by exact_mod_cast h1
    have h4 : a - ⌊t⌋ * 2 ^ 42 ≤ 2 ^ 42 - 1 := by omega
    have h5 : ((a - ⌊t⌋ * 2 ^ 42 : ℤ) : ℝ) ≤ 2 ^ 42 - 1 := by exact_mod_cast h4
    rw [h2, div_le_iff₀ (by norm_num)]
    norm_num at h5 ⊢
    linarith
  generalize hJ : ((jan1 ⌊t⌋ - 10957 : Int) : ℝ) = J at *
  have hJ1 : -106700 ≤ J := by rw [← hJ]; exact_mod_cast hjb.1
  have hJ2 : J ≤ 106700 := by rw [← hJ]; exact_mod_cast hjb.2
  have hJd : R J = J := by rw [← hJ]; exact rnd_int R (by rw [abs_le]; omega)
  generalize hDd : yl ℝ ⌊t⌋ = D at *
  generalize hf : Int.fract t = f at *
  have hfD0 : 0 ≤ f * D := by positivity
  have hfD : f * D ≤ D - 365 / 2 ^ 42 := by nlinarith
  -- days of the year
  have e1 := abs_le.1 (err_9 R (x := f * D) (by rw [abs_of_nonneg hfD0]; linarith))
  have hz : R 0 = 0 := by have := rnd_int R (m := 0) (by norm_num); simpa using this
  have hd0 : 0 ≤ R (f * D) := by
    have := rnd_mono R (x := 0) (y := f * D) (small_ok' (by norm_num)) (small_ok' (by rw [abs_of_nonneg hfD0]; linarith)) hfD0
    rwa [hz] at this
  generalize R (f * D) = days at *
  -- date
  have hb : |J + days| ≤ 131072 := by rw [abs_le]; constructor <;> linarith
  have e2 := abs_le.1 (err_17 R hb)
  have hm : J ≤ R (J + days) := by
    have := rnd_mono R (x := J) (y := J + days) (small_ok' (by rw [abs_le]; constructor <;> linarith)) (small_ok' (hb.trans (by norm_num))) (by linarith)
    rwa [hJd] at this
  generalize R (J + days) = m at *
  norm_num at e1 e2 hfD hf1
  have hm2 : m < J + D := by linarith
  refine ⟨hm, by rw [hyl]; exact hm2, ?_⟩
  rw [mjdToDyear_rnd R m ⌊t⌋ ⟨hy1, hy2⟩ (by rw [hJ]; exact hm) (by rw [hyl]; exact hm2), hJ, hDd]
  -- back
  have hb3 : |m - J| ≤ 512 := by rw [abs_le]; constructor <;> linarith
  have e3 := abs_le.1 (err_9 R hb3)
  generalize R (m - J) = days' at *
  have hDpos : 0 < D := by linarith
  have hq : |days' / D - f| ≤ 1 / 2 ^ 45 := by
    have : days' / D - f = (days' - f * D) / D := by field_simp
    rw [this, abs_div, abs_of_pos hDpos, div_le_iff₀ hDpos]
    norm_num at e3 ⊢
    rw [abs_le]
    constructor <;> linarith
  have hb4 : |days' / D| ≤ 2 := by
    have := abs_le.1 hq
    norm_num at this
    rw [abs_le]
    constructor <;> linarith
  have e4 := abs_le.1 (err_two R hb4)
  generalize R (days' / D) = q at *
  congr 1
  refine dyear_rnd R hd (by linarith) (by linarith) ?_
  have := abs_le.1 hq
  norm_num at this e4 ⊢
  rw [abs_lt]
  constructor <;> linarith

theorem no_leap_main {t : ℝ} (hd : IsDouble t) (ht : 1708 ≤ t ∧ t < 2292) :
    ∃ m, dyearToMjd R false t = .ok m ∧ mjdToDyear R false m = .ok t := by
  refine ⟨_, rfl, ?_⟩
  obtain ⟨a, ha⟩ := dyear_multiple hd (by linarith)
  have hx : R (t - 2000) = t - 2000 := by
    have e : t - 2000 = ((a - 2000 * 2 ^ 42 : ℤ) : ℝ) * (2 : ℝ) ^ (-42 : ℤ) := by
      rw [ha]
      push_cast
      rw [zpow_neg]
      norm_num
      ring
    refine rnd_double R ?_ (small_ok' (by rw [abs_le]; constructor <;> linarith))
    rw [e]
    refine double_of ?_ (by norm_num) (by norm_num)
    have h1 : ((a : ℤ) : ℝ) = t * 2 ^ 42 := by rw [ha]; field_simp
    have h2 : (((1708 * 2 ^ 42 : ℤ)) : ℝ) ≤ (a : ℝ) := by
      rw [h1]
      push_cast
      linarith
    have h3 : (a : ℝ) ≤ ((2292 * 2 ^ 42 : ℤ) : ℝ) := by
      rw [h1]
      push_cast
      linarith
    have h4 : 1708 * 2 ^ 42 ≤ a := by exact_mod_cast h2
    have h5 : a ≤ 2292 * 2 ^ 42 := by exact_mod_cast h3
    rw [abs_le]
    constructor <;> omega
  unfold mjdToDyear
  simp only [Bool.false_eq_true, if_false]
  rw [hx]
  generalize hxd : t - 2000 = x at *
  have hx1 : -292 ≤ x := by linarith
  have hx2 : x ≤ 292 := by linarith
  have e1 := abs_le.1 (err_18 R (x := x * 365.25) (by rw [abs_le]; constructor <;> norm_num <;> linarith))
  generalize R (x * 365.25) = p at *
  have hq : |p / 365.25 - x| ≤ 1 / 2 ^ 44 := by
    have : p / 365.25 - x = (p - x * 365.25) / 365.25 := by ring
    rw [this, abs_div, abs_of_pos (by norm_num : (0 : ℝ) < 365.25), div_le_iff₀ (by norm_num)]
    norm_num at e1 ⊢
    rw [abs_le]
    constructor <;> linarith
  have hq' := abs_le.1 hq
  norm_num at hq'
  have e2 := abs_le.1 (err_9 R (x := p / 365.25) (by norm_num; rw [abs_le]; constructor <;> linarith))
  generalize R (p / 365.25) = q at *
  congr 1
  refine dyear_rnd R hd (by linarith) (by linarith) ?_
  norm_num at e2 ⊢
  rw [abs_lt]
  constructor <;> linarith

/-- **C70.** In floating point arithmetic (whatever the rule for ties), every double `t` from 1708 to 2292 is a fixed point of the conversion from decimal
years to modified Julian dates and back, with and without leap years: the result is `t` itself, not only a number close to it. -/
theorem C70_dyear_roundtrip (leap : Bool) {t : ℝ} (hd : IsDouble t) (ht : 1708 ≤ t ∧ t < 2292) :
    ∃ m, dyearToMjd R leap t = .ok m ∧ mjdToDyear R leap m = .ok t := by
  cases leap with
  | false => exact no_leap_main R hd ht
  | true =>
    obtain ⟨m, h1, -, -, h2⟩ := dyear_main R hd ht
    exact ⟨m, h1, h2⟩

/-- **C70.** Different doubles from 1708 to 2292 are converted to different dates in the same order: no two decimal years are confused by rounding. -/
theorem C70_strictMono (leap : Bool) {s t a b : ℝ} (hs : IsDouble s) (ht : IsDouble t) (h1 : 1708 ≤ s) (h2 : t < 2292) (hlt : s < t)
    (ha : dyearToMjd R leap s = .ok a) (hb : dyearToMjd R leap t = .ok b) : a < b := by
  have hne : a ≠ b := by
    rintro rfl
    obtain ⟨m, e1, e2⟩ := C70_dyear_roundtrip R leap hs ⟨h1, by linarith⟩
    obtain ⟨m', e3, e4⟩ := C70_dyear_roundtrip R leap ht ⟨by linarith, h2⟩
    rw [ha] at e1
    rw [hb] at e3
    cases e1
    cases e3
    rw [e2] at e4
    injection e4 with e4
    linarith
  refine lt_of_le_of_ne ?_ hne
  cases leap with
  | false =>
    have ha' : R (R (s - 2000) * 365.25) = a := by injection ha
    have hb' : R (R (t - 2000) * 365.25) = b := by injection hb
    rw [← ha', ← hb']
    have bd : ∀ x : ℝ, 1708 ≤ x → x < 2292 → |x - 2000| ≤ 512 ∧ |R (x - 2000) * 365.25| ≤ 262144 := by
      intro x x1 x2
      have h0 : |x - 2000| ≤ 512 := by rw [abs_le]; constructor <;> linarith
      have := abs_le.1 (err_9 R h0)
      norm_num at this
      refine ⟨h0, ?_⟩
      rw [abs_le]
      constructor <;> norm_num <;> linarith
    obtain ⟨b1, b2⟩ := bd s h1 (by linarith)
    obtain ⟨b3, b4⟩ := bd t (by linarith) h2
    refine rnd_mono R (small_ok' b2) (small_ok' b4) (mul_le_mul_of_nonneg_right ?_ (by norm_num))
    exact rnd_mono R (small_ok' (b1.trans (by norm_num))) (small_ok' (b3.trans (by norm_num))) (by linarith)
  | true =>
    obtain ⟨m, e1, m1, m2, -⟩ := dyear_main R hs ⟨h1, by linarith⟩
    obtain ⟨m', e3, m3, m4, -⟩ := dyear_main R ht ⟨by linarith, h2⟩
    rw [ha] at e1
    rw [hb] at e3
    cases e1
    cases e3
    have hfl : ⌊s⌋ ≤ ⌊t⌋ := Int.floor_mono hlt.le
    have y1 : (1708 : Int) ≤ ⌊s⌋ := Int.le_floor.2 (by exact_mod_cast h1)
    have y2 : ⌊t⌋ < 2292 := Int.floor_lt.2 (by exact_mod_cast h2)
    rcases eq_or_lt_of_le hfl with heq | hlt'
    · rw [dyearToMjd_rnd R ⟨y1, by omega⟩] at ha
      rw [dyearToMjd_rnd R ⟨by omega, by omega⟩, ← heq] at hb
      injection ha with ha
      injection hb with hb
      rw [← ha, ← hb]
      obtain ⟨D1, D2⟩ := yl_range ⌊s⌋
      have hjb := jan1_bound ⌊s⌋ ⟨y1, by omega⟩
      have J1 : (-106700 : ℝ) ≤ ((jan1 ⌊s⌋ - 10957 : ℤ) : ℝ) := by exact_mod_cast hjb.1
      have J2 : ((jan1 ⌊s⌋ - 10957 : ℤ) : ℝ) ≤ 106700 := by exact_mod_cast hjb.2
      have bd : ∀ x : ℝ, |Int.fract x * yl ℝ ⌊s⌋| ≤ 512 ∧ |((jan1 ⌊s⌋ - 10957 : ℤ) : ℝ) + R (Int.fract x * yl ℝ ⌊s⌋)| ≤ 262144 := by
        intro x
        have f0 := Int.fract_nonneg x
        have f1 := Int.fract_lt_one x
        have h0 : |Int.fract x * yl ℝ ⌊s⌋| ≤ 512 := by
          rw [abs_of_nonneg (mul_nonneg f0 (by linarith))]
          nlinarith
        refine ⟨h0, ?_⟩
        have := abs_le.1 (err_9 R h0)
        have h0' := abs_le.1 h0
        norm_num at this
        rw [abs_le]
        constructor <;> linarith
      refine rnd_mono R (small_ok' (bd s).2) (small_ok' (bd t).2) (add_le_add_right ?_ _)
      refine rnd_mono R (small_ok' ((bd s).1.trans (by norm_num))) (small_ok' ((bd t).1.trans (by norm_num))) (mul_le_mul_of_nonneg_right ?_ (by linarith))
      have := Int.floor_add_fract s
      have := Int.floor_add_fract t
      rw [← heq] at this
      linarith
    · have hj : jan1 (⌊s⌋ + 1) ≤ jan1 ⌊t⌋ := jan1_le_iff.2 (by omega)
      have hj' : ((jan1 (⌊s⌋ + 1) - 10957 : ℤ) : ℝ) ≤ ((jan1 ⌊t⌋ - 10957 : ℤ) : ℝ) := by exact_mod_cast (by omega : jan1 (⌊s⌋ + 1) - 10957 ≤ jan1 ⌊t⌋ - 10957)
      linarith

/-- **C70.** The conversion from modified Julian dates to decimal years and back loses less than `1e-10` days (nine microseconds) for every double between
the first days of 1708 and 2292. -/
theorem C70_mjd_roundtrip {x a b : ℝ} (ha : mjd2000 R 1708 = .ok a) (hb : mjd2000 R 2292 = .ok b) (hx : a ≤ x ∧ x < b) :
    ∃ t x', mjdToDyear R true x = .ok t ∧ dyearToMjd R true t = .ok x' ∧ |x' - x| < 1 / 10 ^ 10 := by
  have ha' : mjd2000 R 1708 = .ok ((jan1 1708 - 10957 : ℤ) : ℝ) := mjd2000_jan1_rnd R 1708 (by omega)
  have hb' : mjd2000 R 2292 = .ok ((jan1 2292 - 10957 : ℤ) : ℝ) := mjd2000_jan1_rnd R 2292 (by omega)
  rw [ha] at ha'
  rw [hb] at hb'
  cases ha'
  cases hb'
  have hs := npYearOfDays_spec (⌊x⌋ + 10957)
  obtain ⟨y, hyd⟩ : ∃ y, y = npYearOfDays (⌊x⌋ + 10957) := ⟨_, rfl⟩
  rw [← hyd] at hs
  have f1 : jan1 1708 - 10957 ≤ ⌊x⌋ := Int.le_floor.2 hx.1
  have f2 : ⌊x⌋ < jan1 2292 - 10957 := Int.floor_lt.2 hx.2
  have hy1 : 1708 ≤ y := by
    by_contra hc
    have : jan1 (y + 1) ≤ jan1 1708 := jan1_le_iff.2 (by omega)
    omega
  have hy2 : y ≤ 2291 := by
    by_contra hc
    have : jan1 2292 ≤ jan1 y := jan1_le_iff.2 (by omega)
    omega
  have g1 : ((jan1 y - 10957 : Int) : ℝ) ≤ x := Int.le_floor.1 (by omega)
  have g2 : x < ((jan1 (y + 1) - 10957 : Int) : ℝ) := Int.floor_lt.1 (by omega)
  have hyl := yl_eq (K := ℝ) y
  have hjb := jan1_bound y ⟨hy1, by omega⟩
  have J1 : (-106700 : ℝ) ≤ ((jan1 y - 10957 : ℤ) : ℝ) := by exact_mod_cast hjb.1
  have J2 : ((jan1 y - 10957 : ℤ) : ℝ) ≤ 106700 := by exact_mod_cast hjb.2
  obtain ⟨D1, D2⟩ := yl_range y
  have hY1 : (1708 : ℝ) ≤ (y : ℝ) := by exact_mod_cast hy1
  have hY2 : (y : ℝ) ≤ 2291 := by exact_mod_cast hy2
  have hR := mjdToDyear_rnd R x y ⟨hy1, hy2⟩ g1 g2
  -- the decimal year
  have hDint : ∃ d : ℤ, yl ℝ y = d ∧ |d| ≤ 2 ^ 53 := by
    unfold yl
    split_ifs
    · exact ⟨366, by norm_num, by norm_num⟩
    · exact ⟨365, by norm_num, by norm_num⟩
  obtain ⟨d, hd, hd'⟩ := hDint
  have hb1 : |x - ((jan1 y - 10957 : ℤ) : ℝ)| ≤ 512 := by rw [abs_le]; constructor <;> linarith
  have e1 := abs_le.1 (err_9 R hb1)
  have r1 : (0 : ℝ) ≤ R (x - ((jan1 y - 10957 : ℤ) : ℝ)) ∧ R (x - ((jan1 y - 10957 : ℤ) : ℝ)) ≤ yl ℝ y := by
    have := rnd_between R (x := x - ((jan1 y - 10957 : ℤ) : ℝ)) (a := 0) (b := d) (by norm_num) hd' (by rw [Int.cast_zero]; linarith) (by rw [← hd]; linarith)
    rw [← hd] at this
    exact_mod_cast this
  generalize R (x - ((jan1 y - 10957 : ℤ) : ℝ)) = days at *
  have hDp : 0 < yl ℝ y := by linarith
  have q0 : 0 ≤ days / yl ℝ y := div_nonneg r1.1 hDp.le
  have q1 : days / yl ℝ y ≤ 1 := (div_le_one hDp).2 r1.2
  have e2 := abs_le.1 (err_one R (x := days / yl ℝ y) (by rw [abs_of_nonneg q0]; exact q1))
  have r2 := rnd_between R (x := days / yl ℝ y) (a := 0) (b := 1) (by norm_num) (by norm_num) (by push_cast; exact q0) (by push_cast; exact q1)
  push_cast at r2
  have hqD : days / yl ℝ y * yl ℝ y = days := by field_simp
  generalize days / yl ℝ y = q' at *
  generalize R q' = q at *
  have e3 := abs_le.1 (err_12 R (x := (y : ℝ) + q) (by rw [abs_le]; constructor <;> linarith))
  have r3 := rnd_between R (x := (y : ℝ) + q) (a := y) (b := y + 1) (by rw [abs_le]; omega) (by rw [abs_le]; omega) (by linarith) (by push_cast; linarith)
  generalize R ((y : ℝ) + q) = t at *
  -- back
  obtain ⟨f, x', hf, hf0, hf1, hx', hxe⟩ : ∃ f x', f = t - y ∧ 0 ≤ f ∧ f ≤ 1 ∧ dyearToMjd R true t = .ok x' ∧
      |x' - (((jan1 y - 10957 : ℤ) : ℝ) + f * yl ℝ y)| ≤ 1 / 2 ^ 37 + 1 / 2 ^ 45 := by
    push_cast at r3
    rcases eq_or_lt_of_le r3.2 with heq | hlt
    · have hfl : ⌊t⌋ = y + 1 := by
        rw [heq]
        exact_mod_cast Int.floor_intCast (y + 1)
      have hfr : Int.fract t = 0 := by
        rw [Int.fract, hfl, heq]
        push_cast
        ring
      refine ⟨1, _, by rw [heq]; ring, by norm_num, le_rfl, dyearToMjd_rnd R (by rw [hfl]; omega), ?_⟩
      have hz : R 0 = 0 := by have := rnd_int R (m := 0) (by norm_num); simpa using this
      have hjb' := jan1_bound (y + 1) ⟨by omega, by omega⟩
      rw [hfr, zero_mul, hz, add_zero, hfl, rnd_int R (by rw [abs_le]; omega), hyl, one_mul, sub_self, abs_zero]
      positivity
    · have hfl : ⌊t⌋ = y := by
        rw [Int.floor_eq_iff]
        exact ⟨r3.1, hlt⟩
      have hfr : Int.fract t = t - y := by rw [Int.fract, hfl]
      refine ⟨t - y, _, rfl, by linarith, by linarith, dyearToMjd_rnd R (by rw [hfl]; omega), ?_⟩
      rw [hfr, hfl]
      have h0 : 0 ≤ (t - y) * yl ℝ y := mul_nonneg (by linarith) hDp.le
      have h1 : (t - y) * yl ℝ y ≤ 366 := by nlinarith
      have e4 := abs_le.1 (err_9 R (x := (t - y) * yl ℝ y) (by rw [abs_of_nonneg h0]; linarith))
      generalize R ((t - y) * yl ℝ y) = days2 at *
      norm_num at e4
      have e5 := abs_le.1 (err_17 R (x := ((jan1 y - 10957 : ℤ) : ℝ) + days2) (by rw [abs_le]; constructor <;> linarith))
      norm_num at e5 ⊢
      rw [abs_le]
      constructor <;> linarith
  refine ⟨t, x', hR, hx', ?_⟩
  have e6 := abs_le.1 hxe
  have e7 : |f * yl ℝ y - days| ≤ 366 / 2 ^ 42 + 366 / 2 ^ 54 := by
    have : f * yl ℝ y - days = (f - q') * yl ℝ y := by rw [sub_mul, hqD]
    rw [this, abs_mul, abs_of_pos hDp]
    have h1 : |f - q'| ≤ 1 / 2 ^ 42 + 1 / 2 ^ 54 := by
      rw [hf]
      norm_num at e2 e3 ⊢
      rw [abs_le]
      constructor <;> linarith
    calc |f - q'| * yl ℝ y ≤ (1 / 2 ^ 42 + 1 / 2 ^ 54) * 366 := mul_le_mul h1 D2 hDp.le (by positivity)
      _ = _ := by ring
  have e8 := abs_le.1 e7
  norm_num at e1 e6 e8 ⊢
  rw [abs_lt]
  constructor <;> linarith

/-- **C70.** The conversions in double precision agree with the exact ones: dates up to `2^-35` days (2.6 microseconds), decimal years up to `2^-41`. -/
theorem C70_accuracy (leap : Bool) {t x a b : ℝ} (ht : 1708 ≤ t ∧ t < 2292) (ha : mjd2000 R 1708 = .ok a) (hb : mjd2000 R 2292 = .ok b) (hx : a ≤ x ∧ x < b) :
    (∃ m m', dyearToMjd R leap t = .ok m ∧ Time.dyearToMjd leap t = .ok m' ∧ |m - m'| ≤ 1 / 2 ^ 35) ∧
    ∃ y y', mjdToDyear R leap x = .ok y ∧ Time.mjdToDyear leap x = .ok y' ∧ |y - y'| ≤ 1 / 2 ^ 41 := by
  have ha' : mjd2000 R 1708 = .ok ((jan1 1708 - 10957 : ℤ) : ℝ) := mjd2000_jan1_rnd R 1708 (by omega)
  have hb' : mjd2000 R 2292 = .ok ((jan1 2292 - 10957 : ℤ) : ℝ) := mjd2000_jan1_rnd R 2292 (by omega)
  rw [ha] at ha'
  rw [hb] at hb'
  cases ha'
  cases hb'
  have l1 : (-106700 : ℝ) ≤ x := by
    have : (-106700 : ℝ) ≤ ((jan1 1708 - 10957 : ℤ) : ℝ) := by exact_mod_cast (jan1_bound 1708 (by omega)).1
    linarith
  have l2 : x ≤ 106700 := by
    have : ((jan1 2292 - 10957 : ℤ) : ℝ) ≤ 106700 := by exact_mod_cast (jan1_bound 2292 (by omega)).2
    linarith
  cases leap with
  | false =>
    refine ⟨⟨_, _, rfl, rfl, ?_⟩, _, _, rfl, rfl, ?_⟩
    · have e1 := abs_le.1 (err_9 R (x := t - 2000) (by rw [abs_le]; constructor <;> linarith))
      generalize R (t - 2000) = u at *
      norm_num at e1
      have e2 := abs_le.1 (err_17 R (x := u * 365.25) (by rw [abs_le]; constructor <;> norm_num <;> linarith))
      norm_num at e2 ⊢
      rw [abs_le]
      constructor <;> linarith
    · have e1 := abs_le.1 (err_9 R (x := x / 365.25) (by norm_num; rw [abs_le]; constructor <;> linarith))
      generalize R (x / 365.25) = u at *
      norm_num at e1
      have e2 := abs_le.1 (err_12 R (x := u + 2000) (by norm_num; rw [abs_le]; constructor <;> linarith))
      norm_num at e2 ⊢
      rw [abs_le]
      constructor <;> linarith
  | true =>
    constructor
    · have hy1 : (1708 : Int) ≤ ⌊t⌋ := Int.le_floor.2 (by exact_mod_cast ht.1)
      have hy2 : ⌊t⌋ ≤ 2291 := by
        have : ⌊t⌋ < 2292 := Int.floor_lt.2 (by exact_mod_cast ht.2)
        omega
      refine ⟨_, _, dyearToMjd_rnd R ⟨hy1, by omega⟩, dyearToMjd_eq t ⟨hy1, hy2⟩, ?_⟩
      obtain ⟨hD1, hD2⟩ := yl_range ⌊t⌋
      have hjb := jan1_bound ⌊t⌋ ⟨hy1, by omega⟩
      have hf0 := Int.fract_nonneg t
      have hf1 := (Int.fract_lt_one t).le
      have J1 : (-106700 : ℝ) ≤ ((jan1 ⌊t⌋ - 10957 : ℤ) : ℝ) := by exact_mod_cast hjb.1
      have J2 : ((jan1 ⌊t⌋ - 10957 : ℤ) : ℝ) ≤ 106700 := by exact_mod_cast hjb.2
      generalize yl ℝ ⌊t⌋ = D at *
      generalize ((jan1 ⌊t⌋ - 10957 : ℤ) : ℝ) = J at *
      generalize Int.fract t = f at *
      have g0 : 0 ≤ f * D := by positivity
      have g1 : f * D ≤ 366 := by nlinarith
      generalize f * D = v at *
      have e1 := abs_le.1 (err_9 R (x := v) (by rw [abs_le]; constructor <;> linarith))
      generalize R v = u at *
      norm_num at e1
      have e2 := abs_le.1 (err_17 R (x := J + u) (by rw [abs_le]; constructor <;> linarith))
      norm_num at e2 ⊢
      rw [abs_le]
      constructor <;> linarith
    · obtain ⟨y, hyd⟩ : ∃ y, y = npYearOfDays (⌊x⌋ + 10957) := ⟨_, rfl⟩
      have hs := npYearOfDays_spec (⌊x⌋ + 10957)
      rw [← hyd] at hs
      have f1 : jan1 1708 - 10957 ≤ ⌊x⌋ := Int.le_floor.2 hx.1
      have f2 : ⌊x⌋ < jan1 2292 - 10957 := Int.floor_lt.2 hx.2
      have hy1 : 1708 ≤ y := by
        by_contra hc
        have : jan1 (y + 1) ≤ jan1 1708 := jan1_le_iff.2 (by omega)
        omega
      have hy2 : y ≤ 2291 := by
        by_contra hc
        have : jan1 2292 ≤ jan1 y := jan1_le_iff.2 (by omega)
        omega
      have g1 : ((jan1 y - 10957 : Int) : ℝ) ≤ x := Int.le_floor.1 (by omega)
      have g2 : x < ((jan1 (y + 1) - 10957 : Int) : ℝ) := Int.floor_lt.1 (by omega)
      refine ⟨_, _, mjdToDyear_rnd R x y ⟨hy1, hy2⟩ g1 g2, mjdToDyear_eq x y ⟨hy1, hy2⟩ g1 g2, ?_⟩
      rw [yl_eq] at g2
      obtain ⟨hD1, hD2⟩ := yl_range y
      have hY1 : (1708 : ℝ) ≤ (y : ℝ) := by exact_mod_cast hy1
      have hY2 : (y : ℝ) ≤ 2291 := by exact_mod_cast hy2
      generalize yl ℝ y = D at *
      generalize ((jan1 y - 10957 : ℤ) : ℝ) = J at *
      have hDp : 0 < D := by linarith
      have e1 := abs_le.1 (err_9 R (x := x - J) (by rw [abs_le]; constructor <;> linarith))
      generalize R (x - J) = u at *
      have hq : |u / D - (x - J) / D| ≤ 1 / 2 ^ 45 := by
        have e1' : |u - (x - J)| ≤ 1 / 2 ^ 45 := abs_le.2 e1
        rw [← sub_div, abs_div, abs_of_pos hDp, div_le_iff₀ hDp]
        exact e1'.trans (by norm_num; linarith)
      have hq' := abs_le.1 hq
      have hr0 : 0 ≤ (x - J) / D := div_nonneg (by linarith) hDp.le
      have hr1 : (x - J) / D ≤ 1 := (div_le_one hDp).2 (by linarith)
      generalize (x - J) / D = w at *
      generalize u / D = w' at *
      norm_num at hq'
      have e2 := abs_le.1 (err_two R (x := w') (by rw [abs_le]; constructor <;> linarith))
      generalize R w' = w2 at *
      norm_num at e2
      have e3 := abs_le.1 (err_12 R (x := (y : ℝ) + w2) (by rw [abs_le]; constructor <;> linarith))
      norm_num at e3 ⊢
      rw [abs_le]
      constructor <;> linarith

/-! ### `mjd2000` and `timestamp` -/

theorem truncZ_int (n : ℤ) : truncZ (n : ℝ) = n := by
  unfold truncZ
  split_ifs
  · exact Int.floor_intCast _
  · exact Int.ceil_intCast _

theorem truncZ_near (x : ℝ) : |((truncZ x : ℤ) : ℝ) - x| < 1 := by
  unfold truncZ
  split_ifs
  · have h1 := Int.floor_le x
    have h2 := Int.lt_floor_add_one x
    rw [abs_lt]
    constructor <;> linarith
  · have h1 := Int.le_ceil x
    have h2 := Int.ceil_lt_add_one x
    rw [abs_lt]
    constructor <;> linarith

theorem rnd_rnd {x : ℝ} (h : |x| ≤ 2 ^ 1000) (h' : |R x| ≤ 2 ^ 1000) : R (R x * 1) = R x := by
  rw [mul_one]
  exact rnd_double R (R.nearest x h).1 h'

/-- Whole days in nanoseconds. -/
theorem dayNs_rnd {n : ℤ} (hn : |n| ≤ 131072) : R ((n * dayNs : Int) : ℝ) = ((n * dayNs : Int) : ℝ) := by
  have e : ((n * dayNs : Int) : ℝ) = ((n * 1318359375 : ℤ) : ℝ) * (2 : ℝ) ^ (16 : ℤ) := by
    unfold dayNs
    push_cast
    norm_num
    ring
  rw [e]
  refine rnd_double R (double_of ?_ (by norm_num) (by norm_num)) (small_ok ?_)
  · rw [abs_mul]
    have : |(1318359375 : ℤ)| = 1318359375 := by norm_num
    rw [this]
    omega
  · have h2 : |((n * 1318359375 : ℤ) : ℝ)| ≤ 131072 * 1318359375 := by
      rw [Int.cast_mul, abs_mul]
      have h3 : |(n : ℝ)| ≤ 131072 := by exact_mod_cast hn
      have h4 : |((1318359375 : ℤ) : ℝ)| = 1318359375 := by norm_num
      rw [h4]
      exact mul_le_mul_of_nonneg_right h3 (by norm_num)
    rw [abs_mul]
    have h5 : |(2 : ℝ) ^ (16 : ℤ)| = 65536 := by norm_num
    rw [h5]
    refine (mul_le_mul_of_nonneg_right h2 (by norm_num)).trans (by norm_num)

/-- **C70.** Midnights are exact: `mjd2000` of a date is the integer number of days since 2000-01-01 without any rounding error, and `timestamp` of this
number is the midnight again (nanoseconds since 1970). -/
theorem C70_midnight (d : Date) (hv : d.Valid) (hy : 1000 ≤ d.year.natAbs ∧ d.year.natAbs ≤ 9999) (n : ℤ) (hn : DaysFromEpoch d n)
    (h1 : -106751 ≤ n) (h2 : n ≤ 95793) :
    mjd2000 R d.year d.month d.day = .ok (n : ℝ) ∧ timestamp R (n : ℝ) = (n + 10957) * dayNs := by
  have hn' := (daysFromEpoch_iff d hv n).1 hn
  have hz : timeOfDay 0 0 0 0 0 = 0 := rfl
  have hr : |n| ≤ 131072 := by rw [abs_le]; omega
  constructor
  · have ha := mjd2000_rnd R hv hy 0 0 0 0 0
    rw [← hn', hz, add_zero, wrap64_of_range (by unfold dayNs; omega) (by unfold dayNs; omega), days_exact R hr] at ha
    exact ha
  · unfold timestamp
    have e : (n : ℝ) * 86400000000000 = ((n * dayNs : Int) : ℝ) := by
      unfold dayNs
      push_cast
      norm_num
    rw [e, dayNs_rnd R hr, mul_one, dayNs_rnd R hr, truncZ_int, epochNs_eq, wrap64_of_range (x := n * dayNs) (by unfold dayNs; omega) (by unfold dayNs; omega),
      wrap64_of_range (by unfold dayNs; omega) (by unfold dayNs; omega)]
    unfold dayNs
    ring

theorem stamp_core {N : ℤ} {E E2 B : ℝ} (hB : B ≤ 2 ^ 63) (hE : 0 ≤ E) (hN : |(N : ℝ)| + E + 86400000000000 * E2 ≤ B) (h1 : ∀ x : ℝ, |x| ≤ B → |R x - x| ≤ E)
    (h2 : ∀ x : ℝ, |x| * 86400000000000 ≤ B → |R x - x| ≤ E2) (hE2 : 0 ≤ E2) (hs : E ≤ 2 ^ 63) :
    |((truncZ (R (R (R (R (N : ℝ) / R ((nsPerDay : Int) : ℝ)) * 86400000000000) * 1)) : ℤ) : ℝ) - N| < 2 * E + 86400000000000 * E2 + 1 := by
  rw [rnd_perDay]
  have hP : ((nsPerDay : Int) : ℝ) = 86400000000000 := by unfold nsPerDay; norm_num
  rw [hP]
  have hN0 := abs_nonneg (N : ℝ)
  have a1 := h1 N (by linarith)
  have b1 : |R (N : ℝ)| ≤ |(N : ℝ)| + E := by
    have := abs_sub_abs_le_abs_sub (R (N : ℝ)) N
    linarith
  generalize R (N : ℝ) = X at *
  have a2 := h2 (X / 86400000000000) (by rw [abs_div, abs_of_pos (by norm_num : (0 : ℝ) < 86400000000000), div_mul_cancel₀ _ (by norm_num)]; linarith)
  generalize R (X / 86400000000000) = Q at *
  have a3 : |Q * 86400000000000 - X| ≤ 86400000000000 * E2 := by
    have : Q * 86400000000000 - X = (Q - X / 86400000000000) * 86400000000000 := by ring
    rw [this, abs_mul, abs_of_pos (by norm_num : (0 : ℝ) < 86400000000000)]
    linarith
  have b3 : |Q * 86400000000000| ≤ B := by
    have := abs_sub_abs_le_abs_sub (Q * 86400000000000) X
    linarith
  have a4 := h1 _ b3
  have b4 : |R (Q * 86400000000000)| ≤ 2 ^ 64 := by
    have := abs_sub_abs_le_abs_sub (R (Q * 86400000000000)) (Q * 86400000000000)
    norm_num at hB hs ⊢
    linarith
  rw [rnd_rnd R (small_ok (b3.trans (hB.trans (by norm_num)))) (small_ok b4)]
  generalize R (Q * 86400000000000) = Y at *
  have a5 := truncZ_near Y
  rw [abs_lt] at *
  rw [abs_le] at a1 a3 a4
  constructor <;> linarith

/-- **C70.** `timestamp(mjd2000(d))` differs from `d` by at most two microseconds for all times `d` that NumPy can represent (to the nanosecond, from 1707 to 2262),
and by less than a quarter of a microsecond from 1964 to 2036. -/
theorem C70_timestamp (ns : ℤ) (h1 : -2 ^ 63 + 2000 ≤ ns - 946684800000000000) (h2 : ns < 2 ^ 63 - 2000) :
    |timestamp R (mjd2000OfDatetime R ns) - ns| ≤ 2000 ∧
    (|ns - 946684800000000000| ≤ 2 ^ 60 - 1000 → |timestamp R (mjd2000OfDatetime R ns) - ns| < 250) := by
  have key : ∀ M : ℤ, M ≤ 2000 → |((truncZ (R (R (R (R (((ns - 946684800000000000 : ℤ)) : ℝ) / R ((nsPerDay : Int) : ℝ)) * 86400000000000) * 1)) : ℤ) : ℝ) - ((ns - 946684800000000000 : ℤ) : ℝ)| < M →
      |timestamp R (mjd2000OfDatetime R ns) - ns| < M := by
    intro M hM h
    have h' : |truncZ (R (R (R (R (((ns - 946684800000000000 : ℤ)) : ℝ) / R ((nsPerDay : Int) : ℝ)) * 86400000000000) * 1)) - (ns - 946684800000000000)| < M := by exact_mod_cast h
    have h'' := abs_lt.1 h'
    unfold timestamp mjd2000OfDatetime nsToMjd
    rw [epochNs_eq, wrap64_of_range (x := ns - 946684800000000000) (by omega) (by omega)]
    generalize truncZ (R (R (R (R (((ns - 946684800000000000 : ℤ)) : ℝ) / R ((nsPerDay : Int) : ℝ)) * 86400000000000) * 1)) = d at *
    rw [wrap64_of_range (x := d) (by omega) (by omega), wrap64_of_range (x := d + 946684800000000000) (by omega) (by omega)]
    show |(d + 946684800000000000 - ns : ℤ)| < M
    rw [abs_lt]
    constructor <;> omega
  have hN : |((ns - 946684800000000000 : ℤ) : ℝ)| ≤ 2 ^ 63 - 2000 := by
    have : |ns - 946684800000000000| ≤ 2 ^ 63 - 2000 := by rw [abs_le]; omega
    exact_mod_cast this
  constructor
  · refine (key 2000 le_rfl ((stamp_core R (E := 512) (E2 := 1 / 2 ^ 37) (B := 2 ^ 63) le_rfl (by norm_num) ?_ (fun x hx => ?_) (fun x hx => ?_) (by norm_num) (by norm_num)).trans
      (by norm_num))).le
    · norm_num at hN ⊢
      linarith
    · have := rnd_err R (x := x) (k := 63) (by norm_num at hx ⊢; exact hx) (by norm_num) (by norm_num)
      norm_num at this ⊢
      exact this
    · refine err_17 R ?_
      norm_num at hx
      linarith
  · intro hs
    have hN' : |((ns - 946684800000000000 : ℤ) : ℝ)| ≤ 2 ^ 60 - 1000 := by exact_mod_cast hs
    refine key 250 (by norm_num) ((stamp_core R (E := 64) (E2 := 1 / 2 ^ 40) (B := 2 ^ 60) (by norm_num) (by norm_num) ?_ (fun x hx => ?_) (fun x hx => ?_) (by norm_num) (by norm_num)).trans
      (by norm_num))
    · norm_num at hN' ⊢
      linarith
    · have := rnd_err R (x := x) (k := 60) (by norm_num at hx ⊢; exact hx) (by norm_num) (by norm_num)
      norm_num at this ⊢
      exact this
    · have := rnd_err R (x := x) (k := 14) (by norm_num at hx ⊢; linarith) (by norm_num) (by norm_num)
      norm_num at this ⊢
      exact this

/-- **C70** (finding): whole seconds are not always recovered: the time stamp of the date of 2000-01-01T00:00:11 is one nanosecond before that time
(so it is shown as 10.999999999 seconds), for every rule for ties. -/
theorem C70_timestamp_inexact : mjd2000OfDatetime R (946684800000000000 + 11000000000) = 4697087611361228 / 2 ^ 65 ∧
    timestamp R (mjd2000OfDatetime R (946684800000000000 + 11000000000)) = 946684800000000000 + 10999999999 := by
  have h1 : mjd2000OfDatetime R (946684800000000000 + 11000000000) = 4697087611361228 / 2 ^ 65 := by
    unfold mjd2000OfDatetime nsToMjd
    rw [epochNs_eq, add_sub_cancel_left, wrap64_of_range (by norm_num) (by norm_num), rnd_perDay, rnd_int R (by norm_num)]
    refine rnd_eq R (k := -13) ?_ ?_ ?_ ?_
    · have := double_of (m := 4697087611361228) (e := -65) (by norm_num) (by norm_num) (by norm_num)
      norm_num at this ⊢
      exact this
    · rw [abs_of_pos (by norm_num)]
      norm_num
    · refine small_ok' ?_
      unfold nsPerDay
      rw [abs_of_pos (by norm_num)]
      norm_num
    · unfold nsPerDay
      rw [abs_lt]
      constructor <;> norm_num
  refine ⟨h1, ?_⟩
  rw [h1]
  unfold timestamp
  have h2 : R (4697087611361228 / 2 ^ 65 * 86400000000000) = 5767167999999999 / 2 ^ 19 := by
    refine rnd_eq R (k := 33) ?_ ?_ ?_ ?_
    · have := double_of (m := 5767167999999999) (e := -19) (by norm_num) (by norm_num) (by norm_num)
      norm_num at this ⊢
      exact this
    · rw [abs_of_pos (by norm_num)]
      norm_num
    · refine small_ok ?_
      rw [abs_of_pos (by norm_num)]
      norm_num
    · rw [abs_lt]
      constructor <;> norm_num
  have h3 : |(4697087611361228 / 2 ^ 65 * 86400000000000 : ℝ)| ≤ 2 ^ 64 := by
    rw [abs_of_pos (by norm_num)]
    norm_num
  rw [rnd_rnd R (small_ok h3) (by rw [h2]; refine small_ok ?_; rw [abs_of_pos (by norm_num)]; norm_num), h2]
  have h4 : truncZ (5767167999999999 / 2 ^ 19 : ℝ) = 10999999999 := by
    unfold truncZ
    rw [if_pos (by norm_num), Int.floor_eq_iff]
    constructor <;> norm_num
  rw [h4, epochNs_eq, wrap64_of_range (x := 10999999999) (by norm_num) (by norm_num), wrap64_of_range (by norm_num) (by norm_num)]
  norm_num

/-- Roundings exist, and the hypotheses hold for the middle of 2015. -/
example : Nonempty Rounding ∧ IsDouble 2015.5 ∧ (1708 : ℝ) ≤ 2015.5 ∧ (2015.5 : ℝ) < 2292 := by
  refine ⟨⟨default⟩, ?_, by norm_num, by norm_num⟩
  have := double_of (m := 4031) (e := -1) (by norm_num) (by norm_num) (by norm_num)
  norm_num at this ⊢
  exact this

end ChaosMagPy.Float
