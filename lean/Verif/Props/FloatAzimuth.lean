import Verif.Model.FloatAzimuth
import Verif.Lemmas.Float
import Mathlib.Tactic.LinearCombination
import Mathlib.Tactic.FieldSimp
/-!
# C97: azimuths and local times in double precision
-/
namespace ChaosMagPy.FloatAzimuth
open ChaosMagPy.Spec ChaosMagPy.Float

theorem fmod_spec {m : ℝ} (hm : 0 < m) (x : ℝ) :
    (∃ k : ℤ, fmod x m = x + m * k) ∧ |fmod x m| < m ∧ |fmod x m| ≤ |x| ∧ (0 ≤ x → 0 ≤ fmod x m) ∧ (x < 0 → fmod x m ≤ 0) := by
  unfold fmod
  have key : ∀ y : ℝ, 0 ≤ y → 0 ≤ y - m * ⌊y / m⌋ ∧ y - m * ⌊y / m⌋ < m ∧ y - m * ⌊y / m⌋ ≤ y := by
    intro y hy
    have h1 := Int.floor_le (y / m)
    have h2 := Int.lt_floor_add_one (y / m)
    have h3 : (0 : ℝ) ≤ ⌊y / m⌋ := by exact_mod_cast Int.floor_nonneg.2 (div_nonneg hy hm.le)
    rw [le_div_iff₀ hm] at h1
    rw [div_lt_iff₀ hm] at h2
    refine ⟨by linarith, by linarith, ?_⟩
    have : 0 ≤ m * ⌊y / m⌋ := by positivity
    linarith
  split_ifs with h
  · obtain ⟨a, b, c⟩ := key x h
    refine ⟨⟨-⌊x / m⌋, by push_cast; ring⟩, by rw [abs_of_nonneg a]; exact b, by rw [abs_of_nonneg a, abs_of_nonneg h]; exact c, fun _ => a, fun h' => absurd h (not_le.2 h')⟩
  · rw [not_le] at h
    obtain ⟨a, b, c⟩ := key (-x) (by linarith)
    have e : x + m * ⌊-x / m⌋ = -(-x - m * ⌊-x / m⌋) := by ring
    refine ⟨⟨⌊-x / m⌋, rfl⟩, ?_, ?_, fun h' => absurd h (not_lt.2 h'), fun _ => ?_⟩
    · rw [e, abs_neg, abs_of_nonneg a]; exact b
    · rw [e, abs_neg, abs_of_nonneg a, abs_of_neg h]; exact c
    · rw [e]; linarith

/-- The remainder of doubles after division by an integer is a double. -/
theorem fmod_double {x : ℝ} (hx : IsDouble x) {n : ℕ} (hn : 0 < n) (hn' : n ≤ 2 ^ 50) : IsDouble (fmod x n) := by
  have hm : (0 : ℝ) < n := by exact_mod_cast hn
  obtain ⟨⟨k, hk⟩, h1, h2, -⟩ := fmod_spec hm x
  obtain ⟨a, e, ha, he1, he2, rfl⟩ := hx
  rcases le_total e 0 with h | h
  · -- a multiple of `2^e`
    obtain ⟨j, hj⟩ := Int.eq_ofNat_of_zero_le (by omega : 0 ≤ -e)
    have e1 : (2 : ℝ) ^ (j : ℕ) * (2 : ℝ) ^ e = 1 := by
      rw [← zpow_natCast, ← hj, ← zpow_add₀ (by norm_num)]
      simp
    have e2 : fmod (a * (2 : ℝ) ^ e) n = ((a + n * k * 2 ^ j : ℤ) : ℝ) * (2 : ℝ) ^ e := by
      rw [hk]
      push_cast
      linear_combination (-(n : ℝ) * k) * e1
    rw [e2]
    rw [e2] at h2
    refine ⟨_, e, ?_, he1, he2, rfl⟩
    have hp : (0 : ℝ) < (2 : ℝ) ^ e := by positivity
    rw [abs_mul, abs_mul, abs_of_pos hp] at h2
    have h3 := le_of_mul_le_mul_right h2 hp
    have h4 : |(a + n * k * 2 ^ j : ℤ)| ≤ |a| := by exact_mod_cast h3
    omega
  · -- an integer
    obtain ⟨j, hj⟩ := Int.eq_ofNat_of_zero_le h
    have e2 : fmod (a * (2 : ℝ) ^ e) n = ((a * 2 ^ j + n * k : ℤ) : ℝ) := by
      rw [hk, hj]
      push_cast
      rw [zpow_natCast]
    rw [e2] at h1 ⊢
    refine double_int ?_
    have : |(a * 2 ^ j + n * k : ℤ)| < n := by exact_mod_cast h1
    have h5 : (n : ℤ) ≤ 2 ^ 50 := by exact_mod_cast hn'
    have : (2 : ℤ) ^ 50 ≤ 2 ^ 53 := by norm_num
    linarith

variable (R : Rounding)

theorem big {x : ℝ} (h : |x| ≤ 1000) : |x| ≤ 2 ^ 1000 :=
  h.trans ((by norm_num : (1000 : ℝ) ≤ 2 ^ 10).trans (pow_le_pow_right₀ (by norm_num) (by norm_num)))

/-- The remainder: a double in `[0, n]`, exact for numbers that are not negative. -/
theorem remainder_spec {x : ℝ} (hx : IsDouble x) {n : ℕ} (hn : 0 < n) (hn' : n ≤ 512) :
    IsDouble (remainder R x n) ∧ 0 ≤ remainder R x n ∧ remainder R x n ≤ n ∧ (∃ k : ℤ, |remainder R x n - (x + n * k)| ≤ 2⁻¹ ^ 45) ∧
      (0 ≤ x → remainder R x n < n ∧ ∃ k : ℤ, remainder R x n = x + n * k) := by
  have hm : (0 : ℝ) < n := by exact_mod_cast hn
  have hm' : (n : ℝ) ≤ 512 := by exact_mod_cast hn'
  obtain ⟨⟨k, hk⟩, h1, h2, h3, h4⟩ := fmod_spec hm x
  have hd := fmod_double hx hn (hn'.trans (by norm_num))
  unfold remainder
  set y := fmod x n
  obtain ⟨a1, a2⟩ := abs_lt.1 h1
  split_ifs with h
  · have hn2 : IsDouble ((n : ℝ)) := by
      have := double_int (m := (n : ℤ)) (by rw [abs_of_nonneg (by positivity)]; norm_num; omega)
      exact_mod_cast this
    have hy : |y + n| ≤ (2 : ℝ) ^ (9 : ℤ) := by
      rw [abs_of_pos (by linarith)]
      norm_num
      linarith
    have hy' : |y + n| ≤ 1000 := by rw [abs_of_pos (by linarith)]; linarith
    have e0 : R 0 = 0 := by simpa using rnd_int R (m := 0) (by norm_num)
    have en : R (n : ℝ) = n := rnd_double R hn2 (big (by rw [abs_of_pos hm]; linarith))
    refine ⟨(R.nearest _ (big hy')).1, ?_, ?_, ⟨k + 1, ?_⟩, fun h' => absurd h (not_lt.2 (h3 h'))⟩
    · rw [← e0]
      exact rnd_mono R (big (by norm_num)) (big hy') (by linarith)
    · conv_rhs => rw [← en]
      exact rnd_mono R (big hy') (big (by rw [abs_of_pos hm]; linarith)) (by linarith)
    · have := rnd_err R hy (by norm_num) (by norm_num)
      rw [hk] at this ⊢
      push_cast
      rw [show x + n * (k + 1 : ℝ) = x + n * k + n by ring]
      refine this.trans (by norm_num)
  · rw [not_lt] at h
    exact ⟨hd, h, a2.le, ⟨k, by rw [hk, sub_self, abs_zero]; positivity⟩, fun _ => ⟨a2, k, hk⟩⟩

/-- Subtracting 360 is exact. -/
theorem sub_360 {x : ℝ} (hx : IsDouble x) (h1 : 180 < x) (h2 : x ≤ 360) : IsDouble (x - 360) ∧ R (x - 360) = x - 360 := by
  obtain ⟨m, hm⟩ := double_multiple hx (k := 7) (by rw [abs_of_pos (by linarith)]; norm_num; linarith)
  have hd : IsDouble (x - 360) := by
    have e : x - 360 = ((m - 360 * 2 ^ 45 : ℤ) : ℝ) * (2 : ℝ) ^ (7 - 52 : ℤ) := by
      rw [hm]
      push_cast
      norm_num
      ring
    rw [e]
    refine double_of ?_ (by norm_num) (by norm_num)
    have h3 : (180 : ℝ) * 2 ^ 45 ≤ m := by
      rw [hm] at h1
      norm_num at h1 ⊢
      linarith
    have h4 : (m : ℝ) ≤ 360 * 2 ^ 45 := by
      rw [hm] at h2
      norm_num at h2 ⊢
      linarith
    have h5 : (180 : ℤ) * 2 ^ 45 ≤ m := by exact_mod_cast h3
    have h6 : m ≤ 360 * 2 ^ 45 := by exact_mod_cast h4
    rw [abs_le]
    constructor <;> norm_num at * <;> omega
  exact ⟨hd, rnd_double R hd (big (by rw [abs_le]; constructor <;> linarith))⟩

/-- **C97, range and accuracy of azimuths.** For every double the result is in `(-180, 180]` and differs from the azimuth by a multiple of 360 degrees up to
`2^-45` degrees; exactly a multiple of 360 degrees for azimuths that are not negative. -/
theorem C97_center_azimuth {phi : ℝ} (h : IsDouble phi) :
    -180 < centerAzimuth R phi ∧ centerAzimuth R phi ≤ 180 ∧ (∃ k : ℤ, |centerAzimuth R phi - (phi + 360 * k)| ≤ 2⁻¹ ^ 45) ∧
      (0 ≤ phi → ∃ k : ℤ, centerAzimuth R phi = phi + 360 * k) := by
  have hs := remainder_spec R h (n := 360) (by norm_num) (by norm_num)
  push_cast at hs
  obtain ⟨hd, h1, h2, ⟨k, hk⟩, h3⟩ := hs
  unfold centerAzimuth
  simp only
  set y := remainder R phi 360
  split_ifs with hc
  · obtain ⟨-, e⟩ := sub_360 R hd hc h2
    rw [e]
    refine ⟨by linarith, by linarith, ⟨k - 1, ?_⟩, fun h0 => ?_⟩
    · push_cast
      rw [show y - 360 - (phi + 360 * (k - 1 : ℝ)) = y - (phi + 360 * k) by ring]
      exact hk
    · obtain ⟨-, j, hj⟩ := h3 h0
      refine ⟨j - 1, ?_⟩
      push_cast
      linarith
  · rw [not_lt] at hc
    exact ⟨by linarith, hc, ⟨k, hk⟩, fun h0 => (h3 h0).2⟩

theorem remainder_small {x : ℝ} {m : ℝ} (hm : 0 < m) (h0 : 0 ≤ x) (h1 : x < m) : remainder R x m = x := by
  have : fmod x m = x := by
    unfold fmod
    rw [if_pos h0, Int.floor_eq_zero_iff.2 ⟨div_nonneg h0 hm.le, (div_lt_one hm).2 h1⟩]
    simp
  unfold remainder
  rw [this, if_neg (not_lt.2 h0)]

theorem remainder_neg {x : ℝ} {m : ℝ} (hm : 0 < m) (h0 : x < 0) (h1 : -m < x) : remainder R x m = R (x + m) := by
  have : fmod x m = x := by
    unfold fmod
    rw [if_neg (not_le.2 h0), Int.floor_eq_zero_iff.2 ⟨div_nonneg (by linarith) hm.le, (div_lt_one hm).2 (by linarith)⟩]
    simp
  unfold remainder
  rw [this, if_pos h0]

/-- **C97, idempotence.** Applied twice, `center_azimuth` gives what it gives applied once, bit for bit. -/
theorem C97_idempotent {phi : ℝ} (h : IsDouble phi) : centerAzimuth R (centerAzimuth R phi) = centerAzimuth R phi := by
  have hs := remainder_spec R h (n := 360) (by norm_num) (by norm_num)
  push_cast at hs
  obtain ⟨hd, h1, h2, -, -⟩ := hs
  have hdef : ∀ x, centerAzimuth R x = if remainder R x 360 > 180 then R (remainder R x 360 - 360) else remainder R x 360 := fun x => rfl
  rw [hdef phi]
  set y := remainder R phi 360
  split_ifs with hc
  · obtain ⟨hd', e⟩ := sub_360 R hd hc h2
    rw [e]
    rcases h2.eq_or_lt with h3 | h3
    · rw [h3, sub_self, hdef, remainder_small R (by norm_num) le_rfl (by norm_num)]
      norm_num
    · rw [hdef, remainder_neg R (by norm_num) (by linarith) (by linarith), sub_add_cancel, rnd_double R hd (big (by rw [abs_of_pos (by linarith)]; linarith)),
        if_pos hc, e]
  · rw [gt_iff_lt, not_lt] at hc
    rw [hdef, remainder_small R (by norm_num) h1 (by linarith), if_neg (not_lt.2 hc)]

/-- **C97, negative azimuths are not kept.** Azimuths in the interval that are very small and negative give zero. -/
theorem C97_not_kept {phi : ℝ} (h1 : -2⁻¹ ^ 46 < phi) (h2 : phi < 0) : centerAzimuth R phi = 0 := by
  have h3 : R (phi + 360) = 360 := by
    refine rnd_eq R (k := 8) (by simpa using double_int (m := 360) (by norm_num)) (by norm_num) (big ?_) ?_
    · rw [abs_le]
      norm_num at h1
      constructor <;> linarith
    · rw [add_sub_cancel_right, abs_of_neg h2]
      norm_num at h1 ⊢
      linarith
  have h4 : R (0 : ℝ) = 0 := by simpa using rnd_int R (m := 0) (by norm_num)
  unfold centerAzimuth
  simp only
  rw [remainder_neg R (by norm_num) h2 (by norm_num at h1; linarith), h3, if_pos (by norm_num), sub_self, h4]

/-- **C97, local times.** For times up to `2^20` days and azimuths up to 360 degrees in size, local time is in `[0, 24]` and correct to `2^-28` hours, modulo 24 hours. -/
theorem C97_local_time {time phi : ℝ} (ht : |time| ≤ 2 ^ 20) (hphi : |phi| ≤ 360) :
    0 ≤ localTime R time phi ∧ localTime R time phi ≤ 24 ∧ ∃ k : ℤ, |localTime R time phi - (24 * time + phi / 15 + 24 * k)| ≤ 2⁻¹ ^ 28 := by
  have a1 : |phi / 360| ≤ (2 : ℝ) ^ (0 : ℤ) := by
    rw [abs_div]
    norm_num
    linarith
  have a2 := rnd_err R a1 (by norm_num) (by norm_num)
  have a3 : |time + R (phi / 360)| ≤ (2 : ℝ) ^ (21 : ℤ) := by
    rw [abs_le] at *
    norm_num at *
    constructor <;> linarith
  have a4 := rnd_err R a3 (by norm_num) (by norm_num)
  have hd : IsDouble (R (time + R (phi / 360))) := (R.nearest _ (a3.trans (pow_le_max (by norm_num)))).1
  have hs := remainder_spec R hd (n := 1) (by norm_num) (by norm_num)
  push_cast at hs
  obtain ⟨-, b1, b2, ⟨k, hk⟩, -⟩ := hs
  unfold localTime
  set s := R (time + R (phi / 360))
  set y := remainder R s 1
  have c0 : |y * 24| ≤ (2 : ℝ) ^ (5 : ℤ) := by
    rw [abs_of_nonneg (by positivity)]
    norm_num
    linarith
  have c1 := rnd_err R c0 (by norm_num) (by norm_num)
  have hy : |y * 24| ≤ 1000 := by rw [abs_of_nonneg (by positivity)]; linarith
  have e0 : R 0 = 0 := by simpa using rnd_int R (m := 0) (by norm_num)
  have e24 : R 24 = 24 := by simpa using rnd_int R (m := 24) (by norm_num)
  refine ⟨?_, ?_, k, ?_⟩
  · rw [← e0]
    exact rnd_mono R (big (by norm_num)) (big hy) (by positivity)
  · conv_rhs => rw [← e24]
    exact rnd_mono R (big hy) (big (by norm_num)) (by linarith)
  · have e : phi / 15 = 24 * (phi / 360) := by ring
    rw [e]
    generalize phi / 360 = p at *
    rw [abs_le] at *
    norm_num at *
    constructor <;> linarith

/-- **C97, local time 24.** The documented range `[0, 24)` is not met: at time zero, for very small negative azimuths, local time is 24. -/
theorem C97_local_time_24 {phi : ℝ} (h1 : -2⁻¹ ^ 50 ≤ phi) (h2 : phi ≤ -2⁻¹ ^ 900) : localTime R 0 phi = 24 := by
  have hneg : phi < 0 := lt_of_le_of_lt h2 (by rw [neg_lt_zero]; positivity)
  have e24 : R 24 = 24 := by simpa using rnd_int R (m := 24) (by norm_num)
  have hu : -(2⁻¹ ^ 58 : ℝ) ≤ phi / 360 := by
    rw [le_div_iff₀ (by norm_num)]
    norm_num at h1 ⊢
    linarith
  have hb : |phi / 360| ≤ (2 : ℝ) ^ (-58 : ℤ) := by
    rw [abs_le]
    have : (2 : ℝ) ^ (-58 : ℤ) = 2⁻¹ ^ 58 := by norm_num
    rw [this]
    have h3 : phi / 360 < 0 := div_neg_of_neg_of_pos hneg (by norm_num)
    exact ⟨hu, h3.le.trans (by positivity)⟩
  have hd1 : IsDouble (-(2⁻¹ ^ 910 : ℝ)) := by
    have := double_of (m := -1) (e := -910) (by norm_num) (by norm_num) (by norm_num)
    have e : ((-1 : ℤ) : ℝ) * (2 : ℝ) ^ (-910 : ℤ) = -(2⁻¹ ^ 910 : ℝ) := by
      rw [inv_pow, zpow_neg]
      push_cast
      rw [neg_one_mul]
      norm_cast
    rwa [e] at this
  have hd2 : IsDouble (-(2⁻¹ ^ 58 : ℝ)) := by
    have := double_of (m := -1) (e := -58) (by norm_num) (by norm_num) (by norm_num)
    have e : ((-1 : ℤ) : ℝ) * (2 : ℝ) ^ (-58 : ℤ) = -(2⁻¹ ^ 58 : ℝ) := by norm_num
    rwa [e] at this
  have s910 : (2 : ℝ)⁻¹ ^ 910 ≤ 1 := pow_le_one₀ (by norm_num) (by norm_num)
  have hbig : |phi / 360| ≤ 2 ^ 1000 := hb.trans (pow_le_max (by norm_num))
  have u1 : R (phi / 360) ≤ -(2⁻¹ ^ 910 : ℝ) := by
    rw [← rnd_double R hd1 (big (by rw [abs_neg, abs_of_pos (by positivity)]; linarith))]
    refine rnd_mono R hbig (big (by rw [abs_neg, abs_of_pos (by positivity)]; linarith)) ?_
    rw [div_le_iff₀ (by norm_num)]
    have : (2 : ℝ)⁻¹ ^ 910 * 360 ≤ 2⁻¹ ^ 900 := by
      rw [show (910 : ℕ) = 900 + 10 by norm_num, pow_add, mul_assoc]
      exact mul_le_of_le_one_right (by positivity) (by norm_num)
    linarith
  have u2 : -(2⁻¹ ^ 58 : ℝ) ≤ R (phi / 360) := by
    rw [← rnd_double R hd2 (big (by norm_num))]
    exact rnd_mono R (big (by norm_num)) hbig hu
  have hdv : IsDouble (R (phi / 360)) := (R.nearest _ hbig).1
  set v := R (phi / 360)
  have vneg : v < 0 := lt_of_le_of_lt u1 (by rw [neg_lt_zero]; positivity)
  have v1 : |v| ≤ 1000 := by
    rw [abs_of_neg vneg]
    norm_num at u2
    linarith
  have e1 : R (v + 1) = 1 := by
    refine rnd_eq R (k := -1) (by simpa using double_int (m := 1) (by norm_num)) (by norm_num) (big ?_) ?_
    · rw [abs_le]
      norm_num at u2
      constructor <;> linarith
    · rw [add_sub_cancel_right, abs_of_neg vneg]
      norm_num at u2 ⊢
      linarith
  show R (remainder R (R (0 + v)) 1 * 24) = 24
  rw [zero_add, rnd_double R hdv (big v1), remainder_neg R (by norm_num) vneg (by norm_num at u2; linarith), e1, one_mul, e24]

/-- `C97_center_azimuth` and `C97_idempotent`: 540 degrees give 180 degrees. -/
example : centerAzimuth R 540 = 180 ∧ centerAzimuth R (centerAzimuth R 540) = 180 := by
  have hd : IsDouble (540 : ℝ) := by simpa using double_int (m := 540) (by norm_num)
  obtain ⟨h1, h2, -, h3⟩ := C97_center_azimuth R hd
  obtain ⟨k, hk⟩ := h3 (by norm_num)
  have hk1 : k = -1 := by
    rw [hk] at h1 h2
    have a1 : (-2 : ℝ) < k := by linarith
    have a2 : (k : ℝ) ≤ -1 := by linarith
    have a3 : -2 < k := by exact_mod_cast a1
    have a4 : k ≤ -1 := by exact_mod_cast a2
    omega
  have e : centerAzimuth R 540 = 180 := by
    rw [hk, hk1]
    norm_num
  exact ⟨e, by rw [C97_idempotent R hd, e]⟩

/-- `C97_not_kept`: `-1e-20` degrees. -/
example : centerAzimuth R (-1e-20) = 0 := C97_not_kept R (by norm_num) (by norm_num)

/-- `C97_local_time`: noon of the first day at 15 degrees east is 13 hours, to `2^-28` hours. -/
example : |localTime R 0.5 15 - 13| ≤ 2⁻¹ ^ 28 := by
  obtain ⟨h1, h2, k, hk⟩ := C97_local_time R (time := 0.5) (phi := 15) (by norm_num) (by norm_num)
  have hk0 : k = 0 := by
    rw [abs_le] at hk
    norm_num at hk
    have a1 : (-1 : ℝ) < k := by linarith
    have a2 : (k : ℝ) < 1 := by linarith
    have a3 : -1 < k := by exact_mod_cast a1
    have a4 : k < 1 := by exact_mod_cast a2
    omega
  rw [hk0] at hk
  norm_num at hk ⊢
  exact hk

/-- `C97_local_time_24`: `-1e-20` degrees. -/
example : localTime R 0 (-1e-20) = 24 := by
  refine C97_local_time_24 R (by norm_num) ?_
  have : (2 : ℝ)⁻¹ ^ 900 ≤ 2⁻¹ ^ 70 := pow_le_pow_of_le_one (by norm_num) (by norm_num) (by norm_num)
  have h2 : (2 : ℝ)⁻¹ ^ 70 ≤ 1e-20 := by norm_num
  exact neg_le_neg (this.trans h2)

end ChaosMagPy.FloatAzimuth
