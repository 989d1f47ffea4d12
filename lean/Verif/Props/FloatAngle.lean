import Verif.Props.FloatTime
import Verif.Props.Index
/-!
# C71: angles and local times in floating point arithmetic; C12: degrees from square roots in floating point arithmetic
-/
namespace ChaosMagPy.Float
open ChaosMagPy.Spec ChaosMagPy.Time

variable (R : Rounding)

/-! ### The remainder -/

theorem fmod_sign {x b : ℝ} (hb : 0 < b) : |fmod x b| < b ∧ (0 ≤ x → 0 ≤ fmod x b ∧ fmod x b ≤ x) ∧ (x < 0 → x ≤ fmod x b ∧ fmod x b ≤ 0) := by
  have key : x / b * b = x := div_mul_cancel₀ _ hb.ne'
  have hq : fmod x b = (x / b - truncZ (x / b)) * b := by
    unfold fmod
    rw [sub_mul, key]
  have h1 := truncZ_near (x / b)
  refine ⟨?_, fun hx => ?_, fun hx => ?_⟩
  · rw [hq, abs_mul, abs_of_pos hb, abs_sub_comm]
    nlinarith
  · have h0 : 0 ≤ x / b := div_nonneg hx hb.le
    rw [hq]
    unfold truncZ
    rw [if_pos h0]
    have h2 := Int.floor_le (x / b)
    have h3 : (0 : ℝ) ≤ ⌊x / b⌋ := by exact_mod_cast Int.floor_nonneg.2 h0
    constructor
    · exact mul_nonneg (by linarith) hb.le
    · nlinarith
  · have h0 : x / b < 0 := div_neg_of_neg_of_pos hx hb
    rw [hq]
    unfold truncZ
    rw [if_neg (by linarith)]
    have h2 := Int.le_ceil (x / b)
    have h3 : ((⌈x / b⌉ : ℤ) : ℝ) ≤ 0 := by
      have : ⌈x / b⌉ ≤ 0 := Int.ceil_le.2 (by simpa using h0.le)
      exact_mod_cast this
    constructor
    · nlinarith
    · exact mul_nonpos_of_nonpos_of_nonneg (by linarith) hb.le

theorem fmod_small {x b : ℝ} (hb : 0 < b) (h : |x| < b) : fmod x b = x := by
  have ht : truncZ (x / b) = 0 := by
    have h1 : |x / b| < 1 := by rw [abs_div, abs_of_pos hb]; exact (div_lt_one hb).2 h
    rw [abs_lt] at h1
    unfold truncZ
    split_ifs with h0
    · exact Int.floor_eq_iff.2 ⟨by simpa using h0, by simpa using h1.2⟩
    · exact Int.ceil_eq_iff.2 ⟨by simpa using h1.1, by simp; linarith⟩
  unfold fmod
  rw [ht]
  simp

/-- `fmod` has no rounding error: it is a double. -/
theorem fmod_double {x b : ℝ} (hx : IsDouble x) (c : ℤ) (s : ℕ) (hb : b = c * 2 ^ s) (hc : 0 < c) (hc2 : c < 2 ^ 53) (hs : s ≤ 900) : IsDouble (fmod x b) := by
  have hb0 : 0 < b := by
    rw [hb]
    have : (0 : ℝ) < c := by exact_mod_cast hc
    positivity
  obtain ⟨f1, f2, f3⟩ := fmod_sign (x := x) hb0
  obtain ⟨m, e, hm, h1, h2, rfl⟩ := hx
  generalize hy : fmod ((m : ℝ) * 2 ^ e) b = y at *
  unfold fmod at hy
  generalize truncZ ((m : ℝ) * 2 ^ e / b) = q at *
  rcases le_or_gt (s : ℤ) e with he | he
  · obtain ⟨d, hd⟩ := Int.eq_ofNat_of_zero_le (sub_nonneg.2 he)
    have ey : y = ((m * 2 ^ d - q * c : ℤ) : ℝ) * (2 : ℝ) ^ (s : ℤ) := by
      rw [← hy, hb, show e = (d : ℤ) + s by omega, zpow_add₀ (by norm_num), zpow_natCast, zpow_natCast]
      push_cast
      ring
    rw [ey]
    refine ⟨_, _, ?_, by omega, by omega, rfl⟩
    have hp : (0 : ℝ) < (2 : ℝ) ^ (s : ℤ) := by positivity
    rw [ey, hb, abs_mul, abs_of_pos hp, zpow_natCast] at f1
    have := lt_of_mul_lt_mul_right f1 (by positivity)
    have : |m * 2 ^ d - q * c| < c := by exact_mod_cast this
    omega
  · obtain ⟨d, hd⟩ := Int.eq_ofNat_of_zero_le (sub_nonneg.2 he.le)
    have ey : y = ((m - q * c * 2 ^ d : ℤ) : ℝ) * (2 : ℝ) ^ e := by
      rw [← hy, hb, ← zpow_natCast (2 : ℝ) s, show (s : ℤ) = (d : ℤ) + e by omega, zpow_add₀ (by norm_num), zpow_natCast]
      push_cast
      ring
    have hle : |y| ≤ |(m : ℝ) * (2 : ℝ) ^ e| := by
      rcases le_or_gt 0 ((m : ℝ) * (2 : ℝ) ^ e) with h0 | h0
      · rw [abs_of_nonneg (f2 h0).1, abs_of_nonneg h0]; exact (f2 h0).2
      · rw [abs_of_nonpos (f3 h0).2, abs_of_neg h0]; linarith [(f3 h0).1]
    rw [ey]
    refine ⟨_, _, ?_, h1, h2, rfl⟩
    have hp : (0 : ℝ) < (2 : ℝ) ^ e := by positivity
    rw [ey, abs_mul, abs_mul, abs_of_pos hp] at hle
    have := le_of_mul_le_mul_right hle hp
    have : |m - q * c * 2 ^ d| ≤ |m| := by exact_mod_cast this
    omega

/-- What `np.remainder` returns for a positive divisor. -/
theorem remainder_cases (x : ℝ) {b : ℝ} (hb : 0 < b) : (0 ≤ fmod x b ∧ remainder R x b = fmod x b) ∨ (fmod x b < 0 ∧ remainder R x b = R (fmod x b + b)) := by
  unfold remainder
  simp only
  rcases lt_trichotomy (fmod x b) 0 with h | h | h
  · refine .inr ⟨h, ?_⟩
    rw [if_neg h.ne, if_neg]
    intro hc
    have : b < 0 := hc.symm ▸ h
    linarith
  · exact .inl ⟨h.ge, by rw [if_pos h, h]⟩
  · refine .inl ⟨h.le, ?_⟩
    rw [if_neg h.ne', if_pos]
    apply propext
    constructor <;> intro h3 <;> linarith

theorem fmod_congr (x b : ℝ) : ∃ k : ℤ, fmod x b = x - k * b := ⟨truncZ (x / b), rfl⟩

/-! ### Azimuths -/

theorem sub_360_exact {r : ℝ} (hd : IsDouble r) (h1 : 180 < r) (h2 : r ≤ 360) : IsDouble (r - 360) := by
  obtain ⟨a, ha⟩ := double_multiple hd (k := 7) (by norm_num; rw [abs_of_pos (by linarith)]; linarith)
  norm_num at ha
  have e : r - 360 = ((a - 360 * 2 ^ 45 : ℤ) : ℝ) * (2 : ℝ) ^ (-45 : ℤ) := by
    rw [ha]
    push_cast
    norm_num
    ring
  rw [e]
  refine double_of ?_ (by norm_num) (by norm_num)
  have h3 : |((a - 360 * 2 ^ 45 : ℤ) : ℝ)| ≤ ((2 ^ 53 : ℤ) : ℝ) := by
    push_cast
    rw [abs_le]
    norm_num
    constructor <;> linarith
  exact_mod_cast h3

/-- **C71.** In double precision, `center_azimuth` maps every finite azimuth into (-180, 180]; the result is the same direction up to `2^-45` degrees, exactly so for
azimuths that are not negative, and applying the function again does not change it. -/
theorem C71_center_azimuth {phi : ℝ} (hd : IsDouble phi) :
    -180 < centerAzimuth R phi ∧ centerAzimuth R phi ≤ 180 ∧ (∃ k : ℤ, |centerAzimuth R phi - (phi - 360 * k)| ≤ 1 / 2 ^ 45) ∧
    (0 ≤ phi → ∃ k : ℤ, centerAzimuth R phi = phi - 360 * k) ∧ centerAzimuth R (centerAzimuth R phi) = centerAzimuth R phi := by
  have hb : (0 : ℝ) < 360 := by norm_num
  obtain ⟨f1, f2, f3⟩ := fmod_sign (x := phi) hb
  have fd := fmod_double hd 45 3 (b := 360) (by norm_num) (by norm_num) (by norm_num) (by norm_num)
  obtain ⟨k, hk⟩ := fmod_congr phi 360
  obtain ⟨r, hr, rd, r0, r1, rc, rp⟩ : ∃ r, remainder R phi 360 = r ∧ IsDouble r ∧ 0 ≤ r ∧ r ≤ 360 ∧ (∃ k : ℤ, |r - (phi - 360 * k)| ≤ 1 / 2 ^ 45) ∧
      (0 ≤ phi → ∃ k : ℤ, r = phi - 360 * k) := by
    rcases remainder_cases R phi hb with ⟨h0, h⟩ | ⟨h0, h⟩
    · have e : fmod phi 360 = phi - 360 * k := by rw [hk]; ring
      refine ⟨_, h, fd, h0, (le_abs_self _).trans f1.le, ⟨k, ?_⟩, fun _ => ⟨k, e⟩⟩
      rw [← e, sub_self, abs_zero]
      positivity
    · have hlow := neg_lt_of_abs_lt f1
      have hbt := rnd_between R (x := fmod phi 360 + 360) (a := 0) (b := 360) (by norm_num) (by norm_num) (by push_cast; linarith) (by push_cast; linarith)
      push_cast at hbt
      have habs : |fmod phi 360 + 360| ≤ 512 := by rw [abs_le]; constructor <;> linarith
      refine ⟨_, h, (R.nearest _ (small_ok' (habs.trans (by norm_num)))).1, hbt.1, hbt.2, ⟨k - 1, ?_⟩, fun hp => absurd (f2 hp).1 (by linarith)⟩
      have := err_9 R habs
      have e : phi - 360 * ((k - 1 : ℤ) : ℝ) = fmod phi 360 + 360 := by rw [hk]; push_cast; ring
      rw [e]
      exact this
  have pos_case : ∀ r : ℝ, 0 ≤ r → r ≤ 180 → centerAzimuth R r = r := by
    intro r r0 h
    have hf : fmod r 360 = r := fmod_small hb (by rw [abs_of_nonneg r0]; linarith)
    have hr' : remainder R r 360 = r := by
      rcases remainder_cases R r hb with ⟨h0, h'⟩ | ⟨h0, h'⟩
      · rw [h', hf]
      · rw [hf] at h0; linarith
    unfold centerAzimuth
    simp only [hr']
    rw [if_neg (by linarith)]
  by_cases h : r > 180
  · have hc : centerAzimuth R phi = r - 360 := by
      unfold centerAzimuth
      simp only [hr]
      rw [if_pos h]
      exact rnd_double R (sub_360_exact rd h r1) (small_ok' (by rw [abs_le]; constructor <;> linarith))
    rw [hc]
    refine ⟨by linarith, by linarith, ?_, fun hp => ?_, ?_⟩
    · obtain ⟨j, hj⟩ := rc
      refine ⟨j + 1, ?_⟩
      have e : r - 360 - (phi - 360 * ((j + 1 : ℤ) : ℝ)) = r - (phi - 360 * j) := by push_cast; ring
      rw [e]
      exact hj
    · obtain ⟨j, hj⟩ := rp hp
      exact ⟨j + 1, by rw [hj]; push_cast; ring⟩
    · rcases eq_or_lt_of_le r1 with h360 | hlt
      · rw [h360, sub_self]
        exact pos_case 0 le_rfl (by norm_num)
      · have hf : fmod (r - 360) 360 = r - 360 := fmod_small hb (by rw [abs_lt]; constructor <;> linarith)
        have hr' : remainder R (r - 360) 360 = r := by
          rcases remainder_cases R (r - 360) hb with ⟨h0, h'⟩ | ⟨h0, h'⟩
          · rw [hf] at h0; linarith
          · rw [h', hf, sub_add_cancel]
            exact rnd_double R rd (small_ok' (by rw [abs_le]; constructor <;> linarith))
        unfold centerAzimuth
        simp only [hr']
        rw [if_pos h]
        exact rnd_double R (sub_360_exact rd h r1) (small_ok' (by rw [abs_le]; constructor <;> linarith))
  · have hc : centerAzimuth R phi = r := by
      unfold centerAzimuth
      simp only [hr]
      rw [if_neg h]
    push Not at h
    rw [hc]
    exact ⟨by linarith, h, rc, rp, pos_case r r0 h⟩

/-! ### Local time -/

theorem one_sub_double : IsDouble (1 - 1 / 2 ^ 53) := by
  have := double_of (m := 2 ^ 53 - 1) (e := -53) (by norm_num) (by norm_num) (by norm_num)
  norm_num at this ⊢
  exact this

theorem double_lt_one {s : ℝ} (hd : IsDouble s) (h : s < 1) : s ≤ 1 - 1 / 2 ^ 53 := by
  rcases le_or_gt s (1 / 2) with hs | hs
  · norm_num at *
    linarith
  · obtain ⟨a, ha⟩ := double_multiple hd (k := -1) (by norm_num; rw [abs_of_pos (by linarith)]; linarith)
    norm_num at ha
    have h1 : (a : ℝ) < ((2 ^ 53 : ℤ) : ℝ) := by
      push_cast
      norm_num
      linarith
    have h2 : a < 2 ^ 53 := by exact_mod_cast h1
    have h3 : a ≤ 2 ^ 53 - 1 := by omega
    have h4 : (a : ℝ) ≤ 2 ^ 53 - 1 := by exact_mod_cast h3
    norm_num at h4 ⊢
    linarith

/-- The remainder by one of a double. -/
theorem remainder_one_facts {u : ℝ} (hd : IsDouble u) : IsDouble (remainder R u 1) ∧ 0 ≤ remainder R u 1 ∧ remainder R u 1 ≤ 1 ∧
    (∃ k : ℤ, |remainder R u 1 - (u - k)| ≤ 1 / 2 ^ 54) ∧ (remainder R u 1 = 1 → -(1 / 2 ^ 53) < u ∧ u < 0) := by
  have hb : (0 : ℝ) < 1 := by norm_num
  obtain ⟨f1, f2, f3⟩ := fmod_sign (x := u) hb
  have fd := fmod_double hd 1 0 (b := 1) (by norm_num) (by norm_num) (by norm_num) (by norm_num)
  obtain ⟨k, hk⟩ := fmod_congr u 1
  rcases remainder_cases R u hb with ⟨h0, h⟩ | ⟨h0, h⟩
  · rw [h]
    refine ⟨fd, h0, (le_abs_self _).trans f1.le, ⟨k, ?_⟩, fun h1 => ?_⟩
    · rw [hk, mul_one, sub_self, abs_zero]
      positivity
    · rw [h1, abs_one] at f1
      exact absurd f1 (lt_irrefl _)
  · have hlow := neg_lt_of_abs_lt f1
    have habs : |fmod u 1 + 1| ≤ 1 := by rw [abs_le]; constructor <;> linarith
    have hok : |fmod u 1 + 1| ≤ 2 ^ 1000 := small_ok' (habs.trans (by norm_num))
    have hbt := rnd_between R (x := fmod u 1 + 1) (a := 0) (b := 1) (by norm_num) (by norm_num) (by push_cast; linarith) (by push_cast; linarith)
    push_cast at hbt
    rw [h]
    refine ⟨(R.nearest _ hok).1, hbt.1, hbt.2, ⟨k - 1, ?_⟩, fun h1 => ?_⟩
    · have e : u - ((k - 1 : ℤ) : ℝ) = fmod u 1 + 1 := by rw [hk]; push_cast; ring
      rw [e]
      exact err_one R habs
    · have hm : -(1 / 2 ^ 53) < fmod u 1 := by
        by_contra hc
        push Not at hc
        have hle : fmod u 1 + 1 ≤ 1 - 1 / 2 ^ 53 := by linarith
        have ok2 : |(1 - 1 / 2 ^ 53 : ℝ)| ≤ 2 ^ 1000 := small_ok' (by rw [abs_of_pos (by norm_num)]; norm_num)
        have := rnd_mono R hok ok2 hle
        rw [h1, rnd_double R one_sub_double ok2] at this
        norm_num at this
      have hneg : u < 0 := by
        by_contra hc
        push Not at hc
        exact absurd (f2 hc).1 (by linarith)
      have hu : |u| < 1 := by
        by_contra hc
        push Not at hc
        obtain ⟨a, ha⟩ := double_multiple hd (k := 0) (by norm_num; exact hc)
        norm_num at ha
        have e : fmod u 1 = ((a - k * 2 ^ 52 : ℤ) : ℝ) / 2 ^ 52 := by
          rw [hk, ha]
          push_cast
          norm_num
          ring
        rw [e] at hm h0
        have h2 : ((a - k * 2 ^ 52 : ℤ) : ℝ) < 0 := by
          by_contra hc'
          push Not at hc'
          exact absurd h0 (by push Not; positivity)
        have h3 : a - k * 2 ^ 52 ≤ -1 := by
          have : a - k * 2 ^ 52 < 0 := by exact_mod_cast h2
          omega
        have h4 : ((a - k * 2 ^ 52 : ℤ) : ℝ) ≤ -1 := by exact_mod_cast h3
        generalize ((a - k * 2 ^ 52 : ℤ) : ℝ) = z at *
        norm_num at hm
        linarith
      rw [fmod_small hb hu] at hm
      exact ⟨hm, hneg⟩

theorem twentyfour {s : ℝ} (hd : IsDouble s) (h0 : 0 ≤ s) (h1 : s < 1) : R (s * 24) < 24 := by
  have hs := double_lt_one hd h1
  have hle : s * 24 ≤ (1 - 1 / 2 ^ 53) * 24 := by linarith
  have e : R ((1 - 1 / 2 ^ 53) * 24) = 24 - 1 / 2 ^ 48 := by
    refine rnd_eq R (k := 4) ?_ ?_ ?_ ?_
    · have := double_of (m := 24 * 2 ^ 48 - 1) (e := -48) (by norm_num) (by norm_num) (by norm_num)
      norm_num at this ⊢
      exact this
    · rw [abs_of_pos (by norm_num)]
      norm_num
    · refine small_ok' ?_
      rw [abs_of_pos (by norm_num)]
      norm_num
    · rw [abs_lt]
      constructor <;> norm_num
  have := rnd_mono R (small_ok' (x := s * 24) (by rw [abs_le]; constructor <;> linarith)) (small_ok' (by rw [abs_of_pos (by norm_num)]; norm_num)) hle
  rw [e] at this
  refine this.trans_lt ?_
  norm_num

/-- **C71.** In double precision, local times are between 0 and 24 hours, and equal to 24 hours only if `time + phi/360` is less than `2^-52` days before a midnight of
the prime meridian at the epoch; they agree with the exact local time up to `2^-31` hours (modulo 24 hours). -/
theorem C71_local_time {time phi : ℝ} (ht : IsDouble time) (hT : |time| ≤ 131072) (hP : |phi| ≤ 720) :
    0 ≤ localTime R time phi ∧ localTime R time phi ≤ 24 ∧
    (localTime R time phi = 24 → -(1 / 2 ^ 52) < time + phi / 360 ∧ time + phi / 360 < 0) ∧
    ∃ k : ℤ, |localTime R time phi - 24 * (time + phi / 360 - k)| ≤ 1 / 2 ^ 31 := by
  have hp : |phi / 360| ≤ 2 := by
    rw [abs_div, abs_of_pos (by norm_num : (0 : ℝ) < 360), div_le_iff₀ (by norm_num)]
    linarith
  have ep := err_two R hp
  have ep' := abs_le.1 ep
  have hp' := abs_le.1 hp
  have hT' := abs_le.1 hT
  unfold localTime
  have mono_p : 0 ≤ time + phi / 360 → 0 ≤ time + R (phi / 360) := by
    intro h
    have h1 : -time ≤ phi / 360 := by linarith
    have h2 : |-time| ≤ 2 ^ 1000 := small_ok' (by rw [abs_neg]; linarith)
    have := rnd_mono R h2 (small_ok' (hp.trans (by norm_num))) h1
    rw [rnd_double R (double_neg ht) h2] at this
    linarith
  generalize R (phi / 360) = p at *
  norm_num at ep'
  have hs : |time + p| ≤ 262144 := by rw [abs_le]; constructor <;> linarith
  have eu := abs_le.1 (err_18 R hs)
  have ud := (R.nearest _ (small_ok' hs)).1
  have hu0 : R (time + p) < 0 → time + p < 0 := by
    intro h
    by_contra hc
    push Not at hc
    have := rnd_mono R (x := 0) (y := time + p) (by rw [abs_zero]; positivity) (small_ok' hs) hc
    rw [rnd_double R double_zero (by rw [abs_zero]; positivity)] at this
    linarith
  have hu1 : -(1 / 2 ^ 53) < R (time + p) → -(1 / 2 ^ 53) < time + p := by
    intro h
    by_contra hc
    push Not at hc
    have ok : |(-(1 / 2 ^ 53) : ℝ)| ≤ 2 ^ 1000 := small_ok' (by rw [abs_neg, abs_of_pos (by norm_num)]; norm_num)
    have hd : IsDouble (-(1 / 2 ^ 53)) := by
      have := double_of (m := -1) (e := -53) (by norm_num) (by norm_num) (by norm_num)
      norm_num at this ⊢
      exact this
    have := rnd_mono R (small_ok' hs) ok hc
    rw [rnd_double R hd ok] at this
    linarith
  generalize R (time + p) = u at *
  obtain ⟨sd, s0, s1, ⟨k, hk⟩, hone⟩ := remainder_one_facts R ud
  generalize remainder R u 1 = s at *
  have hbt := rnd_between R (x := s * 24) (a := 0) (b := 24) (by norm_num) (by norm_num) (by push_cast; linarith) (by push_cast; linarith)
  push_cast at hbt
  refine ⟨hbt.1, hbt.2, fun h24 => ?_, k, ?_⟩
  · have hs1 : s = 1 := by
      by_contra hc
      have := twentyfour R sd s0 (lt_of_le_of_ne s1 hc)
      linarith
    obtain ⟨a, b⟩ := hone hs1
    have a' := hu1 a
    have b' := hu0 b
    constructor
    · norm_num at a' ⊢
      linarith
    · by_contra hc
      push Not at hc
      linarith [mono_p hc]
  · have eL := rnd_err R (x := s * 24) (k := 5) (by norm_num; rw [abs_of_nonneg s0]; linarith) (by norm_num) (by norm_num)
    have hk' := abs_le.1 hk
    have eL' := abs_le.1 eL
    norm_num at eL' hk' eu
    rw [abs_le]
    norm_num
    constructor <;> linarith

/-- **C71** (finding): the documented interval [0, 24) is not respected: at three hours, the local time at longitude -45.00000000000001 degrees is 24 hours. -/
theorem C71_local_time_24 : localTime R (1 / 8) (-45 - 1 / 2 ^ 47) = 24 := by
  have h1 : R ((-45 - 1 / 2 ^ 47) / 360) = -(1 / 8) - 1 / 2 ^ 55 := by
    refine rnd_eq R (k := -3) ?_ ?_ ?_ ?_
    · have := double_of (m := -(2 ^ 52) - 1) (e := -55) (by norm_num) (by norm_num) (by norm_num)
      norm_num at this ⊢
      exact this
    · rw [abs_of_neg (by norm_num)]
      norm_num
    · refine small_ok' ?_
      rw [abs_of_neg (by norm_num)]
      norm_num
    · rw [abs_lt]
      constructor <;> norm_num
  have h2 : R (1 / 8 + (-(1 / 8) - 1 / 2 ^ 55)) = -(1 / 2 ^ 55) := by
    have e : (1 / 8 + (-(1 / 8) - 1 / 2 ^ 55) : ℝ) = -(1 / 2 ^ 55) := by norm_num
    rw [e]
    refine rnd_double R ?_ (small_ok' (by rw [abs_of_neg (by norm_num)]; norm_num))
    have := double_of (m := -1) (e := -55) (by norm_num) (by norm_num) (by norm_num)
    norm_num at this ⊢
    exact this
  have h3 : remainder R (-(1 / 2 ^ 55)) 1 = 1 := by
    have hf : fmod (-(1 / 2 ^ 55)) 1 = -(1 / 2 ^ 55) := fmod_small one_pos (by rw [abs_of_neg (by norm_num)]; norm_num)
    rcases remainder_cases R (-(1 / 2 ^ 55)) one_pos with ⟨h0, h⟩ | ⟨h0, h⟩
    · rw [hf] at h0
      norm_num at h0
    · rw [h, hf]
      refine rnd_eq R (k := -1) ?_ ?_ ?_ ?_
      · exact double_int (m := 1) (by norm_num) |> fun h => by simpa using h
      · norm_num
      · refine small_ok' ?_
        rw [abs_of_pos (by norm_num)]
        norm_num
      · rw [abs_lt]
        constructor <;> norm_num
  unfold localTime
  rw [h1, h2, h3, one_mul]
  have := rnd_int R (m := 24) (by norm_num)
  push_cast at this
  exact this

/-- The hypotheses of `C71_local_time` hold for this time and longitude. -/
example : IsDouble (1 / 8) ∧ |(1 / 8 : ℝ)| ≤ 131072 ∧ |(-45 - 1 / 2 ^ 47 : ℝ)| ≤ 720 := by
  refine ⟨?_, by rw [abs_of_pos (by norm_num)]; norm_num, by rw [abs_of_neg (by norm_num)]; norm_num⟩
  have := double_of (m := 1) (e := -3) (by norm_num) (by norm_num) (by norm_num)
  norm_num at this ⊢
  exact this

/-! ### Degrees -/

theorem degree_core (N n : ℕ) (h1 : (n + 1) ^ 2 ≤ N) (h2 : N < (n + 2) ^ 2) (hn : n + 2 ≤ 2 ^ 25) : truncZ (R (R (Real.sqrt (R (N : ℝ))) - 1)) = n := by
  have hN : |(N : ℤ)| ≤ 2 ^ 53 := by
    rw [abs_of_nonneg (by positivity)]
    have : (n + 2) ^ 2 ≤ (2 ^ 25) ^ 2 := Nat.pow_le_pow_left hn 2
    have : N ≤ 2 ^ 53 := by omega
    exact_mod_cast this
  have e0 : R (N : ℝ) = N := by
    have := rnd_int R hN
    push_cast at this
    exact this
  rw [e0]
  have hnR : (n : ℝ) + 2 ≤ 2 ^ 25 := by exact_mod_cast hn
  have hn0 : (0 : ℝ) ≤ n := Nat.cast_nonneg n
  have l1 : (n : ℝ) + 1 ≤ Real.sqrt N := by
    apply Real.le_sqrt_of_sq_le
    exact_mod_cast h1
  have l2 : Real.sqrt N ≤ (n : ℝ) + 2 - 1 / 2 ^ 26 := by
    have h3 : (N : ℝ) + 1 ≤ ((n : ℝ) + 2) ^ 2 := by exact_mod_cast h2
    have hsq := Real.sq_sqrt (Nat.cast_nonneg (α := ℝ) N)
    have hs0 := Real.sqrt_nonneg (N : ℝ)
    generalize Real.sqrt (N : ℝ) = s at *
    norm_num at *
    by_contra hc
    push Not at hc
    nlinarith
  have hs0 := Real.sqrt_nonneg (N : ℝ)
  generalize Real.sqrt (N : ℝ) = s at *
  norm_num at hnR l2
  have e1 := rnd_err R (x := s) (k := 25) (by norm_num; rw [abs_of_nonneg hs0]; linarith) (by norm_num) (by norm_num)
  have b1 := rnd_between R (x := s) (a := n + 1) (b := n + 2) (by rw [abs_of_nonneg (by positivity)]; omega) (by rw [abs_of_nonneg (by positivity)]; omega)
    (by push_cast; exact l1) (by push_cast; linarith)
  push_cast at b1
  have e1' := abs_le.1 e1
  norm_num at e1'
  generalize R s = t at *
  have e2 := rnd_err R (x := t - 1) (k := 25) (by norm_num; rw [abs_le]; constructor <;> linarith) (by norm_num) (by norm_num)
  have b2 := rnd_between R (x := t - 1) (a := n) (b := n + 1) (by rw [abs_of_nonneg (by positivity)]; omega) (by rw [abs_of_nonneg (by positivity)]; omega)
    (by push_cast; linarith) (by push_cast; linarith)
  push_cast at b2
  have e2' := abs_le.1 e2
  norm_num at e2'
  generalize R (t - 1) = v at *
  unfold truncZ
  rw [if_pos (by linarith), Int.floor_eq_iff]
  push_cast
  constructor <;> linarith

/-- **C12.** In double precision as well, the degree computed from the number of coefficients is the largest degree `n` with `n (n + 2)` coefficients or fewer,
for all degrees up to 33 million: the rounding of the square root never changes the result. -/
theorem C12_degree_float (dim n : ℕ) (h1 : n * (n + 2) ≤ dim) (h2 : dim < (n + 1) * (n + 3)) (hn : n + 2 ≤ 2 ^ 25) : degreeOf R dim = n :=
  degree_core R (dim + 1) n (by nlinarith) (by nlinarith) hn

/-- **C12.** The same for coefficients of the degrees from `nmin` on: `dim` coefficients of the degrees `nmin` to `n` yield `n`. -/
theorem C12_degree_from_float (nmin n : ℕ) (h : nmin ≤ n) (hn : n + 2 ≤ 2 ^ 25) : degreeFrom R ((n + 1) ^ 2 - nmin ^ 2) nmin = n := by
  have h1 : nmin ^ 2 ≤ (n + 1) ^ 2 := Nat.pow_le_pow_left (by omega) 2
  refine degree_core R _ n (by omega) ?_ hn
  have : (n + 1) ^ 2 < (n + 2) ^ 2 := Nat.pow_lt_pow_left (by omega) (by norm_num)
  omega

end ChaosMagPy.Float
