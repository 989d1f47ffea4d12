import Verif.Model.Time
import Verif.Spec.Time
import Mathlib.Tactic.Linarith
import Mathlib.Tactic.FieldSimp
import Mathlib.Tactic.Ring
import Mathlib.Tactic.IntervalCases
/-! Helper lemmas about the time model. -/
namespace ChaosMagPy.Time
open Spec

theorem isLeap_iff (y : Int) : isLeap y = true ↔ Leap y := by
  simp only [isLeap, Leap, Bool.and_eq_true, Bool.or_eq_true, decide_eq_true_eq]
  omega

theorem npIsLeap_iff (y : Int) : npIsLeap y = true ↔ Leap y := by
  simp only [npIsLeap, Leap, Bool.and_eq_true, Bool.or_eq_true, beq_iff_eq, bne_iff_ne]
  omega

theorem npIsLeap_eq (y : Int) : npIsLeap y = isLeap y := by
  rw [Bool.eq_iff_iff, npIsLeap_iff, isLeap_iff]

/-- Closed form (floor divisions) of the day number of 1 January. -/
def jan1 (y : Int) : Int := 365 * (y - 1970) + (y - 1969) / 4 - (y - 1901) / 100 + (y - 1601) / 400

theorem tdiv_pos_eq (a b : Int) (h : 0 ≤ a) : a.tdiv b = a / b := Int.tdiv_eq_ediv_of_nonneg h

theorem tdiv_neg_eq (a b : Int) (h : a ≤ 0) : a.tdiv b = -((-a) / b) := by
  have : (-(-a)).tdiv b = -((-a).tdiv b) := Int.neg_tdiv _ _
  rw [neg_neg] at this
  rw [this, Int.tdiv_eq_ediv_of_nonneg (by omega)]

theorem npDays_eq (y : Int) (m d : Nat) :
    npDays y m d = jan1 y + ((npMonthLengths (npIsLeap y)).take (m - 1)).sum + (d - 1 : Int) := by
  unfold npDays jan1
  simp only
  split_ifs with h
  · rw [tdiv_pos_eq _ _ (by omega), tdiv_pos_eq _ _ (by omega), tdiv_pos_eq _ _ (by omega)]
    omega
  · rw [tdiv_neg_eq _ _ (by omega), tdiv_neg_eq _ _ (by omega), tdiv_neg_eq _ _ (by omega)]
    omega

theorem jan1_succ (y : Int) : jan1 (y + 1) = jan1 y + if Leap y then 366 else 365 := by
  unfold jan1
  split_ifs with h
  · unfold Leap at h; omega
  · unfold Leap at h; omega

theorem npMonthLengths_get (y : Int) (m : Nat) (h1 : 1 ≤ m) (h2 : m ≤ 12) :
    (npMonthLengths (npIsLeap y)).getD (m - 1) 0 = (monthLength y m : Int) := by
  have hl : npIsLeap y = decide (Leap y) := by
    rw [Bool.eq_iff_iff, npIsLeap_iff]; simp
  rw [hl]
  by_cases h : Leap y
  · simp only [h, decide_true, npMonthLengths, if_true, monthLength]
    interval_cases m <;> simp
  · simp only [h, decide_false, npMonthLengths, Bool.false_eq_true, if_false, monthLength]
    interval_cases m <;> simp

theorem take_sum_succ (y : Int) (m : Nat) (h1 : 1 ≤ m) (h2 : m ≤ 12) :
    ((npMonthLengths (npIsLeap y)).take m).sum =
      ((npMonthLengths (npIsLeap y)).take (m - 1)).sum + monthLength y m := by
  rw [← npMonthLengths_get y m h1 h2]
  have hlen : (npMonthLengths (npIsLeap y)).length = 12 := by
    unfold npMonthLengths; split_ifs <;> rfl
  have hm : m - 1 < (npMonthLengths (npIsLeap y)).length := by omega
  have : m = (m - 1) + 1 := by omega
  conv_lhs => rw [this]
  rw [List.take_add_one, List.sum_append, List.getD_eq_getElem?_getD,
    List.getElem?_eq_getElem hm]
  simp

theorem take12_sum (y : Int) :
    ((npMonthLengths (npIsLeap y)).take 12).sum = if Leap y then 366 else 365 := by
  have hl : npIsLeap y = decide (Leap y) := by
    rw [Bool.eq_iff_iff, npIsLeap_iff]; simp
  rw [hl]
  by_cases h : Leap y <;> simp [h, npMonthLengths]

/-- Day number of a spec date. -/
def dn (d : Date) : Int := npDays d.year d.month d.day

theorem monthLength_pos (y : Int) (m : Nat) : 28 ≤ monthLength y m ∧ monthLength y m ≤ 31 := by
  unfold monthLength; split_ifs <;> omega

theorem dn_next (d : Date) (h : d.Valid) : dn (nextDay d) = dn d + 1 ∧ (nextDay d).Valid := by
  obtain ⟨y, m, dd⟩ := d
  obtain ⟨h1, h2, h3, h4⟩ := h
  simp only at h1 h2 h3 h4
  unfold nextDay
  simp only
  split_ifs with ha hb
  · refine ⟨?_, h1, h2, by simp, Nat.succ_le_of_lt ha⟩
    simp only [dn, npDays_eq]; push_cast; ring
  · refine ⟨?_, by simp, Nat.succ_le_of_lt hb, le_refl _, ?_⟩
    · simp only [dn, npDays_eq]
      have e : m + 1 - 1 = m := by omega
      rw [e, take_sum_succ y m h1 h2]
      have : dd = monthLength y m := by omega
      rw [this]; push_cast; ring
    · simp only; have := (monthLength_pos y (m + 1)).1; omega
  · refine ⟨?_, le_refl _, by simp, le_refl _, ?_⟩
    · have hm : m = 12 := by omega
      subst hm
      have hd : dd = monthLength y 12 := by omega
      have e := take_sum_succ y 12 (by norm_num) (by norm_num)
      rw [take12_sum] at e
      simp only [dn, npDays_eq]
      rw [jan1_succ, hd, e]
      simp
      ring
    · simp only; have := (monthLength_pos (y + 1) 1).1; omega

theorem dn_iterate (n : Nat) (d : Date) (h : d.Valid) :
    dn (nextDay^[n] d) = dn d + n ∧ (nextDay^[n] d).Valid := by
  induction n generalizing d with
  | zero => simp [h]
  | succ n ih =>
    obtain ⟨h1, h2⟩ := dn_next d h
    obtain ⟨h3, h4⟩ := ih _ h2
    rw [Function.iterate_succ_apply]
    refine ⟨?_, h4⟩
    rw [h3, h1]; push_cast; ring

/-- The day before. -/
def prevDay (d : Date) : Date :=
  if 1 < d.day then ⟨d.year, d.month, d.day - 1⟩
  else if 1 < d.month then ⟨d.year, d.month - 1, monthLength d.year (d.month - 1)⟩
  else ⟨d.year - 1, 12, 31⟩

theorem next_prev (d : Date) (h : d.Valid) : nextDay (prevDay d) = d ∧ (prevDay d).Valid := by
  obtain ⟨y, m, dd⟩ := d
  obtain ⟨h1, h2, h3, h4⟩ := h
  simp only at h1 h2 h3 h4
  unfold prevDay
  simp only
  split_ifs with ha hb
  · refine ⟨?_, h1, h2, by simp; omega, by simp; omega⟩
    unfold nextDay
    have : dd - 1 < monthLength y m := by omega
    simp only [this, if_true]
    congr 1; omega
  · refine ⟨?_, by simp; omega, by simp; omega, ?_, le_refl _⟩
    · unfold nextDay
      have : m - 1 < 12 := by omega
      simp only [lt_irrefl, if_false, this, if_true]
      congr 1 <;> omega
    · have := (monthLength_pos y (m - 1)).1; simp only; omega
  · refine ⟨?_, by simp, by simp, by simp, by simp [monthLength]⟩
    unfold nextDay
    simp only [monthLength]
    norm_num
    constructor <;> omega

theorem dn_prev (d : Date) (h : d.Valid) : dn (prevDay d) = dn d - 1 := by
  obtain ⟨h1, h2⟩ := next_prev d h
  have := (dn_next _ h2).1
  rw [h1] at this; omega

theorem jan1_mono_lt {y z : Int} (h : y < z) : jan1 y + 365 ≤ jan1 z := by
  unfold jan1; omega

theorem jan1_le_iff {y z : Int} : jan1 y ≤ jan1 z ↔ y ≤ z := by
  constructor
  · intro h; by_contra hc
    have := jan1_mono_lt (lt_of_not_ge hc); omega
  · intro h
    rcases lt_or_eq_of_le h with h | rfl
    · have := jan1_mono_lt h; omega
    · exact le_refl _

theorem dn_bounds (d : Date) (h : d.Valid) : jan1 d.year ≤ dn d ∧ dn d < jan1 (d.year + 1) := by
  obtain ⟨y, m, dd⟩ := d
  obtain ⟨h1, h2, h3, h4⟩ := h
  simp only at h1 h2 h3 h4
  simp only [dn, npDays_eq]
  rw [jan1_succ]
  have hl : npIsLeap y = decide (Leap y) := by
    rw [Bool.eq_iff_iff, npIsLeap_iff]; simp
  rw [hl]
  by_cases h : Leap y
  · simp only [h, decide_true, npMonthLengths, if_true, monthLength] at h4 ⊢
    interval_cases m <;> simp at h4 ⊢ <;> omega
  · simp only [h, decide_false, npMonthLengths, Bool.false_eq_true, if_false, monthLength] at h4 ⊢
    interval_cases m <;> simp at h4 ⊢ <;> omega

/-- Equal day numbers, equal dates. -/
theorem dn_injective (a b : Date) (ha : a.Valid) (hb : b.Valid) (h : dn a = dn b) : a = b := by
  have hy : a.year = b.year := by
    have h1 := dn_bounds a ha
    have h2 := dn_bounds b hb
    by_contra hne
    rcases lt_or_gt_of_ne hne with hlt | hlt
    · have : jan1 (a.year + 1) ≤ jan1 b.year := jan1_le_iff.2 hlt
      omega
    · have : jan1 (b.year + 1) ≤ jan1 a.year := jan1_le_iff.2 hlt
      omega
  obtain ⟨y, m, dd⟩ := a
  obtain ⟨y', m', dd'⟩ := b
  simp only at hy
  subst hy
  obtain ⟨h1, h2, h3, h4⟩ := ha
  obtain ⟨g1, g2, g3, g4⟩ := hb
  simp only at h1 h2 h3 h4 g1 g2 g3 g4
  simp only [dn, npDays_eq] at h
  -- strictly increasing partial sums of month lengths
  have mono : ∀ m m' : Nat, 1 ≤ m → m < m' → m' ≤ 12 →
      ((npMonthLengths (npIsLeap y)).take (m - 1)).sum + monthLength y m ≤
        ((npMonthLengths (npIsLeap y)).take (m' - 1)).sum := by
    intro m m' hm hlt hle
    induction m' with
    | zero => omega
    | succ k ih =>
      have e : k + 1 - 1 = k := by omega
      rw [e]
      rw [take_sum_succ y k (by omega) (by omega)]
      rcases Nat.lt_or_ge m k with hk | hk
      · have := ih hk (by omega)
        have := (monthLength_pos y k).1
        omega
      · have : m = k := by omega
        subst this; exact le_refl _
  have hm : m = m' := by
    by_contra hne
    rcases lt_or_gt_of_ne hne with hlt | hlt
    · have := mono m m' h1 hlt g2; omega
    · have := mono m' m g1 hlt h2; omega
  subst hm
  have : dd = dd' := by omega
  rw [this]

theorem epoch_valid : epoch.Valid := by
  refine ⟨le_refl _, by decide, le_refl _, ?_⟩
  decide

theorem dn_epoch : dn epoch = 10957 := by decide

theorem daysFromEpoch_iff (d : Date) (h : d.Valid) (n : Int) :
    DaysFromEpoch d n ↔ n = dn d - dn epoch := by
  constructor
  · rintro (⟨h0, rfl⟩ | ⟨h0, hn⟩)
    · have := (dn_iterate n.toNat epoch epoch_valid).1
      rw [this]; omega
    · have := (dn_iterate (-n).toNat d h).1
      rw [hn] at this; omega
  · intro hn
    rcases le_total 0 n with h0 | h0
    · left
      refine ⟨h0, ?_⟩
      have := dn_iterate n.toNat epoch epoch_valid
      exact dn_injective _ _ this.2 h (by omega)
    · right
      refine ⟨h0, ?_⟩
      have := dn_iterate (-n).toNat d h
      exact dn_injective _ _ this.2 epoch_valid (by omega)

/-! ### 64-bit arithmetic -/

theorem wrap64_emod (x : Int) : (wrap64 x) % 2^64 = x % 2^64 := by
  unfold wrap64; omega

theorem wrap64_of_range {x : Int} (h1 : -2^63 ≤ x) (h2 : x < 2^63) : wrap64 x = x := by
  unfold wrap64; omega

theorem wrap64_range (x : Int) : -2^63 ≤ wrap64 x ∧ wrap64 x < 2^63 := by
  unfold wrap64; omega

theorem wrap64_congr {x y : Int} (h : x % 2^64 = y % 2^64) : wrap64 x = wrap64 y := by
  unfold wrap64; omega

theorem wrap64_add (x y : Int) : wrap64 (wrap64 x + wrap64 y) = wrap64 (x + y) := by
  apply wrap64_congr
  have := wrap64_emod x
  have := wrap64_emod y
  omega

theorem wrap64_sub (x y : Int) : wrap64 (wrap64 x - wrap64 y) = wrap64 (x - y) := by
  apply wrap64_congr
  have := wrap64_emod x
  have := wrap64_emod y
  omega

theorem wrap64_wrap64 (x : Int) : wrap64 (wrap64 x) = wrap64 x := by
  apply wrap64_congr; exact wrap64_emod x

theorem npDays_epoch : npDays 2000 1 1 = 10957 := dn_epoch

theorem epochNs_eq : epochNs = 946684800000000000 := by
  unfold epochNs; rw [npDays_epoch]; rfl

/-! ### `days_to_yearsdays` is the inverse of the day number of 1 January -/

theorem npYearOfDays_spec (d : Int) :
    jan1 (npYearOfDays d) ≤ d ∧ d < jan1 (npYearOfDays d + 1) := by
  unfold npYearOfDays
  -- floor quotient and remainder by 400-year cycles
  obtain ⟨q, r, hd, hr0, hr1⟩ : ∃ q r : Int, d - (365 * 30 + 7) = 146097 * q + r ∧ 0 ≤ r ∧
      r < 146097 := ⟨(d - (365 * 30 + 7)) / 146097, (d - (365 * 30 + 7)) % 146097, by omega, by omega,
        by omega⟩
  have hy1 : (if d - (365 * 30 + 7) ≥ 0 then 400 * (d - (365 * 30 + 7)).tdiv (400 * 365 + 100 - 4 + 1)
      else 400 * (d - (365 * 30 + 7) - ((400 * 365 + 100 - 4 + 1) - 1)).tdiv (400 * 365 + 100 - 4 + 1))
      = 400 * q := by
    split_ifs with h
    · rw [tdiv_pos_eq _ _ h]; omega
    · rw [tdiv_neg_eq _ _ (by omega)]; omega
  have hd1 : (if d - (365 * 30 + 7) ≥ 0 then (d - (365 * 30 + 7)).tmod (400 * 365 + 100 - 4 + 1)
      else if (d - (365 * 30 + 7)).tmod (400 * 365 + 100 - 4 + 1) < 0 then
        (d - (365 * 30 + 7)).tmod (400 * 365 + 100 - 4 + 1) + (400 * 365 + 100 - 4 + 1)
      else (d - (365 * 30 + 7)).tmod (400 * 365 + 100 - 4 + 1)) = r := by
    split_ifs with h h'
    · rw [Int.tmod_eq_emod_of_nonneg h]; omega
    · rw [Int.tmod_def, tdiv_neg_eq _ _ (by omega)] at h' ⊢; omega
    · rw [Int.tmod_def, tdiv_neg_eq _ _ (by omega)] at h' ⊢; omega
  simp only [hy1, hd1]
  have hds : d = 146097 * q + r + 10957 := by omega
  clear hy1 hd1 hd
  have hj : ∀ x : Int, jan1 (400 * q + x + 2000) = 10957 + 146097 * q + 365 * x + (x + 3) / 4 -
      (x + 99) / 100 + (x + 399) / 400 := by
    intro x; unfold jan1; omega
  by_cases h1 : r ≥ 366
  · rw [if_pos h1]
    obtain ⟨a, s, hs, hs0, hs1⟩ : ∃ a s : Int, r - 1 = 36524 * a + s ∧ 0 ≤ s ∧ s < 36524 :=
      ⟨(r - 1) / 36524, (r - 1) % 36524, by omega, by omega, by omega⟩
    have ea : (r - 1).tdiv (100 * 365 + 25 - 1) = a := by
      rw [tdiv_pos_eq _ _ (by omega)]; omega
    have es : (r - 1).tmod (100 * 365 + 25 - 1) = s := by
      rw [Int.tmod_eq_emod_of_nonneg (by omega)]; omega
    have ha : 0 ≤ a ∧ a ≤ 3 := by omega
    simp only [ea, es]
    clear ea es
    by_cases h2 : s ≥ 365
    · rw [if_pos h2]
      obtain ⟨b, t, ht, ht0, ht1⟩ : ∃ b t : Int, s + 1 = 1461 * b + t ∧ 0 ≤ t ∧ t < 1461 :=
        ⟨(s + 1) / 1461, (s + 1) % 1461, by omega, by omega, by omega⟩
      have eb : (s + 1).tdiv (4 * 365 + 1) = b := by
        rw [tdiv_pos_eq _ _ (by omega)]; omega
      have et : (s + 1).tmod (4 * 365 + 1) = t := by
        rw [Int.tmod_eq_emod_of_nonneg (by omega)]; omega
      have hb : 0 ≤ b ∧ b ≤ 24 := by omega
      simp only [eb, et]
      clear eb et
      by_cases h3 : t ≥ 366
      · rw [if_pos h3]
        obtain ⟨g, u, hu, hu0, hu1⟩ : ∃ g u : Int, t - 1 = 365 * g + u ∧ 0 ≤ u ∧ u < 365 :=
          ⟨(t - 1) / 365, (t - 1) % 365, by omega, by omega, by omega⟩
        have eg : (t - 1).tdiv 365 = g := by
          rw [tdiv_pos_eq _ _ (by omega)]; omega
        have hg : 1 ≤ g ∧ g ≤ 3 := by omega
        rw [eg]
        have e1 : 400 * q + 100 * a + 4 * b + g + 2000 = 400 * q + (100 * a + 4 * b + g) + 2000 := by
          ring
        have e2 : 400 * q + 100 * a + 4 * b + g + 2000 + 1
            = 400 * q + (100 * a + 4 * b + g + 1) + 2000 := by ring
        rw [e2, e1, hj, hj]
        have k1 : (100 * a + 4 * b + g + 3) / 4 = 25 * a + b + 1 := by omega
        have k2 : (100 * a + 4 * b + g + 99) / 100 = a + 1 := by omega
        have k3 : (100 * a + 4 * b + g + 399) / 400 = 1 := by omega
        have k4 : (100 * a + 4 * b + g + 1 + 3) / 4 = 25 * a + b + 1 := by omega
        have k5 : (100 * a + 4 * b + g + 1 + 99) / 100 = a + 1 := by omega
        have k6 : (100 * a + 4 * b + g + 1 + 399) / 400 = 1 := by omega
        rw [k1, k2, k3, k4, k5, k6]
        omega
      · rw [if_neg h3]
        have e1 : 400 * q + 100 * a + 4 * b + 2000 = 400 * q + (100 * a + 4 * b) + 2000 := by
          ring
        have e2 : 400 * q + 100 * a + 4 * b + 2000 + 1
            = 400 * q + (100 * a + 4 * b + 1) + 2000 := by ring
        rw [e2, e1, hj, hj]
        have hb1 : 1 ≤ b := by omega
        have k1 : (100 * a + 4 * b + 3) / 4 = 25 * a + b := by omega
        have k2 : (100 * a + 4 * b + 99) / 100 = a + 1 := by omega
        have k3 : (100 * a + 4 * b + 399) / 400 = 1 := by omega
        have k4 : (100 * a + 4 * b + 1 + 3) / 4 = 25 * a + b + 1 := by omega
        have k5 : (100 * a + 4 * b + 1 + 99) / 100 = a + 1 := by omega
        have k6 : (100 * a + 4 * b + 1 + 399) / 400 = 1 := by omega
        rw [k1, k2, k3, k4, k5, k6]
        omega
    · rw [if_neg h2]
      have e1 : 400 * q + 100 * a + 2000 = 400 * q + (100 * a) + 2000 := by ring
      have e2 : 400 * q + 100 * a + 2000 + 1 = 400 * q + (100 * a + 1) + 2000 := by ring
      rw [e2, e1, hj, hj]
      omega
  · rw [if_neg h1]
    have e1 : 400 * q + 2000 = 400 * q + 0 + 2000 := by ring
    have e2 : 400 * q + 2000 + 1 = 400 * q + 1 + 2000 := by ring
    rw [e2, e1, hj, hj]
    omega

/-- The year is determined by the bracketing 1 January dates. -/
theorem year_unique {y z d : Int} (h1 : jan1 y ≤ d) (h2 : d < jan1 (y + 1)) (h3 : jan1 z ≤ d)
    (h4 : d < jan1 (z + 1)) : y = z := by
  by_contra hne
  rcases lt_or_gt_of_ne hne with hlt | hlt
  · have : jan1 (y + 1) ≤ jan1 z := jan1_le_iff.2 hlt
    omega
  · have : jan1 (z + 1) ≤ jan1 y := jan1_le_iff.2 hlt
    omega

end ChaosMagPy.Time
