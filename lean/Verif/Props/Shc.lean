import Verif.Lemmas.ShcText
import Verif.Props.Time
import Verif.Props.Index
/-!
# C13: shc-files
-/
namespace ChaosMagPy.Shc
open ChaosMagPy.Time
open ChaosMagPy.Index
open ChaosMagPy.Spec (gaussPos)

section
variable {K : Type} [Field K] [LinearOrder K] [IsStrictOrderedRing K] [FloorRing K]

/-- `y` is `x` rounded to eight decimals. -/
def IsRound8 (x y : K) : Prop := (∃ z : ℤ, y = z / 10 ^ 8) ∧ |y - x| ≤ 1 / (2 * 10 ^ 8)

theorem r8_isRound8 (x : K) : IsRound8 x (r8 x) := by
  have hn := roundEven_nonneg (|x| * 10 ^ 8) (by positivity)
  have hnear := roundEven_near (|x| * 10 ^ 8)
  obtain ⟨r, hr⟩ : ∃ r : ℕ, roundEven (|x| * 10 ^ 8) = r := ⟨_, (Int.toNat_of_nonneg hn).symm⟩
  unfold r8
  rw [hr] at hnear ⊢
  rw [Int.toNat_natCast]
  rw [Int.cast_natCast] at hnear
  have key : |(r : K) / 10 ^ 8 - (|x|)| ≤ 1 / (2 * 10 ^ 8) := by
    have : (r : K) / 10 ^ 8 - |x| = ((r : K) - |x| * 10 ^ 8) / 10 ^ 8 := by field_simp
    rw [this, abs_div, abs_of_pos (by positivity : (0 : K) < 10 ^ 8), div_le_div_iff₀ (by positivity) (by positivity)]
    generalize |(r : K) - |x| * 10 ^ 8| = d at hnear
    norm_num
    linarith
  split_ifs with h
  · refine ⟨⟨-r, by push_cast; ring⟩, ?_⟩
    rw [abs_of_neg h] at key
    have : (-1 : K) * (r : K) / 10 ^ 8 - x = -((r : K) / 10 ^ 8 - -x) := by ring
    rw [this, abs_neg]
    exact key
  · refine ⟨⟨r, by push_cast; ring⟩, ?_⟩
    rw [abs_of_nonneg (not_lt.1 h)] at key
    rw [one_mul]
    exact key

/-- Numbers with at most eight decimals are not changed by rounding. -/
theorem IsRound8.exact {x y : K} (h : IsRound8 x y) (z : ℤ) (hz : x = z / 10 ^ 8) : y = x := by
  obtain ⟨⟨w, hw⟩, hd⟩ := h
  subst hz hw
  have e : (w : K) / 10 ^ 8 - z / 10 ^ 8 = ((w - z : ℤ) : K) / 10 ^ 8 := by push_cast; ring
  rw [e, abs_div, abs_of_pos (by positivity : (0 : K) < 10 ^ 8), div_le_div_iff₀ (by positivity) (by positivity)] at hd
  have h2 : |((w - z : ℤ) : K)| < 1 := by nlinarith
  rw [← Int.cast_abs] at h2
  have h3 : |w - z| < 1 := by exact_mod_cast h2
  have : w = z := by have := Int.abs_lt_one_iff.1 h3; omega
  rw [this]

/-! ### times -/

/-- Formula of `dyear_to_mjd` also for the year 2292. -/
theorem dyearToMjd_eq' (x : K) (hx : 1708 ≤ ⌊x⌋ ∧ ⌊x⌋ ≤ 2292) :
    dyearToMjd true x = .ok (((jan1 ⌊x⌋ - 10957 : Int) : K) + Int.fract x * yl K ⌊x⌋) := by
  unfold dyearToMjd
  simp only [if_true]
  rw [mjd2000_jan1 ⌊x⌋ hx]
  simp only [yl]

theorem yl_le (y : Int) : yl K y ≤ 366 := by unfold yl; split_ifs <;> norm_num

theorem dyear_lip (x z : K) (h1 : x ≤ z) (h2 : z < x + 1) :
    0 ≤ (((jan1 ⌊z⌋ - 10957 : Int) : K) + Int.fract z * yl K ⌊z⌋) - (((jan1 ⌊x⌋ - 10957 : Int) : K) + Int.fract x * yl K ⌊x⌋) ∧
    (((jan1 ⌊z⌋ - 10957 : Int) : K) + Int.fract z * yl K ⌊z⌋) - (((jan1 ⌊x⌋ - 10957 : Int) : K) + Int.fract x * yl K ⌊x⌋) ≤ 366 * (z - x) := by
  have hx := Int.floor_add_fract x
  have hz := Int.floor_add_fract z
  have hx0 := Int.fract_nonneg x
  have hz0 := Int.fract_nonneg z
  have hx1 := Int.fract_lt_one x
  have hfl : ⌊x⌋ ≤ ⌊z⌋ := Int.floor_le_floor h1
  have hfu : ⌊z⌋ ≤ ⌊x⌋ + 1 := by
    have : ⌊z⌋ ≤ ⌊x + 1⌋ := Int.floor_le_floor h2.le
    rwa [Int.floor_add_one] at this
  rcases eq_or_lt_of_le hfl with he | he
  · rw [← he] at hz ⊢
    have hp := yl_pos (K := K) ⌊x⌋
    have hl := yl_le (K := K) ⌊x⌋
    have hd : Int.fract z - Int.fract x = z - x := by linarith
    have hd0 : 0 ≤ z - x := by linarith
    constructor <;> nlinarith
  · have e : ⌊z⌋ = ⌊x⌋ + 1 := by omega
    rw [e] at hz ⊢
    rw [yl_eq]
    have hp := yl_pos (K := K) ⌊x⌋
    have hl := yl_le (K := K) ⌊x⌋
    have hp' := yl_pos (K := K) (⌊x⌋ + 1)
    have hl' := yl_le (K := K) (⌊x⌋ + 1)
    push_cast at hz
    have hd : z - x = Int.fract z + (1 - Int.fract x) := by linarith
    have h3 : 0 ≤ 1 - Int.fract x := by linarith
    rw [hd]
    constructor <;> nlinarith

/-- The times within which decimal years are converted exactly. -/
def InWindow (leap : Bool) (t : K) : Prop :=
  leap = true → ∃ a b : K, mjd2000 K 1708 = .ok a ∧ mjd2000 K 2292 = .ok b ∧ a ≤ t ∧ t < b

/-- `t'` is what comes back when the time `t` is stored as decimal year with eight decimals: within
`1.83e-6` days (0.16 seconds), and exactly `t` if the decimal year has at most eight decimals. -/
def TimeBack (leap : Bool) (t t' : K) : Prop :=
  |t' - t| ≤ 366 / (2 * 10 ^ 8) ∧
  ∀ (y : K) (z : ℤ), mjdToDyear leap t = .ok y → y = z / 10 ^ 8 → t' = t

theorem dyear_range (t x : K) (a b : K) (ha : mjd2000 K 1708 = .ok a) (hb : mjd2000 K 2292 = .ok b)
    (hab : a ≤ t ∧ t < b) (hx : mjdToDyear true t = .ok x) : 1708 ≤ x ∧ x < 2292 := by
  have ha' : (1708 : K) = ((1708 : Int) : K) := by norm_num
  have hst := C10_year_start (K := K) 1708 ⟨le_rfl, by norm_num⟩
  obtain ⟨t0, e1, e2, e3⟩ := hst
  rw [ha] at e1
  injection e1 with e1
  subst e1
  have hs := npYearOfDays_spec (⌊t⌋ + 10957)
  obtain ⟨y, hyd⟩ : ∃ y, y = npYearOfDays (⌊t⌋ + 10957) := ⟨_, rfl⟩
  rw [← hyd] at hs
  rw [show (mjd2000 K 1708 : Except Err K) = mjd2000 K 1708 1 1 from rfl, mjd2000_jan1 1708 (by omega)] at ha
  rw [show (mjd2000 K 2292 : Except Err K) = mjd2000 K 2292 1 1 from rfl, mjd2000_jan1 2292 (by omega)] at hb
  injection ha with ha
  injection hb with hb
  have h1 : jan1 1708 - 10957 ≤ ⌊t⌋ := Int.le_floor.2 (by rw [ha]; exact hab.1)
  have h2 : ⌊t⌋ < jan1 2292 - 10957 := Int.floor_lt.2 (by rw [hb]; exact hab.2)
  have hy1 : 1708 ≤ y := by
    by_contra hc
    have := jan1_le_iff.2 (show y + 1 ≤ 1708 by omega)
    omega
  have hy2 : y ≤ 2291 := by
    by_contra hc
    have := jan1_le_iff.2 (show 2292 ≤ y by omega)
    omega
  have l1 : ((jan1 y - 10957 : Int) : K) ≤ t := Int.le_floor.1 (by omega)
  have l2 : t < ((jan1 (y + 1) - 10957 : Int) : K) := Int.floor_lt.1 (by omega)
  rw [mjdToDyear_eq t y ⟨hy1, hy2⟩ l1 l2] at hx
  injection hx with hx
  have hp := yl_pos (K := K) y
  rw [yl_eq] at l2
  have q0 : 0 ≤ (t - ((jan1 y - 10957 : Int) : K)) / yl K y := div_nonneg (by linarith) hp.le
  have q1 : (t - ((jan1 y - 10957 : Int) : K)) / yl K y < 1 := by rw [div_lt_one hp]; linarith
  have c1 : (1708 : K) ≤ (y : K) := by exact_mod_cast hy1
  have c2 : (y : K) ≤ 2291 := by exact_mod_cast hy2
  rw [← hx]
  constructor <;> linarith

theorem time_back (leap : Bool) (t : K) (h : InWindow leap t) :
    ∃ y t', mjdToDyear leap t = .ok y ∧ dyearToMjd leap (r8 y) = .ok t' ∧ TimeBack leap t t' := by
  cases leap with
  | false =>
    refine ⟨_, _, rfl, rfl, ?_, ?_⟩
    · have hr := (r8_isRound8 (t / 365.25 + 2000)).2
      have e : (r8 (t / 365.25 + 2000) - 2000) * 365.25 - t = (r8 (t / 365.25 + 2000) - (t / 365.25 + 2000)) * 365.25 := by
        have : (365.25 : K) ≠ 0 := by norm_num
        field_simp
        ring
      rw [e, abs_mul, abs_of_pos (by norm_num : (0 : K) < 365.25)]
      calc _ ≤ 1 / (2 * 10 ^ 8) * (365.25 : K) := mul_le_mul_of_nonneg_right hr (by norm_num)
        _ ≤ _ := by norm_num
    · intro y z hy hz
      have hy' : t / 365.25 + 2000 = y := by
        simp only [mjdToDyear, Bool.false_eq_true, if_false, Except.ok.injEq] at hy
        exact hy
      rw [hy', (r8_isRound8 y).exact z hz, ← hy']
      have : (365.25 : K) ≠ 0 := by norm_num
      field_simp
      ring
  | true =>
    obtain ⟨a, b, ha, hb, h1, h2⟩ := h rfl
    obtain ⟨y, hy, hback⟩ := C09_mjd_roundtrip t a b ha hb ⟨h1, h2⟩
    have hyr := dyear_range t y a b ha hb ⟨h1, h2⟩ hy
    obtain ⟨⟨w, hw⟩, hd⟩ := r8_isRound8 y
    have hd' := abs_le.1 hd
    have hw1 : 1708 * 10 ^ 8 ≤ w := by
      have : (1708 : K) - 1 / (2 * 10 ^ 8) ≤ (w : K) / 10 ^ 8 := by rw [← hw]; linarith
      have h3 : ((1708 * 10 ^ 8 - 1 : Int) : K) < (w : K) := by
        rw [le_div_iff₀ (by positivity)] at this
        push_cast
        norm_num at this ⊢
        linarith
      have : (1708 * 10 ^ 8 - 1 : Int) < w := by exact_mod_cast h3
      omega
    have hw2 : w ≤ 2292 * 10 ^ 8 := by
      have : (w : K) / 10 ^ 8 ≤ (2292 : K) + 1 / (2 * 10 ^ 8) := by rw [← hw]; linarith
      have h3 : (w : K) < ((2292 * 10 ^ 8 + 1 : Int) : K) := by
        rw [div_le_iff₀ (by positivity)] at this
        push_cast
        norm_num at this ⊢
        linarith
      have : w < (2292 * 10 ^ 8 + 1 : Int) := by exact_mod_cast h3
      omega
    have hz1 : (1708 : K) ≤ r8 y := by
      rw [hw, le_div_iff₀ (by positivity)]; exact_mod_cast hw1
    have hz2 : r8 y ≤ 2292 := by
      rw [hw, div_le_iff₀ (by positivity)]; exact_mod_cast hw2
    have f1 : 1708 ≤ ⌊r8 y⌋ := Int.le_floor.2 (by exact_mod_cast hz1)
    have f2 : ⌊r8 y⌋ ≤ 2292 := by
      have : ⌊r8 y⌋ < 2293 := Int.floor_lt.2 (by push_cast; linarith)
      omega
    have g1 : 1708 ≤ ⌊y⌋ := Int.le_floor.2 (by exact_mod_cast hyr.1)
    have g2 : ⌊y⌋ ≤ 2292 := by
      have : ⌊y⌋ < 2293 := Int.floor_lt.2 (by push_cast; linarith)
      omega
    have d1 := dyearToMjd_eq' (r8 y) ⟨f1, f2⟩
    have d2 := dyearToMjd_eq' y ⟨g1, g2⟩
    rw [hback] at d2
    injection d2 with d2
    refine ⟨y, _, hy, d1, ?_, ?_⟩
    · have small : (1 : K) / (2 * 10 ^ 8) < 1 := by norm_num
      rcases le_total y (r8 y) with hle | hle
      · have := dyear_lip y (r8 y) hle (by linarith)
        rw [← d2] at this
        rw [abs_le]
        constructor
        · have : (0 : K) ≤ 366 / (2 * 10 ^ 8) := by positivity
          linarith
        · have e : (366 : K) / (2 * 10 ^ 8) = 366 * (1 / (2 * 10 ^ 8)) := by ring
          rw [e]
          linarith
      · have := dyear_lip (r8 y) y hle (by linarith)
        rw [← d2] at this
        rw [abs_le]
        constructor
        · have e : (366 : K) / (2 * 10 ^ 8) = 366 * (1 / (2 * 10 ^ 8)) := by ring
          rw [e]
          linarith
        · have : (0 : K) ≤ 366 / (2 * 10 ^ 8) := by positivity
          linarith
    · intro y' z hy' hz
      rw [hy] at hy'
      injection hy' with hy'
      subst hy'
      rw [(r8_isRound8 y).exact z hz, ← d2]

/-! ### the text -/

/-- A number as right-aligned field. -/
def asField (x : K) : ℕ × List Char := (16 - (fixed8 x).length, fixed8 x)

theorem flatMap_field {α : Type} (l : List α) (v : α → K) :
    l.flatMap (fun x => field (v x)) = fieldsText (l.map fun x => asField (v x)) := by
  unfold fieldsText field asField
  rw [List.flatMap_map]

theorem fieldsText_no_newline (fs : List (ℕ × List Char)) (h : ∀ f ∈ fs, IsToken f.2) : '\n' ∉ fieldsText fs := by
  intro hc
  unfold fieldsText at hc
  rw [List.mem_flatMap] at hc
  obtain ⟨f, hf, hc⟩ := hc
  rw [List.mem_cons, List.mem_append, List.mem_replicate] at hc
  rcases hc with hc | hc | hc
  · exact absurd hc (by decide)
  · exact absurd hc.2 (by decide)
  · have := (h f hf).2 _ hc
    exact absurd this (by decide)

theorem token_no_newline (t : List Char) (h : IsToken t) : '\n' ∉ t := by
  intro hc
  exact absurd (h.2 _ hc) (by decide)

theorem asField_token {α : Type} (l : List α) (v : α → K) : ∀ f ∈ l.map (fun x => asField (v x)), IsToken f.2 := by
  intro f hf
  rw [List.mem_map] at hf
  obtain ⟨x, _, rfl⟩ := hf
  exact fixed8_token _

theorem fromstring_fields {α : Type} (l : List α) (v : α → K) :
    fromstring (K := K) (fieldsText (l.map fun x => asField (v x))) = l.map fun x => r8 (v x) := by
  unfold fromstring
  rw [(tokensGo_fields _ (asField_token l v)).1, List.map_map]
  exact parseAll_some l _ _ (fun x _ => parseNum_fixed8 (v x))

theorem isComment_token (t s : List Char) (h : IsToken t) (hh : ∀ u, t ≠ '#' :: u) : isComment (t ++ s) = false := by
  unfold isComment
  cases t with
  | nil => exact absurd rfl h.1
  | cons c t =>
    rw [List.cons_append, List.dropWhile_cons, if_neg (by rw [h.2 c List.mem_cons_self]; simp)]
    split
    · rename_i u heq
      injection heq with h1 h2
      subst h1
      exact absurd rfl (hh t)
    · rfl

theorem isComment_spaces (k : ℕ) (s : List Char) : isComment (List.replicate k ' ' ++ s) = isComment s := by
  induction k with
  | zero => rfl
  | succ k ih =>
    unfold isComment at ih ⊢
    rw [List.replicate_succ, List.cons_append, List.dropWhile_cons, if_pos (by decide)]
    exact ih

theorem hash_not_digit : isDigit '#' = false := by decide

theorem natStr_ne_hash (n : ℕ) (u : List Char) : natStr n ≠ '#' :: u := by
  intro h
  have := (natStr_spec n).2.1 '#' (by rw [h]; exact List.mem_cons_self)
  rw [hash_not_digit] at this
  cases this

theorem intStr_ne_hash (z : ℤ) (u : List Char) : intStr z ≠ '#' :: u := by
  unfold intStr
  split_ifs
  · intro h
    injection h with h1
    exact absurd h1 (by decide)
  · exact natStr_ne_hash _ u

theorem fixed8_ne_hash (x : K) (u : List Char) : fixed8 x ≠ '#' :: u := by
  unfold fixed8
  simp only
  split_ifs
  · intro h
    injection h with h1
    exact absurd h1 (by decide)
  · intro h
    obtain ⟨c, t, e, hc⟩ := natStr_head ((roundEven (|x| * 10 ^ 8)).toNat / 10 ^ 8) ('.' :: padDigits 8 ((roundEven (|x| * 10 ^ 8)).toNat % 10 ^ 8))
    rw [e] at h
    injection h with h1
    rw [h1, hash_not_digit] at hc
    cases hc

theorem isComment_fields {α : Type} (l : List α) (v : α → K) :
    isComment (fieldsText (l.map fun x => asField (v x))) = false := by
  cases l with
  | nil => rfl
  | cons a l =>
    have : fieldsText ((a :: l).map fun x => asField (v x)) =
        List.replicate ((asField (v a)).1 + 1) ' ' ++ (fixed8 (v a) ++ fieldsText (l.map fun x => asField (v x))) := by
      simp [fieldsText, List.replicate_succ, asField]
    rw [this, isComment_spaces]
    exact isComment_token _ _ (fixed8_token _) (fixed8_ne_hash _)

/-! ### reading the rows -/

theorem loadLine_data (v : List ℤ) (data : List K) (line : List Char) (h : isComment line = false) :
    loadLine (K := K) ⟨some v, data⟩ line = ⟨some v, data ++ fromstring line⟩ := by
  simp [loadLine, h]

theorem loadLine_comments (L : List (List Char)) (s : LoadState K) (h : ∀ l ∈ L, isComment l = true) :
    L.foldl loadLine s = s := by
  induction L with
  | nil => rfl
  | cons l L ih =>
    rw [List.foldl_cons]
    have : loadLine s l = s := by simp [loadLine, h l List.mem_cons_self]
    rw [this, ih (fun x hx => h x (List.mem_cons_of_mem _ hx))]

/-- The numbers on one row of the table. -/
def rowNums (c : Arr K) (l : (ℕ × ℤ) × ℕ) : List K :=
  ((l.1.1 : ℤ) : K) :: ((l.1.2 : ℤ) : K) :: (List.range c.rows).map fun i => r8 (c.get i l.2)

theorem rows_fold (c : Arr K) (ls : List (ℕ × ℤ)) (row : ℕ) (v : List ℤ) (data : List K)
    (h : row + ls.length ≤ c.cols) :
    (writeRows c row ls).2 = none ∧
    (linesGo (writeRows c row ls).1 []).foldl loadLine (⟨some v, data⟩ : LoadState K) =
      ⟨some v, data ++ (ls.zipIdx row).flatMap (rowNums c)⟩ := by
  induction ls generalizing row data with
  | nil => simp [writeRows, linesGo]
  | cons l ls ih =>
    obtain ⟨n, m⟩ := l
    rw [List.length_cons] at h
    obtain ⟨ih1, ih2⟩ := ih (row + 1) (data ++ rowNums c ((n, m), row)) (by omega)
    simp only [writeRows, Written.andThen]
    rw [if_pos (by omega)]
    refine ⟨ih1, ?_⟩
    simp only
    rw [flatMap_field]
    set fs := (List.range c.rows).map (fun x => asField (c.get x row)) with hfs
    have ht : ∀ f ∈ fs, IsToken f.2 := asField_token _ _
    have hline : intStr n ++ ' ' :: intStr m ++ (fieldsText fs ++ ['\n'] ++ (writeRows c (row + 1) ls).1) =
        (intStr n ++ ' ' :: (intStr m ++ fieldsText fs)) ++ '\n' :: (writeRows c (row + 1) ls).1 := by simp
    have hno : '\n' ∉ intStr n ++ ' ' :: (intStr m ++ fieldsText fs) := by
      simp only [List.mem_append, List.mem_cons, not_or]
      exact ⟨token_no_newline _ (intStr_token _), by decide, token_no_newline _ (intStr_token _),
        fieldsText_no_newline _ ht⟩
    rw [hline, linesGo_line _ _ _ hno]
    simp only [List.reverse_nil, List.nil_append, List.foldl_cons]
    rw [loadLine_data _ _ _ (isComment_token _ _ (intStr_token _) (intStr_ne_hash _))]
    have hnum : fromstring (K := K) (intStr n ++ ' ' :: (intStr m ++ fieldsText fs)) = rowNums c ((n, m), row) := by
      unfold fromstring
      rw [tokensGo_token_space _ _ (intStr_token _), (tokensGo_fields fs ht).2 _ (intStr_token _)]
      simp only [parseAll]
      rw [scanNum_int, scanNum_int]
      simp only
      have : parseAll (K := K) (fs.map Prod.snd) = (List.range c.rows).map fun i => r8 (c.get i row) := by
        rw [hfs, List.map_map]
        exact parseAll_some _ _ _ (fun x _ => parseNum_fixed8 _)
      rw [this]
      rfl
    rw [hnum, ih2, List.zipIdx_cons, List.flatMap_cons, List.append_assoc]

theorem writeTimes_ok (leap : Bool) (ts : List K) (ys : List K)
    (h : List.Forall₂ (fun t y => mjdToDyear leap t = .ok y) ts ys) :
    writeTimes leap ts = (fieldsText (ys.map fun y => asField y) ++ ['\n'], none) := by
  induction h with
  | nil => rfl
  | cons h1 h2 ih =>
    simp only [writeTimes]
    rw [h1]
    simp only [Written.andThen, ih]
    simp [fieldsText, field, asField]

theorem chunks_flatMap {α : Type} (w : ℕ) (hw : 0 < w) (l : List α) (f : α → List K) (h : ∀ x ∈ l, (f x).length = w) :
    (l.flatMap f).length = l.length * w ∧ chunks w (l.flatMap f) = l.map f := by
  have hlen : (l.flatMap f).length = l.length * w := by
    induction l with
    | nil => simp
    | cons a l ih =>
      rw [List.flatMap_cons, List.length_append, ih (fun x hx => h x (List.mem_cons_of_mem _ hx)),
        h a List.mem_cons_self, List.length_cons]
      ring
  refine ⟨hlen, ?_⟩
  unfold chunks
  rw [hlen, Nat.mul_div_cancel _ hw]
  clear hlen
  induction l with
  | nil => rfl
  | cons a l ih =>
    have ih := ih (fun x hx => h x (List.mem_cons_of_mem _ hx))
    have ha := h a List.mem_cons_self
    rw [List.length_cons, List.range_succ_eq_map, List.map_cons, List.map_cons, List.map_map]
    congr 1
    · simp [← ha]
    · rw [← ih]
      apply List.map_congr_left
      intro i _
      simp only [Function.comp, List.flatMap_cons]
      rw [Nat.succ_mul, Nat.add_comm, ← List.drop_drop, ← ha, List.drop_left]

/-- The five numbers of the parameter line. -/
theorem fromstring_params (a b c d e : ℤ) :
    fromstring (K := K) (intStr a ++ ' ' :: (intStr b ++ ' ' :: (intStr c ++ ' ' :: (intStr d ++ ' ' :: intStr e)))) =
      [(a : K), (b : K), (c : K), (d : K), (e : K)] := by
  unfold fromstring
  rw [tokensGo_token_space _ _ (intStr_token _), tokensGo_token_space _ _ (intStr_token _),
    tokensGo_token_space _ _ (intStr_token _), tokensGo_token_space _ _ (intStr_token _),
    tokensGo_token_end _ (intStr_token _)]
  simp [parseAll, scanNum_int]

theorem truncZ_int (z : ℤ) : truncZ ((z : K)) = z := by
  unfold truncZ
  split_ifs <;> simp

theorem mapM_dyear (leap : Bool) (ts ys ts' : List K)
    (h : List.Forall₂ (fun y t' => dyearToMjd leap (r8 y) = .ok t') ys ts') :
    (ys.map fun y => r8 y).mapM (dyearToMjd leap) = Except.ok ts' := by
  rw [List.mapM_map, Synth.mapM_ok]
  exact h

/-- The lines of a file written by `save_shcfile`: comments, the parameter line, the line of times, the table. -/
theorem lines_saved (date : List Char) (N : ℕ) (order : ℤ) (nmin nmax : ℕ) (leap : Bool) (header : List Char) (hdate : '\n' ∉ date)
    (hheader : ∀ l ∈ lines (header ++ ['#']), isComment l = true) (fs : List (ℕ × List Char)) (hft : ∀ f ∈ fs, IsToken f.2) (w : List Char) :
    ∃ L : List (List Char), (∀ l ∈ L, isComment l = true) ∧
        lines (header ++ commentLines date leap nmin nmax N order ++
          ([' ', ' '] ++ (fieldsText fs ++ ['\n']) ++ w)) =
        L ++ ((intStr nmin ++ ' ' :: (intStr nmax ++ ' ' :: (intStr N ++ ' ' :: (intStr order ++ ' ' ::
          intStr (order - 1))))) :: ([' ', ' '] ++ fieldsText fs) :: linesGo w []) := by
  unfold lines
  have hs : '\n' ∉ " Created on ".toList ++ date ++ " UTC.".toList := by
    rw [List.mem_append, List.mem_append, not_or, not_or]
    exact ⟨⟨by decide, hdate⟩, by decide⟩
  have e1 : header ++ commentLines date leap nmin nmax N order ++
      ([' ', ' '] ++ (fieldsText fs ++ ['\n']) ++ w) =
      header ++ '#' :: ((" Created on ".toList ++ date ++ " UTC.".toList) ++ '\n' ::
        (("# Leap years are accounted for in decimal years format (".toList ++
          (if leap then "True".toList else "False".toList) ++ ").".toList) ++ '\n' ::
        ((intStr nmin ++ ' ' :: (intStr nmax ++ ' ' :: (intStr N ++ ' ' :: (intStr order ++ ' ' ::
          intStr (order - 1))))) ++ '\n' :: (([' ', ' '] ++ fieldsText fs) ++ '\n' ::
            w)))) := by
    unfold commentLines
    rw [show "# Created on ".toList = '#' :: " Created on ".toList from rfl]
    simp only [List.append_assoc, List.cons_append, List.nil_append]
  rw [e1]
  obtain ⟨L, hL, hLc⟩ := linesGo_header header _ (("# Leap years are accounted for in decimal years format (".toList ++
          (if leap then "True".toList else "False".toList) ++ ").".toList) ++ '\n' ::
        ((intStr nmin ++ ' ' :: (intStr nmax ++ ' ' :: (intStr N ++ ' ' :: (intStr order ++ ' ' ::
          intStr (order - 1))))) ++ '\n' :: (([' ', ' '] ++ fieldsText fs) ++ '\n' ::
            w))) [] hs hheader
  rw [hL]
  have n2 : '\n' ∉ "# Leap years are accounted for in decimal years format (".toList ++
      (if leap then "True".toList else "False".toList) ++ ").".toList := by
    have hall : ∀ b : Bool, ("# Leap years are accounted for in decimal years format (".toList ++
        (if b then "True".toList else "False".toList) ++ ").".toList).all (· != '\n') = true := by
      intro b; cases b <;> rfl
    intro hmem
    have := List.all_eq_true.1 (hall leap) _ hmem
    simp at this
  have n3 : '\n' ∉ intStr nmin ++ ' ' :: (intStr nmax ++ ' ' :: (intStr N ++ ' ' :: (intStr order ++ ' ' ::
          intStr (order - 1)))) := by
    simp only [List.mem_append, List.mem_cons, not_or]
    exact ⟨token_no_newline _ (intStr_token _), by decide, token_no_newline _ (intStr_token _), by decide,
      token_no_newline _ (intStr_token _), by decide, token_no_newline _ (intStr_token _), by decide,
      token_no_newline _ (intStr_token _)⟩
  have n4 : '\n' ∉ [' ', ' '] ++ fieldsText fs := by
    rw [List.mem_append, not_or]
    exact ⟨by decide, fieldsText_no_newline _ hft⟩
  rw [linesGo_line _ _ _ n2, linesGo_line _ _ _ n3, linesGo_line _ _ _ n4]
  refine ⟨L ++ ["# Leap years are accounted for in decimal years format (".toList ++
      (if leap then "True".toList else "False".toList) ++ ").".toList], ?_, by simp⟩
  intro l hl
  rw [List.mem_append, List.mem_singleton] at hl
  rcases hl with hl | rfl
  · exact hLc l hl
  · cases leap <;> rfl

/-- **C13.** Reading back a file written by `save_shcfile`: the parameters, the times and, for every
degree and order of the requested window, the row of coefficients come back at their place, rounded to
eight decimals (times: as decimal years). -/
theorem C13_roundtrip (date : List Char) (times : List K) (coeffs : Arr K) (order : ℤ) (nmin nmax : ℕ)
    (leap : Bool) (header : List Char) (hdate : '\n' ∉ date)
    (hheader : ∀ l ∈ lines (header ++ ['#']), isComment l = true)
    (h0 : 1 ≤ nmin) (h1 : nmin ≤ nmax) (hc : nmax * (nmax + 2) ≤ coeffs.cols)
    (hr : coeffs.rows = times.length) (ht : ∀ t ∈ times, InWindow leap t) :
    ∃ content L,
      saveShc date (.array times) coeffs (some order) (some nmin) (some nmax) (some leap) (some header) =
        .ok (content, none) ∧
      loadShc (some leap) content = .ok L ∧
      L.params = [("nmin", (nmin : ℤ)), ("nmax", (nmax : ℤ)), ("N", (times.length : ℤ)), ("order", order),
        ("step", order - 1)] ∧
      List.Forall₂ (TimeBack leap) times L.mjd ∧
      L.coeffs.length = (nmax + 1) ^ 2 - nmin ^ 2 ∧
      ∀ (n : ℕ) (m : ℤ), nmin ≤ n → n ≤ nmax → m.natAbs ≤ n →
        ∃ row, L.coeffs[gaussPos n m - (nmin ^ 2 - 1)]? = some row ∧
          List.Forall₂ IsRound8 ((List.range times.length).map fun k => coeffs.get k (gaussPos n m)) row := by
  -- the decimal years and what comes back
  obtain ⟨ys, ts', hys, hts', hback⟩ : ∃ ys ts', List.Forall₂ (fun t y => mjdToDyear leap t = .ok y) times ys ∧
      List.Forall₂ (fun y t' => dyearToMjd leap (r8 y) = .ok t') ys ts' ∧
      List.Forall₂ (TimeBack leap) times ts' := by
    clear hr
    induction times with
    | nil => exact ⟨[], [], .nil, .nil, .nil⟩
    | cons t ts ih =>
      obtain ⟨y, t', a, b, c⟩ := time_back leap t (ht t List.mem_cons_self)
      obtain ⟨ys, ts', d, e, f⟩ := ih (fun x hx => ht x (List.mem_cons_of_mem _ hx))
      exact ⟨y :: ys, t' :: ts', .cons a d, .cons b e, .cons c f⟩
  have hylen : ys.length = times.length := hys.length_eq.symm
  have hlab := (C12_count nmin nmax h0 h1).1
  have hsq : 1 ≤ nmin ^ 2 := Nat.one_le_pow _ _ h0
  have hsq2 : (nmax + 1) ^ 2 = nmax * (nmax + 2) + 1 := by ring
  set cut := sliceCols coeffs (nmin ^ 2 - 1) ((nmax + 1) ^ 2 - 1) with hcut
  have hcols : 0 + (labels nmin nmax).length ≤ cut.cols := by
    rw [hlab, hcut]
    simp only [sliceCols]
    omega
  set v : List ℤ := [(nmin : ℤ), (nmax : ℤ), (times.length : ℤ), order, order - 1] with hv
  obtain ⟨hrow1, hrow2⟩ := rows_fold cut (labels nmin nmax) 0 v (ys.map fun y => r8 y) hcols
  set fs := ys.map (fun y => asField y) with hfs
  have hft : ∀ f ∈ fs, IsToken f.2 := asField_token ys id
  refine ⟨header ++ commentLines date leap nmin nmax times.length order ++
    ([' ', ' '] ++ (fieldsText fs ++ ['\n']) ++ (writeRows cut 0 (labels nmin nmax)).1),
    ⟨ts', ((labels nmin nmax).zipIdx).map (fun l => (rowNums cut l).drop 2), ["nmin", "nmax", "N", "order", "step"].zip v⟩,
    ?_, ?_, ?_, hback, ?_, ?_⟩
  · unfold saveShc
    simp only [Option.getD_some]
    rw [if_neg (by omega), Int.toNat_natCast]
    simp only [writeTimeLine, writeTimes_ok leap times ys hys, Written.andThen, TimeArg.size]
    rw [← hcut, hrow1]
  · unfold loadShc
    simp only [Option.getD_some]
    have hlines := lines_saved date times.length order nmin nmax leap header hdate hheader fs hft (writeRows cut 0 (labels nmin nmax)).1
    obtain ⟨L, hLc, hL⟩ := hlines
    have hfold : (lines (header ++ commentLines date leap nmin nmax times.length order ++
          ([' ', ' '] ++ (fieldsText fs ++ ['\n']) ++ (writeRows cut 0 (labels nmin nmax)).1))).foldl loadLine
          (⟨none, []⟩ : LoadState K) = ⟨some v, ys.map (fun y => r8 y) ++ ((labels nmin nmax).zipIdx).flatMap (rowNums cut)⟩ := by
      rw [hL, List.foldl_append, loadLine_comments _ _ hLc, List.foldl_cons, List.foldl_cons]
      have l1 : loadLine (⟨none, []⟩ : LoadState K) (intStr nmin ++ ' ' :: (intStr nmax ++ ' ' :: (intStr times.length ++ ' ' :: (intStr order ++ ' ' ::
          intStr (order - 1))))) = ⟨some v, []⟩ := by
        unfold loadLine
        rw [if_neg (by rw [isComment_token _ _ (intStr_token _) (intStr_ne_hash _)]; simp)]
        simp only
        rw [fromstring_params]
        simp only [List.map_cons, List.map_nil, truncZ_int, hv]
      have l2 : loadLine (⟨some v, []⟩ : LoadState K) ([' ', ' '] ++ fieldsText fs) = ⟨some v, ys.map fun y => r8 y⟩ := by
        have hcm : isComment ([' ', ' '] ++ fieldsText fs) = false := by
          rw [show ([' ', ' '] : List Char) = List.replicate 2 ' ' from rfl, isComment_spaces]
          exact isComment_fields ys id
        rw [loadLine_data _ _ _ hcm, List.nil_append]
        congr 1
        have := fromstring_fields (K := K) ys id
        unfold fromstring at this ⊢
        rw [show ([' ', ' '] : List Char) = List.replicate 2 ' ' from rfl, tokensGo_spaces]
        exact this
      rw [l1, l2, hrow2]
    rw [hfold]
    have hN : (["nmin", "nmax", "N", "order", "step"].zip v).lookup "N" = some (times.length : ℤ) := rfl
    simp only [hN]
    rw [if_neg (by omega), Int.toNat_natCast]
    have hdl : (ys.map fun y => r8 y).length = times.length := by rw [List.length_map, hylen]
    have hrl : ∀ l ∈ (labels nmin nmax).zipIdx, (rowNums cut l).length = times.length + 2 := by
      intro l _
      simp [rowNums, hcut, sliceCols, hr]
    obtain ⟨hcl, hch⟩ := chunks_flatMap (times.length + 2) (by omega) ((labels nmin nmax).zipIdx) (rowNums cut) hrl
    have hd1 : (ys.map (fun y => r8 y) ++ ((labels nmin nmax).zipIdx).flatMap (rowNums cut)).take times.length =
        ys.map (fun y => r8 y) := by rw [← hdl, List.take_left]
    have hd2 : (ys.map (fun y => r8 y) ++ ((labels nmin nmax).zipIdx).flatMap (rowNums cut)).drop times.length =
        ((labels nmin nmax).zipIdx).flatMap (rowNums cut) := by rw [← hdl, List.drop_left]
    rw [hd1, hd2, if_neg (by rw [hcl]; simp), hch, mapM_dyear leap times ys ts' hts', List.map_map]
    rfl
  · rfl
  · simp [hlab]
  · intro n m a b c
    have hl := C12_label_at nmin nmax n m h0 a b c
    refine ⟨(List.range times.length).map (fun k => r8 (coeffs.get k (gaussPos n m))), ?_, ?_⟩
    · simp only
      rw [List.getElem?_map, List.getElem?_zipIdx, hl]
      simp only [Option.map_some, rowNums, hcut, sliceCols, List.drop_succ_cons, List.drop_zero, hr, Nat.zero_add]
      have hge := (block_get n m (by omega) c).2.1
      have hmono : nmin ^ 2 ≤ n ^ 2 := Nat.pow_le_pow_left a 2
      rw [show nmin ^ 2 - 1 + (gaussPos n m - (nmin ^ 2 - 1)) = gaussPos n m by omega]
    · rw [List.forall₂_map_left_iff, List.forall₂_map_right_iff]
      exact List.forall₂_same.2 (fun k _ => r8_isRound8 _)

/-- The hypotheses are met: three epochs (decimal years with few decimals), degrees 2 to 3, a header with
an incomplete last line. -/
theorem ex_save : ∃ content L, saveShc (K := ℚ) "2024-01-01".toList (.array [0, 366, 731.5])
    { rows := 3, cols := 15, get := fun i j => i - 2.123456789 * j } (some 4) (some 2) (some ((3 : ℕ) : ℤ)) (some true)
    (some "# my model\n  # v1".toList) = .ok (content, none) ∧ loadShc (K := ℚ) (some true) content = .ok L ∧
    L.params = [("nmin", 2), ("nmax", 3), ("N", 3), ("order", 4), ("step", 3)] := by
  obtain ⟨content, L, h1, h2, h3, -⟩ := C13_roundtrip (K := ℚ) "2024-01-01".toList [0, 366, 731.5]
    { rows := 3, cols := 15, get := fun i j => i - 2.123456789 * j } 4 2 3 true "# my model\n  # v1".toList
    (by decide) (by decide) (by norm_num) (by norm_num) (by norm_num) rfl (by
      intro t ht _
      refine ⟨((jan1 1708 - 10957 : Int) : ℚ), ((jan1 2292 - 10957 : Int) : ℚ), mjd2000_jan1 1708 (by omega),
        mjd2000_jan1 2292 (by omega), ?_⟩
      have e1 : jan1 1708 = -95694 := by decide
      have e2 : jan1 2292 = 117608 := by decide
      rw [e1, e2]
      simp only [List.mem_cons, List.not_mem_nil, or_false] at ht
      rcases ht with rfl | rfl | rfl <;> norm_num)
  exact ⟨content, L, h1, h2, h3⟩

/-- **C13.** Defaults of the writer: order 1, degrees from 1 up to the largest complete degree, leap years
taken into account, no header. The reader also takes leap years into account by default. -/
theorem C13_defaults (date : List Char) (time : TimeArg K) (coeffs : Arr K) (N : ℕ)
    (hN : N * (N + 2) ≤ coeffs.cols ∧ coeffs.cols < (N + 1) * (N + 3)) :
    saveShc date time coeffs none none none none none =
      saveShc date time coeffs (some 1) (some 1) (some N) (some true) (some []) ∧
    ∀ content, loadShc (K := K) none content = loadShc (some true) content := by
  refine ⟨?_, fun _ => rfl⟩
  unfold saveShc
  rw [(C12_nmax_of_dim coeffs.cols N).2 hN]
  rfl

example : 3 * (3 + 2) ≤ 15 ∧ 15 < (3 + 1) * (3 + 3) := by decide

/-- **C13.** An empty degree window is refused before the file is created. -/
theorem C13_window_error (date : List Char) (time : TimeArg K) (coeffs : Arr K) (order : Option ℤ) (nmin : ℕ)
    (nmax : ℤ) (leap : Option Bool) (header : Option (List Char)) (h : nmax < nmin) :
    saveShc date time coeffs order (some nmin) (some nmax) leap header = .error .valueError := by
  unfold saveShc
  simp only [Option.getD_some]
  rw [if_pos (by omega)]

theorem writeRows_short (c : Arr K) (ls : List (ℕ × ℤ)) (row : ℕ) (h0 : row ≤ c.cols) (h : c.cols < row + ls.length) :
    (writeRows c row ls).2 = some .indexError := by
  induction ls generalizing row with
  | nil => simp at h; omega
  | cons l ls ih =>
    rw [List.length_cons] at h
    simp only [writeRows, Written.andThen]
    split_ifs with hr
    · exact ih (row + 1) (by omega) (by omega)
    · rfl

theorem commentLines_ne (date : List Char) (leap : Bool) (nmin nmax N : ℕ) (order : ℤ) (h w : List Char) :
    h ++ commentLines date leap nmin nmax N order ++ w ≠ [] := by
  unfold commentLines
  rw [show "# Created on ".toList = '#' :: " Created on ".toList from rfl]
  simp only [List.append_assoc, List.cons_append]
  intro hc
  exact absurd (List.append_eq_nil_iff.1 hc).2 (List.cons_ne_nil _ _)

theorem andThen_none (a : List Char) (b : Written) : Written.andThen (a, none) b = (a ++ b.1, b.2) := rfl

theorem writeTimes_err (leap : Bool) (ts : List K) :
    (writeTimes leap ts).2 = none ∨ (writeTimes leap ts).2 = some .valueError := by
  induction ts with
  | nil => left; rfl
  | cons t ts ih =>
    simp only [writeTimes]
    cases mjdToDyear leap t with
    | error e => right; rfl
    | ok y => simpa only [Written.andThen] using ih

/-- **C13, finding.** Too few coefficients for the requested window are noticed only while writing: the
call raises and leaves a truncated file behind. -/
theorem C13_short_coeffs (date : List Char) (times : List K) (coeffs : Arr K) (order : Option ℤ)
    (nmin nmax : ℕ) (leap : Option Bool) (header : Option (List Char)) (h0 : 1 ≤ nmin) (h1 : nmin ≤ nmax)
    (hc : coeffs.cols < nmax * (nmax + 2)) :
    ∃ content e, saveShc date (.array times) coeffs order (some nmin) (some nmax) leap header = .ok (content, some e) ∧
      content ≠ [] ∧ (e = .indexError ∨ e = .valueError) := by
  have hlab := (C12_count nmin nmax h0 h1).1
  have hsq : 1 ≤ nmin ^ 2 := Nat.one_le_pow _ _ h0
  have hsq3 : nmin ^ 2 < (nmax + 1) ^ 2 := Nat.pow_lt_pow_left (by omega) (by norm_num)
  have hsq2 : (nmax + 1) ^ 2 = nmax * (nmax + 2) + 1 := by ring
  have hshort := writeRows_short (sliceCols coeffs (nmin ^ 2 - 1) ((nmax + 1) ^ 2 - 1)) (labels nmin nmax) 0 (by omega)
    (by rw [hlab]; simp only [sliceCols]; omega)
  unfold saveShc
  simp only [Option.getD_some]
  rw [if_neg (by omega), Int.toNat_natCast, andThen_none]
  have hne : ∀ w : List Char, header.getD [] ++ commentLines date (leap.getD true) nmin nmax
      (TimeArg.array times).size (order.getD 1) ++ w ≠ [] := by
    intro w
    exact commentLines_ne _ _ _ _ _ _ _ _
  rcases writeTimes_err (leap.getD true) times with ht | ht
  · have e : ∃ w, Written.andThen (writeTimeLine (leap.getD true) (.array times))
        (writeRows (sliceCols coeffs (nmin ^ 2 - 1) ((nmax + 1) ^ 2 - 1)) 0 (labels nmin nmax)) = (w, some .indexError) := by
      simp only [writeTimeLine, Written.andThen, ht]
      rw [hshort]
      exact ⟨_, rfl⟩
    obtain ⟨w, hw⟩ := e
    exact ⟨_, .indexError, by rw [hw], hne w, Or.inl rfl⟩
  · have e : ∃ w, Written.andThen (writeTimeLine (leap.getD true) (.array times))
        (writeRows (sliceCols coeffs (nmin ^ 2 - 1) ((nmax + 1) ^ 2 - 1)) 0 (labels nmin nmax)) = (w, some .valueError) := by
      simp only [writeTimeLine, Written.andThen, ht]
      exact ⟨_, rfl⟩
    obtain ⟨w, hw⟩ := e
    exact ⟨_, .valueError, by rw [hw], hne w, Or.inr rfl⟩

example : (7 : ℕ) < 2 * (2 + 2) := by decide

/-- **C13, finding.** The documented scalar `time` (with a coefficient vector) does not work: the call
raises TypeError after the parameter line has been written. -/
theorem C13_scalar_time_fails (date : List Char) (t : K) (coeffs : Arr K) (order : Option ℤ)
    (nmin nmax : ℕ) (leap : Option Bool) (header : Option (List Char)) (h1 : nmin ≤ nmax) :
    ∃ content, saveShc date (.scalar t) coeffs order (some nmin) (some nmax) leap header =
      .ok (content, some .typeError) ∧ content ≠ [] := by
  unfold saveShc
  simp only [Option.getD_some]
  rw [if_neg (by omega), Int.toNat_natCast, andThen_none]
  refine ⟨_, rfl, commentLines_ne _ _ _ _ _ _ _ _⟩

/-- **C13.** Rounding to eight decimals does not change numbers with at most eight decimals (so that
those coefficients come back exactly). -/
theorem C13_exact_numbers (x y : K) (z : ℤ) (hx : x = z / 10 ^ 8) (h : IsRound8 x y) : y = x := h.exact z hx

end
end ChaosMagPy.Shc
