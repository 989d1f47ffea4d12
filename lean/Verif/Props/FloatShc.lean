import Verif.Model.FloatShc
import Verif.Props.FloatTime
import Verif.Props.FloatAngle
import Verif.Props.Shc
/-!
# C89: shc-files in double precision
-/
namespace ChaosMagPy.Float
open ChaosMagPy.Spec ChaosMagPy.Shc ChaosMagPy.Time ChaosMagPy.Index

variable (R : Rounding)

/-! ### eight decimals -/

theorem r8_close {x d : ℝ} (h : |d - r8 x| < 1 / (2 * 10 ^ 8)) : r8 d = r8 x := by
  obtain ⟨⟨w, hw⟩, hd⟩ := r8_isRound8 d
  obtain ⟨⟨z, hz⟩, -⟩ := r8_isRound8 x
  have h1 : |r8 d - r8 x| < 1 / 10 ^ 8 := by
    have := abs_sub_le (r8 d) d (r8 x)
    have e : (1 : ℝ) / 10 ^ 8 = 1 / (2 * 10 ^ 8) + 1 / (2 * 10 ^ 8) := by norm_num
    linarith
  rw [hw, hz] at h1 ⊢
  have e : (w : ℝ) / 10 ^ 8 - z / 10 ^ 8 = ((w - z : ℤ) : ℝ) / 10 ^ 8 := by push_cast; ring
  rw [e, abs_div, abs_of_pos (by positivity : (0 : ℝ) < 10 ^ 8), div_lt_div_iff_of_pos_right (by positivity)] at h1
  rw [← Int.cast_abs] at h1
  have h3 : |w - z| < 1 := by exact_mod_cast h1
  have : w = z := by have := Int.abs_lt_one_iff.1 h3; omega
  rw [this]

theorem r8_le {x : ℝ} {k : ℕ} (h : |x| ≤ 2 ^ k) : |r8 x| ≤ 2 ^ k := by
  obtain ⟨⟨z, hz⟩, hd⟩ := r8_isRound8 x
  have h1 : |r8 x| ≤ 2 ^ k + 1 / (2 * 10 ^ 8) := by
    have := abs_sub_abs_le_abs_sub (r8 x) x
    linarith
  rw [hz, abs_div, abs_of_pos (by positivity : (0 : ℝ) < 10 ^ 8), ← Int.cast_abs] at h1 ⊢
  rw [div_le_iff₀ (by positivity)] at h1 ⊢
  have h2 : (|z| : ℤ) < 2 ^ k * 10 ^ 8 + 1 := by
    have : ((|z| : ℤ) : ℝ) < ((2 ^ k * 10 ^ 8 + 1 : ℤ) : ℝ) := by
      push_cast at h1 ⊢
      norm_num at h1 ⊢
      linarith
    exact_mod_cast this
  have h3 : (|z| : ℤ) ≤ 2 ^ k * 10 ^ 8 := by omega
  exact_mod_cast h3

/-- A coefficient after writing and reading. -/
noncomputable def back (x : ℝ) : ℝ := R (r8 x)

theorem back_double {x : ℝ} {k : ℕ} (hk : k ≤ 1000) (h : |x| ≤ 2 ^ k) : IsDouble (back R x) :=
  (R.nearest _ ((r8_le h).trans (pow_le_pow_right₀ (by norm_num) hk))).1

theorem back_err {x : ℝ} {k : ℕ} (hk : k ≤ 1000) (h : |x| ≤ 2 ^ k) : |back R x - r8 x| ≤ 2 ^ k / 2 ^ 54 := by
  have := rnd_err R (x := r8 x) (k := k) (by rw [zpow_natCast]; exact r8_le h) (by omega) (by omega)
  rw [zpow_sub₀ (by norm_num), zpow_natCast] at this
  exact this

theorem back_r8 {x : ℝ} (h : |x| ≤ 2 ^ 26) : r8 (back R x) = r8 x := by
  refine r8_close ((back_err R (by norm_num) h).trans_lt ?_)
  norm_num

theorem r8_zero_iff (x : ℝ) : r8 x = 0 ↔ (roundEven (|x| * 10 ^ 8)).toNat = 0 := by
  unfold r8
  split_ifs <;> simp

theorem r8_neg {x : ℝ} (h : x < 0) : r8 x ≤ 0 := by
  unfold r8
  rw [if_pos h]
  have : (0 : ℝ) ≤ ((roundEven (|x| * 10 ^ 8)).toNat : ℝ) / 10 ^ 8 := by positivity
  have e : (-1 : ℝ) * ((roundEven (|x| * 10 ^ 8)).toNat : ℝ) / 10 ^ 8 = -(((roundEven (|x| * 10 ^ 8)).toNat : ℝ) / 10 ^ 8) := by ring
  rw [e]
  linarith

theorem r8_pos {x : ℝ} (h : 0 ≤ x) : 0 ≤ r8 x := by
  unfold r8
  rw [if_neg (not_lt.2 h), one_mul]
  positivity

theorem fixed8_close {x d : ℝ} (h : r8 d = r8 x) (hs : d < 0 ↔ x < 0) : fixed8 d = fixed8 x := by
  have e : (roundEven (|d| * 10 ^ 8)).toNat = (roundEven (|x| * 10 ^ 8)).toNat := by
    unfold r8 at h
    by_cases hx : x < 0
    · rw [if_pos hx, if_pos (hs.2 hx)] at h
      have h2 : ((roundEven (|d| * 10 ^ 8)).toNat : ℝ) = ((roundEven (|x| * 10 ^ 8)).toNat : ℝ) := by
        rw [div_left_inj' (by positivity)] at h
        linarith
      exact_mod_cast h2
    · rw [if_neg hx, if_neg (fun hc => hx (hs.1 hc))] at h
      have h2 : ((roundEven (|d| * 10 ^ 8)).toNat : ℝ) = ((roundEven (|x| * 10 ^ 8)).toNat : ℝ) := by
        rw [div_left_inj' (by positivity)] at h
        linarith
      exact_mod_cast h2
  unfold fixed8
  simp only [e]
  by_cases hx : x < 0
  · rw [if_pos hx, if_pos (hs.2 hx)]
  · rw [if_neg hx, if_neg (fun hc => hx (hs.1 hc))]

theorem r8_lt_zero {x : ℝ} (h : x < -(1 / (2 * 10 ^ 8))) : r8 x < 0 := by
  have h0 : x < 0 := h.trans (by norm_num)
  refine lt_of_le_of_ne (r8_neg h0) ?_
  intro hc
  rw [r8_zero_iff] at hc
  have hn := roundEven_near (|x| * 10 ^ 8)
  have hp := roundEven_nonneg (|x| * 10 ^ 8) (by positivity)
  have hz : roundEven (|x| * 10 ^ 8) = 0 := by omega
  rw [hz, abs_of_neg h0] at hn
  have := (abs_le.1 hn).1
  push_cast at this
  norm_num at this h
  linarith

theorem back_fixed8 {x : ℝ} (h : |x| ≤ 2 ^ 26) (hs : 0 ≤ x ∨ x < -(1 / (2 * 10 ^ 8))) : fixed8 (back R x) = fixed8 x := by
  refine fixed8_close (back_r8 R h) ?_
  have hb := (r8_le h).trans (pow_le_pow_right₀ (by norm_num : (1 : ℝ) ≤ 2) (by norm_num : 26 ≤ 1000))
  have h0 : R (0 : ℝ) = 0 := rnd_double R double_zero (by norm_num)
  rcases hs with hs | hs
  · have := rnd_mono R (x := 0) (by norm_num) hb (r8_pos hs)
    rw [h0] at this
    exact ⟨fun hc => absurd this (not_le.2 hc), fun hc => absurd hs (not_le.2 hc)⟩
  · have h1 : r8 (back R x) < 0 := by rw [back_r8 R h]; exact r8_lt_zero hs
    refine ⟨fun _ => hs.trans (by norm_num), fun _ => ?_⟩
    by_contra hc
    exact absurd (r8_pos (not_lt.1 hc)) (not_le.2 h1)

/-! ### times -/

theorem mjd_1708 : mjd2000 R 1708 = .ok (-106651) := by
  have h := mjd2000_jan1_rnd R 1708 (by omega)
  have e : jan1 1708 = -95694 := by decide
  rw [e] at h
  rw [h]
  norm_num

theorem mjd_2292 : mjd2000 R 2292 = .ok 106651 := by
  have h := mjd2000_jan1_rnd R 2292 (by omega)
  have e : jan1 2292 = 117608 := by decide
  rw [e] at h
  rw [h]
  norm_num

/-- Exact conversion of decimal years between 1708 and 2292: the distance of two dates is at most 366 times that of the years. -/
theorem exact_lip (leap : Bool) {x z a b : ℝ} (h1 : 1708 ≤ x) (h2 : x ≤ z) (h3 : z ≤ 2292) (h4 : z < x + 1)
    (ha : Time.dyearToMjd leap x = .ok a) (hb : Time.dyearToMjd leap z = .ok b) : 0 ≤ b - a ∧ b - a ≤ 366 * (z - x) := by
  cases leap with
  | false =>
    simp only [Time.dyearToMjd, Bool.false_eq_true, if_false, Except.ok.injEq] at ha hb
    rw [← ha, ← hb]
    constructor <;> linarith
  | true =>
    have fx : 1708 ≤ ⌊x⌋ ∧ ⌊x⌋ ≤ 2292 := by
      refine ⟨Int.le_floor.2 (by exact_mod_cast h1), ?_⟩
      have : ⌊x⌋ < 2293 := Int.floor_lt.2 (by push_cast; linarith)
      omega
    have fz : 1708 ≤ ⌊z⌋ ∧ ⌊z⌋ ≤ 2292 := by
      refine ⟨Int.le_floor.2 (by push_cast; linarith), ?_⟩
      have : ⌊z⌋ < 2293 := Int.floor_lt.2 (by push_cast; linarith)
      omega
    rw [dyearToMjd_eq' x fx] at ha
    rw [dyearToMjd_eq' z fz] at hb
    injection ha with ha
    injection hb with hb
    rw [← ha, ← hb]
    exact dyear_lip x z h2 h4

/-- The exact decimal year of a date at least one day inside the window. -/
theorem exact_year (leap : Bool) {t y : ℝ} (ht : |t| ≤ 106650) (hy : Time.mjdToDyear leap t = .ok y) :
    Time.dyearToMjd leap y = .ok t ∧ 1708 + 1 / 1000 ≤ y ∧ y ≤ 2292 - 1 / 1000 := by
  obtain ⟨t1, t2⟩ := abs_le.1 ht
  cases leap with
  | false =>
    simp only [Time.mjdToDyear, Bool.false_eq_true, if_false, Except.ok.injEq] at hy
    refine ⟨?_, ?_, ?_⟩
    · simp only [Time.dyearToMjd, Bool.false_eq_true, if_false, Except.ok.injEq]
      rw [← hy]
      norm_num
    · rw [← hy]
      have : (-106650 : ℝ) / 365.25 ≤ t / 365.25 := div_le_div_of_nonneg_right (by linarith) (by norm_num)
      norm_num at this ⊢
      linarith
    · rw [← hy]
      have : t / 365.25 ≤ (106650 : ℝ) / 365.25 := div_le_div_of_nonneg_right (by linarith) (by norm_num)
      norm_num at this ⊢
      linarith
  | true =>
    have e1 : jan1 1708 = -95694 := by decide
    have e2 : jan1 2292 = 117608 := by decide
    have ha : Time.mjd2000 ℝ 1708 = .ok ((-106651 : ℤ) : ℝ) := by
      have := mjd2000_jan1 (K := ℝ) 1708 (by omega)
      rw [e1] at this
      exact this
    have hb : Time.mjd2000 ℝ 2292 = .ok ((106651 : ℤ) : ℝ) := by
      have := mjd2000_jan1 (K := ℝ) 2292 (by omega)
      rw [e2] at this
      exact this
    have hab : ((-106651 : ℤ) : ℝ) ≤ t ∧ t < ((106651 : ℤ) : ℝ) := by push_cast; constructor <;> linarith
    obtain ⟨y', hy', hback⟩ := C09_mjd_roundtrip t _ _ ha hb hab
    rw [hy] at hy'
    injection hy' with hy'
    subst hy'
    have hr := dyear_range t y _ _ ha hb hab hy
    have d1 : Time.dyearToMjd true (1708 : ℝ) = .ok (-106651) := by
      rw [dyearToMjd_eq' (1708 : ℝ) (by norm_num)]
      have f : ⌊(1708 : ℝ)⌋ = 1708 := by norm_num
      have g : Int.fract (1708 : ℝ) = 0 := by unfold Int.fract; rw [f]; norm_num
      rw [f, g, e1]
      norm_num
    have d2 : Time.dyearToMjd true (2292 : ℝ) = .ok 106651 := by
      rw [dyearToMjd_eq' (2292 : ℝ) (by norm_num)]
      have f : ⌊(2292 : ℝ)⌋ = 2292 := by norm_num
      have g : Int.fract (2292 : ℝ) = 0 := by unfold Int.fract; rw [f]; norm_num
      rw [f, g, e2]
      norm_num
    refine ⟨hback, ?_, ?_⟩
    · by_contra hc
      have := exact_lip true le_rfl hr.1 hr.2.le (by linarith) d1 hback
      linarith
    · by_contra hc
      have := exact_lip true hr.1 hr.2.le le_rfl (by linarith) hback d2
      linarith

/-- One time through a file. -/
theorem time_backF (leap : Bool) {t : ℝ} (ht : |t| ≤ 106650) :
    ∃ y t', mjdToDyear R leap t = .ok y ∧ |y| ≤ 2 ^ 12 ∧ 0 ≤ y ∧ dyearToMjd R leap (back R y) = .ok t' ∧ mjdToDyear R leap t' = .ok (back R y) ∧
      |t' - t| ≤ 1831 / 10 ^ 9 := by
  obtain ⟨t1, t2⟩ := abs_le.1 ht
  obtain ⟨-, y, y', hy, hy', hyy⟩ := C70_accuracy R leap (t := 2000) (x := t) (by norm_num) (mjd_1708 R) (mjd_2292 R) ⟨by linarith, by linarith⟩
  obtain ⟨hb, hy1, hy2⟩ := exact_year leap ht hy'
  have hyy' := abs_le.1 hyy
  norm_num at hyy' hy1 hy2
  have yb : |y| ≤ 2 ^ 12 := by rw [abs_le]; norm_num; constructor <;> linarith
  have e1 := abs_le.1 (back_err R (by norm_num) yb)
  have e2 := abs_le.1 (r8_isRound8 y).2
  norm_num at e1 e2
  have d1 : 1708 ≤ back R y := by linarith
  have d2 : back R y < 2292 := by linarith
  obtain ⟨t', h1, h2⟩ := C70_dyear_roundtrip R leap (back_double R (by norm_num) yb) ⟨d1, d2⟩
  obtain ⟨⟨m, m', hm, hm', hmm⟩, -⟩ := C70_accuracy R leap (t := back R y) (x := 0) ⟨d1, d2⟩ (mjd_1708 R) (mjd_2292 R) (by norm_num)
  rw [h1] at hm
  injection hm with hm
  subst hm
  refine ⟨y, t', hy, yb, by linarith, h1, h2, ?_⟩
  have hmm' := abs_le.1 hmm
  norm_num at hmm'
  rw [abs_le]
  rcases le_total y' (back R y) with hle | hle
  · obtain ⟨l1, l2⟩ := exact_lip leap (by linarith) hle (by linarith) (by linarith) hb hm'
    norm_num
    constructor <;> linarith
  · obtain ⟨l1, l2⟩ := exact_lip leap (by linarith) hle (by linarith) (by linarith) hm' hb
    norm_num
    constructor <;> linarith

/-! ### the file -/

theorem loadLineF_data (v : List ℤ) (data : List ℝ) (line : List Char) (h : isComment line = false) :
    loadLine R ⟨some v, data⟩ line = ⟨some v, data ++ fromstring R line⟩ := by
  simp [loadLine, h]

theorem loadLineF_comments (L : List (List Char)) (s : LoadState ℝ) (h : ∀ l ∈ L, isComment l = true) :
    L.foldl (loadLine R) s = s := by
  induction L with
  | nil => rfl
  | cons l L ih =>
    rw [List.foldl_cons]
    have : loadLine R s l = s := by simp [loadLine, h l List.mem_cons_self]
    rw [this, ih (fun x hx => h x (List.mem_cons_of_mem _ hx))]

/-- After the parameter line, the doubles are those next to the exact numbers. -/
theorem foldF (L : List (List Char)) (v : List ℤ) (d d' : List ℝ) (e : List ℝ) (hd : d' = d.map fun x => R x)
    (h : L.foldl (Shc.loadLine (K := ℝ)) ⟨some v, d⟩ = ⟨some v, e⟩) :
    L.foldl (loadLine R) ⟨some v, d'⟩ = ⟨some v, e.map fun x => R x⟩ := by
  induction L generalizing d d' with
  | nil =>
    rw [List.foldl_nil] at h ⊢
    injection h with _ h
    rw [hd, h]
  | cons l L ih =>
    rw [List.foldl_cons] at h ⊢
    by_cases hc : isComment l = true
    · have a1 : Shc.loadLine (K := ℝ) ⟨some v, d⟩ l = ⟨some v, d⟩ := by simp [Shc.loadLine, hc]
      have a2 : loadLine R ⟨some v, d'⟩ l = ⟨some v, d'⟩ := by simp [loadLine, hc]
      rw [a1] at h
      rw [a2]
      exact ih d d' hd h
    · have hc : isComment l = false := by simpa using hc
      rw [loadLine_data _ _ _ hc] at h
      rw [loadLineF_data R _ _ _ hc]
      exact ih _ _ (by rw [hd, List.map_append]; rfl) h

theorem writeTimesF_ok (leap : Bool) (ts ys : List ℝ) (h : List.Forall₂ (fun t y => mjdToDyear R leap t = .ok y) ts ys) :
    writeTimes R leap ts = (fieldsText (ys.map fun y => asField y) ++ ['\n'], none) := by
  induction h with
  | nil => rfl
  | cons h1 h2 ih =>
    simp only [writeTimes]
    rw [h1]
    simp only [Written.andThen, ih]
    simp [fieldsText, field, asField]

/-- The text of a saved file. -/
noncomputable def savedText (date : List Char) (ys : List ℝ) (coeffs : Arr ℝ) (order : ℤ) (nmin nmax : ℕ) (leap : Bool) (header : List Char) : List Char :=
  header ++ commentLines date leap nmin nmax ys.length order ++ ([' ', ' '] ++ (fieldsText (ys.map fun y => asField y) ++ ['\n']) ++
    (writeRows (sliceCols coeffs (nmin ^ 2 - 1) ((nmax + 1) ^ 2 - 1)) 0 (labels nmin nmax)).1)

/-- The table that is read back. -/
noncomputable def savedRows (coeffs : Arr ℝ) (nmin nmax : ℕ) : List (List ℝ) :=
  (List.range ((nmax + 1) ^ 2 - nmin ^ 2)).map fun j => (List.range coeffs.rows).map fun i => back R (coeffs.get i (nmin ^ 2 - 1 + j))

theorem save_load (date : List Char) (times ys ts' : List ℝ) (coeffs : Arr ℝ) (order : ℤ) (nmin nmax : ℕ)
    (leap : Bool) (header : List Char) (hdate : '\n' ∉ date) (hheader : ∀ l ∈ lines (header ++ ['#']), isComment l = true)
    (h0 : 1 ≤ nmin) (h1 : nmin ≤ nmax) (hc : nmax * (nmax + 2) ≤ coeffs.cols) (hr : coeffs.rows = times.length)
    (hb : nmax < 2 ^ 53 ∧ times.length < 2 ^ 53 ∧ |order| < 2 ^ 53)
    (hys : List.Forall₂ (fun t y => mjdToDyear R leap t = .ok y) times ys)
    (hts : List.Forall₂ (fun y t' => dyearToMjd R leap (back R y) = .ok t') ys ts') :
    saveShc R date times coeffs (some order) (some nmin) (some nmax) (some leap) (some header) =
        .ok (savedText date ys coeffs order nmin nmax leap header, none) ∧
    loadShc R (some leap) (savedText date ys coeffs order nmin nmax leap header) = .ok ⟨ts', savedRows R coeffs nmin nmax,
      [("nmin", (nmin : ℤ)), ("nmax", (nmax : ℤ)), ("N", (times.length : ℤ)), ("order", order), ("step", order - 1)]⟩ := by
  have hylen : ys.length = times.length := hys.length_eq.symm
  have hlab := (C12_count nmin nmax h0 h1).1
  have hsq : 1 ≤ nmin ^ 2 := Nat.one_le_pow _ _ h0
  have hsq2 : (nmax + 1) ^ 2 = nmax * (nmax + 2) + 1 := by ring
  unfold savedText
  set cut := sliceCols coeffs (nmin ^ 2 - 1) ((nmax + 1) ^ 2 - 1) with hcut
  have hcols : 0 + (labels nmin nmax).length ≤ cut.cols := by
    rw [hlab, hcut]
    simp only [sliceCols]
    omega
  set v : List ℤ := [(nmin : ℤ), (nmax : ℤ), (times.length : ℤ), order, order - 1] with hv
  obtain ⟨hrow1, hrow2⟩ := rows_fold cut (labels nmin nmax) 0 v (ys.map fun y => r8 y) hcols
  set fs := ys.map (fun y => asField y) with hfs
  have hft : ∀ f ∈ fs, IsToken f.2 := asField_token ys id
  constructor
  · unfold saveShc
    simp only [Option.getD_some]
    rw [if_neg (by omega), Int.toNat_natCast]
    simp only [writeTimesF_ok R leap times ys hys, Written.andThen]
    rw [← hcut, hrow1, hylen]
  · unfold loadShc
    simp only [Option.getD_some]
    rw [hylen]
    obtain ⟨L, hLc, hL⟩ := lines_saved date times.length order nmin nmax leap header hdate hheader fs hft (writeRows cut 0 (labels nmin nmax)).1
    have hfold : (lines (header ++ commentLines date leap nmin nmax times.length order ++
          ([' ', ' '] ++ (fieldsText fs ++ ['\n']) ++ (writeRows cut 0 (labels nmin nmax)).1))).foldl (loadLine R)
          (⟨none, []⟩ : LoadState ℝ) = ⟨some v, (ys.map (fun y => r8 y) ++ ((labels nmin nmax).zipIdx).flatMap (rowNums cut)).map fun x => R x⟩ := by
      rw [hL, List.foldl_append, loadLineF_comments R _ _ hLc, List.foldl_cons, List.foldl_cons]
      have l1 : loadLine R (⟨none, []⟩ : LoadState ℝ) (intStr nmin ++ ' ' :: (intStr nmax ++ ' ' :: (intStr times.length ++ ' ' :: (intStr order ++ ' ' ::
          intStr (order - 1))))) = ⟨some v, []⟩ := by
        unfold loadLine
        rw [if_neg (by rw [isComment_token _ _ (intStr_token _) (intStr_ne_hash _)]; simp)]
        simp only [fromstring]
        rw [fromstring_params]
        have ho := abs_lt.1 hb.2.2
        simp only [List.map_cons, List.map_nil]
        rw [rnd_int R (m := (nmin : ℤ)) (by rw [abs_le]; omega), rnd_int R (m := (nmax : ℤ)) (by rw [abs_le]; omega),
          rnd_int R (m := (times.length : ℤ)) (by rw [abs_le]; omega), rnd_int R (m := order) (by rw [abs_le]; omega),
          rnd_int R (m := order - 1) (by rw [abs_le]; omega)]
        simp only [truncZ_int, hv]
      have l2 : loadLine R (⟨some v, []⟩ : LoadState ℝ) ([' ', ' '] ++ fieldsText fs) = ⟨some v, (ys.map fun y => r8 y).map fun x => R x⟩ := by
        have hcm : isComment ([' ', ' '] ++ fieldsText fs) = false := by
          rw [show ([' ', ' '] : List Char) = List.replicate 2 ' ' from rfl, isComment_spaces]
          exact isComment_fields ys id
        rw [loadLineF_data R _ _ _ hcm, List.nil_append]
        congr 1
        unfold fromstring
        congr 1
        have := fromstring_fields (K := ℝ) ys id
        unfold Shc.fromstring at this ⊢
        rw [show ([' ', ' '] : List Char) = List.replicate 2 ' ' from rfl, tokensGo_spaces]
        exact this
      rw [l1, l2]
      exact foldF R _ v _ _ _ rfl hrow2
    rw [hfold]
    have hN : (["nmin", "nmax", "N", "order", "step"].zip v).lookup "N" = some (times.length : ℤ) := rfl
    simp only [hN]
    rw [if_neg (by omega), Int.toNat_natCast]
    have hdl : ((ys.map fun y => r8 y).map fun x => R x).length = times.length := by rw [List.length_map, List.length_map, hylen]
    have hmap : (((labels nmin nmax).zipIdx).flatMap (rowNums cut)).map (fun x => R x) = ((labels nmin nmax).zipIdx).flatMap (fun l => (rowNums cut l).map fun x => R x) :=
      List.map_flatMap
    rw [List.map_append, hmap]
    have hrl : ∀ l ∈ (labels nmin nmax).zipIdx, ((rowNums cut l).map fun x => R x).length = times.length + 2 := by
      intro l _
      simp [rowNums, hcut, sliceCols, hr]
    obtain ⟨hcl, hch⟩ := chunks_flatMap (times.length + 2) (by omega) ((labels nmin nmax).zipIdx) (fun l => (rowNums cut l).map fun x => R x) hrl
    have hd1 : (((ys.map (fun y => r8 y)).map fun x => R x) ++ ((labels nmin nmax).zipIdx).flatMap (fun l => (rowNums cut l).map fun x => R x)).take times.length =
        ((ys.map (fun y => r8 y)).map fun x => R x) := by rw [← hdl, List.take_left]
    have hd2 : (((ys.map (fun y => r8 y)).map fun x => R x) ++ ((labels nmin nmax).zipIdx).flatMap (fun l => (rowNums cut l).map fun x => R x)).drop times.length =
        ((labels nmin nmax).zipIdx).flatMap (fun l => (rowNums cut l).map fun x => R x) := by rw [← hdl, List.drop_left]
    have hmm : ((ys.map (fun y => r8 y)).map fun x => R x).mapM (dyearToMjd R leap) = Except.ok ts' := by
      rw [List.map_map, List.mapM_map, Synth.mapM_ok]
      exact hts
    rw [hd1, hd2, if_neg (by rw [hcl]; simp), hch, hmm, List.map_map]
    have hrows : ((labels nmin nmax).zipIdx).map ((fun r => List.drop 2 r) ∘ fun l => (rowNums cut l).map fun x => R x) = savedRows R coeffs nmin nmax := by
      unfold savedRows
      rw [← hlab]
      apply List.ext_getElem
      · simp
      · intro j a b
        simp [rowNums, hcut, sliceCols, back]
    rw [hrows]
    rfl

/-- **C89.** A model saved to a shc-file and loaded again, in double precision: parameters come back exactly, times within `1.831e-6` days (0.16 seconds), and
every coefficient is the double next to the number written, hence within `5e-9` plus half the spacing of doubles of its size. -/
theorem C89_roundtrip (date : List Char) (times : List ℝ) (coeffs : Arr ℝ) (order : ℤ) (nmin nmax : ℕ)
    (leap : Bool) (header : List Char) (hdate : '\n' ∉ date) (hheader : ∀ l ∈ lines (header ++ ['#']), isComment l = true)
    (h0 : 1 ≤ nmin) (h1 : nmin ≤ nmax) (hc : nmax * (nmax + 2) ≤ coeffs.cols) (hr : coeffs.rows = times.length)
    (hb : nmax < 2 ^ 53 ∧ times.length < 2 ^ 53 ∧ |order| < 2 ^ 53) (ht : ∀ t ∈ times, |t| ≤ 106650) :
    ∃ content L,
      saveShc R date times coeffs (some order) (some nmin) (some nmax) (some leap) (some header) = .ok (content, none) ∧
      loadShc R (some leap) content = .ok L ∧
      L.params = [("nmin", (nmin : ℤ)), ("nmax", (nmax : ℤ)), ("N", (times.length : ℤ)), ("order", order), ("step", order - 1)] ∧
      List.Forall₂ (fun t t' => |t' - t| ≤ 1831 / 10 ^ 9) times L.mjd ∧
      L.coeffs.length = (nmax + 1) ^ 2 - nmin ^ 2 ∧
      ∀ (n : ℕ) (m : ℤ), nmin ≤ n → n ≤ nmax → m.natAbs ≤ n →
        ∃ row, L.coeffs[gaussPos n m - (nmin ^ 2 - 1)]? = some row ∧
          List.Forall₂ (fun c d => ∀ k ≤ 1000, |c| ≤ 2 ^ k → IsDouble d ∧ |d - c| ≤ 1 / (2 * 10 ^ 8) + 2 ^ k / 2 ^ 54)
            ((List.range times.length).map fun k => coeffs.get k (gaussPos n m)) row := by
  obtain ⟨ys, ts', hys, hts', hback⟩ : ∃ ys ts', List.Forall₂ (fun t y => mjdToDyear R leap t = .ok y) times ys ∧
      List.Forall₂ (fun y t' => dyearToMjd R leap (back R y) = .ok t') ys ts' ∧
      List.Forall₂ (fun t t' => |t' - t| ≤ 1831 / 10 ^ 9) times ts' := by
    clear hr hb
    induction times with
    | nil => exact ⟨[], [], .nil, .nil, .nil⟩
    | cons t ts ih =>
      obtain ⟨y, t', a, -, -, b, -, c⟩ := time_backF R leap (ht t List.mem_cons_self)
      obtain ⟨ys, ts', d, e, f⟩ := ih (fun x hx => ht x (List.mem_cons_of_mem _ hx))
      exact ⟨y :: ys, t' :: ts', .cons a d, .cons b e, .cons c f⟩
  obtain ⟨s1, s2⟩ := save_load R date times ys ts' coeffs order nmin nmax leap header hdate hheader h0 h1 hc hr hb hys hts'
  refine ⟨_, _, s1, s2, rfl, hback, by simp [savedRows], ?_⟩
  intro n m a b c
  have hge := (block_get n m (by omega) c).2.1
  have hmono : nmin ^ 2 ≤ n ^ 2 := Nat.pow_le_pow_left a 2
  have hsq : 1 ≤ nmin ^ 2 := Nat.one_le_pow _ _ h0
  have hlt : gaussPos n m - (nmin ^ 2 - 1) < (nmax + 1) ^ 2 - nmin ^ 2 := by
    have hl := C12_label_at nmin nmax n m h0 a b c
    have := (List.getElem?_eq_some_iff.1 hl).1
    rw [(C12_count nmin nmax h0 h1).1] at this
    exact this
  refine ⟨(List.range times.length).map fun k => back R (coeffs.get k (gaussPos n m)), ?_, ?_⟩
  · simp only [savedRows]
    rw [List.getElem?_map, List.getElem?_range hlt]
    simp only [Option.map_some, hr]
    rw [show nmin ^ 2 - 1 + (gaussPos n m - (nmin ^ 2 - 1)) = gaussPos n m by omega]
  · rw [List.forall₂_map_left_iff, List.forall₂_map_right_iff]
    refine List.forall₂_same.2 (fun i _ k hk hck => ⟨back_double R hk hck, ?_⟩)
    have e1 := back_err R hk hck
    have e2 := (r8_isRound8 (coeffs.get i (gaussPos n m))).2
    have := abs_sub_le (back R (coeffs.get i (gaussPos n m))) (r8 (coeffs.get i (gaussPos n m))) (coeffs.get i (gaussPos n m))
    linarith

theorem writeRows_congr (c c' : Arr ℝ) (hrow : c'.rows = c.rows) (hcol : c'.cols = c.cols) (ls : List (ℕ × ℤ)) (row : ℕ)
    (h : ∀ i < c.rows, ∀ j, row ≤ j → j < row + ls.length → fixed8 (c'.get i j) = fixed8 (c.get i j)) :
    writeRows c' row ls = writeRows c row ls := by
  induction ls generalizing row with
  | nil => rfl
  | cons l ls ih =>
    obtain ⟨n, m⟩ := l
    rw [List.length_cons] at h
    simp only [writeRows, hrow, hcol]
    rw [ih (row + 1) (fun i hi j h1 h2 => h i hi j (by omega) (by omega))]
    have : (List.range c.rows).flatMap (fun i => field (c'.get i row)) = (List.range c.rows).flatMap (fun i => field (c.get i row)) := by
      rw [List.flatMap_def, List.flatMap_def]
      congr 1
      refine List.map_congr_left (fun i hi => ?_)
      unfold field
      rw [h i (List.mem_range.1 hi) row le_rfl (by omega)]
    rw [this]

/-- **C89.** A file that was written by the package survives any number of further cycles: let `L` be what is loaded from a saved file, and let `coeffs'` contain the
loaded coefficients (transposed, from the column of the lowest degree on, as the writer expects them). Saving the loaded times and coefficients and loading again gives `L` itself, not only a close
model; and if date and header are the same and no coefficient is a negative number that rounds to zero, the second file is the first one, character for character. -/
theorem C89_resave (date : List Char) (times : List ℝ) (coeffs : Arr ℝ) (order : ℤ) (nmin nmax : ℕ)
    (leap : Bool) (header : List Char) (hdate : '\n' ∉ date) (hheader : ∀ l ∈ lines (header ++ ['#']), isComment l = true)
    (h0 : 1 ≤ nmin) (h1 : nmin ≤ nmax) (hc : nmax * (nmax + 2) ≤ coeffs.cols) (hr : coeffs.rows = times.length)
    (hb : nmax < 2 ^ 53 ∧ times.length < 2 ^ 53 ∧ |order| < 2 ^ 53) (ht : ∀ t ∈ times, |t| ≤ 106650)
    (hsize : ∀ i < coeffs.rows, ∀ j < coeffs.cols, |coeffs.get i j| ≤ 2 ^ 26)
    (content : List Char) (L : Loaded ℝ)
    (hs : saveShc R date times coeffs (some order) (some nmin) (some nmax) (some leap) (some header) = .ok (content, none))
    (hl : loadShc R (some leap) content = .ok L)
    (coeffs' : Arr ℝ) (hc' : nmax * (nmax + 2) ≤ coeffs'.cols) (hr' : coeffs'.rows = L.mjd.length)
    (hval : ∀ j, ∀ row, L.coeffs[j]? = some row → ∀ i, ∀ d, row[i]? = some d → coeffs'.get i (nmin ^ 2 - 1 + j) = d)
    (date' header' : List Char) (hdate' : '\n' ∉ date') (hheader' : ∀ l ∈ lines (header' ++ ['#']), isComment l = true) :
    ∃ content', saveShc R date' L.mjd coeffs' (some order) (some nmin) (some nmax) (some leap) (some header') = .ok (content', none) ∧
      loadShc R (some leap) content' = .ok L ∧
      (date' = date → header' = header → (∀ i < coeffs.rows, ∀ j < coeffs.cols, 0 ≤ coeffs.get i j ∨ coeffs.get i j < -(1 / (2 * 10 ^ 8))) → content' = content) := by
  obtain ⟨ys, ts', hys, hts', hys', hyb, hty⟩ : ∃ ys ts', List.Forall₂ (fun t y => mjdToDyear R leap t = .ok y) times ys ∧
      List.Forall₂ (fun y t' => dyearToMjd R leap (back R y) = .ok t') ys ts' ∧
      List.Forall₂ (fun t y => mjdToDyear R leap t = .ok y) ts' (ys.map fun y => back R y) ∧ (∀ y ∈ ys, |y| ≤ 2 ^ 26 ∧ 0 ≤ y) ∧
      List.Forall₂ (fun y t' => dyearToMjd R leap (back R y) = .ok t') (ys.map fun y => back R y) ts' := by
    clear hr hb hs
    induction times with
    | nil => exact ⟨[], [], .nil, .nil, .nil, by simp, .nil⟩
    | cons t ts ih =>
      obtain ⟨y, t', a, yb, y0, b, c, -⟩ := time_backF R leap (ht t List.mem_cons_self)
      obtain ⟨ys, ts', d, e, f, g, k⟩ := ih (fun x hx => ht x (List.mem_cons_of_mem _ hx))
      have yb' : |y| ≤ 2 ^ 26 := yb.trans (by norm_num)
      refine ⟨y :: ys, t' :: ts', .cons a d, .cons b e, .cons c f, ?_, .cons ?_ k⟩
      · intro z hz
        rcases List.mem_cons.1 hz with rfl | hz
        · exact ⟨yb', y0⟩
        · exact g z hz
      · have : back R (back R y) = back R y := by
          unfold back
          congr 1
          exact back_r8 R yb'
        rw [this]
        exact b
  have hlen : ts'.length = times.length := by rw [← hts'.length_eq, ← hys.length_eq]
  obtain ⟨s1, s2⟩ := save_load R date times ys ts' coeffs order nmin nmax leap header hdate hheader h0 h1 hc hr hb hys hts'
  rw [hs] at s1
  injection s1 with s1
  injection s1 with s1 _
  subst s1
  rw [hl] at s2
  injection s2 with s2
  subst s2
  simp only at hr' hval ⊢
  obtain ⟨u1, u2⟩ := save_load R date' ts' (ys.map fun y => back R y) ts' coeffs' order nmin nmax leap header' hdate' hheader' h0 h1 hc' hr'
    (by rw [hlen]; exact hb) hys' hty
  have hsq : 1 ≤ nmin ^ 2 := Nat.one_le_pow _ _ h0
  have hsq2 : (nmax + 1) ^ 2 = nmax * (nmax + 2) + 1 := by ring
  have hget : ∀ i < times.length, ∀ j < (nmax + 1) ^ 2 - nmin ^ 2, coeffs'.get i (nmin ^ 2 - 1 + j) = back R (coeffs.get i (nmin ^ 2 - 1 + j)) := by
    intro i hi j hj
    refine hval j ((List.range coeffs.rows).map fun i => back R (coeffs.get i (nmin ^ 2 - 1 + j))) ?_ i _ ?_
    · unfold savedRows
      rw [List.getElem?_map, List.getElem?_range hj, Option.map_some]
    · rw [hr, List.getElem?_map, List.getElem?_range hi, Option.map_some]
  have hin : ∀ j < (nmax + 1) ^ 2 - nmin ^ 2, nmin ^ 2 - 1 + j < coeffs.cols := by
    intro j hj
    omega
  refine ⟨_, u1, ?_, ?_⟩
  · rw [u2, hlen]
    congr 2
    unfold savedRows
    refine List.map_congr_left (fun j hj => ?_)
    rw [hr', hlen, hr]
    refine List.map_congr_left (fun i hi => ?_)
    rw [List.mem_range] at hi hj
    rw [hget i hi j hj]
    unfold back
    congr 1
    exact back_r8 R (hsize i (by omega) _ (hin j hj))
  · rintro rfl rfl hsign
    unfold savedText
    have hT : fieldsText ((ys.map fun y => back R y).map fun y => asField y) = fieldsText (ys.map fun y => asField y) := by
      congr 1
      rw [List.map_map]
      refine List.map_congr_left (fun y hy => ?_)
      simp only [Function.comp, asField]
      rw [back_fixed8 R (hyb y hy).1 (Or.inl (hyb y hy).2)]
    have hlab := (C12_count nmin nmax h0 h1).1
    have hW : writeRows (sliceCols coeffs' (nmin ^ 2 - 1) ((nmax + 1) ^ 2 - 1)) 0 (labels nmin nmax) =
        writeRows (sliceCols coeffs (nmin ^ 2 - 1) ((nmax + 1) ^ 2 - 1)) 0 (labels nmin nmax) := by
      refine writeRows_congr _ _ ?_ ?_ _ _ ?_
      · simp only [sliceCols]; rw [hr', hlen, hr]
      · simp only [sliceCols]; omega
      · intro i hi j _ hj
        simp only [sliceCols] at hi ⊢
        have hj' : j < (nmax + 1) ^ 2 - nmin ^ 2 := by omega
        rw [hget i (by omega) j hj']
        exact back_fixed8 R (hsize i hi _ (hin j hj')) (hsign i hi _ (hin j hj'))
    rw [hT, hW, List.length_map]

/-- **C89.** Defaults in double precision: order 1, degrees from 1 up to the largest complete degree (the square root in double precision does not
miss it), leap years taken into account, no header. -/
theorem C89_defaults (date : List Char) (times : List ℝ) (coeffs : Arr ℝ) (N : ℕ)
    (hN : N * (N + 2) ≤ coeffs.cols ∧ coeffs.cols < (N + 1) * (N + 3)) (hb : N + 2 ≤ 2 ^ 25) :
    saveShc R date times coeffs none none none none none =
      saveShc R date times coeffs (some 1) (some 1) (some N) (some true) (some []) ∧
    ∀ content, loadShc R none content = loadShc R (some true) content := by
  refine ⟨?_, fun _ => rfl⟩
  unfold saveShc
  simp only [Option.getD_none, Option.getD_some]
  rw [C12_degree_float R coeffs.cols N hN.1 hN.2 hb]

end ChaosMagPy.Float
