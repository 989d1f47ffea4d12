import Verif.Model.SynthWarn
import Verif.Props.PPoly
/-!
# C86: missing times and warnings
-/
namespace ChaosMagPy.PPoly
open ChaosMagPy.Spec

/-- There are coefficients. -/
def HasCoeffs (b : Base) : Prop := (∃ c, b.coeffs = some c) ∧ 0 < b.order ∧ 1 < b.breaks.length ∧ 0 < b.dim

theorem fold_nanMin (ts : List (Option ℝ)) (a : Option ℝ) (h : none ∈ ts ∨ a = none) : ts.foldl nanMin a = none := by
  induction ts generalizing a with
  | nil => simpa using h
  | cons t ts ih =>
    rw [List.foldl_cons]
    apply ih
    rcases h with h | rfl
    · rw [List.mem_cons] at h
      rcases h with h | h
      · right; rw [← h]; cases a <;> rfl
      · exact .inl h
    · right; rfl

theorem fold_nanMax (ts : List (Option ℝ)) (a : Option ℝ) (h : none ∈ ts ∨ a = none) : ts.foldl nanMax a = none := by
  induction ts generalizing a with
  | nil => simpa using h
  | cons t ts ih =>
    rw [List.foldl_cons]
    apply ih
    rcases h with h | rfl
    · rw [List.mem_cons] at h
      rcases h with h | h
      · right; rw [← h]; cases a <;> rfl
      · exact .inl h
    · right; rfl

theorem fold_some (ts : List ℝ) (a : ℝ) : (ts.map some).foldl nanMin (some a) = some (ts.foldl min a) ∧ (ts.map some).foldl nanMax (some a) = some (ts.foldl max a) := by
  constructor
  · induction ts generalizing a with
    | nil => rfl
    | cons t ts ih => exact ih (min a t)
  · induction ts generalizing a with
    | nil => rfl
    | cons t ts ih => exact ih (max a t)

theorem all_some (times : List (Option ℝ)) (h : none ∉ times) : ∃ ts : List ℝ, times = ts.map some := by
  induction times with
  | nil => exact ⟨[], rfl⟩
  | cons t times ih =>
    simp only [List.mem_cons, not_or] at h
    obtain ⟨ts, rfl⟩ := ih h.2
    cases t with
    | none => exact absurd rfl h.1
    | some t => exact ⟨t :: ts, rfl⟩

theorem prepareN_missing (b : Base) (c : ℕ → ℕ → ℕ → ℝ) (times : List (Option ℝ)) (e : Extrap) (h : none ∈ times) :
    prepareN b c times e = ([], .ok (pp b c, true)) := by
  cases times with
  | nil => simp at h
  | cons t ts =>
    have h' : none ∈ ts ∨ t = none := by
      rw [List.mem_cons] at h
      rcases h with h | h
      · exact .inr h.symm
      · exact .inl h
    unfold prepareN aminmaxN
    simp only
    rw [if_neg (by
      rintro (⟨x, hx, -⟩ | ⟨x, hx, -⟩)
      · rw [fold_nanMin ts t h'] at hx; cases hx
      · rw [fold_nanMax ts t h'] at hx; cases hx)]
    rfl

theorem prepareN_some (b : Base) (c : ℕ → ℕ → ℕ → ℝ) (times : List ℝ) (e : Extrap) : (prepareN b c (times.map some) e).2 = prepare b c times e := by
  cases times with
  | nil => rfl
  | cons t ts =>
    unfold prepareN prepare
    simp only [List.map_cons, aminmaxN, aminmax, (fold_some ts t).1, (fold_some ts t).2, bind, Except.bind]
    have hiff : (nanLt (some (ts.foldl min t)) (first b.breaks) ∨ nanGt (some (ts.foldl max t)) (last b.breaks)) ↔
        (ts.foldl min t < first b.breaks ∨ ts.foldl max t > last b.breaks) := by
      simp [nanLt, nanGt]
    by_cases hc : ts.foldl min t < first b.breaks ∨ ts.foldl max t > last b.breaks
    · rw [if_pos (hiff.2 hc), if_pos hc]
      cases extrapKey b.order e with
      | error e => rfl
      | ok key => rfl
    · rw [if_neg (fun h => hc (hiff.1 h)), if_neg hc]
      rfl

open Classical in
/-- The warnings of the preparation. -/
theorem prepareN_warn (b : Base) (c : ℕ → ℕ → ℕ → ℝ) (times : List ℝ) (e : Extrap) :
    (prepareN b c (times.map some) e).1 = if Outside b times ∧ Known e then [.outside (first b.breaks) (last b.breaks) (message b.order (documentedOrder b.order e))] else [] := by
  by_cases hne : times = []
  · subst hne
    rw [if_neg (by rintro ⟨⟨t, ht, -⟩, -⟩; cases ht)]
    rfl
  · obtain ⟨lo, hi, ha, hiff⟩ := aminmax_outside times (first b.breaks) (last b.breaks) hne
    have haN : aminmaxN (times.map some) = .ok (some lo, some hi) := by
      cases times with
      | nil => exact absurd rfl hne
      | cons t ts =>
        simp only [aminmax, Except.ok.injEq, Prod.mk.injEq] at ha
        obtain ⟨rfl, rfl⟩ := ha
        simp only [List.map_cons, aminmaxN, (fold_some ts t).1, (fold_some ts t).2]
    unfold prepareN
    simp only [haN]
    have hiff' : (nanLt (some lo) (first b.breaks) ∨ nanGt (some hi) (last b.breaks)) ↔ Outside b times := by
      rw [← show _ ↔ Outside b times from hiff]
      simp [nanLt, nanGt]
    by_cases ho : Outside b times
    · rw [if_pos (hiff'.2 ho)]
      by_cases hk : Known e
      · rw [extrapKey_known _ _ hk, if_pos ⟨ho, hk⟩]
      · rw [extrapKey_unknown _ _ hk, if_neg (fun h => hk h.2)]
    · rw [if_neg (fun h => ho (hiff'.1 h)), if_neg (fun h => ho h.1)]

/-- **C86.** Without NaN the rows (or the exception) are those of the other claims about `synth_coeffs`. -/
theorem C86_complete (b : Base) (times : List ℝ) (dim deriv : Option ℕ) (e : Option Extrap) :
    (b.synthCoeffsN (times.map some) dim deriv e).2 = b.synthCoeffs times dim deriv e := by
  unfold Base.synthCoeffsN Base.synthCoeffs
  cases b.coeffs with
  | none => rfl
  | some c =>
    simp only
    by_cases h : b.order = 0 ∨ b.breaks.length ≤ 1 ∨ b.dim = 0
    · rw [if_pos h, if_pos h]
    · rw [if_neg h, if_neg h]
      simp only [prepareN_some]
      cases prepare b c times (e.getD (.str "linear")) with
      | error e => rfl
      | ok r =>
        simp only [Except.map, bind, Except.bind, pure, Except.pure, List.map_map]
        rfl

theorem synthN_unfold {b : Base} {c : ℕ → ℕ → ℕ → ℝ} (hb : Proper b c) (times : List (Option ℝ)) (dim deriv : Option ℕ) (e : Option Extrap) :
    (b.synthCoeffsN times dim deriv e).2 = (prepareN b c times (option e)).2.map fun pe => (columns b dim, times.map fun t =>
      ((pe.1.derivative (dOrder deriv)).evalN pe.2 0 t).map fun v d => v d * (365.25 : ℝ) ^ dOrder deriv) := by
  have h1 := hb.order
  have h2 := hb.dim
  have h3 := hb.len
  unfold Base.synthCoeffsN
  rw [hb.coeffs]
  simp only
  rw [if_neg (by omega)]
  rfl

/-- **C86.** A time that is NaN gives a row of NaN. -/
theorem C86_missing (b : Base) (times : List (Option ℝ)) (dim deriv : Option ℕ) (e : Option Extrap) (n : ℕ) (rows : List (Option (ℕ → ℝ)))
    (h : (b.synthCoeffsN times dim deriv e).2 = .ok (n, rows)) (i : ℕ) (hi : times[i]? = some none) : rows.length = times.length ∧ rows[i]? = some none := by
  unfold Base.synthCoeffsN at h
  cases hc : b.coeffs with
  | none => rw [hc] at h; cases h
  | some c =>
    rw [hc] at h
    simp only at h
    by_cases hs : b.order = 0 ∨ b.breaks.length ≤ 1 ∨ b.dim = 0
    · rw [if_pos hs] at h; cases h
    · rw [if_neg hs] at h
      simp only at h
      cases hp : (prepareN b c times (e.getD (.str "linear"))).2 with
      | error e => rw [hp] at h; cases h
      | ok r =>
        rw [hp] at h
        simp only [Except.map, Except.ok.injEq, Prod.mk.injEq] at h
        obtain ⟨-, rfl⟩ := h
        refine ⟨by simp, ?_⟩
        rw [List.getElem?_map, hi]
        rfl

/-- **C86** (a finding). If one of the times is NaN, no check of the model interval takes place: the call succeeds for every `extrapolate`, also for names that do not
exist, and each other time outside the interval gets the (derivative of the) polynomial of the first or last piece, also with `extrapolate='off'`. -/
theorem C86_unchecked {b : Base} {c : ℕ → ℕ → ℕ → ℝ} (hb : Proper b c) (times : List (Option ℝ)) (hn : none ∈ times) (dim deriv : Option ℕ) (e : Option Extrap) :
    ∃ rows, (b.synthCoeffsN times dim deriv e).2 = .ok (columns b dim, rows) ∧
      ∀ (i : ℕ) (t : ℝ) (j : ℕ), times[i]? = some (some t) →
        (t < first b.breaks ∧ j = 0 ∨ IsPiece b.breaks j t ∨ last b.breaks < t ∧ j = b.breaks.length - 2) →
        ∃ v : ℕ → ℝ, rows[i]? = some (some v) ∧ ∀ d, v d = iteratedDeriv (dOrder deriv) (piece b c j d) t * (365.25 : ℝ) ^ dOrder deriv := by
  rw [synthN_unfold hb, prepareN_missing b c times _ hn]
  refine ⟨_, rfl, fun i t j hi hj => ?_⟩
  refine ⟨_, ?_, fun d => rfl⟩
  rw [List.getElem?_map, hi]
  simp only [Option.map_some, PP.evalN, derivative_eval]
  have key : (pp b c).eval true (dOrder deriv) t = some fun d => iteratedDeriv (dOrder deriv) (piece b c j d) t := by
    rcases hj with ⟨ht, rfl⟩ | hj | ⟨ht, rfl⟩
    · unfold PP.eval
      rw [show findInterval (pp b c).x true t = some 0 by unfold findInterval; rw [if_pos (show t < first (pp b c).x from ht)]; rfl]
      simp only [Option.map_some]
      congr 1
      funext d
      exact (evalPoly_iteratedDeriv _ _ _ _ _).symm
    · exact pp_eval_piece hb true _ j t hj
    · unfold PP.eval
      have h1 : ¬ t < first (pp b c).x := by
        have := hb.span
        show ¬ t < first b.breaks
        linarith
      rw [show findInterval (pp b c).x true t = some (b.breaks.length - 2) by
        unfold findInterval; rw [if_neg h1, if_pos (show last (pp b c).x < t from ht)]; rfl]
      simp only [Option.map_some]
      congr 1
      funext d
      exact (evalPoly_iteratedDeriv _ _ _ _ _).symm
  rw [key]
  rfl

open Classical in
/-- **C86.** The warnings of a call, in order: one if `dim` is larger than the number of coefficients, and one if some time is outside the model interval, all times are
numbers and the option is known. -/
theorem C86_warnings (b : Base) (hb : HasCoeffs b) (times : List (Option ℝ)) (dim deriv : Option ℕ) (e : Option Extrap) :
    ∃ m, (b.synthCoeffsN times dim deriv e).1 =
      (if ∃ d, dim = some d ∧ b.dim < d then [.dim (dim.getD 0) b.dim] else []) ++
      (if none ∉ times ∧ (∃ t, some t ∈ times ∧ (t < first b.breaks ∨ last b.breaks < t)) ∧ Known (option e) then [.outside (first b.breaks) (last b.breaks) m] else []) := by
  obtain ⟨⟨c, hc⟩, h1, h2, h3⟩ := hb
  refine ⟨message b.order (documentedOrder b.order (option e)), ?_⟩
  unfold Base.synthCoeffsN
  rw [hc]
  simp only
  rw [if_neg (by omega)]
  simp only
  congr 1
  · cases dim with
    | none => simp
    | some d => simp
  · by_cases hn : none ∈ times
    · rw [prepareN_missing b c times _ hn, if_neg (fun h => h.1 hn)]
    · obtain ⟨ts, rfl⟩ := all_some times hn
      rw [prepareN_warn]
      apply if_congr _ rfl rfl
      simp only [hn, not_false_iff, true_and, List.mem_map, Option.some.injEq, exists_eq_right]
      rfl

theorem message_cases (order : ℕ) (ho : 0 < order) (key : ℤ) (hk : key ≤ order) :
    (message order key = "order-{key} spline" ∧ (key < 0 ∨ 4 < key ∧ key < order)) ∨
    (Known (.str (if message order key = "no" then "off" else message order key)) ∧
      documentedOrder order (.str (if message order key = "no" then "off" else message order key)) = key ∧ 0 ≤ key ∧ (key ≤ 4 ∨ key = order)) := by
  unfold message
  by_cases h0 : key = 0
  · subst h0
    right
    simp [Known, documentedOrder]
  rw [if_neg h0]
  unfold revDkey dkey
  by_cases hs : key = order
  · right
    subst hs
    have : ¬ (0 : ℤ) = order := by omega
    simp [Known, documentedOrder, this]
  have hs' : ¬ (order : ℤ) = key := fun h => hs h.symm
  have h0' : ¬ (0 : ℤ) = key := fun h => h0 h.symm
  by_cases h1 : key = 1
  · subst h1; right; simp [Known, documentedOrder, hs']; omega
  by_cases h2 : key = 2
  · subst h2; right; simp [Known, documentedOrder, hs']; omega
  by_cases h3 : key = 3
  · subst h3; right; simp [Known, documentedOrder, hs']; omega
  by_cases h4 : key = 4
  · subst h4; right; simp [Known, documentedOrder, hs']; omega
  left
  have e1 : ¬ (1 : ℤ) = key := fun h => h1 h.symm
  have e2 : ¬ (2 : ℤ) = key := fun h => h2 h.symm
  have e3 : ¬ (3 : ℤ) = key := fun h => h3 h.symm
  have e4 : ¬ (4 : ℤ) = key := fun h => h4 h.symm
  simp [hs', h0', e1, e2, e3, e4]
  omega

/-- The call depends on the option only through the order. -/
theorem synthN_order (b : Base) (times : List (Option ℝ)) (dim deriv : Option ℕ) (e e' : Option Extrap)
    (h : extrapKey b.order (option e) = extrapKey b.order (option e')) : b.synthCoeffsN times dim deriv e = b.synthCoeffsN times dim deriv e' := by
  have : ∀ c, prepareN b c times (e.getD (.str "linear")) = prepareN b c times (e'.getD (.str "linear")) := by
    intro c
    unfold prepareN
    rw [show extrapKey b.order (e.getD (.str "linear")) = _ from h]
  unfold Base.synthCoeffsN
  simp only [this]

/-- **C86.** The word in the warning about times outside of the model is the name of an option for which the call gives the same result and warnings (`no` stands for
`off`), except for integers that are negative or between 5 and the order of the model, for which it is the literal text `order-{key} spline`. -/
theorem C86_message (b : Base) (times : List (Option ℝ)) (dim deriv : Option ℕ) (e : Option Extrap) (start stop : ℝ) (m : String)
    (h : .outside start stop m ∈ (b.synthCoeffsN times dim deriv e).1) :
    start = first b.breaks ∧ stop = last b.breaks ∧
    ((∃ z : ℤ, e = some (.int z) ∧ (z < 0 ∨ 4 < z ∧ z < b.order)) → m = "order-{key} spline") ∧
    ((¬ ∃ z : ℤ, e = some (.int z) ∧ (z < 0 ∨ 4 < z ∧ z < b.order)) →
      b.synthCoeffsN times dim deriv (some (.str (if m = "no" then "off" else m))) = b.synthCoeffsN times dim deriv e) := by
  have hw : ∃ c, b.coeffs = some c ∧ 0 < b.order ∧ .outside start stop m ∈ (prepareN b c times (option e)).1 := by
    unfold Base.synthCoeffsN at h
    cases hc : b.coeffs with
    | none => rw [hc] at h; cases h
    | some c =>
      rw [hc] at h
      simp only at h
      by_cases hs : b.order = 0 ∨ b.breaks.length ≤ 1 ∨ b.dim = 0
      · rw [if_pos hs] at h; cases h
      · rw [if_neg hs] at h
        refine ⟨c, rfl, by omega, ?_⟩
        simp only [List.mem_append] at h
        rcases h with h | h
        · cases dim with
          | none => cases h
          | some d =>
            simp only at h
            split_ifs at h <;> simp at h
        · exact h
  obtain ⟨c, hc, ho, hm⟩ := hw
  by_cases hn : none ∈ times
  · rw [prepareN_missing b c times _ hn] at hm
    cases hm
  obtain ⟨ts, rfl⟩ := all_some times hn
  rw [prepareN_warn] at hm
  split_ifs at hm with hk
  swap
  · cases hm
  simp only [List.mem_singleton, Warn.outside.injEq] at hm
  obtain ⟨rfl, rfl, rfl⟩ := hm
  refine ⟨rfl, rfl, ?_, ?_⟩
  · rintro ⟨z, rfl, hz⟩
    have hd : documentedOrder b.order (.int z) = z := by
      show min z _ = z
      omega
    rcases message_cases b.order ho z (by omega) with hc' | hc'
    · rw [show option (some (.int z)) = .int z from rfl, hd]
      exact hc'.1
    · omega
  · intro hz
    have hle : documentedOrder b.order (option e) ≤ b.order := by
      unfold documentedOrder
      split <;> omega
    rcases message_cases b.order ho _ hle with ⟨-, hc'⟩ | ⟨h1, h2, -⟩
    · exfalso
      generalize ho' : option e = o at *
      cases o with
      | bool bb => cases bb <;> simp [documentedOrder] at hc' <;> omega
      | str s =>
        unfold documentedOrder at hc'
        split at hc' <;> first | omega | simp_all
      | int z =>
        cases e with
        | none => cases ho'
        | some e =>
          simp only [option, Option.getD_some] at ho'
          subst ho'
          apply hz
          refine ⟨z, rfl, ?_⟩
          simp only [documentedOrder] at hc'
          omega
    · apply synthN_order
      exact (extrapKey_known _ _ h1).trans (by rw [h2, extrapKey_known _ _ hk.2])

end ChaosMagPy.PPoly
