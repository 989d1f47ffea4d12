import Verif.Lemmas.PPoly
import Verif.Lemmas.SynthField
/-!
# Cases of `Base.synth_coeffs`
-/
namespace ChaosMagPy.PPoly
open ChaosMagPy.Spec
open ChaosMagPy.Synth (foldl_min_le foldl_min_mem le_foldl_max foldl_max_mem)

theorem extrapKey_known (order : ℕ) (e : Extrap) (h : Known e) : extrapKey order e = .ok (documentedOrder order e) := by
  rcases e with b | s | z
  · cases b
    · simp [extrapKey, documentedOrder]
    · simp [extrapKey, documentedOrder]
  · simp only [Known, List.mem_cons, List.not_mem_nil, or_false] at h
    rcases h with rfl | rfl | rfl | rfl | rfl | rfl <;> simp [extrapKey, documentedOrder]
  · rfl

theorem extrapKey_unknown (order : ℕ) (e : Extrap) (h : ¬ Known e) : extrapKey order e = .error .valueError := by
  rcases e with b | s | z
  · exact absurd trivial h
  · simp only [Known, List.mem_cons, List.not_mem_nil, or_false, not_or] at h
    simp only [extrapKey]
    rw [if_neg h.1, if_neg h.2.1, if_neg h.2.2.1, if_neg h.2.2.2.2.1, if_neg h.2.2.2.1, if_neg h.2.2.2.2.2]
  · exact absurd trivial h

theorem documentedOrder_le (order : ℕ) (e : Extrap) : (documentedOrder order e).toNat ≤ order := by
  unfold documentedOrder
  split <;> omega

theorem aminmax_outside (times : List ℝ) (a b : ℝ) (hne : times ≠ []) :
    ∃ lo hi, aminmax times = .ok (lo, hi) ∧ ((lo < a ∨ hi > b) ↔ ∃ t ∈ times, t < a ∨ b < t) := by
  cases times with
  | nil => exact absurd rfl hne
  | cons t ts =>
    refine ⟨_, _, rfl, ?_⟩
    constructor
    · rintro (h | h)
      · have := foldl_min_mem ts t
        exact ⟨ts.foldl min t, by rcases this with h | h <;> simp [h], Or.inl h⟩
      · have := foldl_max_mem ts t
        exact ⟨ts.foldl max t, by rcases this with h | h <;> simp [h], Or.inr h⟩
    · rintro ⟨s, hs, h⟩
      have l := foldl_min_le ts t
      have g := le_foldl_max ts t
      rcases List.mem_cons.1 hs with rfl | hs
      · rcases h with h | h
        · exact Or.inl (lt_of_le_of_lt l.1 h)
        · exact Or.inr (lt_of_lt_of_le h g.1)
      · rcases h with h | h
        · exact Or.inl (lt_of_le_of_lt (l.2 s hs) h)
        · exact Or.inr (lt_of_lt_of_le h (g.2 s hs))

/-- The piecewise polynomial of the model. -/
def pp (b : Base) (c : ℕ → ℕ → ℕ → ℝ) : PP := { k := b.order, x := b.breaks, c }

/-- The polynomial extended on both sides. -/
noncomputable def ppExt (b : Base) (c : ℕ → ℕ → ℕ → ℝ) (key : ℕ) : PP :=
  extended (pp b c) (extensionBin (pp b c) key (first b.breaks)) (extensionBin (pp b c) key (last b.breaks))

/-- Number of columns for the argument `dim`. -/
def columns (b : Base) : Option ℕ → ℕ
  | none => b.dim
  | some d => if d > b.dim then b.dim else d

section
variable {b : Base} {c : ℕ → ℕ → ℕ → ℝ} (hb : Proper b c)
include hb

theorem Proper.len : 2 ≤ b.breaks.length := length_ge_two (pp b c) hb.sorted hb.span

theorem synth_unfold (times : List ℝ) (dim deriv : Option ℕ) (e : Option Extrap) :
    b.synthCoeffs times dim deriv e = (prepare b c times (e.getD (.str "linear")) >>= fun r =>
      .ok (columns b dim, times.map fun t =>
        (r.1.eval r.2 (deriv.getD 0) t).map fun v d => v d * (365.25 : ℝ) ^ (deriv.getD 0))) := by
  have h1 := hb.order
  have h2 := hb.dim
  have h3 := hb.len
  unfold Base.synthCoeffs
  rw [hb.coeffs]
  simp only
  rw [if_neg (by omega)]
  simp only [bind, Except.bind, pure, Except.pure]
  cases prepare b c times (e.getD (.str "linear")) with
  | error x => rfl
  | ok r =>
    simp only
    congr 2
    congr 1
    funext t
    rw [derivative_eval]

theorem prepare_inside (times : List ℝ) (e : Extrap) (hne : times ≠ []) (h : ¬ Outside b times) :
    prepare b c times e = .ok (pp b c, true) := by
  obtain ⟨lo, hi, ha, hiff⟩ := aminmax_outside times (first b.breaks) (last b.breaks) hne
  unfold prepare
  simp only [ha, bind, Except.bind]
  rw [if_neg (fun hc => h (hiff.1 hc))]
  rfl

theorem prepare_off (times : List ℝ) (e : Extrap) (hne : times ≠ []) (h : Outside b times) (hk : Known e)
    (hd : documentedOrder b.order e ≤ 0) : prepare b c times e = .ok (pp b c, false) := by
  obtain ⟨lo, hi, ha, hiff⟩ := aminmax_outside times (first b.breaks) (last b.breaks) hne
  unfold prepare
  simp only [ha, bind, Except.bind]
  rw [if_pos (hiff.2 h), extrapKey_known _ _ hk]
  simp only
  rw [if_neg (by omega)]
  rfl

theorem prepare_on (times : List ℝ) (e : Extrap) (hne : times ≠ []) (h : Outside b times) (hk : Known e)
    (hd : 0 < documentedOrder b.order e) :
    prepare b c times e = .ok (ppExt b c (documentedOrder b.order e).toNat, true) := by
  obtain ⟨lo, hi, ha, hiff⟩ := aminmax_outside times (first b.breaks) (last b.breaks) hne
  have hx := extendSides (pp b c) hb.sorted hb.span (documentedOrder b.order e).toNat
  unfold prepare
  simp only [ha, bind, Except.bind]
  rw [if_pos (hiff.2 h), extrapKey_known _ _ hk]
  simp only
  rw [if_pos hd]
  simp only [pp, bind, Except.bind] at hx
  simp only [ppExt, pp]
  revert hx
  cases h1 : extendSide { k := b.order, x := b.breaks, c } (documentedOrder b.order e).toNat (first b.breaks) with
  | error z => intro hx; exact absurd hx (by simp)
  | ok p1 =>
    simp only
    cases h2 : extendSide p1 (documentedOrder b.order e).toNat (last b.breaks) with
    | error z => intro hx; exact absurd hx (by simp)
    | ok p2 =>
      intro hx
      rw [Except.ok.injEq] at hx
      rw [hx]
      rfl

theorem prepare_unknown (times : List ℝ) (e : Extrap) (h : Outside b times) (hk : ¬ Known e) :
    prepare b c times e = .error .valueError := by
  have hne : times ≠ [] := by rintro rfl; obtain ⟨t, ht, _⟩ := h; simp at ht
  obtain ⟨lo, hi, ha, hiff⟩ := aminmax_outside times (first b.breaks) (last b.breaks) hne
  unfold prepare
  simp only [ha, bind, Except.bind]
  rw [if_pos (hiff.2 h), extrapKey_unknown _ _ hk]

/-- `(polynomial, extrapolate flag)` used for the evaluation, all cases together. -/
theorem prepare_cases (times : List ℝ) (e : Extrap) (hne : times ≠ []) (hk : Known e ∨ ¬ Outside b times) :
    ∃ r, prepare b c times e = .ok r ∧
      ((¬ Outside b times ∧ r = (pp b c, true)) ∨
       (Outside b times ∧ documentedOrder b.order e ≤ 0 ∧ r = (pp b c, false)) ∨
       (Outside b times ∧ 0 < documentedOrder b.order e ∧ r = (ppExt b c (documentedOrder b.order e).toNat, true))) := by
  by_cases h : Outside b times
  · have hk' : Known e := hk.resolve_right (fun hc => hc h)
    rcases lt_or_ge 0 (documentedOrder b.order e) with h0 | h0
    · exact ⟨_, prepare_on hb times e hne h hk' h0, Or.inr (Or.inr ⟨h, h0, rfl⟩)⟩
    · exact ⟨_, prepare_off hb times e hne h hk' h0, Or.inr (Or.inl ⟨h, h0, rfl⟩)⟩
  · exact ⟨_, prepare_inside hb times e hne h, Or.inl ⟨h, rfl⟩⟩

theorem pp_eval_piece (ext : Bool) (nu j : ℕ) (t : ℝ) (h : IsPiece b.breaks j t) :
    (pp b c).eval ext nu t = some fun d => iteratedDeriv nu (piece b c j d) t := by
  unfold PP.eval
  rw [show (pp b c).x = b.breaks from rfl, findInterval_piece _ hb.sorted ext j t h]
  simp only [Option.map_some]
  congr 1
  funext d
  rw [piece, show poly b.order (fun i => c i j d) (b.breaks.getD j 0) =
    fun t => ∑ p ∈ Finset.range b.order, c (b.order - 1 - p) j d * (t - b.breaks.getD j 0) ^ p from rfl,
    evalPoly_iteratedDeriv b.order (fun i => c i j d)]
  rfl

/-- A model evaluated at a time of piece `j` before the end: all cases of `prepare`. -/
theorem row_inside {times : List ℝ} {e : Extrap} {r : PP × Bool} (hne : times ≠ [])
    (hk : Known e ∨ ¬ Outside b times) (hr : prepare b c times e = .ok r) (nu j : ℕ) (t : ℝ)
    (hj : IsPiece b.breaks j t) (ht : t < last b.breaks) :
    r.1.eval r.2 nu t = some fun d => iteratedDeriv nu (piece b c j d) t := by
  obtain ⟨r', hr', h⟩ := prepare_cases hb times e hne hk
  rw [hr, Except.ok.injEq] at hr'
  subst hr'
  have hfirst : first b.breaks ≤ t := by
    obtain ⟨h1, h2⟩ := hj
    rcases h2 with h2 | h2
    · rw [first_eq]; exact (hb.sorted 0 j (by omega) (by omega)).trans h2.1
    · exact absurd h2.1 ht.ne
  rcases h with ⟨_, rfl⟩ | ⟨_, _, rfl⟩ | ⟨_, _, rfl⟩
  · exact pp_eval_piece hb _ _ _ _ hj
  · exact pp_eval_piece hb _ _ _ _ hj
  · simp only [ppExt]
    rw [extended_eval_inside (pp b c) hb.sorted hb.span _ _ _ _ _ hfirst ht]
    exact pp_eval_piece hb _ _ _ _ hj

theorem isPiece_last : IsPiece b.breaks (b.breaks.length - 2) (last b.breaks) := by
  have := hb.len
  exact ⟨by omega, Or.inr ⟨rfl, by omega⟩⟩

/-- Derivatives at the first break point. The first piece used is the one of `find_interval`, see `startPiece`. -/
theorem eval_first : ∃ j, IsPiece b.breaks j (first b.breaks) ∧ ∀ q, (pp b c).eval true q (first b.breaks) = some fun d => iteratedDeriv q (piece b c j d) (first b.breaks) := by
  obtain ⟨j, hj⟩ := piece_exists b.breaks hb.len (first b.breaks) le_rfl hb.span.le
  exact ⟨j, hj, fun q => pp_eval_piece hb _ _ _ _ hj⟩

/-- Value of an extension piece as a derivative. -/
theorem bin_eval (key nu j : ℕ) (x t : ℝ) (d : ℕ) (hj : IsPiece b.breaks j x) (hkey : key ≤ b.order) :
    evalPoly b.order (fun i => extensionBin (pp b c) key x i d) nu (t - x) =
      iteratedDeriv nu (fun s => ∑ q ∈ Finset.range key, iteratedDeriv q (piece b c j d) x * (s - x) ^ q) t := by
  have h := evalPoly_bin (pp b c) key x (fun q d => iteratedDeriv q (piece b c j d) x)
    (fun q => pp_eval_piece hb true q j x hj) nu (t - x) d
  rw [show (pp b c).k = b.order from rfl] at h
  rw [h]
  have h2 := evalPoly_iteratedDeriv key (fun i => iteratedDeriv (key - 1 - i) (piece b c j d) x) nu x t
  have e : (fun s => ∑ q ∈ Finset.range key, iteratedDeriv q (piece b c j d) x * (s - x) ^ q) =
      fun t => ∑ p ∈ Finset.range key, iteratedDeriv (key - 1 - (key - 1 - p)) (piece b c j d) x * (t - x) ^ p := by
    funext s
    apply Finset.sum_congr rfl
    intro q hq
    rw [Finset.mem_range] at hq
    rw [show key - 1 - (key - 1 - q) = q by omega]
  rw [e, h2]
  unfold evalPoly
  have hsub : Finset.range key ⊆ Finset.range b.order := Finset.range_mono hkey
  rw [← Finset.sum_subset hsub]
  · apply Finset.sum_congr rfl
    intro q hq
    rw [Finset.mem_range] at hq
    simp only
    rw [show key - 1 - (key - 1 - q) = q by omega]
    by_cases h : nu ≤ q
    · rw [if_pos ⟨h, hq⟩, if_pos h]
    · rw [if_neg (fun hc => h hc.1), if_neg h]
  · intro q _ hq
    rw [Finset.mem_range] at hq
    rw [if_neg (fun hc => hq hc.2)]

theorem ppExt_right (key nu : ℕ) (t : ℝ) (hkey : key ≤ b.order) (ht : last b.breaks ≤ t) :
    (ppExt b c key).eval true nu t = some fun d => iteratedDeriv nu (fun s => ∑ q ∈ Finset.range key,
      iteratedDeriv q (piece b c (b.breaks.length - 2) d) (last b.breaks) * (s - last b.breaks) ^ q) t := by
  have h := extended_eval_right (pp b c) hb.sorted hb.span (extensionBin (pp b c) key (first b.breaks))
    (extensionBin (pp b c) key (last b.breaks)) nu t ht
  unfold ppExt
  rw [h]
  congr 1
  funext d
  exact bin_eval hb key nu _ _ t d (isPiece_last hb) hkey

theorem ppExt_left (key nu j : ℕ) (t : ℝ) (hkey : key ≤ b.order) (ht : t < first b.breaks)
    (hj : IsPiece b.breaks j (first b.breaks)) :
    (ppExt b c key).eval true nu t = some fun d => iteratedDeriv nu (fun s => ∑ q ∈ Finset.range key,
      iteratedDeriv q (piece b c j d) (first b.breaks) * (s - first b.breaks) ^ q) t := by
  have h := extended_eval_left (pp b c) hb.sorted hb.span (extensionBin (pp b c) key (first b.breaks))
    (extensionBin (pp b c) key (last b.breaks)) nu t ht
  unfold ppExt
  rw [h]
  congr 1
  funext d
  exact bin_eval hb key nu _ _ t d hj hkey

end
end ChaosMagPy.PPoly
