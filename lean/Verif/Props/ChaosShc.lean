import Verif.Model.ChaosShc
import Verif.Lemmas.PPolyCongr
import Verif.Props.ShcModel
import Verif.Props.Chaos
/-!
# C60: SHC-files of a CHAOS model
-/
namespace ChaosMagPy.Chaos
open ChaosMagPy.PPoly (Base Extrap ShcData toShc FromShc SplineModel StepModel SameResult SameRow)
open ChaosMagPy.Index (nmaxOfDim)

theorem nmax_dim (N : ℕ) : (nmaxOfDim (N * (N + 2))).toNat = N := by
  have : nmaxOfDim (N * (N + 2)) = N := by
    rw [ChaosMagPy.Index.C12_nmax_of_dim]
    constructor
    · exact le_rfl
    · nlinarith
  rw [this]
  simp

theorem toShc_default (b : Base) (N : ℕ) (hd : b.dim = N * (N + 2)) (nmin : ℕ) : toShc b (some nmin) none = toShc b (some nmin) (some N) := by
  unfold toShc
  simp only [Option.getD_none, Option.getD_some, hd, nmax_dim]

theorem same_ofPPoly {x y : Except PPoly.Error (ℕ × List (Option (ℕ → ℝ)))} (h : SameResult x y) : SameResult (ofPPoly x) (ofPPoly y) := by
  rcases h with ⟨e, rfl, rfl⟩ | ⟨n, r, r', rfl, rfl, h⟩
  · cases e; exact Or.inl ⟨_, rfl, rfl⟩
  · exact Or.inr ⟨n, r, r', rfl, rfl, h⟩

theorem load_exists {f : ShcData} {b : Base} {c : ℕ → ℕ → ℕ → ℝ} (h : FromShc f b) (hc : b.coeffs = some c) : ∃ m', LoadShc f m' := by
  by_cases h1 : b.breaks.length - 1 = 1 ∧ b.order = 1
  · exact ⟨Chaos.init b.breaks none none (some ⟨b.order, b.dim, c⟩) none none none, b, c, h, hc, by rw [if_pos h1]⟩
  · exact ⟨Chaos.init b.breaks (some b.order) (some ⟨b.order, b.dim, c⟩) none none none none, b, c, h, hc, by rw [if_neg h1]⟩

/-- **C60** (time-dependent part). The time-dependent part of a model (a spline of order two or more), saved with `save_shcfile` and loaded with
`load_CHAOS_shcfile`, is the time-dependent part of the loaded model: same break points and order, and `synth_coeffs_tdep` gives the same
result for all times and options. The loaded model has no static part. -/
theorem C60_tdep (m : Chaos) (x : Model) (hx : m.tdep = some x) {c : ℕ → ℕ → ℕ → ℝ} {N : ℕ} (h : SplineModel x.base c N) :
    ∃ f, saveShc m none = .ok (some f) ∧ saveShc m (some "tdep") = .ok (some f) ∧ (∃ m', LoadShc f m') ∧ ∀ m', LoadShc f m' → m'.static = none ∧
      (∃ x', m'.tdep = some x' ∧ x'.base.breaks = x.base.breaks ∧ x'.base.order = x.base.order ∧ x'.base.dim = x.base.dim) ∧
      ∀ (times : List ℝ) (nmax deriv : Option ℕ) (e : Option Extrap), SameResult (synthCoeffsTdep m times nmax deriv e) (synthCoeffsTdep m' times nmax deriv e) := by
  obtain ⟨f, hf, hload⟩ := PPoly.C31_roundtrip h 1 N le_rfl h.degree le_rfl
  have hs : ∀ s : Option String, s.getD "tdep" = "tdep" → saveShc m s = .ok (some f) := by
    intro s hs
    unfold saveShc
    simp only [hs, if_pos rfl, hx]
    rw [toShc_default x.base N h.dim, hf]
    rfl
  have hpos : ∃ m', LoadShc f m' := by
    obtain ⟨f', h1, h2⟩ := PPoly.C31_possible h
    have : toShc x.base none none = toShc x.base (some 1) (some N) := by
      unfold toShc
      simp only [Option.getD_none, Option.getD_some, h.dim, nmax_dim]
    rw [this, hf] at h1
    cases h1
    exact load_exists h2 h.coeffs
  refine ⟨f, hs none rfl, hs (some "tdep") rfl, hpos, fun m' hm' => ?_⟩
  obtain ⟨b, c', h1, h2, h3⟩ := hm'
  obtain ⟨k1, k2, k3, c'', k4, k5⟩ := hload b h1
  rw [h2] at k4
  cases k4
  have ho := h.order
  have hb := h.ascending.1
  rw [if_neg (by omega)] at h3
  subst h3
  have hlen : ¬ b.breaks.length = 1 := by rw [k1]; omega
  refine ⟨rfl, ⟨_, rfl, ?_, ?_, ?_⟩, ?_⟩
  · simp only [Base.init]; rw [if_neg hlen, k1]
  · simp only [Base.init, min_self, k2]
  · simp only [Base.init, k3, h.dim]
  · intro times nmax deriv e
    unfold synthCoeffsTdep
    rw [hx]
    simp only [Chaos.init, Option.map_some]
    apply same_ofPPoly
    unfold PPoly.modelSynthCoeffs
    refine PPoly.synthCoeffs_congr (c := c) (c' := fun i => c' (b.order - b.order + i)) h.coeffs ?_ ?_ ?_ ?_ ?_ times _ deriv e
    · simp only [Base.init, min_self]
    · simp only [Base.init]; rw [if_neg hlen, k1]
    · simp only [Base.init, min_self, k2]
    · simp only [Base.init, k3, h.dim]
    · intro i hi j hj d hd
      rw [Nat.sub_self, Nat.zero_add, k5 i hi j hj d (by rw [← h.dim]; exact hd)]
      rw [if_neg (by simp)]

/-- **C60** (piecewise constant time-dependent part). With order one and at least two intervals the loaded model has the saved part as
time-dependent part, and `synth_coeffs_tdep` gives the same values at all times with the default extrapolation. -/
theorem C60_step (m : Chaos) (x : Model) (hx : m.tdep = some x) {c : ℕ → ℕ → ℕ → ℝ} {N : ℕ} (h : StepModel x.base c N) :
    ∃ f, saveShc m none = .ok (some f) ∧ (∃ m', LoadShc f m') ∧ ∀ m', LoadShc f m' → m'.static = none ∧
      ∀ times : List ℝ, times ≠ [] → ∃ rows rows', synthCoeffsTdep m times none none none = .ok (x.base.dim, rows) ∧
        synthCoeffsTdep m' times none none none = .ok (x.base.dim, rows') ∧
        ∀ i < times.length, ∃ v v' : ℕ → ℝ, rows[i]? = some (some v) ∧ rows'[i]? = some (some v') ∧ ∀ d < x.base.dim, v' d = v d := by
  obtain ⟨f, b', hf, h1, h2, h3, _⟩ := PPoly.C31_order1 h 1 N le_rfl h.degree le_rfl
  have hp := h.pieces
  obtain ⟨f', hf', e1, e2, e3, e4, _⟩ := PPoly.toShc_step h 1 N h.degree le_rfl
  rw [hf] at hf'
  cases hf'
  have hb' : b' = Base.init (f.time ++ [PPoly.last f.time]) (some 1) 1 (f.nmax * (f.nmax + 2)) (fun _ j d => PPoly.padded f j d) := by
    have := h1
    unfold FromShc at this
    simp only at this
    rwa [if_pos e3] at this
  have hl : (f.time ++ [PPoly.last f.time]).length = x.base.breaks.length := by
    rw [e4]; simp; omega
  have hbl : b'.breaks.length = x.base.breaks.length := by
    rw [hb']
    simp only [Base.init]
    rw [if_neg (by omega)]
    exact hl
  have ho : b'.order = 1 := by rw [hb']; rfl
  have hd : b'.dim = x.base.dim := by rw [hb', h.dim]; simp only [Base.init, e2]
  have hco : ∃ c0, b'.coeffs = some c0 := by rw [hb']; exact ⟨_, rfl⟩
  obtain ⟨c0, hco⟩ := hco
  refine ⟨f, ?_, load_exists h1 hco, ?_⟩
  · unfold saveShc
    simp only [Option.getD_none, if_pos rfl, hx]
    rw [toShc_default x.base N h.dim, hf]
    rfl
  · rintro m' ⟨b, c', k1, k2, k3⟩
    obtain rfl := h2 b k1
    rw [if_neg (by omega)] at k3
    subst k3
    refine ⟨rfl, fun times hne => ?_⟩
    obtain ⟨rows, rows', r1, r2, r3⟩ := h3 times hne
    have hinit : Base.init b.breaks (some b.order) b.order b.dim c' = b := by
      unfold Base.init
      rw [if_neg (by omega)]
      simp only [min_self, Nat.sub_self, Nat.zero_add]
      cases b with
      | mk br o d co => simp only at k2; rw [k2]
    refine ⟨rows, rows', ?_, ?_, ?_⟩
    · unfold synthCoeffsTdep PPoly.modelSynthCoeffs; rw [hx]; simp only [Option.map_none]; rw [r1]; rfl
    · unfold synthCoeffsTdep PPoly.modelSynthCoeffs Chaos.init
      simp only [Option.map_some, Option.map_none]
      rw [hinit, r2, h.dim]
      rfl
    · intro i hi
      obtain ⟨v, v', a1, a2, a3⟩ := r3 i hi
      refine ⟨v, v', a1, a2, fun d hd => ?_⟩
      rw [a3 d (by rw [← h.dim]; exact hd), if_neg (by simp)]

/-! ### One constant interval -/

/-- The coefficients at the start of a model with one constant interval. -/
theorem const_synth {b : Base} {c : ℕ → ℕ → ℕ → ℝ} {s e : ℝ} (hc : b.coeffs = some c) (ho : b.order = 1) (hb : b.breaks = [s, e]) (hse : s ≤ e)
    (hd : 0 < b.dim) (nmax : Option ℕ) (ex : Option Extrap) :
    PPoly.modelSynthCoeffs b [s] nmax none ex =
      .ok (match nmax with | none => b.dim | some n => min (n * (n + 2)) b.dim, [some fun d => c 0 0 d]) := by
  have hfi : PPoly.findInterval b.breaks true s = some 0 := by
    rw [hb]
    unfold PPoly.findInterval
    simp only [PPoly.first, PPoly.last, List.headD_cons, List.getLastD_cons, List.getLastD_nil]
    rw [if_neg (lt_irrefl _), if_neg (not_lt.2 hse)]
    split_ifs with h1
    · rfl
    · have : ¬ e ≤ s := fun h => h1 (le_antisymm hse h)
      simp [List.countP_cons, this]
  have hdim0 : b.dim ≠ 0 := by omega
  unfold PPoly.modelSynthCoeffs Base.synthCoeffs
  rw [hc]
  simp only
  rw [if_neg (by rw [ho, hb]; simp [hdim0])]
  simp only [bind, Except.bind, pure, Except.pure]
  unfold PPoly.prepare
  simp only [PPoly.aminmax, List.foldl_nil, bind, Except.bind, pure, Except.pure]
  rw [if_neg (by rw [hb]; simp [PPoly.first, PPoly.last, hse])]
  simp only [List.map_cons, List.map_nil, PPoly.PP.derivative, Option.getD_none, if_pos, PPoly.PP.eval, hfi, Option.map_some]
  have hv : (fun d => PPoly.evalPoly b.order (fun i => c i 0 d) 0 (s - b.breaks.getD 0 0) * (365.25 : ℝ) ^ 0) = fun d => c 0 0 d := by
    funext d
    simp [PPoly.evalPoly, ho]
  rw [hv]
  cases nmax with
  | none => rfl
  | some n =>
    simp only [Option.map_some, gt_iff_lt]
    by_cases hh : b.dim < n * (n + 2)
    · rw [if_pos hh, min_eq_right hh.le]
    · rw [if_neg hh, min_eq_left (not_lt.1 hh)]

/-- A file with one time. -/
def singleFile (nmin N : ℕ) (s : ℝ) (v : ℕ → ℝ) : ShcData where
  nmin := nmin
  nmax := N
  order := 1
  step := 0
  time := [s]
  coeffs := fun k r => match [some v][k]? with | some (some v) => v (r + (nmin ^ 2 - 1)) | _ => 0

/-- One constant interval: the saved file has one time; loading gives a zero-length interval with the same constants. -/
theorem single_file {b : Base} {c : ℕ → ℕ → ℕ → ℝ} {N : ℕ} {s e : ℝ} (hc : b.coeffs = some c) (ho : b.order = 1) (hb : b.breaks = [s, e]) (hse : s ≤ e)
    (hN : 1 ≤ N) (hd : b.dim = N * (N + 2)) (nmin : ℕ) (h0 : 1 ≤ nmin) (hmin : nmin ≤ N) :
    ∃ f, toShc b (some nmin) none = .ok f ∧ (∃ m', LoadShc f m') ∧ ∀ m', LoadShc f m' →
      m' = Chaos.init [s, s] none none (some ⟨1, N * (N + 2), fun _ j d => PPoly.padded f j d⟩) none none none ∧
      ∀ d, PPoly.padded f 0 d = if d < nmin ^ 2 - 1 then 0 else c 0 0 d := by
  have hdpos : 0 < b.dim := by rw [hd]; exact Nat.mul_pos hN (by omega)
  have hsyn := const_synth hc ho hb hse hdpos (some N) none
  simp only [hd, min_self] at hsyn
  have hf : toShc b (some nmin) none = .ok (singleFile nmin N s fun d => c 0 0 d) := by
    unfold toShc
    rw [hc]
    have ht : PPoly.shcTimes b.order b.breaks = [s] := by
      unfold PPoly.shcTimes
      simp only [ho, if_pos, hb, List.dropLast]
    simp only [Option.getD_none, Option.getD_some, hd, nmax_dim, ht]
    rw [hsyn]
    simp only [bind, Except.bind, pure, Except.pure]
    rw [if_neg (by omega), ho]
    rfl
  refine ⟨singleFile nmin N s fun d => c 0 0 d, hf, ?_, ?_⟩
  · refine load_exists (b := Base.init [s, s] (some 1) 1 (N * (N + 2)) fun _ j d => PPoly.padded (singleFile nmin N s fun d => c 0 0 d) j d)
      ?_ rfl
    unfold FromShc
    simp only [singleFile, if_pos]
    rfl
  · rintro m' ⟨b', c', h1, h2, h3⟩
    unfold FromShc at h1
    simp only [singleFile, if_pos] at h1
    subst h1
    simp only [Base.init, Option.some.injEq] at h2
    subst h2
    rw [if_pos ⟨rfl, rfl⟩] at h3
    refine ⟨by rw [h3]; rfl, fun d => ?_⟩
    unfold PPoly.padded singleFile
    simp only [List.getElem?_cons_zero]
    by_cases hn : nmin > 1
    · rw [if_pos hn]
      by_cases hd' : d < nmin ^ 2 - 1
      · rw [if_pos hd', if_pos hd']
      · rw [if_neg hd', if_neg hd', Nat.sub_add_cancel (by omega)]
    · obtain rfl : nmin = 1 := by omega
      simp

/-- A static part as the class makes it: one row of coefficients between two times. -/
structure StaticModel (x : Model) (N : ℕ) (s e : ℝ) (g : ℕ → ℝ) : Prop where
  breaks : x.base.breaks = [s, e]
  span : s ≤ e
  order : x.base.order = 1
  dim : x.base.dim = N * (N + 2)
  degree : 1 ≤ N
  coeffs : ∃ c, x.base.coeffs = some c ∧ ∀ d, c 0 0 d = g d

/-- **C60** (static part). `save_shcfile(model='static')` writes the degrees above those of the time-dependent part. The loaded model has no
time-dependent part, and its `synth_coeffs_static` gives the saved coefficients of these degrees and zero for lower degrees. -/
theorem C60_static (m : Chaos) (x y : Model) (hx : m.static = some x) (hy : m.tdep = some y) (N K : ℕ) (s e : ℝ) (g : ℕ → ℝ)
    (h : StaticModel x N s e g) (hK : y.base.dim = K * (K + 2)) (hKN : K < N) :
    synthCoeffsStatic m none none none = .ok (N * (N + 2), [some g]) ∧
    ∃ f, saveShc m (some "static") = .ok (some f) ∧ (∃ m', LoadShc f m') ∧ ∀ m', LoadShc f m' → m'.tdep = none ∧
      ∀ (nmax : Option ℕ) (ex : Option Extrap), ∃ g' : ℕ → ℝ,
        synthCoeffsStatic m' nmax none ex = .ok (match nmax with | none => N * (N + 2) | some n => min (n * (n + 2)) (N * (N + 2)), [some g']) ∧
        ∀ d, g' d = if d < K * (K + 2) then 0 else g d := by
  obtain ⟨c, hc, hg⟩ := h.coeffs
  have hpos : 0 < x.base.dim := by rw [h.dim]; exact Nat.mul_pos h.degree (by omega)
  have hfst : PPoly.first x.base.breaks = s := by rw [h.breaks]; rfl
  constructor
  · unfold synthCoeffsStatic
    rw [hx]
    simp only
    rw [hfst, const_synth hc h.order h.breaks h.span hpos none none, h.dim]
    simp only [ofPPoly]
    rw [show (fun d => c 0 0 d) = g from funext hg]
  · obtain ⟨f, hf, hex, hload⟩ := single_file hc h.order h.breaks h.span h.degree h.dim (K + 1) (by omega) hKN
    refine ⟨f, ?_, hex, fun m' hm' => ?_⟩
    · unfold saveShc
      simp only [Option.getD_some]
      rw [if_neg (by decide), if_pos trivial, hx, hy]
      simp only
      rw [hK, nmax_dim, hf]
      rfl
    · obtain ⟨rfl, hpad⟩ := hload m' hm'
      refine ⟨rfl, fun nmax ex => ⟨fun d => PPoly.padded f 0 d, ?_, fun d => ?_⟩⟩
      · unfold synthCoeffsStatic Chaos.init
        simp only [Option.map_some, Option.map_none]
        have hb : (Base.init [PPoly.first [s, s], PPoly.last [s, s]] (some 1) 1 (N * (N + 2)) fun _ j d => PPoly.padded f j d).breaks = [s, s] := rfl
        rw [hb]
        have := const_synth (b := Base.init [PPoly.first [s, s], PPoly.last [s, s]] (some 1) 1 (N * (N + 2)) fun _ j d => PPoly.padded f j d)
          rfl rfl hb le_rfl (by rw [← h.dim]; exact hpos) nmax ex
        rw [show PPoly.first [s, s] = s from rfl] at this ⊢
        rw [this]
        rfl
      · beta_reduce
        rw [hpad d, hg, show (K + 1) ^ 2 - 1 = K * (K + 2) by
          have : (K + 1) ^ 2 = K * (K + 2) + 1 := by ring
          omega]

/-- **C60, finding.** A time-dependent part of order one with a single interval comes back as a static part: the loaded model has no
time-dependent part any more. -/
theorem C60_single_interval (m : Chaos) (x : Model) (hx : m.tdep = some x) (N : ℕ) (s e : ℝ) (g : ℕ → ℝ) (h : StaticModel x N s e g) :
    ∃ f, saveShc m none = .ok (some f) ∧ (∃ m', LoadShc f m') ∧ ∀ m', LoadShc f m' → m'.tdep = none ∧
      (∀ times nmax deriv ex, synthCoeffsTdep m' times nmax deriv ex = .error .valueError) ∧
      ∃ g' : ℕ → ℝ, synthCoeffsStatic m' none none none = .ok (N * (N + 2), [some g']) ∧ ∀ d, g' d = g d := by
  obtain ⟨c, hc, hg⟩ := h.coeffs
  obtain ⟨f, hf, hex, hload⟩ := single_file hc h.order h.breaks h.span h.degree h.dim 1 le_rfl h.degree
  refine ⟨f, ?_, hex, fun m' hm' => ?_⟩
  · unfold saveShc
    simp only [Option.getD_none, if_pos rfl, hx]
    rw [hf]
    rfl
  · obtain ⟨rfl, hpad⟩ := hload m' hm'
    refine ⟨rfl, fun _ _ _ _ => rfl, fun d => PPoly.padded f 0 d, ?_, fun d => ?_⟩
    · unfold synthCoeffsStatic Chaos.init
      simp only [Option.map_some, Option.map_none]
      have hb : (Base.init [PPoly.first [s, s], PPoly.last [s, s]] (some 1) 1 (N * (N + 2)) fun _ j d => PPoly.padded f j d).breaks = [s, s] := rfl
      rw [hb]
      have := const_synth (b := Base.init [PPoly.first [s, s], PPoly.last [s, s]] (some 1) 1 (N * (N + 2)) fun _ j d => PPoly.padded f j d)
        rfl rfl hb le_rfl (Nat.mul_pos h.degree (by omega)) none none
      rw [show PPoly.first [s, s] = s from rfl] at this ⊢
      rw [this]
      rfl
    · beta_reduce
      rw [hpad d, hg, if_neg (by simp)]

/-- **C60** (missing parts). Without time-dependent part saving raises `ValueError`, without static part `save_shcfile(model='static')` does; the
static part of a model without time-dependent part raises `AttributeError` (finding), and for any other name nothing is written and no
exception is raised (finding). -/
theorem C60_errors (m : Chaos) :
    (m.tdep = none → saveShc m none = .error .valueError ∧ saveShc m (some "tdep") = .error .valueError) ∧
    (m.static = none → saveShc m (some "static") = .error .valueError) ∧
    (m.static ≠ none → m.tdep = none → saveShc m (some "static") = .error .attributeError) ∧
    ∀ s, s ≠ "tdep" → s ≠ "static" → saveShc m (some s) = .ok none := by
  refine ⟨fun h => ⟨?_, ?_⟩, fun h => ?_, fun h h' => ?_, fun s h h' => ?_⟩
  · unfold saveShc; simp only [Option.getD_none, if_true, h]
  · unfold saveShc; simp only [Option.getD_some, if_true, h]
  · unfold saveShc; simp only [Option.getD_some]; rw [if_neg (by decide), if_pos trivial, h]
  · unfold saveShc; simp only [Option.getD_some]; rw [if_neg (by decide), if_pos trivial, h']
    cases hs : m.static with
    | none => exact absurd hs h
    | some _ => rfl
  · unfold saveShc; simp only [Option.getD_some]; rw [if_neg h, if_neg h']

/-- **C29 (parts of a CHAOS model).** `nmax` only reduces the number of columns of `synth_coeffs_tdep` and `synth_coeffs_static` to
`nmax * (nmax + 2)` (at most all); the values and the rows of NaN are those of the call without `nmax`. A missing part raises ValueError. -/
theorem C29_chaos (m : Chaos) (times : List ℝ) (N : ℕ) (deriv : Option ℕ) (e : Option Extrap) (n : ℕ) (rows : List (Option (ℕ → ℝ))) :
    (synthCoeffsTdep m times none deriv e = .ok (n, rows) → synthCoeffsTdep m times (some N) deriv e = .ok (min (N * (N + 2)) n, rows)) ∧
    (synthCoeffsStatic m none deriv e = .ok (n, rows) → synthCoeffsStatic m (some N) deriv e = .ok (min (N * (N + 2)) n, rows)) ∧
    (m.tdep = none → synthCoeffsTdep m times (some N) deriv e = .error .valueError) ∧
    (m.static = none → synthCoeffsStatic m (some N) deriv e = .error .valueError) := by
  unfold synthCoeffsTdep synthCoeffsStatic
  refine ⟨fun h => ?_, fun h => ?_, fun h => by rw [h], fun h => by rw [h]⟩
  · cases hm : m.tdep with
    | none => rw [hm] at h; cases h
    | some x =>
      rw [hm] at h
      obtain ⟨rfl, h2⟩ := PPoly.C29_truncation x.base times (some N) deriv e n rows ((ofPPoly_ok _ _).1 h)
      exact (ofPPoly_ok _ _).2 h2
  · cases hm : m.static with
    | none => rw [hm] at h; cases h
    | some x =>
      rw [hm] at h
      obtain ⟨rfl, h2⟩ := PPoly.C29_truncation x.base _ (some N) deriv e n rows ((ofPPoly_ok _ _).1 h)
      exact (ofPPoly_ok _ _).2 h2

/-! ### Concrete cases -/

/-- A model with a quadratic spline of degree one and a static part of degree two. -/
def exShcChaos : Chaos where
  tdep := some ⟨PPoly.exSpline, "internal"⟩
  static := some ⟨⟨[0, 3], 1, 8, some fun _ _ d => (d : ℝ)⟩, "internal"⟩
  sm := none
  gsm := none
  delta := none

example : ∃ x y, exShcChaos.static = some x ∧ exShcChaos.tdep = some y ∧ StaticModel x 2 0 3 (fun d => (d : ℝ)) ∧ y.base.dim = 1 * (1 + 2) :=
  ⟨_, _, rfl, rfl, ⟨rfl, by norm_num, rfl, rfl, by norm_num, _, rfl, fun _ => rfl⟩, rfl⟩

/-- The static coefficients above degree one survive. -/
example : ∃ f, saveShc exShcChaos (some "static") = .ok (some f) ∧ ∃ m', LoadShc f m' ∧ ∃ g' : ℕ → ℝ,
    synthCoeffsStatic m' none none none = .ok (8, [some g']) ∧ g' 2 = 0 ∧ g' 3 = 3 := by
  obtain ⟨_, f, h1, ⟨m', h2⟩, h3⟩ := C60_static exShcChaos _ _ rfl rfl 2 1 0 3 (fun d => (d : ℝ))
    ⟨rfl, by norm_num, rfl, rfl, by norm_num, _, rfl, fun _ => rfl⟩ rfl (by norm_num)
  obtain ⟨_, h4⟩ := h3 m' h2
  obtain ⟨g', h5, h6⟩ := h4 none none
  exact ⟨f, h1, m', h2, g', h5, by rw [h6]; norm_num, by rw [h6]; norm_num⟩

/-- The hypotheses of `C29_chaos` are met: the static part of degree two, truncated at degree one. -/
example : ∃ rows, synthCoeffsStatic exShcChaos none none none = .ok (8, rows) ∧ synthCoeffsStatic exShcChaos (some 1) none none = .ok (3, rows) := by
  have h : ∃ rows, synthCoeffsStatic exShcChaos none none none = .ok (8, rows) := by
    have hx : PPoly.Ascending [0, 3] := by
      refine ⟨by simp, fun j hj => ?_⟩
      simp only [List.length_cons, List.length_nil] at hj
      obtain rfl : j = 0 := by omega
      simp
    obtain ⟨vals, h1, _⟩ := PPoly.C26_constructed [0, 3] hx none (by simp) 1 8 one_pos (by norm_num) (fun _ _ d => (d : ℝ)) [0] none none (by simp)
      (Or.inr (by intro t ht; rw [List.mem_singleton] at ht; rw [ht]; norm_num [PPoly.first, PPoly.last]))
    exact ⟨vals, (ofPPoly_ok _ _).2 h1⟩
  obtain ⟨rows, h⟩ := h
  exact ⟨rows, h, (C29_chaos exShcChaos [] 1 none none 8 rows).2.1 h⟩

end ChaosMagPy.Chaos
