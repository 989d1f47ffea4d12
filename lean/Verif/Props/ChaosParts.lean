import Verif.Props.ChaosField
import Verif.Props.ChaosShc
/-!
# C56 for the internal parts of a CHAOS model: fields belong to `synth_coeffs_tdep` and `synth_coeffs_static`
-/
namespace ChaosMagPy.Chaos
open ChaosMagPy.Synth (Source)
open ChaosMagPy.PPoly (Base Extrap)
open ChaosMagPy.Spec

/-- **C56** (time-dependent part of CHAOS). If `synth_coeffs_tdep` gives the coefficients `rows` at the times of the points, then
`synth_values_tdep` with the same derivative and extrapolation succeeds and its value at each point is minus the gradient of the potential of
the coefficients of its time. -/
theorem C56_tdep (env : Env) (ha : 0 < env.rSurf) (m : Chaos) (x : Model) (hx : m.tdep = some x) (src : Source) (hsrc : x.source = src.name) (N : ℕ)
    (hdim : x.base.dim = N * (N + 2)) (hN : 1 ≤ N) (pts : List Pt) (hne : pts ≠ []) (hv : ∀ p ∈ pts, p.Valid)
    (nmax : Option ℕ) (h0 : nmax ≠ some 0) (deriv : Option ℕ) (e : Option Extrap) (k : ℕ) (rows : List (Option (ℕ → ℝ)))
    (h : synthCoeffsTdep m (pts.map Pt.time) none deriv e = .ok (k, rows)) :
    ∃ B, synthValuesTdep env m pts nmax deriv e = .ok B ∧ B.length = pts.length ∧ ∀ (i : ℕ) (p : Pt), pts[i]? = some p →
      (rows[i]? = some none ∧ B[i]? = some none) ∨
      ∃ v b, rows[i]? = some (some v) ∧ B[i]? = some (some b) ∧ MinusGradient src env.rSurf v (usedDegree N nmax) p b := by
  unfold synthCoeffsTdep at h
  rw [hx] at h
  unfold synthValuesTdep
  rw [hx]
  exact C56_model env.rSurf ha x src hsrc N hdim hN pts hne hv nmax h0 deriv e k rows ((ofPPoly_ok _ _).1 h)

theorem aminmax_replicate (n : ℕ) (t : ℝ) : PPoly.aminmax (List.replicate (n + 1) t) = .ok (t, t) := by
  rw [List.replicate_succ]
  unfold PPoly.aminmax
  have h : ∀ (f : ℝ → ℝ → ℝ), f t t = t → ∀ n, (List.replicate n t).foldl f t = t := by
    intro f hf n
    induction n with
    | zero => rfl
    | succ n ih => rw [List.replicate_succ, List.foldl_cons, hf, ih]
  simp only
  rw [h min (min_self t), h max (max_self t)]

/-- Repeated times give repeated rows. -/
theorem synth_replicate (b : Base) (n : ℕ) (t : ℝ) (dim deriv : Option ℕ) (e : Option Extrap) (k : ℕ) (r : Option (ℕ → ℝ))
    (h : b.synthCoeffs [t] dim deriv e = .ok (k, [r])) : b.synthCoeffs (List.replicate (n + 1) t) dim deriv e = .ok (k, List.replicate (n + 1) r) := by
  unfold Base.synthCoeffs at h ⊢
  cases hc : b.coeffs with
  | none => rw [hc] at h; cases h
  | some c =>
    rw [hc] at h
    simp only at h ⊢
    split_ifs at h ⊢ with h1
    simp only [bind, Except.bind, pure, Except.pure] at h ⊢
    have hp : ∀ e, PPoly.prepare b c (List.replicate (n + 1) t) e = PPoly.prepare b c [t] e := by
      intro e
      unfold PPoly.prepare
      rw [aminmax_replicate n t, show [t] = List.replicate (0 + 1) t from rfl, aminmax_replicate 0 t]
    rw [hp]
    cases hq : PPoly.prepare b c [t] (e.getD (.str "linear")) with
    | error err => rw [hq] at h; cases h
    | ok p =>
      rw [hq] at h
      simp only [Except.ok.injEq, Prod.mk.injEq, List.map_cons, List.map_nil, List.cons.injEq, and_true] at h ⊢
      refine ⟨h.1, ?_⟩
      rw [List.map_replicate, h.2]

/-- **C56** (static part of CHAOS). The field of `synth_values_static` at every point, for whatever time, is minus the gradient of the potential
of the coefficients of `synth_coeffs_static`. -/
theorem C56_static (env : Env) (ha : 0 < env.rSurf) (m : Chaos) (x : Model) (hx : m.static = some x) (src : Source) (hsrc : x.source = src.name) (N : ℕ)
    (hdim : x.base.dim = N * (N + 2)) (hN : 1 ≤ N) (pts : List Pt) (hne : pts ≠ []) (hv : ∀ p ∈ pts, p.Valid)
    (nmax : Option ℕ) (h0 : nmax ≠ some 0) (deriv : Option ℕ) (e : Option Extrap) (k : ℕ) (g : ℕ → ℝ)
    (h : synthCoeffsStatic m none deriv e = .ok (k, [some g])) :
    ∃ B : List (ℝ × ℝ × ℝ), synthValuesStatic env m pts nmax deriv e = .ok (B.map some) ∧ B.length = pts.length ∧ ∀ (i : ℕ) (p : Pt), pts[i]? = some p →
      ∃ b, B[i]? = some b ∧ MinusGradient src env.rSurf g (usedDegree N nmax) p b := by
  unfold synthCoeffsStatic at h
  rw [hx] at h
  have hc := (ofPPoly_ok _ _).1 h
  unfold PPoly.modelSynthCoeffs at hc
  obtain ⟨n, hn⟩ : ∃ n, pts.length = n + 1 := by
    cases pts with
    | nil => exact absurd rfl hne
    | cons p l => exact ⟨l.length, rfl⟩
  have hr := synth_replicate x.base n _ _ _ _ _ _ hc
  have ht : (pts.map fun p => ({ p with time := PPoly.first x.base.breaks } : Pt)).map Pt.time = List.replicate (n + 1) (PPoly.first x.base.breaks) := by
    rw [List.map_map, ← hn]
    apply List.ext_getElem
    · simp
    · intro i h1 h2; simp
  obtain ⟨B, hB, hl, hval⟩ := C56_model env.rSurf ha x src hsrc N hdim hN (pts.map fun p => ({ p with time := PPoly.first x.base.breaks } : Pt))
    (by simpa using hne) (by
      intro p hp
      obtain ⟨q, hq, rfl⟩ := List.mem_map.1 hp
      exact hv q hq) nmax h0 deriv e k (List.replicate (n + 1) (some g)) (by rw [ht]; exact hr)
  rw [List.length_map] at hl
  have key : ∀ (i : ℕ) (p : Pt), pts[i]? = some p → ∃ b, B[i]? = some (some b) ∧ MinusGradient src env.rSurf g (usedDegree N nmax) p b := by
    intro i p hp
    have hi : i < n + 1 := by
      have := (List.getElem?_eq_some_iff.1 hp).1
      omega
    have hrow : (List.replicate (n + 1) (some g))[i]? = some (some g) := by
      rw [List.getElem?_replicate, if_pos hi]
    rcases hval i _ (by rw [List.getElem?_map, hp]; rfl) with ⟨hbad, _⟩ | ⟨v, b, h1, h2, h3⟩
    · rw [hrow] at hbad; cases hbad
    · rw [hrow] at h1
      cases h1
      exact ⟨b, h2, h3⟩
  refine ⟨B.map fun o => o.getD (0, 0, 0), ?_, by simpa using hl, ?_⟩
  · unfold synthValuesStatic
    rw [hx]
    simp only
    rw [hB]
    congr 1
    apply List.ext_getElem?
    intro i
    rw [List.getElem?_map, List.getElem?_map]
    by_cases hi : i < pts.length
    · obtain ⟨b, hb, _⟩ := key i pts[i] (List.getElem?_eq_getElem hi)
      rw [hb]; rfl
    · rw [List.getElem?_eq_none (by omega)]; rfl
  · intro i p hp
    obtain ⟨b, hb, hg⟩ := key i p hp
    exact ⟨b, by rw [List.getElem?_map, hb]; rfl, hg⟩

/-- The hypotheses hold for a concrete model. -/
example (env : Env) (ha : 0 < env.rSurf) : ∃ B, synthValuesStatic env exShcChaos [⟨0, 6371, 90, 0⟩] none none none = .ok B := by
  obtain ⟨h1, _⟩ := C60_static exShcChaos _ _ rfl rfl 2 1 0 3 (fun d => (d : ℝ))
    ⟨rfl, by norm_num, rfl, rfl, by norm_num, _, rfl, fun _ => rfl⟩ rfl (by norm_num)
  obtain ⟨B, hB, _⟩ := C56_static env ha exShcChaos _ rfl .internal rfl 2 rfl (by norm_num) [⟨0, 6371, 90, 0⟩] (by simp)
    (by simp [Pt.Valid]; norm_num) none (by simp) none none _ _ h1
  exact ⟨_, hB⟩

end ChaosMagPy.Chaos
