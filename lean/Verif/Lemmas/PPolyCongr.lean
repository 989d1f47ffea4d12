import Verif.Spec.SplineModel
/-!
# Piecewise polynomials with the same coefficients have the same values
-/
namespace ChaosMagPy.PPoly

theorem findInterval_lt {x : List ℝ} (h2 : 2 ≤ x.length) {e : Bool} {t : ℝ} {j : ℕ} (h : findInterval x e t = some j) : j + 1 < x.length := by
  unfold findInterval at h
  split_ifs at h with h1 h3 h4 h5 h6
  · cases h; omega
  · cases h; omega
  · cases h; omega
  · cases h
    have : x.countP (fun b => decide (b ≤ t)) < x.length := by
      rw [List.countP_eq_length_filter]
      apply lt_of_le_of_ne (List.length_filter_le _ _)
      intro hc
      have hall := List.length_filter_eq_length_iff.1 hc
      have hne : x ≠ [] := by intro h0; rw [h0] at h2; simp at h2
      have hm : last x ∈ x := by
        unfold last
        rw [List.getLastD_eq_getLast?, List.getLast?_eq_some_getLast hne]
        exact List.getLast_mem hne
      have := hall _ hm
      simp only [decide_eq_true_eq] at this
      exact absurd (le_antisymm (not_lt.1 (by assumption)) this) (by assumption)
    omega

/-- Two objects with the same rows, break points and, in the given columns, coefficients. -/
structure PP.Agree (D : ℕ) (p q : PP) : Prop where
  k : p.k = q.k
  x : p.x = q.x
  two : 2 ≤ p.x.length
  c : ∀ i < p.k, ∀ j, j + 1 < p.x.length → ∀ d < D, p.c i j d = q.c i j d

theorem evalPoly_congr (k : ℕ) (a b : ℕ → ℝ) (h : ∀ i < k, a i = b i) (nu : ℕ) (s : ℝ) : evalPoly k a nu s = evalPoly k b nu s := by
  unfold evalPoly
  refine Finset.sum_congr rfl fun p hp => ?_
  have := Finset.mem_range.1 hp
  rw [h (k - 1 - p) (by omega)]

theorem PP.Agree.eval {D : ℕ} {p q : PP} (h : p.Agree D q) (e : Bool) (nu : ℕ) (t : ℝ) :
    (p.eval e nu t = none ∧ q.eval e nu t = none) ∨ ∃ v w : ℕ → ℝ, p.eval e nu t = some v ∧ q.eval e nu t = some w ∧ ∀ d < D, v d = w d := by
  unfold PP.eval
  rw [← h.x, ← h.k]
  cases hf : findInterval p.x e t with
  | none => exact Or.inl ⟨rfl, rfl⟩
  | some j =>
    refine Or.inr ⟨_, _, rfl, rfl, fun d hd => ?_⟩
    exact evalPoly_congr _ _ _ (fun i hi => h.c i hi j (findInterval_lt h.two hf) d hd) _ _

theorem PP.Agree.derivative {D : ℕ} {p q : PP} (h : p.Agree D q) (nu : ℕ) : (p.derivative nu).Agree D (q.derivative nu) := by
  unfold PP.derivative
  rw [← h.k]
  split_ifs with h0 h1
  · exact h
  · exact ⟨rfl, h.x, h.two, fun _ _ _ _ _ _ => rfl⟩
  · refine ⟨rfl, h.x, h.two, fun i hi j hj d hd => ?_⟩
    simp only at hi hj ⊢
    rw [h.c i (by omega) j hj d hd]

theorem PP.Agree.extend {D : ℕ} {p q : PP} (h : p.Agree D q) (a b : ℕ → ℕ → ℝ) (hab : ∀ i < p.k, ∀ d < D, a i d = b i d) (x0 : ℝ) :
    (p.extend a x0 = .error .valueError ∧ q.extend b x0 = .error .valueError) ∨
    ∃ p' q' : PP, p.extend a x0 = .ok p' ∧ q.extend b x0 = .ok q' ∧ p'.Agree D q' := by
  have hlen := h.two
  unfold PP.extend
  rw [← h.x, ← h.k]
  split_ifs with h0 h1
  · refine Or.inr ⟨_, _, rfl, rfl, rfl, rfl, by simp; omega, fun i hi j hj d hd => ?_⟩
    simp only [List.length_append, List.length_cons, List.length_nil] at hi hj ⊢
    by_cases hj' : j < p.x.length - 1
    · rw [if_pos hj', if_pos hj', h.c i hi j (by omega) d hd]
    · rw [if_neg hj', if_neg hj', hab i hi d hd]
  · refine Or.inr ⟨_, _, rfl, rfl, rfl, rfl, by simp; omega, fun i hi j hj d hd => ?_⟩
    simp only [List.length_cons] at hi hj ⊢
    by_cases hj' : j = 0
    · rw [if_pos hj', if_pos hj', hab i hi d hd]
    · rw [if_neg hj', if_neg hj', h.c i hi (j - 1) (by omega) d hd]
  · exact Or.inl ⟨rfl, rfl⟩

theorem PP.Agree.bin {D : ℕ} {p q : PP} (h : p.Agree D q) (key : ℕ) (x : ℝ) (i : ℕ) (d : ℕ) (hd : d < D) :
    extensionBin p key x i d = extensionBin q key x i d := by
  unfold extensionBin
  rw [← h.k]
  simp only
  split_ifs with h0
  · rcases h.eval true (p.k - 1 - i) x with ⟨h1, h2⟩ | ⟨v, w, h1, h2, h3⟩
    · rw [h1, h2]
    · rw [h1, h2]
      exact h3 d hd
  · rfl

/-- The same row of values in the first `D` columns (or NaN in both). -/
def SameRow (D : ℕ) (r s : Option (ℕ → ℝ)) : Prop := (r = none ∧ s = none) ∨ ∃ v w : ℕ → ℝ, r = some v ∧ s = some w ∧ ∀ d < D, v d = w d

/-- The same result of a synthesis: the same exception, or the same number of columns and the same values. -/
def SameResult {ε : Type} (x y : Except ε (ℕ × List (Option (ℕ → ℝ)))) : Prop :=
  (∃ e, x = .error e ∧ y = .error e) ∨
  ∃ n rows rows', x = .ok (n, rows) ∧ y = .ok (n, rows') ∧ List.Forall₂ (SameRow n) rows rows'

theorem prepare_congr {D : ℕ} {b b' : Base} {c c' : ℕ → ℕ → ℕ → ℝ} (hx : b'.breaks = b.breaks) (ho : b'.order = b.order) (h2 : 2 ≤ b.breaks.length)
    (hc : ∀ i < b.order, ∀ j, j + 1 < b.breaks.length → ∀ d < D, c i j d = c' i j d) (times : List ℝ) (e : Extrap) :
    (∃ err, prepare b c times e = .error err ∧ prepare b' c' times e = .error err) ∨
    ∃ p q ext, prepare b c times e = .ok (p, ext) ∧ prepare b' c' times e = .ok (q, ext) ∧ p.Agree D q := by
  have h0 : PP.Agree D { k := b.order, x := b.breaks, c } { k := b.order, x := b.breaks, c := c' } := ⟨rfl, rfl, h2, hc⟩
  unfold prepare
  rw [hx, ho]
  simp only [bind, Except.bind, pure, Except.pure]
  cases aminmax times with
  | error err => exact Or.inl ⟨err, rfl, rfl⟩
  | ok lh =>
    simp only
    split_ifs with h1
    · cases extrapKey b.order e with
      | error err => exact Or.inl ⟨err, rfl, rfl⟩
      | ok key =>
        simp only
        split_ifs with h3
        · unfold extendSide
          rcases h0.extend _ _ (fun i _ d hd => h0.bin key.toNat (first b.breaks) i d hd) (first b.breaks) with ⟨e1, e2⟩ | ⟨p1, q1, e1, e2, a1⟩
          · rw [e1, e2]; exact Or.inl ⟨_, rfl, rfl⟩
          · rw [e1, e2]
            simp only
            rcases a1.extend _ _ (fun i _ d hd => a1.bin key.toNat (last b.breaks) i d hd) (last b.breaks) with ⟨e3, e4⟩ | ⟨p2, q2, e3, e4, a2⟩
            · rw [e3, e4]; exact Or.inl ⟨_, rfl, rfl⟩
            · rw [e3, e4]
              exact Or.inr ⟨_, _, _, rfl, rfl, a2⟩
        · exact Or.inr ⟨_, _, _, rfl, rfl, h0⟩
    · exact Or.inr ⟨_, _, _, rfl, rfl, h0⟩

/-- Models with the same break points, order, dimension and coefficients give the same results. -/
theorem synthCoeffs_congr {b b' : Base} {c c' : ℕ → ℕ → ℕ → ℝ} (hb : b.coeffs = some c) (hb' : b'.coeffs = some c')
    (hx : b'.breaks = b.breaks) (ho : b'.order = b.order) (hd : b'.dim = b.dim)
    (hc : ∀ i < b.order, ∀ j, j + 1 < b.breaks.length → ∀ d < b.dim, c i j d = c' i j d)
    (times : List ℝ) (dim deriv : Option ℕ) (e : Option Extrap) :
    SameResult (b.synthCoeffs times dim deriv e) (b'.synthCoeffs times dim deriv e) := by
  unfold Base.synthCoeffs
  rw [hb, hb']
  simp only [hx, ho, hd]
  by_cases h0 : b.order = 0 ∨ b.breaks.length ≤ 1 ∨ b.dim = 0
  · rw [if_pos h0, if_pos h0]
    exact Or.inl ⟨_, rfl, rfl⟩
  · rw [if_neg h0, if_neg h0]
    simp only [bind, Except.bind, pure, Except.pure]
    rcases prepare_congr hx ho (by omega) hc times (e.getD (.str "linear")) with ⟨err, e1, e2⟩ | ⟨p, q, ext, e1, e2, ha⟩
    · rw [e1, e2]; exact Or.inl ⟨_, rfl, rfl⟩
    · rw [e1, e2]
      simp only
      refine Or.inr ⟨_, _, _, rfl, rfl, ?_⟩
      rw [List.forall₂_map_left_iff, List.forall₂_map_right_iff]
      refine List.forall₂_same.2 fun t _ => ?_
      have hn : ∀ n : ℕ, n ≤ b.dim → SameRow n (((p.derivative (deriv.getD 0)).eval ext 0 t).map fun v d => v d * (365.25 : ℝ) ^ (deriv.getD 0))
          (((q.derivative (deriv.getD 0)).eval ext 0 t).map fun v d => v d * (365.25 : ℝ) ^ (deriv.getD 0)) := by
        intro n hn
        rcases (ha.derivative (deriv.getD 0)).eval ext 0 t with ⟨h1, h2⟩ | ⟨v, w, h1, h2, h3⟩
        · rw [h1, h2]; exact Or.inl ⟨rfl, rfl⟩
        · rw [h1, h2]
          exact Or.inr ⟨_, _, rfl, rfl, fun d hd => by simp only; rw [h3 d (by omega)]⟩
      apply hn
      cases dim with
      | none => exact le_rfl
      | some n => simp only; split_ifs <;> omega

end ChaosMagPy.PPoly
