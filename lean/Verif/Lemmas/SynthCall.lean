import Verif.Lemmas.SynthField
import Mathlib.Analysis.Real.Sqrt
import Mathlib.NumberTheory.Real.Irrational
/-! The whole call: argument resolution and lists of points. -/
namespace ChaosMagPy.Synth
open ChaosMagPy.Legendre (pyRange)
open ChaosMagPy.Spec

theorem mapM_ok {α β ε : Type} (f : α → Except ε β) (l : List α) (l' : List β) :
    l.mapM f = .ok l' ↔ List.Forall₂ (fun a b => f a = .ok b) l l' := by
  induction l generalizing l' with
  | nil =>
    simp only [List.mapM_nil, pure, Except.pure]
    constructor
    · intro h; injection h with h; subst h; exact List.Forall₂.nil
    · intro h; cases h; rfl
  | cons a l ih =>
    simp only [List.mapM_cons, bind, Except.bind, pure, Except.pure]
    cases hfa : f a with
    | error e =>
      simp only
      constructor
      · intro h; cases h
      · intro h
        cases h with
        | cons h1 h2 => rw [hfa] at h1; cases h1
    | ok b =>
      simp only
      cases hl : l.mapM f with
      | error e =>
        simp only
        constructor
        · intro h; cases h
        · intro h
          cases h with
          | cons h1 h2 => rw [(ih _).2 h2] at hl; cases hl
      | ok bs =>
        simp only
        constructor
        · intro h; injection h with h; subst h
          exact List.Forall₂.cons hfa ((ih bs).1 hl)
        · intro h
          cases h with
          | cons h1 h2 =>
            rw [hfa] at h1
            injection h1 with h1
            subst h1
            rw [(ih _).2 h2] at hl
            injection hl with hl
            rw [hl]

theorem mapM_map {α β ε : Type} (f : α → Except ε β) (g : α → β) (l : List α)
    (h : ∀ a ∈ l, f a = .ok (g a)) : l.mapM f = .ok (l.map g) := by
  rw [mapM_ok]
  induction l with
  | nil => exact List.Forall₂.nil
  | cons a l ih =>
    exact List.Forall₂.cons (h a List.mem_cons_self) (ih (fun b hb => h b (List.mem_cons_of_mem _ hb)))

theorem mapM_error {α β ε : Type} (f : α → Except ε β) (e : ε) (l : List α) (hl : l ≠ [])
    (h : ∀ a ∈ l, f a = .error e) : l.mapM f = .error e := by
  cases l with
  | nil => exact absurd rfl hl
  | cons a l =>
    simp only [List.mapM_cons, bind, Except.bind, h a List.mem_cons_self]

theorem mapM_congr {α β ε : Type} (f g : α → Except ε β) (l : List α)
    (h : ∀ a ∈ l, f a = g a) : l.mapM f = l.mapM g := by
  induction l with
  | nil => rfl
  | cons a l ih =>
    simp only [List.mapM_cons, h a List.mem_cons_self,
      ih (fun b hb => h b (List.mem_cons_of_mem _ hb))]

/-- One point, any colatitude: the closed form in terms of the Legendre table. -/
theorem synthPoint_gen (rsurf : ℝ) (src : Source) (poles : Bool) (dim nmin nmax : ℕ) (mmax : ℤ)
    (r θ φ : ℝ) (hn : 1 ≤ nmax) (hmin : nmin ≤ nmax) (hr : r ≠ 0) (ha : rsurf ≠ 0) :
    ∃ T, Legendre.legendrePoly nmax θ = .ok T ∧ ∀ c : ℕ → ℝ,
    synthPoint rsurf src poles dim nmin nmax mmax ⟨r, θ, φ, c⟩ =
      if coefStart nmin mmax.toNat (nmax + 1) ≤ dim then
        let s := stN { dim, src, poles, T, radius := r / rsurf, theta := θ,
                       phi := rad φ, c := c } nmin mmax.toNat (nmax + 1)
        .ok (s.br, s.bt, s.bp)
      else .error .indexError := by
  obtain ⟨T, hT⟩ : ∃ T, Legendre.legendrePoly nmax θ = .ok T := ⟨_, Legendre.legendrePoly_ok nmax θ hn⟩
  refine ⟨T, hT, fun c => ?_⟩
  unfold synthPoint
  simp only
  rw [hT]
  simp only
  have hl := degrees { dim, src, poles, T, radius := r / rsurf, theta := θ,
                       phi := rad φ, c := c } nmin mmax.toNat mmax rfl
                       (div_ne_zero hr ha) nmax hmin
  simp only at hl
  rw [hl]
  by_cases hc : coefStart nmin mmax.toNat (nmax + 1) ≤ dim
  · rw [if_pos hc, if_pos hc]; rfl
  · rw [if_neg hc, if_neg hc]; rfl

/-- Explicit arguments. -/
theorem resolve_explicit (dim nmin nmax : ℕ) (mmax : ℤ) (h0 : 1 ≤ nmin) (h1 : nmin ≤ nmax) :
    resolve dim (some nmin) (some nmax) (some mmax) = .ok (nmin, nmax, mmax) := by
  unfold resolve
  have e1 : (nmin : ℤ) > 0 := by omega
  have e2 : ¬ (nmax : ℤ) < nmin := by omega
  simp [bind, Except.bind, pure, Except.pure, e2]
  omega

theorem pyInt_of_nonneg {x : ℝ} (h : 0 ≤ x) : pyInt x = ⌊x⌋ := if_pos h

theorem pyInt_sqrt (a : ℕ) (h : 1 ≤ a) : pyInt (Real.sqrt a - 1) = (Nat.sqrt a : ℤ) - 1 := by
  have h1 : (1 : ℝ) ≤ Real.sqrt a := by
    rw [Real.one_le_sqrt]
    exact_mod_cast h
  rw [pyInt_of_nonneg (by linarith), Int.floor_sub_one, Real.floor_real_sqrt_eq_nat_sqrt]

theorem pyInt_eq_iff {x : ℝ} {n : ℤ} (hn : 1 ≤ n) : pyInt x = n ↔ (n : ℝ) ≤ x ∧ x < n + 1 := by
  have hn' : (1 : ℝ) ≤ n := by exact_mod_cast hn
  unfold pyInt
  split_ifs with h
  · rw [Int.floor_eq_iff]
  · constructor
    · intro h2
      have : ⌈x⌉ ≤ 0 := by rw [Int.ceil_le]; push_cast; linarith
      omega
    · intro h2; exfalso; linarith

end ChaosMagPy.Synth
