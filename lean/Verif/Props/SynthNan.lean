import Verif.Model.SynthNan
import Verif.Props.Synth
/-!
# C87: missing coordinates and coefficients in `synth_values`
-/
namespace ChaosMagPy.SynthNan
open ChaosMagPy.Spec
open ChaosMagPy.Legendre (pyRange)
open ChaosMagPy.Synth (Error Source rfac resolve resolveSource)

/-- A point without NaN. -/
def complete (p : Synth.Point) : Point := ⟨some p.radius, some p.theta, some p.phi, fun i => some (p.coeffs i)⟩

/-- Three numbers. -/
def numbers (b : ℝ × ℝ × ℝ) : F × F × F := (some b.1, some b.2.1, some b.2.2)

/-- State without NaN. -/
def liftS (s : Synth.State) : State := ⟨s.num, some s.rn, some s.br, some s.bt, some s.bp⟩

/-- Context without NaN. -/
def liftX (x : Synth.Ctx) : Ctx :=
  { dim := x.dim, src := x.src, poles := x.poles, T := fun p => some (x.T p), radius := some x.radius, theta := some x.theta, phi := some x.phi, c := fun i => some (x.c i) }

theorem foldlM_lift {σ τ ε : Type} (g : σ → τ) (f : σ → ℕ → Except ε σ) (fN : τ → ℕ → Except ε τ) (l : List ℕ) (h : ∀ s, ∀ k ∈ l, fN (g s) k = (f s k).map g) (s : σ) :
    l.foldlM fN (g s) = (l.foldlM f s).map g := by
  induction l generalizing s with
  | nil => rfl
  | cons k l ih =>
    rw [List.foldlM_cons, List.foldlM_cons, h s k List.mem_cons_self]
    cases f s k with
    | error e => rfl
    | ok s' => exact ih (fun s k hk => h s k (List.mem_cons_of_mem _ hk)) s'

theorem divP_lift (x : Synth.Ctx) (n m : ℕ) (h : x.T (1, 1) ≠ 0 ∨ (x.poles = true ∧ (x.theta = 0 ∨ x.theta = 180))) :
    divP (liftX x).poles (liftX x).T (liftX x).theta n m = some (Synth.divP x.poles x.T x.theta n m) := by
  unfold divP Synth.divP liftX
  simp only [Option.some.injEq]
  by_cases hp : x.poles = true ∧ (x.theta = 0 ∨ x.theta = 180)
  · rw [if_pos hp, if_pos hp]
    rfl
  · rw [if_neg hp, if_neg hp]
    simp only [div]
    rw [if_neg (h.resolve_right hp)]

theorem orderStep_lift (x : Synth.Ctx) (n : ℕ) (h : x.T (1, 1) ≠ 0 ∨ (x.poles = true ∧ (x.theta = 0 ∨ x.theta = 180))) (s : Synth.State) (m : ℕ) :
    orderStep (liftX x) n (liftS s) m = (Synth.orderStep x n s m).map liftS := by
  unfold orderStep Synth.orderStep
  rw [divP_lift x n m h]
  unfold getCoef Synth.getCoef
  have hd : (liftX x).dim = x.dim := rfl
  have hn : (liftS s).num = s.num := rfl
  rw [hd, hn]
  by_cases h1 : s.num < x.dim
  · rw [if_pos h1, if_pos h1]
    simp only [bind, Except.bind]
    by_cases h2 : s.num + 1 < x.dim
    · rw [if_pos h2, if_pos h2]
      simp only [pure, Except.pure, Except.map, Except.ok.injEq]
      simp only [liftX, liftS, Option.map_some, add, mul, sub, neg_one_mul]
    · rw [if_neg h2, if_neg h2]; rfl
  · rw [if_neg h1, if_neg h1]; rfl

theorem degreeStep_lift (x : Synth.Ctx) (mmax : ℤ) (h : x.T (1, 1) ≠ 0 ∨ (x.poles = true ∧ (x.theta = 0 ∨ x.theta = 180))) (hr : x.radius ≠ 0) (s : Synth.State) (n : ℕ) :
    degreeStep (liftX x) mmax (liftS s) n = (Synth.degreeStep x mmax s n).map liftS := by
  unfold degreeStep Synth.degreeStep
  unfold getCoef Synth.getCoef
  have hd : (liftX x).dim = x.dim := rfl
  have hn : (liftS s).num = s.num := rfl
  rw [hd, hn]
  by_cases h1 : s.num < x.dim
  · rw [if_pos h1, if_pos h1]
    simp only [bind, Except.bind]
    have hs : ({ liftS s with
        num := s.num + 1
        br := add (liftS s).br (mul (mul (mul (some (rfac (liftX x).src n)) ((liftX x).T (n, 0))) (liftS s).rn) ((liftX x).c s.num))
        bt := add (liftS s).bt (mul (mul (mul (some (-1)) ((liftX x).T (0, n + 1))) (liftS s).rn) ((liftX x).c s.num)) } : State) =
        liftS { s with
          num := s.num + 1
          br := s.br + rfac x.src n * x.T (n, 0) * s.rn * x.c s.num
          bt := s.bt + -x.T (0, n + 1) * s.rn * x.c s.num } := by
      simp only [liftS, liftX, add, mul, neg_one_mul]
    rw [hs, foldlM_lift liftS (Synth.orderStep x n) (orderStep (liftX x) n) _ (fun s k _ => orderStep_lift x n h s k)]
    cases (pyRange 1 (min (n : ℤ) mmax + 1).toNat).foldlM (Synth.orderStep x n) { s with
          num := s.num + 1
          br := s.br + rfac x.src n * x.T (n, 0) * s.rn * x.c s.num
          bt := s.bt + -x.T (0, n + 1) * s.rn * x.c s.num } with
    | error e => rfl
    | ok s2 =>
      simp only [Except.map, pure, Except.pure, Except.ok.injEq]
      simp only [liftS, liftX, State.mk.injEq, true_and, and_true]
      unfold rnStep Synth.rnStep
      cases x.src with
      | internal => simp only [div]; rw [if_neg hr]
      | external => rfl
  · rw [if_neg h1, if_neg h1]; rfl

theorem rnInit_lift (src : Source) (r : ℝ) (hr : r ≠ 0) (nmin : ℕ) : rnInit src (some r) nmin = some (Synth.rnInit src r nmin) := by
  have hp : ∀ n : ℤ, pow (some r) n = some (r ^ n) := by
    intro n
    unfold pow
    by_cases hn : n = 0
    · rw [if_pos hn, hn, zpow_zero]
    · rw [if_neg hn]
      simp only
      rw [if_neg (fun h => hr h.1)]
  cases src with
  | internal => exact hp _
  | external => exact hp _

theorem synthPoint_lift (rsurf : ℝ) (ha : rsurf ≠ 0) (src : Source) (poles : Bool) (dim nmin nmax : ℕ) (mmax : ℤ) (hn : 1 ≤ nmax) (p : Synth.Point) (hr : p.radius ≠ 0)
    (h : ∀ T, Legendre.legendrePoly nmax p.theta = .ok T → T (1, 1) ≠ 0 ∨ (poles = true ∧ (p.theta = 0 ∨ p.theta = 180))) :
    synthPoint rsurf src poles dim nmin nmax mmax (complete p) = (Synth.synthPoint rsurf src poles dim nmin nmax mmax p).map numbers := by
  obtain ⟨T, hT⟩ : ∃ T, Legendre.legendrePoly nmax p.theta = .ok T := ⟨_, Legendre.legendrePoly_ok nmax p.theta hn⟩
  have hr' : p.radius / rsurf ≠ 0 := div_ne_zero hr ha
  unfold synthPoint Synth.synthPoint
  rw [hT]
  have hdiv : div (complete p).radius (some rsurf) = some (p.radius / rsurf) := by
    simp only [div, complete]
    rw [if_neg ha]
  rw [hdiv]
  have htab : table nmax (complete p).theta = fun q => some (T q) := by
    funext q
    simp only [table, complete, Option.bind_some, hT]
  rw [htab]
  simp only
  rw [rnInit_lift src _ hr']
  have := foldlM_lift liftS (Synth.degreeStep { dim, src, poles, T, radius := p.radius / rsurf, theta := p.theta, phi := rad p.phi, c := p.coeffs } mmax)
    (degreeStep (liftX { dim, src, poles, T, radius := p.radius / rsurf, theta := p.theta, phi := rad p.phi, c := p.coeffs }) mmax) (pyRange nmin (nmax + 1))
    (fun s k _ => degreeStep_lift _ mmax (h T hT) hr' s k) { num := 0, rn := Synth.rnInit src (p.radius / rsurf) nmin, br := 0, bt := 0, bp := 0 }
  simp only [liftS, liftX] at this
  simp only [complete, Option.map_some]
  rw [this]
  cases (pyRange nmin (nmax + 1)).foldlM (Synth.degreeStep { dim, src, poles, T, radius := p.radius / rsurf, theta := p.theta, phi := rad p.phi, c := p.coeffs } mmax)
    { num := 0, rn := Synth.rnInit src (p.radius / rsurf) nmin, br := 0, bt := 0, bp := 0 } with
  | error e => rfl
  | ok s => rfl

/-! ### The check of the colatitudes -/

theorem fold_nanMin (ts : List F) (a : F) (h : none ∈ ts ∨ a = none) : ts.foldl nanMin a = none := by
  induction ts generalizing a with
  | nil => simpa using h
  | cons t ts ih =>
    rw [List.foldl_cons]
    apply ih
    rcases h with h | rfl
    · rw [List.mem_cons] at h
      rcases h with h | h
      · right; rw [← h]; cases a <;> rfl
      · exact .inl h
    · right; rfl

theorem fold_nanMax (ts : List F) (a : F) (h : none ∈ ts ∨ a = none) : ts.foldl nanMax a = none := by
  induction ts generalizing a with
  | nil => simpa using h
  | cons t ts ih =>
    rw [List.foldl_cons]
    apply ih
    rcases h with h | rfl
    · rw [List.mem_cons] at h
      rcases h with h | h
      · right; rw [← h]; cases a <;> rfl
      · exact .inl h
    · right; rfl

theorem fold_some (ts : List ℝ) (a : ℝ) : (ts.map some).foldl nanMin (some a) = some (ts.foldl min a) ∧ (ts.map some).foldl nanMax (some a) = some (ts.foldl max a) := by
  constructor
  · induction ts generalizing a with
    | nil => rfl
    | cons t ts ih => exact ih (min a t)
  · induction ts generalizing a with
    | nil => rfl
    | cons t ts ih => exact ih (max a t)

theorem checkColat_missing (ths : List F) (h : none ∈ ths) : checkColat ths = .ok false := by
  cases ths with
  | nil => simp at h
  | cons t ts =>
    have h' : none ∈ ts ∨ t = none := by
      rw [List.mem_cons] at h
      rcases h with h | h
      · exact .inr h.symm
      · exact .inl h
    unfold checkColat aminmax
    simp only
    rw [if_neg (by
      rintro (⟨x, hx, -⟩ | ⟨x, hx, -⟩)
      · rw [fold_nanMin ts t h'] at hx; cases hx
      · rw [fold_nanMax ts t h'] at hx; cases hx)]

theorem checkColat_some (ths : List ℝ) : checkColat (ths.map some) = Synth.checkColat ths := by
  cases ths with
  | nil => rfl
  | cons t ts =>
    unfold checkColat Synth.checkColat aminmax Synth.aminmax
    simp only [List.map_cons, (fold_some ts t).1, (fold_some ts t).2, bind, Except.bind, Option.some.injEq, exists_eq_left']
    split_ifs <;> rfl

/-! ### NaN stays -/

theorem foldlM_dead {σ ε : Type} (f : σ → ℕ → Except ε σ) (I : ℕ → σ → Prop) (Dead : σ → Prop) (a b : ℕ)
    (hI : ∀ k s s', f s k = .ok s' → I k s → I (k + 1) s') (hd : ∀ k s s', f s k = .ok s' → Dead s → Dead s')
    (s s' : σ) (hs : I a s) (h : (pyRange a b).foldlM f s = .ok s')
    (hk : Dead s ∨ ∃ k, a ≤ k ∧ k < b ∧ ∀ s s', I k s → f s k = .ok s' → Dead s') : Dead s' ∧ (a ≤ b → I b s') := by
  obtain ⟨d, hd'⟩ : ∃ d, d = b - a := ⟨_, rfl⟩
  induction d generalizing a s with
  | zero =>
    rw [Synth.pyRange_empty a b (by omega)] at h
    injection h with h
    subst h
    refine ⟨?_, fun hab => by obtain rfl : a = b := by omega
                              exact hs⟩
    rcases hk with hk | ⟨k, h1, h2, -⟩
    · exact hk
    · omega
  | succ d ih =>
    rw [Synth.pyRange_cons a b (by omega), List.foldlM_cons] at h
    cases hf : f s a with
    | error e => rw [hf] at h; cases h
    | ok s1 =>
      rw [hf] at h
      obtain ⟨h1, h2⟩ := ih (a + 1) s1 (hI a s s1 hf hs) h (by
        rcases hk with hk | ⟨k, h1, h2, h3⟩
        · exact .inl (hd a s s1 hf hk)
        · by_cases hka : k = a
          · subst hka
            exact .inl (h3 s s1 hs hf)
          · exact .inr ⟨k, by omega, h2, h3⟩) (by omega)
      exact ⟨h1, fun _ => h2 (by omega)⟩

theorem add_none_left (a : F) : add none a = none := rfl
theorem add_none_right (a : F) : add a none = none := by cases a <;> rfl
theorem sub_none_left (a : F) : sub none a = none := rfl
theorem sub_none_right (a : F) : sub a none = none := by cases a <;> rfl
theorem mul_none_left (a : F) : mul none a = none := rfl
theorem mul_none_right (a : F) : mul a none = none := by cases a <;> rfl
theorem div_none_left (a : F) : div none a = none := rfl
theorem div_none_right (a : F) : div a none = none := by cases a <;> rfl

/-- The radial and colatitude components are NaN. -/
def Dead1 (s : State) : Prop := s.br = none ∧ s.bt = none
/-- The azimuthal component is NaN. -/
def Dead2 (s : State) : Prop := s.bp = none

/-- What one order step does. -/
theorem orderStep_ok {x : Ctx} {n m : ℕ} {s s' : State} (h : orderStep x n s m = .ok s') :
    s' = { num := s.num + 2
           rn := s.rn
           br := add s.br (mul (mul (mul (some (rfac x.src n)) (x.T (n, m))) s.rn) (add (mul (x.c s.num) (x.phi.map fun y => Real.cos (m * y))) (mul (x.c (s.num + 1)) (x.phi.map fun y => Real.sin (m * y)))))
           bt := add s.bt (mul (mul (mul (some (-1)) (x.T (m, n + 1))) s.rn) (add (mul (x.c s.num) (x.phi.map fun y => Real.cos (m * y))) (mul (x.c (s.num + 1)) (x.phi.map fun y => Real.sin (m * y)))))
           bp := add s.bp (mul (mul (mul (some (m : ℝ)) (divP x.poles x.T x.theta n m)) s.rn) (sub (mul (x.c s.num) (x.phi.map fun y => Real.sin (m * y))) (mul (x.c (s.num + 1)) (x.phi.map fun y => Real.cos (m * y))))) } := by
  unfold orderStep getCoef at h
  by_cases h1 : s.num < x.dim
  · by_cases h2 : s.num + 1 < x.dim
    · rw [if_pos h1, if_pos h2] at h
      simp only [bind, Except.bind, pure, Except.pure, Except.ok.injEq] at h
      exact h.symm
    · rw [if_pos h1, if_neg h2] at h; cases h
  · rw [if_neg h1] at h; cases h

theorem orderStep_dead1 {x : Ctx} {n m : ℕ} {s s' : State} (h : orderStep x n s m = .ok s') (hd : Dead1 s) : Dead1 s' := by
  rw [orderStep_ok h]
  exact ⟨by rw [hd.1, add_none_left], by rw [hd.2, add_none_left]⟩

theorem orderStep_dead2 {x : Ctx} {n m : ℕ} {s s' : State} (h : orderStep x n s m = .ok s') (hd : Dead2 s) : Dead2 s' := by
  rw [orderStep_ok h]
  show add s.bp _ = none
  rw [show s.bp = none from hd, add_none_left]

/-- What one degree step does before the loop over the orders. -/
noncomputable def start (x : Ctx) (n : ℕ) (s : State) : State := { s with
    num := s.num + 1
    br := add s.br (mul (mul (mul (some (rfac x.src n)) (x.T (n, 0))) s.rn) (x.c s.num))
    bt := add s.bt (mul (mul (mul (some (-1)) (x.T (0, n + 1))) s.rn) (x.c s.num)) }

theorem degreeStep_ok {x : Ctx} {mmax : ℤ} {n : ℕ} {s s' : State} (h : degreeStep x mmax s n = .ok s') :
    ∃ s2, (pyRange 1 (Synth.mtop n mmax + 1)).foldlM (orderStep x n) (start x n s) = .ok s2 ∧ s' = { s2 with rn := rnStep x.src x.radius s2.rn } := by
  unfold degreeStep getCoef at h
  rw [Synth.mtop_range] at h
  by_cases h1 : s.num < x.dim
  · rw [if_pos h1] at h
    simp only [bind, Except.bind] at h
    cases hf : (pyRange 1 (Synth.mtop n mmax + 1)).foldlM (orderStep x n) (start x n s) with
    | error e =>
      unfold start at hf
      rw [hf] at h; cases h
    | ok s2 =>
      unfold start at hf
      rw [hf] at h
      simp only [pure, Except.pure, Except.ok.injEq] at h
      exact ⟨s2, rfl, h.symm⟩
  · rw [if_neg h1] at h; cases h

/-- Invariant of the inner loop: position and radial factor. -/
def Inner (i : ℕ) (r : F) (m : ℕ) (s : State) : Prop := s.num = i + 2 * m - 1 ∧ s.rn = r

theorem inner_step {x : Ctx} {n i : ℕ} {r : F} : ∀ m s s', orderStep x n s m = .ok s' → (1 ≤ m ∧ Inner i r m s) → (1 ≤ m + 1 ∧ Inner i r (m + 1) s') := by
  rintro m s s' h ⟨hm, h1, h2⟩
  rw [orderStep_ok h]
  exact ⟨by omega, by simp only; omega, h2⟩

/-- The inner loop. -/
theorem inner_loop {x : Ctx} {n b : ℕ} {s s' : State} {Dead : State → Prop} (hpres : ∀ m s s', orderStep x n s m = .ok s' → Dead s → Dead s')
    (h : (pyRange 1 (b + 1)).foldlM (orderStep x n) (start x n s) = .ok s')
    (hk : Dead (start x n s) ∨ ∃ m, 1 ≤ m ∧ m < b + 1 ∧ ∀ s1 s2, Inner s.num s.rn m s1 → orderStep x n s1 m = .ok s2 → Dead s2) :
    Dead s' ∧ Inner s.num s.rn (b + 1) s' := by
  have := foldlM_dead (orderStep x n) (fun m s1 => 1 ≤ m ∧ Inner s.num s.rn m s1) Dead 1 (b + 1) inner_step hpres (start x n s) s'
    ⟨le_rfl, by simp [start], rfl⟩ h (hk.imp id (fun ⟨m, h1, h2, h3⟩ => ⟨m, h1, h2, fun s1 s2 hs => h3 s1 s2 hs.2⟩))
  exact ⟨this.1, (this.2 (by omega)).2⟩

theorem degreeStep_inner {x : Ctx} {mmax : ℤ} {n : ℕ} {s s' : State} (h : degreeStep x mmax s n = .ok s') :
    s'.num = s.num + (2 * Synth.mtop n mmax + 1) ∧ s'.rn = rnStep x.src x.radius s.rn := by
  obtain ⟨s2, h2, rfl⟩ := degreeStep_ok h
  obtain ⟨-, h3, h4⟩ := inner_loop (Dead := fun _ => True) (fun _ _ _ _ _ => trivial) h2 (.inl trivial)
  exact ⟨by simp only [h3]; omega, by simp only [h4]⟩

theorem degreeStep_dead1 {x : Ctx} {mmax : ℤ} {n : ℕ} {s s' : State} (h : degreeStep x mmax s n = .ok s') (hd : Dead1 s) : Dead1 s' := by
  obtain ⟨s2, h2, rfl⟩ := degreeStep_ok h
  exact (inner_loop (Dead := Dead1) (fun m s s' => orderStep_dead1) h2 (.inl ⟨by simp only [start]; rw [hd.1, add_none_left], by simp only [start]; rw [hd.2, add_none_left]⟩)).1

theorem degreeStep_dead2 {x : Ctx} {mmax : ℤ} {n : ℕ} {s s' : State} (h : degreeStep x mmax s n = .ok s') (hd : Dead2 s) : Dead2 s' := by
  obtain ⟨s2, h2, rfl⟩ := degreeStep_ok h
  exact (inner_loop (Dead := Dead2) (fun m s s' => orderStep_dead2) h2 (.inl hd)).1

/-- NaN in the first term of a degree. -/
theorem degreeStep_first {x : Ctx} {mmax : ℤ} {n : ℕ} {s s' : State} (h : degreeStep x mmax s n = .ok s')
    (hx : (∀ p, x.T p = none) ∨ s.rn = none ∨ x.c s.num = none) : Dead1 s' := by
  obtain ⟨s2, h2, rfl⟩ := degreeStep_ok h
  refine (inner_loop (Dead := Dead1) (fun m s s' => orderStep_dead1) h2 (.inl ?_)).1
  rcases hx with hx | hx | hx
  · exact ⟨by simp only [start, hx, mul_none_right, mul_none_left, add_none_right], by simp only [start, hx, mul_none_right, mul_none_left, add_none_right]⟩
  · exact ⟨by simp only [start, hx, mul_none_right, mul_none_left, add_none_right], by simp only [start, hx, mul_none_right, mul_none_left, add_none_right]⟩
  · exact ⟨by simp only [start, hx, mul_none_right, add_none_right], by simp only [start, hx, mul_none_right, add_none_right]⟩

/-- NaN in the term of an order. -/
theorem degreeStep_order {x : Ctx} {mmax : ℤ} {n : ℕ} {s s' : State} (h : degreeStep x mmax s n = .ok s') (m : ℕ) (hm : 1 ≤ m) (hmn : m ≤ Synth.mtop n mmax)
    (hx : (∀ p, x.T p = none) ∨ s.rn = none ∨ x.phi = none ∨ x.c (s.num + 2 * m - 1) = none ∨ x.c (s.num + 2 * m) = none) : Dead1 s' ∧ Dead2 s' := by
  obtain ⟨s2, h2, rfl⟩ := degreeStep_ok h
  have key : ∀ s1 s2, Inner s.num s.rn m s1 → orderStep x n s1 m = .ok s2 → Dead1 s2 ∧ Dead2 s2 := by
    rintro s1 s2 ⟨hi, hr⟩ hs
    rw [orderStep_ok hs]
    rw [show s.num + 2 * m - 1 = s1.num from hi.symm, show s.num + 2 * m = s1.num + 1 by omega, ← hr] at hx
    refine ⟨⟨?_, ?_⟩, ?_⟩
    · simp only
      rcases hx with hx | hx | hx | hx | hx <;>
        simp only [hx, mul_none_right, mul_none_left, add_none_right, add_none_left, Option.map_none]
    · simp only
      rcases hx with hx | hx | hx | hx | hx <;>
        simp only [hx, mul_none_right, mul_none_left, add_none_right, add_none_left, Option.map_none]
    · show add _ _ = none
      rcases hx with hx | hx | hx | hx | hx
      · have : divP x.poles x.T x.theta n m = none := by
          unfold divP
          simp only [hx, mul_none_right, div_none_right, ite_self]
        rw [this, mul_none_right, mul_none_left, mul_none_left, add_none_right]
      all_goals simp only [hx, mul_none_right, mul_none_left, sub_none_right, sub_none_left, add_none_right, add_none_left, Option.map_none]
  exact ⟨(inner_loop (Dead := Dead1) (fun m s s' => orderStep_dead1) h2 (.inr ⟨m, hm, by omega, fun a b ha hb => (key a b ha hb).1⟩)).1,
    (inner_loop (Dead := Dead2) (fun m s s' => orderStep_dead2) h2 (.inr ⟨m, hm, by omega, fun a b ha hb => (key a b ha hb).2⟩)).1⟩

/-- Division by the sine of the colatitude at a pole that is not treated. -/
theorem degreeStep_pole {x : Ctx} {mmax : ℤ} {n : ℕ} {s s' : State} (h : degreeStep x mmax s n = .ok s') (hm : 1 ≤ Synth.mtop n mmax) (hp : x.poles = false)
    (hT : x.T (1, 1) = some 0) : Dead2 s' := by
  obtain ⟨s2, h2, rfl⟩ := degreeStep_ok h
  refine (inner_loop (Dead := Dead2) (fun m s s' => orderStep_dead2) h2 (.inr ⟨1, le_rfl, by omega, fun s1 s2 _ hs => ?_⟩)).1
  rw [orderStep_ok hs]
  have : divP x.poles x.T x.theta n 1 = none := by
    unfold divP
    rw [if_neg (by rw [hp]; simp), hT]
    cases x.T (n, 1) with
    | none => rfl
    | some y => simp [div]
  show add _ _ = none
  rw [this, mul_none_right, mul_none_left, mul_none_left, add_none_right]

/-- The loops. -/
theorem loops {x : Ctx} {mmax : ℤ} {nmin nmax : ℕ} {s s' : State} (Dead : State → Prop) (Q : ℕ → F → Prop) (hs : s.num = 0) (hq : Q nmin s.rn)
    (hQ : ∀ n r, nmin ≤ n → Q n r → Q (n + 1) (rnStep x.src x.radius r))
    (hpres : ∀ n s s', degreeStep x mmax s n = .ok s' → Dead s → Dead s')
    (h : (pyRange nmin (nmax + 1)).foldlM (degreeStep x mmax) s = .ok s')
    (hk : ∃ n, nmin ≤ n ∧ n ≤ nmax ∧ ∀ s s', s.num = coefStart nmin mmax.toNat n → Q n s.rn → degreeStep x mmax s n = .ok s' → Dead s') : Dead s' := by
  obtain ⟨n, h1, h2, h3⟩ := hk
  refine (foldlM_dead (degreeStep x mmax) (fun n s => nmin ≤ n ∧ s.num = coefStart nmin mmax.toNat n ∧ Q n s.rn) Dead nmin (nmax + 1) ?_ hpres s s'
    ⟨le_rfl, by rw [Synth.coefStart_self, hs], hq⟩ h (.inr ⟨n, h1, by omega, fun s s' hs => h3 s s' hs.2.1 hs.2.2⟩)).1
  rintro k s s' hst ⟨hk, hn, hq⟩
  obtain ⟨e1, e2⟩ := degreeStep_inner hst
  refine ⟨by omega, ?_, ?_⟩
  · rw [e1, hn, Synth.coefStart_succ _ _ _ hk]
    rfl
  · rw [e2]
    exact hQ k _ hk hq

/-! ### Two runs side by side -/

/-- Both fail with the same error, or both succeed with related results. -/
def Both {ε σ τ : Type} (R : σ → τ → Prop) : Except ε σ → Except ε τ → Prop
  | .ok a, .ok b => R a b
  | .error e, .error e' => e = e'
  | _, _ => False

theorem foldlM_both {ε σ τ : Type} (R : σ → τ → Prop) (f : σ → ℕ → Except ε σ) (g : τ → ℕ → Except ε τ) (l : List ℕ) (h : ∀ k s t, R s t → Both R (f s k) (g t k)) (s : σ) (t : τ) (hst : R s t) :
    Both R (l.foldlM f s) (l.foldlM g t) := by
  induction l generalizing s t with
  | nil => exact hst
  | cons k l ih =>
    rw [List.foldlM_cons, List.foldlM_cons]
    have h1 := h k s t hst
    cases hf : f s k with
    | error e =>
      cases hg : g t k with
      | error e' => rw [hf, hg] at h1; exact h1
      | ok t' => rw [hf, hg] at h1; exact h1.elim
    | ok s' =>
      cases hg : g t k with
      | error e' => rw [hf, hg] at h1; exact h1.elim
      | ok t' => rw [hf, hg] at h1; exact ih s' t' h1

theorem orderStep_both (R : State → State → Prop) (x y : Ctx) (n m : ℕ) (s t : State) (hdim : x.dim = y.dim) (hnum : s.num = t.num)
    (hR : ∀ s' t', orderStep x n s m = .ok s' → orderStep y n t m = .ok t' → R s' t') : Both R (orderStep x n s m) (orderStep y n t m) := by
  cases hx : orderStep x n s m with
  | ok s' =>
    cases hy : orderStep y n t m with
    | ok t' => exact hR s' t' hx hy
    | error e =>
      exfalso
      unfold orderStep getCoef at hx hy
      by_cases h1 : s.num < x.dim
      · by_cases h2 : s.num + 1 < x.dim
        · rw [← hdim, ← hnum, if_pos h1, if_pos h2] at hy; cases hy
        · rw [if_pos h1, if_neg h2] at hx; cases hx
      · rw [if_neg h1] at hx; cases hx
  | error e =>
    unfold orderStep getCoef at *
    by_cases h1 : s.num < x.dim
    · by_cases h2 : s.num + 1 < x.dim
      · rw [if_pos h1, if_pos h2] at hx; cases hx
      · rw [if_pos h1, if_neg h2] at hx
        rw [← hdim, ← hnum, if_pos h1, if_neg h2]
        cases hx
        exact rfl
    · rw [if_neg h1] at hx
      rw [← hdim, ← hnum, if_neg h1]
      cases hx
      exact rfl

theorem degreeStep_both (R : State → State → Prop) (x y : Ctx) (mmax : ℤ) (n : ℕ) (s t : State) (hdim : x.dim = y.dim) (hnum : s.num = t.num) (hRn : ∀ s t, R s t → s.num = t.num)
    (h0 : R (start x n s) (start y n t)) (hR : ∀ m s t s' t', R s t → orderStep x n s m = .ok s' → orderStep y n t m = .ok t' → R s' t')
    (hE : ∀ s t, R s t → R { s with rn := rnStep x.src x.radius s.rn } { t with rn := rnStep y.src y.radius t.rn }) :
    Both R (degreeStep x mmax s n) (degreeStep y mmax t n) := by
  have := foldlM_both R (orderStep x n) (orderStep y n) (pyRange 1 (min (n : ℤ) mmax + 1).toNat)
    (fun m s t hst => orderStep_both R x y n m s t hdim (hRn s t hst) (fun s' t' h1 h2 => hR m s t s' t' hst h1 h2)) _ _ h0
  unfold degreeStep getCoef
  rw [← hdim, ← hnum]
  by_cases h1 : s.num < x.dim
  · rw [if_pos h1, if_pos h1]
    simp only [bind, Except.bind]
    unfold start at this
    rw [← hnum] at this
    revert this
    cases (pyRange 1 (min (n : ℤ) mmax + 1).toNat).foldlM (orderStep x n) { s with
      num := s.num + 1
      br := add s.br (mul (mul (mul (some (rfac x.src n)) (x.T (n, 0))) s.rn) (x.c s.num))
      bt := add s.bt (mul (mul (mul (some (-1)) (x.T (0, n + 1))) s.rn) (x.c s.num)) } with
    | error e =>
      cases (pyRange 1 (min (n : ℤ) mmax + 1).toNat).foldlM (orderStep y n) { t with
        num := s.num + 1
        br := add t.br (mul (mul (mul (some (rfac y.src n)) (y.T (n, 0))) t.rn) (y.c s.num))
        bt := add t.bt (mul (mul (mul (some (-1)) (y.T (0, n + 1))) t.rn) (y.c s.num)) } with
      | error e' => exact id
      | ok t' => exact False.elim
    | ok s' =>
      cases (pyRange 1 (min (n : ℤ) mmax + 1).toNat).foldlM (orderStep y n) { t with
        num := s.num + 1
        br := add t.br (mul (mul (mul (some (rfac y.src n)) (y.T (n, 0))) t.rn) (y.c s.num))
        bt := add t.bt (mul (mul (mul (some (-1)) (y.T (0, n + 1))) t.rn) (y.c s.num)) } with
      | error e' => exact False.elim
      | ok t' => exact hE s' t'
  · rw [if_neg h1, if_neg h1]
    exact rfl

/-- Two points with the same number of coefficients either both succeed or both fail. -/
theorem synthPoint_both (rsurf : ℝ) (src src' : Source) (poles poles' : Bool) (dim nmin nmax : ℕ) (mmax : ℤ) (p q : Point) :
    Both (fun _ _ => True) (synthPoint rsurf src poles dim nmin nmax mmax p) (synthPoint rsurf src' poles' dim nmin nmax mmax q) := by
  have := foldlM_both (fun s t : State => s.num = t.num)
    (degreeStep { dim, src, poles, T := table nmax p.theta, radius := div p.radius (some rsurf), theta := p.theta, phi := p.phi.map rad, c := p.coeffs } mmax)
    (degreeStep { dim, src := src', poles := poles', T := table nmax q.theta, radius := div q.radius (some rsurf), theta := q.theta, phi := q.phi.map rad, c := q.coeffs } mmax)
    (pyRange nmin (nmax + 1))
    (fun n s t hst => degreeStep_both (fun s t : State => s.num = t.num) _ _ mmax n s t rfl hst (fun _ _ h => h) (by simp only [start]; rw [hst])
      (fun m s t s' t' h h1 h2 => by rw [orderStep_ok h1, orderStep_ok h2]; simp only; rw [h]) (fun s t h => h))
    { num := 0, rn := rnInit src (div p.radius (some rsurf)) nmin, br := some 0, bt := some 0, bp := some 0 }
    { num := 0, rn := rnInit src' (div q.radius (some rsurf)) nmin, br := some 0, bt := some 0, bp := some 0 } rfl
  unfold synthPoint
  simp only [bind, Except.bind]
  revert this
  generalize (pyRange nmin (nmax + 1)).foldlM
    (degreeStep { dim, src, poles, T := table nmax p.theta, radius := div p.radius (some rsurf), theta := p.theta, phi := p.phi.map rad, c := p.coeffs } mmax)
    { num := 0, rn := rnInit src (div p.radius (some rsurf)) nmin, br := some 0, bt := some 0, bp := some 0 } = a
  generalize (pyRange nmin (nmax + 1)).foldlM
    (degreeStep { dim, src := src', poles := poles', T := table nmax q.theta, radius := div q.radius (some rsurf), theta := q.theta, phi := q.phi.map rad, c := q.coeffs } mmax)
    { num := 0, rn := rnInit src' (div q.radius (some rsurf)) nmin, br := some 0, bt := some 0, bp := some 0 } = b
  cases a <;> cases b <;> simp [Both, pure, Except.pure]

/-- The treatment of the poles does not matter for the radial and colatitude components. -/
theorem synthPoint_flag (rsurf : ℝ) (src : Source) (poles poles' : Bool) (dim nmin nmax : ℕ) (mmax : ℤ) (p : Point) :
    Both (fun b b' => b.1 = b'.1 ∧ b.2.1 = b'.2.1) (synthPoint rsurf src poles dim nmin nmax mmax p) (synthPoint rsurf src poles' dim nmin nmax mmax p) := by
  have := foldlM_both (fun s t : State => s.num = t.num ∧ s.rn = t.rn ∧ s.br = t.br ∧ s.bt = t.bt)
    (degreeStep { dim, src, poles, T := table nmax p.theta, radius := div p.radius (some rsurf), theta := p.theta, phi := p.phi.map rad, c := p.coeffs } mmax)
    (degreeStep { dim, src, poles := poles', T := table nmax p.theta, radius := div p.radius (some rsurf), theta := p.theta, phi := p.phi.map rad, c := p.coeffs } mmax)
    (pyRange nmin (nmax + 1))
    (fun n s t hst => degreeStep_both (fun s t : State => s.num = t.num ∧ s.rn = t.rn ∧ s.br = t.br ∧ s.bt = t.bt) _ _ mmax n s t rfl hst.1 (fun _ _ h => h.1)
      (by simp only [start]; rw [hst.1, hst.2.1, hst.2.2.1, hst.2.2.2]; simp only [and_self])
      (fun m s t s' t' h h1 h2 => by rw [orderStep_ok h1, orderStep_ok h2]; simp only; rw [h.1, h.2.1, h.2.2.1, h.2.2.2]; simp only [and_self])
      (fun s t h => by simp only [h.1, h.2.1, h.2.2.1, h.2.2.2, and_self]))
    { num := 0, rn := rnInit src (div p.radius (some rsurf)) nmin, br := some 0, bt := some 0, bp := some 0 }
    { num := 0, rn := rnInit src (div p.radius (some rsurf)) nmin, br := some 0, bt := some 0, bp := some 0 } ⟨rfl, rfl, rfl, rfl⟩
  unfold synthPoint
  simp only [bind, Except.bind]
  revert this
  generalize (pyRange nmin (nmax + 1)).foldlM
    (degreeStep { dim, src, poles, T := table nmax p.theta, radius := div p.radius (some rsurf), theta := p.theta, phi := p.phi.map rad, c := p.coeffs } mmax)
    { num := 0, rn := rnInit src (div p.radius (some rsurf)) nmin, br := some 0, bt := some 0, bp := some 0 } = a
  generalize (pyRange nmin (nmax + 1)).foldlM
    (degreeStep { dim, src, poles := poles', T := table nmax p.theta, radius := div p.radius (some rsurf), theta := p.theta, phi := p.phi.map rad, c := p.coeffs } mmax)
    { num := 0, rn := rnInit src (div p.radius (some rsurf)) nmin, br := some 0, bt := some 0, bp := some 0 } = b
  cases a with
  | error e => cases b <;> simp [Both]
  | ok s => cases b with
    | error e => simp [Both]
    | ok s' => exact fun h => ⟨h.2.2.1, h.2.2.2⟩

/-! ### The calls -/

theorem synthValues_explicit (rsurf : ℝ) (dim : ℕ) (pts : List Point) (nmin nmax : ℕ) (mmax : ℤ) (src : Source) (h0 : 1 ≤ nmin) (h1 : nmin ≤ nmax) :
    synthValues rsurf dim pts (some nmin) (some nmax) (some mmax) (some src.name) =
      match checkColat (pts.map Point.theta) with
      | .error e => .error e
      | .ok poles => pts.mapM (synthPoint rsurf src poles dim nmin nmax mmax) := by
  unfold synthValues
  simp only [bind, Except.bind]
  cases checkColat (pts.map Point.theta) with
  | error e => rfl
  | ok poles => simp only [Synth.resolve_explicit dim nmin nmax mmax h0 h1, Synth.resolveSource_name]

theorem synthValues_ok {rsurf : ℝ} {dim : ℕ} {pts : List Point} {nmin nmax : ℕ} {mmax : ℤ} {src : Source} (h0 : 1 ≤ nmin) (h1 : nmin ≤ nmax) {l : List (F × F × F)}
    (h : synthValues rsurf dim pts (some nmin) (some nmax) (some mmax) (some src.name) = .ok l) :
    ∃ poles, checkColat (pts.map Point.theta) = .ok poles ∧ List.Forall₂ (fun p b => synthPoint rsurf src poles dim nmin nmax mmax p = .ok b) pts l := by
  rw [synthValues_explicit rsurf dim pts nmin nmax mmax src h0 h1] at h
  cases hc : checkColat (pts.map Point.theta) with
  | error e => rw [hc] at h; cases h
  | ok poles =>
    rw [hc] at h
    exact ⟨poles, rfl, (Synth.mapM_ok _ _ _).1 h⟩

/-- The status of a point: whether there are enough coefficients. -/
theorem synthPoint_status (rsurf : ℝ) (ha : rsurf ≠ 0) (src : Source) (poles : Bool) (dim nmin nmax : ℕ) (mmax : ℤ) (h0 : 1 ≤ nmin) (h1 : nmin ≤ nmax) (p : Point) :
    if coefStart nmin mmax.toNat (nmax + 1) ≤ dim then ∃ b, synthPoint rsurf src poles dim nmin nmax mmax p = .ok b
    else synthPoint rsurf src poles dim nmin nmax mmax p = .error .indexError := by
  have hb := synthPoint_both rsurf src src poles false dim nmin nmax mmax p (complete ⟨rsurf, 90, 0, fun _ => 0⟩)
  rw [synthPoint_lift rsurf ha src false dim nmin nmax mmax (by omega) ⟨rsurf, 90, 0, fun _ => 0⟩ ha (by
      intro T hT
      obtain ⟨T', hT', hv, -⟩ := Synth.table nmax 90 (by omega) (by norm_num) (by norm_num)
      simp only at hT
      rw [hT'] at hT
      injection hT with hT
      subst hT
      left
      rw [hv 1 1 le_rfl (by omega), Synth.schmidt_1_1, show rad 90 = Real.pi / 2 by unfold rad; ring, Real.sin_pi_div_two]
      norm_num),
    Synth.synthPoint_eq rsurf src false dim nmin nmax mmax _ (by omega) h1 ha ha (by norm_num) (by norm_num) (by norm_num)] at hb
  by_cases hc : coefStart nmin mmax.toNat (nmax + 1) ≤ dim
  · rw [if_pos hc] at hb ⊢
    cases hp : synthPoint rsurf src poles dim nmin nmax mmax p with
    | error e => rw [hp] at hb; exact hb.elim
    | ok b => exact ⟨b, rfl⟩
  · rw [if_neg hc] at hb ⊢
    cases hp : synthPoint rsurf src poles dim nmin nmax mmax p with
    | error e => rw [hp] at hb; rw [show e = Error.indexError from hb]
    | ok b => rw [hp] at hb; exact hb.elim

theorem sin_pos_of {θ : ℝ} (h0 : 0 < θ) (h1 : θ < 180) : 0 < Real.sin (rad θ) := by
  apply Real.sin_pos_of_pos_of_lt_pi
  · unfold rad; positivity
  · unfold rad
    have := Real.pi_pos
    nlinarith

/-- A complete point between the poles, or at a pole that is treated. -/
theorem synthPoint_complete (rsurf : ℝ) (ha : rsurf ≠ 0) (src : Source) (poles : Bool) (dim nmin nmax : ℕ) (mmax : ℤ) (h0 : 1 ≤ nmin) (h1 : nmin ≤ nmax) (q : Synth.Point) (hr : q.radius ≠ 0)
    (ht : 0 ≤ q.theta ∧ q.theta ≤ 180) (hp : q.theta = 0 ∨ q.theta = 180 → poles = true) (b : F × F × F) (hb : synthPoint rsurf src poles dim nmin nmax mmax (complete q) = .ok b) :
    ∃ b', Synth.synthValues rsurf dim [q] (some nmin) (some nmax) (some mmax) (some src.name) = .ok [b'] ∧ b = numbers b' := by
  have hd : coefStart nmin mmax.toNat (nmax + 1) ≤ dim := by
    by_contra hc
    have := synthPoint_status rsurf ha src poles dim nmin nmax mmax h0 h1 (complete q)
    rw [if_neg hc, hb] at this
    cases this
  have hs := Synth.synthValues_succeeds rsurf ha dim [q] nmin nmax mmax src h0 h1 (by simp) (by simpa using ht) (by simpa using hr) hd
  refine ⟨_, hs, ?_⟩
  rw [synthPoint_lift rsurf ha src poles dim nmin nmax mmax (by omega) q hr (by
      intro T hT
      obtain ⟨T', hT', hv, -⟩ := Synth.table nmax q.theta (by omega) ht.1 ht.2
      rw [hT'] at hT
      injection hT with hT
      subst hT
      by_cases hq : q.theta = 0 ∨ q.theta = 180
      · exact .inr ⟨hp hq, hq⟩
      · left
        rw [hv 1 1 le_rfl (by omega), Synth.schmidt_1_1]
        push Not at hq
        exact (sin_pos_of (lt_of_le_of_ne ht.1 (Ne.symm hq.1)) (lt_of_le_of_ne ht.2 hq.2)).ne'),
    Synth.synthPoint_eq rsurf src poles dim nmin nmax mmax q (by omega) h1 hr ha ht.1 ht.2 hp, if_pos hd] at hb
  injection hb with hb
  exact hb.symm

/-- **C87.** Points are evaluated independently: at a complete point between the poles the values are those of a call with this point alone, whatever is missing
elsewhere; at a pole this needs that no colatitude is missing. -/
theorem C87_isolated (rsurf : ℝ) (ha : rsurf ≠ 0) (dim : ℕ) (pts : List Point) (nmin nmax : ℕ) (mmax : ℤ) (src : Source) (h0 : 1 ≤ nmin) (h1 : nmin ≤ nmax) (l : List (F × F × F))
    (h : synthValues rsurf dim pts (some nmin) (some nmax) (some mmax) (some src.name) = .ok l) (i : ℕ) (q : Synth.Point) (hi : pts[i]? = some (complete q)) (hr : q.radius ≠ 0)
    (ht : 0 ≤ q.theta ∧ q.theta ≤ 180) (hp : (q.theta ≠ 0 ∧ q.theta ≠ 180) ∨ ∀ p ∈ pts, p.theta ≠ none) :
    ∃ b, Synth.synthValues rsurf dim [q] (some nmin) (some nmax) (some mmax) (some src.name) = .ok [b] ∧ l[i]? = some (numbers b) := by
  obtain ⟨poles, hc, hf⟩ := synthValues_ok h0 h1 h
  have hlen := hf.length_eq
  have hil : i < l.length := by
    rw [← hlen]
    exact (List.getElem?_eq_some_iff.1 hi).1
  have hbi : l[i]? = some l[i] := List.getElem?_eq_getElem hil
  have hb := Synth.forall₂_get hf i _ _ hi hbi
  obtain ⟨b, h2, h3⟩ := synthPoint_complete rsurf ha src poles dim nmin nmax mmax h0 h1 q hr ht (by
    intro hq
    rcases hp with hp | hp
    · exact (hq.elim hp.1 hp.2).elim
    · obtain ⟨ths, hths⟩ : ∃ ths : List ℝ, pts.map Point.theta = ths.map some := by
        refine ⟨pts.map fun p => p.theta.getD 0, ?_⟩
        rw [List.map_map]
        apply List.map_congr_left
        intro p hp'
        have := hp p hp'
        cases ht : p.theta with
        | none => exact (this ht).elim
        | some t => simp [ht]
      rw [hths, checkColat_some] at hc
      have hmem : q.theta ∈ ths := by
        have : some q.theta ∈ pts.map Point.theta := List.mem_map.2 ⟨complete q, List.mem_of_getElem? hi, rfl⟩
        rw [hths] at this
        simpa using this
      obtain ⟨-, ⟨-, h2⟩ | ⟨h2, -⟩⟩ := (Synth.checkColat_ok _ _).1 hc
      · have := h2 _ hmem
        rcases hq with e | e <;> rw [e] at this <;> norm_num at this
      · exact h2) _ hb
  exact ⟨b, h2, by rw [hbi, h3]⟩

/-- The loops of one point as a run from the initial state. -/
theorem synthPoint_run {rsurf : ℝ} {src : Source} {poles : Bool} {dim nmin nmax : ℕ} {mmax : ℤ} {p : Point} {b : F × F × F} (hb : synthPoint rsurf src poles dim nmin nmax mmax p = .ok b) :
    ∃ s, (pyRange nmin (nmax + 1)).foldlM
        (degreeStep { dim, src, poles, T := table nmax p.theta, radius := div p.radius (some rsurf), theta := p.theta, phi := p.phi.map rad, c := p.coeffs } mmax)
        { num := 0, rn := rnInit src (div p.radius (some rsurf)) nmin, br := some 0, bt := some 0, bp := some 0 } = .ok s ∧ b = (s.br, s.bt, s.bp) := by
  unfold synthPoint at hb
  simp only [bind, Except.bind] at hb
  revert hb
  cases (pyRange nmin (nmax + 1)).foldlM
        (degreeStep { dim, src, poles, T := table nmax p.theta, radius := div p.radius (some rsurf), theta := p.theta, phi := p.phi.map rad, c := p.coeffs } mmax)
        { num := 0, rn := rnInit src (div p.radius (some rsurf)) nmin, br := some 0, bt := some 0, bp := some 0 } with
  | error e => intro hb; cases hb
  | ok s =>
    intro hb
    injection hb with hb
    exact ⟨s, rfl, hb.symm⟩

/-- What is missing at a point, and in the coefficient vector. -/
inductive Missing (src : Source) (nmin nmax M : ℕ) (p : Point) : (azimuthal : Bool) → Prop
  | theta (h : p.theta = none) (a : Bool) (ha : a = true → 1 ≤ M) : Missing src nmin nmax M p a
  | radius (h : p.radius = none) (hs : src = .internal ∨ 2 ≤ nmax) (a : Bool) (ha : a = true → 1 ≤ M) : Missing src nmin nmax M p a
  | phi (h : p.phi = none) (hM : 1 ≤ M) (a : Bool) : Missing src nmin nmax M p a
  | zonal (n : ℕ) (h1 : nmin ≤ n) (h2 : n ≤ nmax) (h : p.coeffs (coefStart nmin M n) = none) : Missing src nmin nmax M p false
  | sectoral (n m : ℕ) (h1 : nmin ≤ n) (h2 : n ≤ nmax) (h3 : 1 ≤ m) (h4 : m ≤ n) (h5 : m ≤ M)
      (h : p.coeffs (coefStart nmin M n + (2 * m - 1)) = none ∨ p.coeffs (coefStart nmin M n + 2 * m) = none) (a : Bool) : Missing src nmin nmax M p a

theorem rn_missing (src : Source) (n : ℕ) (hn : src = .internal ∨ 2 ≤ n) : rnInit src none n = none := by
  cases src with
  | internal =>
    show pow none _ = none
    unfold pow
    rw [if_neg (by omega)]
  | external =>
    show pow none _ = none
    unfold pow
    rw [if_neg (by rcases hn with h | h
                   · cases h
                   · omega)]

theorem point_missing {rsurf : ℝ} {src : Source} {poles : Bool} {dim nmin nmax : ℕ} {mmax : ℤ} {p : Point} {b : F × F × F} (h0 : 1 ≤ nmin) (h1 : nmin ≤ nmax)
    (hb : synthPoint rsurf src poles dim nmin nmax mmax p = .ok b) (a : Bool) (hm : Missing src nmin nmax mmax.toNat p a) :
    (b.1 = none ∧ b.2.1 = none) ∧ (a = true → b.2.2 = none) := by
  obtain ⟨s, hs, rfl⟩ := synthPoint_run hb
  have L := fun (Dead : State → Prop) (Q : ℕ → F → Prop) => loops (x := { dim, src, poles, T := table nmax p.theta, radius := div p.radius (some rsurf), theta := p.theta, phi := p.phi.map rad, c := p.coeffs }) (s := { num := 0, rn := rnInit src (div p.radius (some rsurf)) nmin, br := some 0, bt := some 0, bp := some 0 }) (s' := s)
    (nmin := nmin) (nmax := nmax) (mmax := mmax) Dead Q rfl
  show Dead1 s ∧ (a = true → Dead2 s)
  cases hm with
  | theta h _ haM =>
    have hT : ∀ q, table nmax p.theta q = none := fun q => by rw [h]; rfl
    refine ⟨L Dead1 (fun _ _ => True) trivial (fun _ _ _ _ => trivial) (fun n s s' h' => degreeStep_dead1 h') hs ⟨nmin, le_rfl, h1, fun s s' _ _ h' => degreeStep_first h' (.inl hT)⟩, fun haa => ?_⟩
    exact L Dead2 (fun _ _ => True) trivial (fun _ _ _ _ => trivial) (fun n s s' h' => degreeStep_dead2 h') hs
      ⟨nmin, le_rfl, h1, fun s s' _ _ h' => (degreeStep_order h' 1 le_rfl (by have := haM haa; unfold Synth.mtop; omega) (.inl hT)).2⟩
  | radius h hs' _ haM =>
    have hr : div p.radius (some rsurf) = none := by rw [h]; rfl
    have hQ : ∀ n r, nmin ≤ n → (2 ≤ n ∨ src = .internal → r = none) → (2 ≤ n + 1 ∨ src = .internal → rnStep src (div p.radius (some rsurf)) r = none) := by
      intro n r _ _ _
      rw [hr]
      cases src with
      | internal => exact div_none_right r
      | external => exact mul_none_right r
    have hq : 2 ≤ nmin ∨ src = .internal → rnInit src (div p.radius (some rsurf)) nmin = none := by
      intro hh
      rw [hr]
      exact rn_missing src nmin hh.symm
    have hlast : 2 ≤ nmax ∨ src = .internal := hs'.symm
    refine ⟨L Dead1 (fun n r => 2 ≤ n ∨ src = .internal → r = none) hq hQ (fun n s s' h' => degreeStep_dead1 h') hs ⟨nmax, h1, le_rfl, fun s s' _ hq' h' => degreeStep_first h' (.inr (.inl (hq' hlast)))⟩, fun haa => ?_⟩
    exact L Dead2 (fun n r => 2 ≤ n ∨ src = .internal → r = none) hq hQ (fun n s s' h' => degreeStep_dead2 h') hs
      ⟨nmax, h1, le_rfl, fun s s' _ hq' h' => (degreeStep_order h' 1 le_rfl (by have := haM haa; unfold Synth.mtop; omega) (.inr (.inl (hq' hlast)))).2⟩
  | phi h hM =>
    have hphi : p.phi.map rad = none := by rw [h]; rfl
    exact ⟨L Dead1 (fun _ _ => True) trivial (fun _ _ _ _ => trivial) (fun n s s' h' => degreeStep_dead1 h') hs
        ⟨nmin, le_rfl, h1, fun s s' _ _ h' => (degreeStep_order h' 1 le_rfl (by unfold Synth.mtop; omega) (.inr (.inr (.inl hphi)))).1⟩,
      fun _ => L Dead2 (fun _ _ => True) trivial (fun _ _ _ _ => trivial) (fun n s s' h' => degreeStep_dead2 h') hs
        ⟨nmin, le_rfl, h1, fun s s' _ _ h' => (degreeStep_order h' 1 le_rfl (by unfold Synth.mtop; omega) (.inr (.inr (.inl hphi)))).2⟩⟩
  | zonal n hn1 hn2 h =>
    refine ⟨L Dead1 (fun _ _ => True) trivial (fun _ _ _ _ => trivial) (fun n s s' h' => degreeStep_dead1 h') hs
        ⟨n, hn1, hn2, fun s s' hnum _ h' => degreeStep_first h' (.inr (.inr (by rw [hnum]; exact h)))⟩, fun h => by cases h⟩
  | sectoral n m hn1 hn2 hm1 hm2 hm3 h =>
    have key : ∀ s s' : State, s.num = coefStart nmin mmax.toNat n → degreeStep { dim, src, poles, T := table nmax p.theta, radius := div p.radius (some rsurf), theta := p.theta, phi := p.phi.map rad, c := p.coeffs } mmax s n = .ok s' → Dead1 s' ∧ Dead2 s' := by
      intro s s' hnum h'
      refine degreeStep_order h' m hm1 (by unfold Synth.mtop; omega) (.inr (.inr (.inr ?_)))
      rw [hnum, show coefStart nmin mmax.toNat n + 2 * m - 1 = coefStart nmin mmax.toNat n + (2 * m - 1) by omega]
      exact h
    exact ⟨L Dead1 (fun _ _ => True) trivial (fun _ _ _ _ => trivial) (fun n s s' h' => degreeStep_dead1 h') hs ⟨n, hn1, hn2, fun s s' hnum _ h' => (key s s' hnum h').1⟩,
      fun _ => L Dead2 (fun _ _ => True) trivial (fun _ _ _ _ => trivial) (fun n s s' h' => degreeStep_dead2 h') hs ⟨n, hn1, hn2, fun s s' hnum _ h' => (key s s' hnum h').2⟩⟩

/-- **C87.** What is missing is visible: a missing coordinate or a missing coefficient that is used makes the radial and colatitude components of that point NaN, and the
azimuthal component too (unless there are no orders above zero, or the coefficient is a zonal one). -/
theorem C87_missing (rsurf : ℝ) (dim : ℕ) (pts : List Point) (nmin nmax : ℕ) (mmax : ℤ) (src : Source) (h0 : 1 ≤ nmin) (h1 : nmin ≤ nmax) (l : List (F × F × F))
    (h : synthValues rsurf dim pts (some nmin) (some nmax) (some mmax) (some src.name) = .ok l) (i : ℕ) (p : Point) (hi : pts[i]? = some p) (a : Bool) (hm : Missing src nmin nmax mmax.toNat p a) :
    ∃ b, l[i]? = some b ∧ (b.1 = none ∧ b.2.1 = none) ∧ (a = true → b.2.2 = none) := by
  obtain ⟨poles, hc, hf⟩ := synthValues_ok h0 h1 h
  have hil : i < l.length := by
    rw [← hf.length_eq]
    exact (List.getElem?_eq_some_iff.1 hi).1
  have hbi : l[i]? = some l[i] := List.getElem?_eq_getElem hil
  exact ⟨_, hbi, point_missing h0 h1 (Synth.forall₂_get hf i _ _ hi hbi) a hm⟩

/-- **C87.** One missing colatitude switches the check of all colatitudes off: the call succeeds if there are enough coefficients, whatever the other colatitudes are. -/
theorem C87_unchecked_succeeds (rsurf : ℝ) (ha : rsurf ≠ 0) (dim : ℕ) (pts : List Point) (nmin nmax : ℕ) (mmax : ℤ) (src : Source) (h0 : 1 ≤ nmin) (h1 : nmin ≤ nmax)
    (hd : coefStart nmin mmax.toNat (nmax + 1) ≤ dim) (hn : ∃ p ∈ pts, p.theta = none) :
    ∃ l, synthValues rsurf dim pts (some nmin) (some nmax) (some mmax) (some src.name) = .ok l ∧ l.length = pts.length := by
  obtain ⟨p, hp, hpt⟩ := hn
  rw [synthValues_explicit rsurf dim pts nmin nmax mmax src h0 h1, checkColat_missing _ (List.mem_map.2 ⟨p, hp, hpt⟩)]
  simp only
  clear hp
  induction pts with
  | nil => exact ⟨[], rfl, rfl⟩
  | cons q pts ih =>
    obtain ⟨l, hl, hlen⟩ := ih
    have := synthPoint_status rsurf ha src false dim nmin nmax mmax h0 h1 q
    rw [if_pos hd] at this
    obtain ⟨b, hb⟩ := this
    refine ⟨b :: l, ?_, by simp [hlen]⟩
    rw [List.mapM_cons, hb, hl]
    rfl

theorem legendrePoly_cos (nmax : ℕ) (t t' : ℝ) (h : 1 ≤ nmax) (hc : Real.cos (rad t) = Real.cos (rad t')) : Legendre.legendrePoly nmax t = Legendre.legendrePoly nmax t' := by
  rw [Legendre.legendrePoly_ok nmax t h, Legendre.legendrePoly_ok nmax t' h, hc]

theorem divP_false (T : ℕ × ℕ → F) (t t' : F) (n m : ℕ) : divP false T t n m = divP false T t' n m := by
  unfold divP
  rw [if_neg (by simp), if_neg (by simp)]

theorem synthPoint_cos (rsurf : ℝ) (src : Source) (dim nmin nmax : ℕ) (mmax : ℤ) (hn : 1 ≤ nmax) (q : Synth.Point) (t : ℝ) (hc : Real.cos (rad q.theta) = Real.cos (rad t)) :
    synthPoint rsurf src false dim nmin nmax mmax (complete q) = synthPoint rsurf src false dim nmin nmax mmax (complete ⟨q.radius, t, q.phi, q.coeffs⟩) := by
  have hT : table nmax (complete q).theta = table nmax (complete ⟨q.radius, t, q.phi, q.coeffs⟩).theta := by
    funext p
    simp only [table, complete, Option.bind_some, legendrePoly_cos nmax _ _ hn hc]
  unfold synthPoint
  simp only
  rw [hT]
  have hD : degreeStep { dim, src, poles := false, T := table nmax (complete ⟨q.radius, t, q.phi, q.coeffs⟩).theta, radius := div (complete q).radius (some rsurf), theta := (complete q).theta, phi := (complete q).phi.map rad, c := (complete q).coeffs } mmax =
      degreeStep { dim, src, poles := false, T := table nmax (complete ⟨q.radius, t, q.phi, q.coeffs⟩).theta, radius := div (complete q).radius (some rsurf), theta := (complete ⟨q.radius, t, q.phi, q.coeffs⟩).theta, phi := (complete q).phi.map rad, c := (complete q).coeffs } mmax := by
    funext s n
    have ho : orderStep { dim, src, poles := false, T := table nmax (complete ⟨q.radius, t, q.phi, q.coeffs⟩).theta, radius := div (complete q).radius (some rsurf), theta := (complete q).theta, phi := (complete q).phi.map rad, c := (complete q).coeffs } n =
        orderStep { dim, src, poles := false, T := table nmax (complete ⟨q.radius, t, q.phi, q.coeffs⟩).theta, radius := div (complete q).radius (some rsurf), theta := (complete ⟨q.radius, t, q.phi, q.coeffs⟩).theta, phi := (complete q).phi.map rad, c := (complete q).coeffs } n := by
      funext s m
      unfold orderStep
      simp only
      rw [divP_false _ (complete q).theta (complete ⟨q.radius, t, q.phi, q.coeffs⟩).theta]
    unfold degreeStep
    rw [ho]
  rw [hD]
  rfl

/-- **C87.** Then a point with a colatitude outside [0, 180], which alone is refused, gets the field of another point: the one with the same azimuth and the
colatitude in (0, 180) that has the same cosine. -/
theorem C87_unchecked_outside (rsurf : ℝ) (ha : rsurf ≠ 0) (dim : ℕ) (pts : List Point) (nmin nmax : ℕ) (mmax : ℤ) (src : Source) (h0 : 1 ≤ nmin) (h1 : nmin ≤ nmax) (l : List (F × F × F))
    (hn : ∃ p ∈ pts, p.theta = none) (h : synthValues rsurf dim pts (some nmin) (some nmax) (some mmax) (some src.name) = .ok l)
    (i : ℕ) (q : Synth.Point) (hi : pts[i]? = some (complete q)) (hr : q.radius ≠ 0) (hout : q.theta < 0 ∨ 180 < q.theta)
    (t : ℝ) (ht0 : 0 < t) (ht1 : t < 180) (hc : Real.cos (rad q.theta) = Real.cos (rad t)) :
    Synth.synthValues rsurf dim [q] (some nmin) (some nmax) (some mmax) (some src.name) = .error .valueError ∧
    ∃ b, Synth.synthValues rsurf dim [⟨q.radius, t, q.phi, q.coeffs⟩] (some nmin) (some nmax) (some mmax) (some src.name) = .ok [b] ∧ l[i]? = some (numbers b) := by
  constructor
  · rw [Synth.synthValues_explicit rsurf dim [q] nmin nmax mmax src h0 h1]
    have : Synth.checkColat ([q].map Synth.Point.theta) = .error .valueError := by
      simp only [Synth.checkColat, Synth.aminmax, List.map_cons, List.map_nil, List.foldl_nil, bind, Except.bind]
      rw [if_pos (by rcases hout with h | h
                     · exact .inl h.le
                     · exact .inr h.le),
        if_neg (by rintro (h' | h') <;> rw [h'] at hout <;> norm_num at hout)]
      rfl
    rw [this]
  · obtain ⟨p, hp, hpt⟩ := hn
    obtain ⟨poles, hcol, hf⟩ := synthValues_ok h0 h1 h
    rw [checkColat_missing _ (List.mem_map.2 ⟨p, hp, hpt⟩)] at hcol
    injection hcol with hcol
    subst hcol
    have hil : i < l.length := by
      rw [← hf.length_eq]
      exact (List.getElem?_eq_some_iff.1 hi).1
    have hbi : l[i]? = some l[i] := List.getElem?_eq_getElem hil
    have hb := Synth.forall₂_get hf i _ _ hi hbi
    rw [synthPoint_cos rsurf src dim nmin nmax mmax (by omega) q t hc] at hb
    obtain ⟨b, h2, h3⟩ := synthPoint_complete rsurf ha src false dim nmin nmax mmax h0 h1 ⟨q.radius, t, q.phi, q.coeffs⟩ hr ⟨ht0.le, ht1.le⟩
      (by rintro (e | e) <;> simp only at e <;> linarith) _ hb
    exact ⟨b, h2, by rw [hbi, h3]⟩

/-- **C87.** And a point at a pole gets no azimuthal component (unless there are no orders above zero); the other two are those of the point alone. -/
theorem C87_unchecked_pole (rsurf : ℝ) (ha : rsurf ≠ 0) (dim : ℕ) (pts : List Point) (nmin nmax : ℕ) (mmax : ℤ) (hM : 1 ≤ mmax) (src : Source) (h0 : 1 ≤ nmin) (h1 : nmin ≤ nmax) (l : List (F × F × F))
    (hn : ∃ p ∈ pts, p.theta = none) (h : synthValues rsurf dim pts (some nmin) (some nmax) (some mmax) (some src.name) = .ok l)
    (i : ℕ) (q : Synth.Point) (hi : pts[i]? = some (complete q)) (hr : q.radius ≠ 0) (hq : q.theta = 0 ∨ q.theta = 180) :
    ∃ b, Synth.synthValues rsurf dim [q] (some nmin) (some nmax) (some mmax) (some src.name) = .ok [b] ∧ l[i]? = some (some b.1, some b.2.1, none) := by
  have ht : 0 ≤ q.theta ∧ q.theta ≤ 180 := by rcases hq with e | e <;> rw [e] <;> norm_num
  obtain ⟨p, hp, hpt⟩ := hn
  obtain ⟨poles, hcol, hf⟩ := synthValues_ok h0 h1 h
  rw [checkColat_missing _ (List.mem_map.2 ⟨p, hp, hpt⟩)] at hcol
  injection hcol with hcol
  subst hcol
  have hil : i < l.length := by
    rw [← hf.length_eq]
    exact (List.getElem?_eq_some_iff.1 hi).1
  have hbi : l[i]? = some l[i] := List.getElem?_eq_getElem hil
  have hb := Synth.forall₂_get hf i _ _ hi hbi
  have hflag := synthPoint_flag rsurf src false true dim nmin nmax mmax (complete q)
  rw [hb] at hflag
  cases ht2 : synthPoint rsurf src true dim nmin nmax mmax (complete q) with
  | error e => rw [ht2] at hflag; exact hflag.elim
  | ok b2 =>
    rw [ht2] at hflag
    obtain ⟨b, h2, h3⟩ := synthPoint_complete rsurf ha src true dim nmin nmax mmax h0 h1 q hr ht (fun _ => rfl) b2 ht2
    refine ⟨b, h2, ?_⟩
    rw [hbi]
    have hz : (l[i]).2.2 = none := by
      obtain ⟨s, hs, hbs⟩ := synthPoint_run hb
      rw [hbs]
      refine loops (x := { dim, src, poles := false, T := table nmax (complete q).theta, radius := div (complete q).radius (some rsurf), theta := (complete q).theta, phi := (complete q).phi.map rad, c := (complete q).coeffs })
        (mmax := mmax) Dead2 (fun _ _ => True) rfl trivial (fun _ _ _ _ => trivial) (fun n s s' h' => degreeStep_dead2 h') hs
        ⟨nmin, le_rfl, h1, fun s s' _ _ h' => degreeStep_pole h' (by unfold Synth.mtop; omega) rfl ?_⟩
      obtain ⟨T', hT', hv, -⟩ := Synth.table nmax q.theta (by omega) ht.1 ht.2
      simp only [table, complete, Option.bind_some, hT']
      rw [hv 1 1 le_rfl (by omega), Synth.schmidt_1_1]
      rcases hq with e | e <;> rw [e]
      · simp [rad]
      · rw [show rad 180 = Real.pi by unfold rad; ring, Real.sin_pi]
    have e1 : (l[i]).1 = some b.1 := by rw [hflag.1, h3]; rfl
    have e2 : (l[i]).2.1 = some b.2.1 := by rw [hflag.2, h3]; rfl
    rw [← e1, ← e2, ← hz]

/-! ### What does not need the missing value -/

/-- **C87.** Without orders above zero the azimuthal component is zero at every point, and the azimuth is not used: it may be missing. -/
theorem C87_zonal (rsurf : ℝ) (dim : ℕ) (pts : List Point) (nmin nmax : ℕ) (mmax : ℤ) (hM : mmax ≤ 0) (src : Source) (h0 : 1 ≤ nmin) (h1 : nmin ≤ nmax) (phis : Point → F) :
    synthValues rsurf dim (pts.map fun p => { p with phi := phis p }) (some nmin) (some nmax) (some mmax) (some src.name) =
      synthValues rsurf dim pts (some nmin) (some nmax) (some mmax) (some src.name) ∧
    ∀ l, synthValues rsurf dim pts (some nmin) (some nmax) (some mmax) (some src.name) = .ok l → ∀ b ∈ l, b.2.2 = some 0 := by
  have hrange : ∀ n : ℕ, pyRange 1 (min (n : ℤ) mmax + 1).toNat = [] := fun n => Synth.pyRange_empty _ _ (by omega)
  constructor
  · rw [synthValues_explicit _ _ _ _ _ _ _ h0 h1, synthValues_explicit _ _ _ _ _ _ _ h0 h1, List.map_map]
    have : (Point.theta ∘ fun p : Point => { p with phi := phis p }) = Point.theta := rfl
    rw [this]
    cases checkColat (pts.map Point.theta) with
    | error e => rfl
    | ok poles =>
      simp only
      rw [List.mapM_map]
      apply Synth.mapM_congr
      intro p _
      simp only [Function.comp_apply]
      unfold synthPoint degreeStep
      simp only [hrange, List.foldlM_nil]
  · intro l hl b hb
    obtain ⟨poles, -, hf⟩ := synthValues_ok h0 h1 hl
    obtain ⟨i, hi, rfl⟩ := List.getElem_of_mem hb
    have hip : i < pts.length := by rw [hf.length_eq]; exact hi
    have := Synth.forall₂_get hf i _ _ (List.getElem?_eq_getElem hip) (List.getElem?_eq_getElem hi)
    obtain ⟨s, hs, hbs⟩ := synthPoint_run this
    rw [hbs]
    refine (foldlM_dead (degreeStep { dim, src, poles, T := table nmax pts[i].theta, radius := div pts[i].radius (some rsurf), theta := pts[i].theta, phi := pts[i].phi.map rad, c := pts[i].coeffs } mmax)
      (fun _ _ => True) (fun s : State => s.bp = some 0) nmin (nmax + 1) (fun _ _ _ _ _ => trivial) ?_ _ s trivial hs (.inl rfl)).1
    intro n s s' hst hs
    obtain ⟨s2, h2, rfl⟩ := degreeStep_ok hst
    rw [Synth.pyRange_empty _ _ (by unfold Synth.mtop; omega)] at h2
    injection h2 with h2
    rw [← h2]
    exact hs

/-- **C87.** For the external field of degree one the radius is not used: it may be missing. -/
theorem C87_uniform (rsurf : ℝ) (dim : ℕ) (pts : List Point) (mmax : ℤ) (radii : Point → F) :
    synthValues rsurf dim (pts.map fun p => { p with radius := radii p }) (some 1) (some 1) (some mmax) (some "external") =
      synthValues rsurf dim pts (some 1) (some 1) (some mmax) (some "external") := by
  have e1 := synthValues_explicit rsurf dim (pts.map fun p => { p with radius := radii p }) 1 1 mmax .external le_rfl le_rfl
  have e2 := synthValues_explicit rsurf dim pts 1 1 mmax .external le_rfl le_rfl
  simp only [Nat.cast_one, Synth.Source.name] at e1 e2
  rw [e1, e2, List.map_map]
  have : (Point.theta ∘ fun p : Point => { p with radius := radii p }) = Point.theta := rfl
  rw [this]
  cases checkColat (pts.map Point.theta) with
  | error e => rfl
  | ok poles =>
    simp only
    rw [List.mapM_map]
    apply Synth.mapM_congr
    intro p _
    simp only [Function.comp_apply]
    have hone : ∀ x : Ctx, ∀ s : State, (pyRange 1 (1 + 1)).foldlM (degreeStep x mmax) s = degreeStep x mmax s 1 := by
      intro x s
      rw [Synth.pyRange_cons 1 2 (by omega), Synth.pyRange_empty _ _ (by omega), List.foldlM_cons]
      simp
    have hrn : ∀ r : F, rnInit .external r 1 = some 1 := by
      intro r
      show pow r _ = _
      unfold pow
      rw [if_pos (by norm_num)]
    unfold synthPoint
    simp only [hone, hrn]
    unfold degreeStep
    simp only [bind, Except.bind]
    unfold getCoef
    by_cases hd : 0 < dim
    · simp only [if_pos hd]
      have ho : orderStep { dim, src := .external, poles, T := table 1 p.theta, radius := div (radii p) (some rsurf), theta := p.theta, phi := p.phi.map rad, c := p.coeffs } 1 =
          orderStep { dim, src := .external, poles, T := table 1 p.theta, radius := div p.radius (some rsurf), theta := p.theta, phi := p.phi.map rad, c := p.coeffs } 1 := rfl
      rw [ho]
      generalize (pyRange 1 _).foldlM (orderStep { dim, src := .external, poles, T := table 1 p.theta, radius := div p.radius (some rsurf), theta := p.theta, phi := p.phi.map rad, c := p.coeffs } 1) _ = r
      cases r with
      | error e => rfl
      | ok s => rfl
    · simp only [if_neg hd]

end ChaosMagPy.SynthNan
