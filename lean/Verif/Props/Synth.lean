import Verif.Lemmas.SynthCall
/-!
# C16-C19, C21, C22: `synth_values` and `design_gauss`

`synthValues rsurf dim pts nmin nmax mmax source` is the model of the call; `pts` are the broadcast
points (with their row of coefficients), `dim` the size of the last axis of the coefficient array.
-/
namespace ChaosMagPy.Synth
open ChaosMagPy.Legendre (pyRange)
open ChaosMagPy.Spec

/-- Name of a source. -/
def Source.name : Source → String
  | .internal => "internal"
  | .external => "external"

theorem resolveSource_name (s : Source) : resolveSource (some s.name) = .ok s := by cases s <;> rfl

/-- A call with explicit arguments is the map over the points. -/
theorem synthValues_explicit (rsurf : ℝ) (dim : ℕ) (pts : List Point) (nmin nmax : ℕ) (mmax : ℤ)
    (src : Source) (h0 : 1 ≤ nmin) (h1 : nmin ≤ nmax) :
    synthValues rsurf dim pts (some nmin) (some nmax) (some mmax) (some src.name) =
      match checkColat (pts.map Point.theta) with
      | .error e => .error e
      | .ok poles => pts.mapM (synthPoint rsurf src poles dim nmin nmax mmax) := by
  unfold synthValues
  simp only [bind, Except.bind]
  cases checkColat (pts.map Point.theta) with
  | error e => rfl
  | ok poles =>
    simp only [resolve_explicit dim nmin nmax mmax h0 h1, resolveSource_name]

theorem synthValues_ok (rsurf : ℝ) (dim : ℕ) (pts : List Point) (nmin nmax : ℕ) (mmax : ℤ)
    (src : Source) (h0 : 1 ≤ nmin) (h1 : nmin ≤ nmax) (l : List (ℝ × ℝ × ℝ))
    (h : synthValues rsurf dim pts (some nmin) (some nmax) (some mmax) (some src.name) = .ok l) :
    ∃ poles, checkColat (pts.map Point.theta) = .ok poles ∧
      (∀ p ∈ pts, p.theta = 0 ∨ p.theta = 180 → poles = true) ∧
      List.Forall₂ (fun p b => synthPoint rsurf src poles dim nmin nmax mmax p = .ok b) pts l := by
  rw [synthValues_explicit rsurf dim pts nmin nmax mmax src h0 h1] at h
  cases hc : checkColat (pts.map Point.theta) with
  | error e => rw [hc] at h; cases h
  | ok poles =>
    rw [hc] at h
    refine ⟨poles, rfl, ?_, (mapM_ok _ _ _).1 h⟩
    intro p hp hpole
    obtain ⟨_, ⟨_, h2⟩ | ⟨h2, _⟩⟩ := (checkColat_ok _ _).1 hc
    · have := h2 p.theta (List.mem_map.2 ⟨p, hp, rfl⟩)
      rcases hpole with e | e <;> rw [e] at this <;> norm_num at this
    · exact h2

theorem forall₂_get {α β : Type} {R : α → β → Prop} {l : List α} {l' : List β} (h : List.Forall₂ R l l')
    (i : ℕ) (a : α) (b : β) (ha : l[i]? = some a) (hb : l'[i]? = some b) : R a b := by
  induction h generalizing i with
  | nil => simp at ha
  | cons h1 h2 ih =>
    cases i with
    | zero =>
      simp only [List.getElem?_cons_zero, Option.some.injEq] at ha hb
      subst ha; subst hb
      exact h1
    | succ i => exact ih i ha hb

/-! ## C16 -/

theorem hasDerivAt_sum2 (f : ℕ → ℕ → ℝ → ℝ) (f' : ℕ → ℕ → ℝ) (s : Finset ℕ) (t : ℕ → Finset ℕ) (x : ℝ)
    (h : ∀ n m, HasDerivAt (f n m) (f' n m) x) :
    HasDerivAt (fun y => ∑ n ∈ s, ∑ m ∈ t n, f n m y) (∑ n ∈ s, ∑ m ∈ t n, f' n m) x := by
  apply HasDerivAt.fun_sum
  intro n _
  apply HasDerivAt.fun_sum
  intro m _
  exact h n m

theorem sum2_mul (a : ℝ) (f : ℕ → ℕ → ℝ) (s : Finset ℕ) (t : ℕ → Finset ℕ) :
    a * ∑ n ∈ s, ∑ m ∈ t n, f n m = ∑ n ∈ s, ∑ m ∈ t n, a * f n m := by
  rw [Finset.mul_sum]
  apply Finset.sum_congr rfl
  intro n _
  rw [Finset.mul_sum]

/-- The potential of the source. -/
noncomputable def pot (src : Source) (a : ℝ) (c : ℕ → ℝ) (nmin nmax mmax : ℕ) (r θ φ : ℝ) : ℝ :=
  match src with
  | .internal => potInt a c nmin nmax mmax r θ φ
  | .external => potExt a c nmin nmax mmax r θ φ

/-- Radial function of degree `n` in the potential (with the factor `a`). -/
noncomputable def radial (src : Source) (a : ℝ) (n : ℕ) (r : ℝ) : ℝ :=
  match src with
  | .internal => a * (a / r) ^ (n + 1)
  | .external => a * (r / a) ^ n

theorem pot_eq (src : Source) (a : ℝ) (c : ℕ → ℝ) (nmin nmax M : ℕ) (r θ φ : ℝ) :
    pot src a c nmin nmax M r θ φ =
      ∑ n ∈ Finset.Icc nmin nmax, ∑ m ∈ Finset.range (min n M + 1),
        radial src a n r * surfaceTerm c nmin M n m θ φ := by
  cases src with
  | internal =>
    simp only [pot, potInt, radial, sum2_mul, mul_assoc]
  | external =>
    simp only [pot, potExt, radial, sum2_mul, mul_assoc]

theorem radial_deriv (src : Source) (a : ℝ) (ha : 0 < a) (n : ℕ) (r : ℝ) (hr : 0 < r) :
    HasDerivAt (radial src a n) (-(rfac src n * rpow src (r / a) n)) r := by
  cases src with
  | internal =>
    simp only [rfac, rpow]
    have h1 : HasDerivAt (fun r : ℝ => a / r) (-a / r ^ 2) r := by
      have := (hasDerivAt_inv hr.ne').const_mul a
      refine (this.congr_deriv ?_).congr_of_eventuallyEq (Filter.Eventually.of_forall fun y => ?_)
      · field_simp
      · simp [div_eq_mul_inv]
    have h2 := (h1.pow (n + 1)).const_mul a
    refine (h2.congr_deriv ?_).congr_of_eventuallyEq (Filter.Eventually.of_forall fun y => ?_)
    · rw [zpow_neg, show ((n : ℤ) + 2) = ((n + 2 : ℕ) : ℤ) by push_cast; ring, zpow_natCast,
        Nat.add_sub_cancel, div_pow, div_pow, inv_div, pow_add, pow_add]
      push_cast
      field_simp
    · simp [radial]
  | external =>
    simp only [rfac, rpow]
    have h1 : HasDerivAt (fun r : ℝ => r / a) (1 / a) r := (hasDerivAt_id r).div_const a
    have h2 := (h1.pow n).const_mul a
    refine (h2.congr_deriv ?_).congr_of_eventuallyEq (Filter.Eventually.of_forall fun y => ?_)
    · cases n with
      | zero => simp
      | succ k =>
        rw [show (((k + 1 : ℕ) : ℤ) - 1) = ((k : ℕ) : ℤ) by push_cast; ring, zpow_natCast,
          Nat.add_sub_cancel]
        push_cast
        field_simp
    · simp [radial]

theorem radial_eq (src : Source) (a : ℝ) (ha : 0 < a) (n : ℕ) (r : ℝ) (hr : 0 < r) :
    radial src a n r = r * rpow src (r / a) n := by
  cases src with
  | internal =>
    simp only [radial, rpow]
    rw [zpow_neg, show ((n : ℤ) + 2) = ((n + 2 : ℕ) : ℤ) by push_cast; ring, zpow_natCast,
      div_pow, div_pow, inv_div, show n + 2 = n + 1 + 1 by ring, pow_succ a (n + 1), pow_succ r (n + 1)]
    field_simp
  | external =>
    simp only [radial, rpow]
    rw [zpow_sub_one₀ (by positivity), zpow_natCast]
    field_simp

theorem field_gradient (src : Source) (a : ℝ) (ha : 0 < a) (c : ℕ → ℝ) (nmin nmax M : ℕ) (r x y : ℝ)
    (hr : 0 < r) :
    HasDerivAt (fun r' => pot src a c nmin nmax M r' x y) (-fieldR src a c nmin nmax M r x y) r ∧
    HasDerivAt (fun x' => pot src a c nmin nmax M r x' y) (-(r * fieldT src a c nmin nmax M r x y)) x ∧
    HasDerivAt (fun y' => pot src a c nmin nmax M r x y')
      (-(r * Real.sin x * fieldP src a c nmin nmax M r x y)) y := by
  refine ⟨?_, ?_, ?_⟩
  · simp only [pot_eq]
    refine (hasDerivAt_sum2 _ (fun n m => -(rfac src n * rpow src (r / a) n) *
      surfaceTerm c nmin M n m x y) _ _ r
      (fun n m => (radial_deriv src a ha n r hr).mul_const _)).congr_deriv ?_
    unfold fieldR
    rw [← neg_one_mul, sum2_mul]
    refine Finset.sum_congr rfl fun n _ => Finset.sum_congr rfl fun m _ => ?_
    unfold surfaceTerm
    ring
  · simp only [pot_eq]
    refine (hasDerivAt_sum2 _ (fun n m => radial src a n r *
      ((coefG c nmin M n m * Real.cos (m * y) + coefH c nmin M n m * Real.sin (m * y)) *
        Legendre.dS (Real.cos x) (Real.sin x) n m)) _ _ x
      (fun n m => ((Legendre.hasDerivAt_schmidt n m x).const_mul _).const_mul _)).congr_deriv ?_
    unfold fieldT
    rw [← neg_mul, sum2_mul]
    refine Finset.sum_congr rfl fun n _ => Finset.sum_congr rfl fun m _ => ?_
    rw [radial_eq src a ha n r hr]
    ring
  · simp only [pot_eq]
    have hsurf : ∀ n m : ℕ, HasDerivAt (fun y' => surfaceTerm c nmin M n m x y')
        ((-(coefG c nmin M n m * (m * Real.sin (m * y))) + coefH c nmin M n m * (m * Real.cos (m * y))) *
          schmidt n m x) y := by
      intro n m
      have hl : HasDerivAt (fun y' : ℝ => (m : ℝ) * y') (m : ℝ) y := by
        simpa using (hasDerivAt_id y).const_mul (m : ℝ)
      have h1 := ((Real.hasDerivAt_cos (m * y)).comp y hl).const_mul (coefG c nmin M n m)
      have h2 := ((Real.hasDerivAt_sin (m * y)).comp y hl).const_mul (coefH c nmin M n m)
      have h3 := (h1.add h2).mul_const (schmidt n m x)
      refine (h3.congr_deriv ?_).congr_of_eventuallyEq (Filter.Eventually.of_forall fun z => ?_)
      · ring
      · simp [surfaceTerm]
    refine (hasDerivAt_sum2 _ _ _ _ y (fun n m => (hsurf n m).const_mul _)).congr_deriv ?_
    unfold fieldP
    rw [← neg_mul, sum2_mul]
    refine Finset.sum_congr rfl fun n _ => Finset.sum_congr rfl fun m _ => ?_
    rw [radial_eq src a ha n r hr]
    rcases Nat.eq_zero_or_pos m with rfl | hm
    · simp
    · rw [← R_mul_sin n m hm x]
      ring

/-- **C16.** Whatever the points of the call, the components returned for a point with a colatitude
strictly between the poles are minus the gradient of the potential: `B_r = -∂V/∂r`,
`B_θ = -1/r ∂V/∂θ`, `B_φ = -1/(r sin θ) ∂V/∂φ`. Angles are in degrees, `rad` converts to radians. -/
theorem C16_gradient (rsurf : ℝ) (ha : 0 < rsurf) (dim : ℕ) (pts : List Point) (nmin nmax : ℕ) (mmax : ℕ)
    (src : Source) (h0 : 1 ≤ nmin) (h1 : nmin ≤ nmax) (l : List (ℝ × ℝ × ℝ))
    (h : synthValues rsurf dim pts (some nmin) (some nmax) (some mmax) (some src.name) = .ok l)
    (i : ℕ) (p : Point) (Br Bt Bp : ℝ) (hp : pts[i]? = some p) (hb : l[i]? = some (Br, Bt, Bp))
    (hr : 0 < p.radius) (ht : 0 < p.theta) (ht' : p.theta < 180) :
    let V := pot src rsurf p.coeffs nmin nmax mmax
    HasDerivAt (fun r => V r (rad p.theta) (rad p.phi)) (-Br) p.radius ∧
    HasDerivAt (fun t => V p.radius t (rad p.phi)) (-(p.radius * Bt)) (rad p.theta) ∧
    HasDerivAt (fun y => V p.radius (rad p.theta) y) (-(p.radius * Real.sin (rad p.theta) * Bp)) (rad p.phi) ∧
    0 < p.radius * Real.sin (rad p.theta) := by
  obtain ⟨poles, _, hpole, hall⟩ := synthValues_ok rsurf dim pts nmin nmax mmax src h0 h1 l h
  have hpt := forall₂_get hall i p _ hp hb
  rw [synthPoint_eq rsurf src poles dim nmin nmax mmax p (by omega) h1 hr.ne' ha.ne' ht.le ht'.le
    (hpole p (List.mem_of_getElem? hp))] at hpt
  rw [Int.toNat_natCast] at hpt
  split_ifs at hpt
  simp only [Except.ok.injEq, Prod.mk.injEq] at hpt
  obtain ⟨rfl, rfl, rfl⟩ := hpt
  have := field_gradient src rsurf ha p.coeffs nmin nmax mmax p.radius (rad p.theta) (rad p.phi) hr
  exact ⟨this.1, this.2.1, this.2.2, mul_pos hr (sin_rad_pos ht ht')⟩

/-- Shape of a successful call. -/
theorem synthValues_succeeds (rsurf : ℝ) (ha : rsurf ≠ 0) (dim : ℕ) (pts : List Point) (nmin nmax : ℕ)
    (mmax : ℤ) (src : Source) (h0 : 1 ≤ nmin) (h1 : nmin ≤ nmax) (hne : pts ≠ [])
    (hth : ∀ p ∈ pts, 0 ≤ p.theta ∧ p.theta ≤ 180) (hr : ∀ p ∈ pts, p.radius ≠ 0)
    (hd : coefStart nmin mmax.toNat (nmax + 1) ≤ dim) :
    synthValues rsurf dim pts (some nmin) (some nmax) (some mmax) (some src.name) =
      .ok (pts.map fun p =>
        (fieldR src rsurf p.coeffs nmin nmax mmax.toNat p.radius (rad p.theta) (rad p.phi),
         fieldT src rsurf p.coeffs nmin nmax mmax.toNat p.radius (rad p.theta) (rad p.phi),
         fieldP src rsurf p.coeffs nmin nmax mmax.toNat p.radius (rad p.theta) (rad p.phi))) := by
  rw [synthValues_explicit rsurf dim pts nmin nmax mmax src h0 h1]
  have hb : ∃ b, checkColat (pts.map Point.theta) = .ok b ∧
      (∀ p ∈ pts, p.theta = 0 ∨ p.theta = 180 → b = true) := by
    by_cases hex : ∃ p ∈ pts, p.theta = 0 ∨ p.theta = 180
    · refine ⟨true, (checkColat_ok _ _).2 ⟨by simpa using hne, Or.inr ⟨rfl, ?_⟩⟩, fun _ _ _ => rfl⟩
      obtain ⟨p, hp, h⟩ := hex
      rcases h with h | h
      · left
        refine ⟨List.mem_map.2 ⟨p, hp, h⟩, ?_⟩
        intro t ht
        obtain ⟨p', hp', rfl⟩ := List.mem_map.1 ht
        exact (hth p' hp').1
      · right
        refine ⟨List.mem_map.2 ⟨p, hp, h⟩, ?_⟩
        intro t ht
        obtain ⟨p', hp', rfl⟩ := List.mem_map.1 ht
        exact (hth p' hp').2
    · push Not at hex
      refine ⟨false, (checkColat_ok _ _).2 ⟨by simpa using hne, Or.inl ⟨rfl, ?_⟩⟩, ?_⟩
      · intro t ht
        obtain ⟨p', hp', rfl⟩ := List.mem_map.1 ht
        have h1 := hth p' hp'
        have h2 := hex p' hp'
        exact ⟨lt_of_le_of_ne h1.1 (Ne.symm h2.1), lt_of_le_of_ne h1.2 h2.2⟩
      · intro p hp h
        have h2 := hex p hp
        rcases h with h | h
        · exact absurd h h2.1
        · exact absurd h h2.2
  obtain ⟨b, hb1, hb2⟩ := hb
  rw [hb1]
  apply mapM_map
  intro p hp
  rw [synthPoint_eq rsurf src b dim nmin nmax mmax p (by omega) h1 (hr p hp) ha (hth p hp).1 (hth p hp).2
    (hb2 p hp), if_pos hd]

/-- The hypotheses of `C16_gradient` are met: two points, degrees 1 to 2, all 8 coefficients. -/
theorem ex_synth : ∃ l, synthValues 6371.2 8
    [⟨6371.2, 60, 30, fun i => i⟩, ⟨7000, 0, 10, fun _ => 1⟩] (some (1 : ℕ)) (some (2 : ℕ))
    (some ((2 : ℕ) : ℤ)) (some Source.internal.name) = .ok l ∧ l.length = 2 := by
  refine ⟨_, synthValues_succeeds 6371.2 (by norm_num) 8 _ 1 2 2 .internal (by norm_num) (by norm_num)
    (by simp) ?_ ?_ ?_, ?_⟩
  · intro p hp
    simp only [List.mem_cons, List.not_mem_nil, or_false] at hp
    rcases hp with rfl | rfl <;> norm_num
  · intro p hp
    simp only [List.mem_cons, List.not_mem_nil, or_false] at hp
    rcases hp with rfl | rfl <;> norm_num
  · decide
  · simp

/-! ## C17 -/

/-- **C17.** If the design matrices can be computed, `synth_values` with the same arguments and any
coefficients (one row per point, as many as the matrices have columns) succeeds and returns the matrix
products, for every source, degree window, order limit and every set of points it accepts. -/
theorem C17_design_product (rsurf : ℝ) (ha : rsurf ≠ 0) (pts : List Point) (hr : ∀ p ∈ pts, p.radius ≠ 0)
    (nmax : ℤ) (nmin mmax : Option ℤ) (source : Option String) (dim : ℕ)
    (rows : List ((ℕ → ℝ) × (ℕ → ℝ) × (ℕ → ℝ)))
    (h : designGauss rsurf (pts.map fun p => (p.radius, p.theta, p.phi)) nmax nmin mmax source = .ok (dim, rows)) :
    rows.length = pts.length ∧
    synthValues rsurf dim pts nmin (some nmax) mmax source =
      .ok (List.zipWith (fun row p =>
        (∑ j ∈ Finset.range dim, row.1 j * p.coeffs j,
         ∑ j ∈ Finset.range dim, row.2.1 j * p.coeffs j,
         ∑ j ∈ Finset.range dim, row.2.2 j * p.coeffs j)) rows pts) := by
  unfold designGauss at h
  simp only [bind, Except.bind, pure, Except.pure, List.map_map] at h
  have hth : (pts.map ((fun p : ℝ × ℝ × ℝ => p.2.1) ∘ fun p : Point => (p.radius, p.theta, p.phi))) =
      pts.map Point.theta := by
    apply List.map_congr_left; intro p _; rfl
  rw [hth] at h
  unfold synthValues
  simp only [bind, Except.bind]
  cases hc : checkColat (pts.map Point.theta) with
  | error e => rw [hc] at h; cases h
  | ok poles =>
    rw [hc] at h
    simp only at h ⊢
    by_cases c1 : nmax > 0
    swap
    · rw [if_pos c1] at h; cases h
    rw [if_neg (not_not.2 c1)] at h
    -- resolve nmin and mmax
    obtain ⟨a, hae⟩ : ∃ a : ℤ, a = nmin.getD 1 := ⟨_, rfl⟩
    obtain ⟨b, hbe⟩ : ∃ b : ℤ, b = mmax.getD nmax := ⟨_, rfl⟩
    rw [← hae, ← hbe] at h
    by_cases c2 : a ≤ nmax
    swap
    · rw [if_pos c2] at h; cases h
    rw [if_neg (not_not.2 c2)] at h
    by_cases c3 : a > 0
    swap
    · rw [if_pos c3] at h; cases h
    rw [if_neg (not_not.2 c3)] at h
    by_cases c4 : b ≤ nmax
    swap
    · rw [if_pos c4] at h; cases h
    rw [if_neg (not_not.2 c4)] at h
    by_cases c5 : b ≥ 0
    swap
    · rw [if_pos c5] at h; cases h
    rw [if_neg (not_not.2 c5)] at h
    have hres : ∀ d, resolve d nmin (some nmax) mmax = .ok (a.toNat, nmax.toNat, b) := by
      intro d
      unfold resolve
      simp only [bind, Except.bind, pure, Except.pure, ← hae]
      rw [if_neg (not_not.2 c3)]
      cases mmax with
      | none =>
        simp only at hbe ⊢
        rw [if_neg (by omega)]
        rw [hbe]; rfl
      | some v =>
        simp only at hbe ⊢
        rw [if_neg (by omega)]
        rw [hbe]; rfl
    simp only [hres]
    cases hsrc : resolveSource source with
    | error e => rw [hsrc] at h; cases h
    | ok src =>
      rw [hsrc] at h
      simp only at h ⊢
      obtain ⟨n0, rfl⟩ := Int.eq_ofNat_of_zero_le c3.le
      obtain ⟨n1, rfl⟩ := Int.eq_ofNat_of_zero_le c1.le
      obtain ⟨M, rfl⟩ := Int.eq_ofNat_of_zero_le c5
      rw [designDim_eq n0 n1 M (by omega) (by omega)] at h
      set D := coefStart n0 M (n1 + 1) with hD
      -- every point
      have key : ∀ p : Point, p ∈ pts → ∀ row, designPoint rsurf src poles D (n0 : ℤ).toNat (n1 : ℤ).toNat M
            p.radius p.theta p.phi = .ok row →
          synthPoint rsurf src poles D (n0 : ℤ).toNat (n1 : ℤ).toNat M p =
            .ok (∑ j ∈ Finset.range D, row.1 j * p.coeffs j,
              ∑ j ∈ Finset.range D, row.2.1 j * p.coeffs j,
              ∑ j ∈ Finset.range D, row.2.2 j * p.coeffs j) := by
        intro p hp row hrow
        rw [Int.toNat_natCast, Int.toNat_natCast] at *
        obtain ⟨T, hT, hsp⟩ := synthPoint_gen rsurf src poles D n0 n1 (M : ℤ) p.radius p.theta p.phi
          (by omega) (by omega) (hr p hp) ha
        have hsp := hsp p.coeffs
        rw [Int.toNat_natCast, if_pos le_rfl] at hsp
        have hpe : (⟨p.radius, p.theta, p.phi, p.coeffs⟩ : Point) = p := rfl
        rw [hpe] at hsp
        rw [hsp]
        unfold designPoint at hrow
        simp only [hT] at hrow
        obtain ⟨s', e1, f1⟩ := designDegrees { dim := D, src, poles, T, radius := p.radius / rsurf, theta := p.theta, phi := rad p.phi, c := fun _ => 0 } n0 M (M : ℤ) (by simp)
            (div_ne_zero (hr p hp) ha) n1 (by omega) le_rfl
        simp only at e1
        rw [e1] at hrow
        simp only [bind, Except.bind, pure, Except.pure, Except.ok.injEq] at hrow
        subst hrow
        have hnum : s'.num = D := f1.num (fun _ => 0)
        have g1 := f1.ar p.coeffs
        have g2 := f1.ath p.coeffs
        have g3 := f1.ap p.coeffs
        rw [hnum] at g1 g2 g3
        simp only
        rw [g1, g2, g3]
      cases hm : List.mapM (fun p : ℝ × ℝ × ℝ => designPoint rsurf src poles D (n0 : ℤ).toNat (n1 : ℤ).toNat M
          p.1 p.2.1 p.2.2) (pts.map fun p => (p.radius, p.theta, p.phi)) with
      | error e => rw [hm] at h; cases h
      | ok rws =>
        rw [hm] at h
        simp only [Except.ok.injEq, Prod.mk.injEq] at h
        obtain ⟨rfl, rfl⟩ := h
        rw [mapM_ok, List.forall₂_map_left_iff] at hm
        refine ⟨hm.length_eq.symm, ?_⟩
        rw [mapM_ok]
        clear hc hth
        induction hm with
        | nil => exact List.Forall₂.nil
        | cons h1 h2 ih =>
          refine List.Forall₂.cons (key _ List.mem_cons_self _ h1) (ih ?_ ?_)
          · intro p hp; exact hr p (List.mem_cons_of_mem _ hp)
          · intro p hp; exact key p (List.mem_cons_of_mem _ hp)

/-- **C17.** `design_gauss` succeeds exactly for the documented arguments; the number of columns is one
for `m = 0` and two for each order `1 ≤ m ≤ min(n, mmax)`, summed over the degrees. -/
theorem C17_design_succeeds (rsurf : ℝ) (ha : rsurf ≠ 0) (pts : List (ℝ × ℝ × ℝ)) (hne : pts ≠ [])
    (hr : ∀ p ∈ pts, p.1 ≠ 0) (hth : ∀ p ∈ pts, 0 < p.2.1 ∧ p.2.1 < 180)
    (nmax : ℤ) (nmin mmax : ℤ) (source : String) :
    (∃ r, designGauss rsurf pts nmax (some nmin) (some mmax) (some source) = .ok r) ↔
      0 < nmin ∧ nmin ≤ nmax ∧ 0 ≤ mmax ∧ mmax ≤ nmax ∧ (source = "internal" ∨ source = "external") := by
  have hc : checkColat (pts.map (fun p => p.2.1)) = .ok false := by
    rw [checkColat_ok]
    refine ⟨by simpa using hne, Or.inl ⟨rfl, ?_⟩⟩
    intro t ht
    obtain ⟨p, hp, rfl⟩ := List.mem_map.1 ht
    exact hth p hp
  unfold designGauss
  simp only [bind, Except.bind, pure, Except.pure, hc, Option.getD_some]
  constructor
  · rintro ⟨r, h⟩
    by_cases c1 : nmax > 0
    swap
    · rw [if_pos c1] at h; cases h
    rw [if_neg (not_not.2 c1)] at h
    by_cases c2 : nmin ≤ nmax
    swap
    · rw [if_pos c2] at h; cases h
    rw [if_neg (not_not.2 c2)] at h
    by_cases c3 : nmin > 0
    swap
    · rw [if_pos c3] at h; cases h
    rw [if_neg (not_not.2 c3)] at h
    by_cases c4 : mmax ≤ nmax
    swap
    · rw [if_pos c4] at h; cases h
    rw [if_neg (not_not.2 c4)] at h
    by_cases c5 : mmax ≥ 0
    swap
    · rw [if_pos c5] at h; cases h
    refine ⟨c3, c2, c5, c4, ?_⟩
    rw [if_neg (not_not.2 c5)] at h
    unfold resolveSource at h
    by_contra hs
    push Not at hs
    simp only [hs.1, hs.2, if_false] at h
    cases h
  · rintro ⟨c3, c2, c5, c4, hs⟩
    rw [if_neg (not_not.2 (by omega : nmax > 0)), if_neg (not_not.2 c2), if_neg (not_not.2 c3),
      if_neg (not_not.2 c4), if_neg (not_not.2 c5)]
    obtain ⟨src, hsrc⟩ : ∃ src, resolveSource (some source) = .ok src := by
      rcases hs with rfl | rfl
      · exact ⟨.internal, rfl⟩
      · exact ⟨.external, rfl⟩
    rw [hsrc]
    simp only
    obtain ⟨n0, rfl⟩ := Int.eq_ofNat_of_zero_le c3.le
    obtain ⟨n1, rfl⟩ := Int.eq_ofNat_of_zero_le (by omega : 0 ≤ nmax)
    obtain ⟨M, rfl⟩ := Int.eq_ofNat_of_zero_le c5
    rw [designDim_eq n0 n1 M (by omega) (by omega)]
    have hpt : ∀ p ∈ pts, ∃ row, designPoint rsurf src false (coefStart n0 M (n1 + 1)) (n0 : ℤ).toNat
        (n1 : ℤ).toNat M p.1 p.2.1 p.2.2 = .ok row := by
      intro p hp
      rw [Int.toNat_natCast, Int.toNat_natCast]
      unfold designPoint
      obtain ⟨T, hT⟩ : ∃ T, Legendre.legendrePoly n1 p.2.1 = .ok T :=
        ⟨_, Legendre.legendrePoly_ok n1 p.2.1 (by omega)⟩
      simp only [hT]
      obtain ⟨s', e1, _⟩ := designDegrees { dim := coefStart n0 M (n1 + 1), src, poles := false, T, radius := p.1 / rsurf, theta := p.2.1, phi := rad p.2.2, c := fun _ => 0 } n0 M (M : ℤ) (by simp)
          (div_ne_zero (hr p hp) ha) n1 (by omega) le_rfl
      simp only at e1
      rw [e1]
      exact ⟨_, rfl⟩
    choose! g hg using hpt
    rw [mapM_map _ g pts hg]
    exact ⟨_, rfl⟩

/-- Both theorems apply to a concrete call (external source, order limit 1 below the degree 3). -/
example : ∃ r, designGauss 6371.2 [(6371.2, 60, 30), (7000, 100, 10)] 3 (some 2) (some 1) (some "external")
    = .ok r :=
  (C17_design_succeeds 6371.2 (by norm_num) _ (by simp)
    (by intro p hp
        simp only [List.mem_cons, List.not_mem_nil, or_false] at hp
        rcases hp with rfl | rfl <;> norm_num)
    (by intro p hp
        simp only [List.mem_cons, List.not_mem_nil, or_false] at hp
        rcases hp with rfl | rfl <;> norm_num) 3 2 1 "external").2 (by norm_num)

/-- The columns of the design matrix for degree window `nmin..nmax` and orders up to `mmax` number
`Σ (2 min(n, mmax) + 1)`. -/
theorem C17_columns (nmin nmax mmax : ℕ) (h1 : nmin ≤ nmax) (h2 : mmax ≤ nmax) :
    designDim nmin nmax mmax = ∑ n ∈ Finset.Icc nmin nmax, (2 * min n mmax + 1) := by
  rw [designDim_eq nmin nmax mmax h1 h2]
  rfl

example : designDim 1 3 1 = 9 := by decide

end ChaosMagPy.Synth
