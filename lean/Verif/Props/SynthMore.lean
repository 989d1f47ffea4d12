import Verif.Props.Synth
import Mathlib.Topology.Algebra.Polynomial
/-!
# C18-C22: linearity, additivity, symmetry, arguments and poles of `synth_values`
-/
namespace ChaosMagPy.Synth
open ChaosMagPy.Legendre (pyRange)
open ChaosMagPy.Spec

/-! ## C18 -/

theorem coefG_lin (α β : ℝ) (c d : ℕ → ℝ) (nmin M n m : ℕ) :
    coefG (fun i => α * c i + β * d i) nmin M n m = α * coefG c nmin M n m + β * coefG d nmin M n m := rfl

theorem coefH_lin (α β : ℝ) (c d : ℕ → ℝ) (nmin M n m : ℕ) :
    coefH (fun i => α * c i + β * d i) nmin M n m = α * coefH c nmin M n m + β * coefH d nmin M n m := by
  unfold coefH
  split_ifs <;> ring

theorem sum2_lin (α β : ℝ) (f g : ℕ → ℕ → ℝ) (s : Finset ℕ) (t : ℕ → Finset ℕ) :
    ∑ n ∈ s, ∑ m ∈ t n, (α * f n m + β * g n m) =
      α * ∑ n ∈ s, ∑ m ∈ t n, f n m + β * ∑ n ∈ s, ∑ m ∈ t n, g n m := by
  simp only [Finset.sum_add_distrib, Finset.mul_sum]

theorem stN_lin (x : Ctx) (nmin M n : ℕ) (α β : ℝ) (c d : ℕ → ℝ) :
    (stN { x with c := fun i => α * c i + β * d i } nmin M n).br =
        α * (stN { x with c := c } nmin M n).br + β * (stN { x with c := d } nmin M n).br ∧
    (stN { x with c := fun i => α * c i + β * d i } nmin M n).bt =
        α * (stN { x with c := c } nmin M n).bt + β * (stN { x with c := d } nmin M n).bt ∧
    (stN { x with c := fun i => α * c i + β * d i } nmin M n).bp =
        α * (stN { x with c := c } nmin M n).bp + β * (stN { x with c := d } nmin M n).bp := by
  refine ⟨?_, ?_, ?_⟩
  · simp only [stN]
    rw [← sum2_lin]
    refine Finset.sum_congr rfl fun n _ => Finset.sum_congr rfl fun m _ => ?_
    simp only [sumR, coefG_lin, coefH_lin]
    ring
  · simp only [stN]
    rw [← sum2_lin]
    refine Finset.sum_congr rfl fun n _ => Finset.sum_congr rfl fun m _ => ?_
    simp only [sumT, coefG_lin, coefH_lin]
    ring
  · simp only [stN]
    rw [← sum2_lin]
    refine Finset.sum_congr rfl fun n _ => Finset.sum_congr rfl fun m _ => ?_
    simp only [sumP, coefG_lin, coefH_lin]
    ring

theorem resolve_shape (dim : ℕ) (a b c : Option ℤ) (n0 n1 : ℕ) (M : ℤ)
    (h : resolve dim a b c = .ok (n0, n1, M)) : 1 ≤ n0 ∧ n0 ≤ n1 := by
  unfold resolve at h
  simp only [bind, Except.bind, pure, Except.pure] at h
  generalize a.getD 1 = nm at h
  by_cases c1 : nm > 0
  swap
  · rw [if_pos c1] at h; cases h
  rw [if_neg (not_not.2 c1)] at h
  obtain ⟨w, hw⟩ : ∃ w : ℤ × ℤ, w = (match b, c with
    | none, none => (pyInt (Real.sqrt ((dim : ℝ) + (nm : ℝ) ^ 2) - 1),
        pyInt (Real.sqrt ((dim : ℝ) + (nm : ℝ) ^ 2) - 1))
    | some n, none => (n, n)
    | none, some m =>
      if m ≥ nm - 1 then
        (pyInt ((((dim : ℤ) - m * (m + 2) + nm ^ 2 - 1 : ℤ) : ℝ) / ((2 * m + 1 : ℤ) : ℝ) + (m : ℝ)), m)
      else
        (pyInt ((dim : ℝ) / ((2 * m + 1 : ℤ) : ℝ) + (nm : ℝ) - 1), m)
    | some n, some m => (n, m)) := ⟨_, rfl⟩
  have h' : (if w.1 < nm then (.error .valueError : Except Error (ℕ × ℕ × ℤ))
      else .ok (nm.toNat, w.1.toNat, w.2)) = .ok (n0, n1, M) := by
    rw [hw]
    cases b <;> cases c <;> exact h
  split_ifs at h' with c2
  simp only [Except.ok.injEq, Prod.mk.injEq] at h'
  omega

/-- **C18.** The field is linear in the coefficients, for every list of points (each with its own two
coefficient rows), all optional arguments, and every source. -/
theorem C18_linear (rsurf : ℝ) (ha : rsurf ≠ 0) (dim : ℕ) (pts : List (Point × (ℕ → ℝ)))
    (hr : ∀ p ∈ pts, p.1.radius ≠ 0) (nmin nmax mmax : Option ℤ) (source : Option String) (α β : ℝ)
    (l1 l2 : List (ℝ × ℝ × ℝ))
    (h1 : synthValues rsurf dim (pts.map fun p => p.1) nmin nmax mmax source = .ok l1)
    (h2 : synthValues rsurf dim (pts.map fun p => { p.1 with coeffs := p.2 }) nmin nmax mmax source = .ok l2) :
    synthValues rsurf dim (pts.map fun p => { p.1 with coeffs := fun i => α * p.1.coeffs i + β * p.2 i })
      nmin nmax mmax source =
      .ok (List.zipWith (fun B B' =>
        (α * B.1 + β * B'.1, α * B.2.1 + β * B'.2.1, α * B.2.2 + β * B'.2.2)) l1 l2) := by
  unfold synthValues at *
  simp only [bind, Except.bind, List.map_map] at *
  have t1 : pts.map (Point.theta ∘ fun p : Point × (ℕ → ℝ) => p.1) = pts.map (fun p => p.1.theta) := rfl
  have t2 : pts.map (Point.theta ∘ fun p : Point × (ℕ → ℝ) => { p.1 with coeffs := p.2 }) =
      pts.map (fun p => p.1.theta) := rfl
  have t3 : pts.map (Point.theta ∘ fun p : Point × (ℕ → ℝ) =>
      { p.1 with coeffs := fun i => α * p.1.coeffs i + β * p.2 i }) = pts.map (fun p => p.1.theta) := rfl
  rw [t1] at h1
  rw [t2] at h2
  rw [t3]
  cases hc : checkColat (pts.map fun p => p.1.theta) with
  | error e => rw [hc] at h1; cases h1
  | ok poles =>
    simp only [hc] at h1 h2 ⊢
    cases hres : resolve dim nmin nmax mmax with
    | error e => rw [hres] at h1; cases h1
    | ok w =>
      obtain ⟨n0, n1, M⟩ := w
      have hw := resolve_shape dim nmin nmax mmax n0 n1 M hres
      simp only [hres] at h1 h2 ⊢
      cases hsrc : resolveSource source with
      | error e => rw [hsrc] at h1; cases h1
      | ok src =>
        simp only [hsrc] at h1 h2 ⊢
        rw [mapM_ok, List.forall₂_map_left_iff] at h1 h2
        rw [mapM_ok, List.forall₂_map_left_iff]
        clear hc t1 t2 t3
        induction pts generalizing l1 l2 with
        | nil => cases h1; cases h2; exact List.Forall₂.nil
        | cons p pts ih =>
          cases h1 with
          | cons a1 r1 =>
            cases h2 with
            | cons a2 r2 =>
              refine List.Forall₂.cons ?_ (ih (fun q hq => hr q (List.mem_cons_of_mem _ hq)) _ _ r1 r2)
              obtain ⟨T, hT, hsp⟩ := synthPoint_gen rsurf src poles dim n0 n1 M p.1.radius p.1.theta
                p.1.phi (by omega) hw.2 (hr p List.mem_cons_self) ha
              have e1 := hsp p.1.coeffs
              have e2 := hsp p.2
              have e3 := hsp (fun i => α * p.1.coeffs i + β * p.2 i)
              have a1' := a1.symm.trans e1
              have a2' := a2.symm.trans e2
              by_cases hd : coefStart n0 M.toNat (n1 + 1) ≤ dim
              · rw [if_pos hd] at a1' a2' e3
                simp only [Except.ok.injEq] at a1' a2'
                have hl := stN_lin { dim, src, poles, T, radius := p.1.radius / rsurf, theta := p.1.theta,
                                     phi := rad p.1.phi, c := fun _ => 0 } n0 M.toNat (n1 + 1) α β
                                     p.1.coeffs p.2
                refine e3.trans ?_
                rw [a1', a2']
                simp only at hl ⊢
                rw [hl.1, hl.2.1, hl.2.2]
              · rw [if_neg hd] at a1'
                cases a1'

/-- The hypotheses of `C18_linear` are met by a call with defaults for all optional arguments. -/
theorem defaults_succeed : ∃ l, synthValues 6371.2 8 [⟨7000, 60, 30, fun i => i⟩] (some (1 : ℕ)) (some (2 : ℕ))
    (some (2 : ℤ)) (some "internal") = .ok l :=
  ⟨_, synthValues_succeeds 6371.2 (by norm_num) 8 _ 1 2 2 .internal (by norm_num) (by norm_num) (by simp)
    (by simp; norm_num) (by simp) (by decide)⟩

example : ∃ l1 l2, synthValues 6371.2 8 ([((⟨7000, 60, 30, fun i => i⟩ : Point), fun i : ℕ => (i : ℝ))].map fun p => p.1)
      (some (1 : ℕ)) (some (2 : ℕ)) (some (2 : ℤ)) (some "internal") = .ok l1 ∧
    synthValues 6371.2 8 ([((⟨7000, 60, 30, fun i => i⟩ : Point), fun i : ℕ => (i : ℝ))].map
      fun p => { p.1 with coeffs := p.2 })
      (some (1 : ℕ)) (some (2 : ℕ)) (some (2 : ℤ)) (some "internal") = .ok l2 := by
  obtain ⟨l, hl⟩ := defaults_succeed
  exact ⟨l, l, hl, hl⟩

theorem coefStart_split (nmin M k n : ℕ) (h1 : nmin ≤ k) (h2 : k ≤ n) :
    coefStart nmin M n = coefStart nmin M k + coefStart k M n := by
  unfold coefStart
  rw [Finset.sum_Ico_consecutive _ h1 h2]

theorem sum_Icc_split (f : ℕ → ℝ) (a k b : ℕ) (h1 : a ≤ k) (h2 : k ≤ b) :
    ∑ n ∈ Finset.Icc a b, f n = ∑ n ∈ Finset.Icc a k, f n + ∑ n ∈ Finset.Icc (k + 1) b, f n := by
  simp only [← sum_Ico_Icc]
  rw [Finset.sum_Ico_consecutive _ (by omega) (by omega)]

theorem coefG_shift (c : ℕ → ℝ) (nmin M k n m : ℕ) (h1 : nmin ≤ k) (h2 : k ≤ n) :
    coefG (fun i => c (coefStart nmin M k + i)) k M n m = coefG c nmin M n m := by
  unfold coefG
  rw [coefStart_split nmin M k n h1 h2, add_assoc]

theorem coefH_shift (c : ℕ → ℝ) (nmin M k n m : ℕ) (h1 : nmin ≤ k) (h2 : k ≤ n) :
    coefH (fun i => c (coefStart nmin M k + i)) k M n m = coefH c nmin M n m := by
  unfold coefH
  rw [coefStart_split nmin M k n h1 h2, add_assoc]

/-- Number of coefficients of a degree window. -/
def windowSize (nmin nmax mmax : ℕ) : ℕ := ∑ n ∈ Finset.Icc nmin nmax, (2 * min n mmax + 1)

theorem windowSize_eq (nmin nmax mmax : ℕ) : windowSize nmin nmax mmax = coefStart nmin mmax (nmax + 1) := rfl

/-- **C18.** Splitting the degrees `nmin..nmax` after degree `k` splits the field into the sum of the
field of `nmin..k` (same coefficient vector) and the field of `k+1..nmax` (coefficient vector without
the entries of the first window). -/
theorem C18_additive_degrees (rsurf : ℝ) (ha : rsurf ≠ 0) (dim : ℕ) (pts : List Point) (hne : pts ≠ [])
    (hth : ∀ p ∈ pts, 0 ≤ p.theta ∧ p.theta ≤ 180) (hr : ∀ p ∈ pts, p.radius ≠ 0)
    (nmin k nmax mmax : ℕ) (src : Source) (h0 : 1 ≤ nmin) (h1 : nmin ≤ k) (h2 : k < nmax)
    (hd : windowSize nmin nmax mmax ≤ dim) :
    ∃ l1 l2,
      synthValues rsurf dim pts (some nmin) (some k) (some mmax) (some src.name) = .ok l1 ∧
      synthValues rsurf (dim - windowSize nmin k mmax)
        (pts.map fun p => { p with coeffs := fun i => p.coeffs (windowSize nmin k mmax + i) })
        (some ((k + 1 : ℕ) : ℤ)) (some nmax) (some mmax) (some src.name) = .ok l2 ∧
      synthValues rsurf dim pts (some nmin) (some nmax) (some mmax) (some src.name) =
        .ok (List.zipWith (fun B B' => (B.1 + B'.1, B.2.1 + B'.2.1, B.2.2 + B'.2.2)) l1 l2) := by
  simp only [windowSize_eq] at *
  have hsplit := coefStart_split nmin mmax (k + 1) (nmax + 1) (by omega) (by omega)
  have s1 := synthValues_succeeds rsurf ha dim pts nmin k mmax src h0 h1 hne hth hr
    (by rw [Int.toNat_natCast]; omega)
  have s2 := synthValues_succeeds rsurf ha (dim - coefStart nmin mmax (k + 1))
    (pts.map fun p => { p with coeffs := fun i => p.coeffs (coefStart nmin mmax (k + 1) + i) })
    (k + 1) nmax mmax src (by omega) (by omega) (by simpa using hne)
    (by intro p hp; obtain ⟨p', hp', rfl⟩ := List.mem_map.1 hp; exact hth p' hp')
    (by intro p hp; obtain ⟨p', hp', rfl⟩ := List.mem_map.1 hp; exact hr p' hp')
    (by rw [Int.toNat_natCast]; omega)
  have s3 := synthValues_succeeds rsurf ha dim pts nmin nmax mmax src h0 (by omega) hne hth hr
    (by rw [Int.toNat_natCast]; exact hd)
  refine ⟨_, _, s1, s2, ?_⟩
  rw [s3, Int.toNat_natCast, List.map_map]
  congr 1
  rw [List.zipWith_map, List.zipWith_self]
  apply List.map_congr_left
  intro p _
  simp only [Function.comp, Prod.mk.injEq]
  refine ⟨?_, ?_, ?_⟩
  · unfold fieldR
    rw [sum_Icc_split _ nmin k nmax h1 h2.le]
    congr 1
    refine Finset.sum_congr rfl fun n hn => Finset.sum_congr rfl fun m _ => ?_
    have hn := Finset.mem_Icc.1 hn
    rw [coefG_shift _ _ _ _ _ _ (by omega) hn.1, coefH_shift _ _ _ _ _ _ (by omega) hn.1]
  · unfold fieldT
    rw [sum_Icc_split _ nmin k nmax h1 h2.le]
    congr 1
    refine Finset.sum_congr rfl fun n hn => Finset.sum_congr rfl fun m _ => ?_
    have hn := Finset.mem_Icc.1 hn
    rw [coefG_shift _ _ _ _ _ _ (by omega) hn.1, coefH_shift _ _ _ _ _ _ (by omega) hn.1]
  · unfold fieldP
    rw [sum_Icc_split _ nmin k nmax h1 h2.le]
    congr 1
    refine Finset.sum_congr rfl fun n hn => Finset.sum_congr rfl fun m _ => ?_
    have hn := Finset.mem_Icc.1 hn
    rw [coefG_shift _ _ _ _ _ _ (by omega) hn.1, coefH_shift _ _ _ _ _ _ (by omega) hn.1]

/-- Instance: degrees 1..3 split after degree 1, 15 coefficients. -/
example : windowSize 1 3 3 = 15 ∧ windowSize 1 1 3 = 3 := by decide

/-! ## C19 -/

theorem cos_shift (m : ℕ) (φ : ℝ) : Real.cos (m * rad (φ + 360)) = Real.cos (m * rad φ) := by
  have : (m : ℝ) * rad (φ + 360) = m * rad φ + m * (2 * Real.pi) := by unfold rad; ring
  rw [this, Real.cos_add_nat_mul_two_pi]

theorem sin_shift (m : ℕ) (φ : ℝ) : Real.sin (m * rad (φ + 360)) = Real.sin (m * rad φ) := by
  have : (m : ℝ) * rad (φ + 360) = m * rad φ + m * (2 * Real.pi) := by unfold rad; ring
  rw [this, Real.sin_add_nat_mul_two_pi]

theorem orderStep_congr (x : Ctx) (φ : ℝ) (n : ℕ) :
    orderStep { x with phi := rad (φ + 360) } n = orderStep { x with phi := rad φ } n := by
  funext s m
  unfold orderStep
  simp only [cos_shift, sin_shift]

theorem degreeStep_congr (x : Ctx) (φ : ℝ) (mmax : ℤ) :
    degreeStep { x with phi := rad (φ + 360) } mmax = degreeStep { x with phi := rad φ } mmax := by
  funext s n
  unfold degreeStep
  simp only [orderStep_congr]

/-- **C19.** Adding 360 degrees to the longitude of any of the points changes nothing (result or
exception), for all arguments. -/
theorem C19_longitude_period (rsurf : ℝ) (dim : ℕ) (pts : List (Point × Bool)) (nmin nmax mmax : Option ℤ)
    (source : Option String) :
    synthValues rsurf dim (pts.map fun p => { p.1 with phi := if p.2 then p.1.phi + 360 else p.1.phi })
      nmin nmax mmax source =
    synthValues rsurf dim (pts.map fun p => p.1) nmin nmax mmax source := by
  have hpt : ∀ (src : Source) (poles : Bool) (n0 n1 : ℕ) (M : ℤ) (p : Point),
      synthPoint rsurf src poles dim n0 n1 M { p with phi := p.phi + 360 } =
      synthPoint rsurf src poles dim n0 n1 M p := by
    intro src poles n0 n1 M p
    unfold synthPoint
    simp only
    cases Legendre.legendrePoly n1 p.theta with
    | error e => rfl
    | ok T =>
      simp only
      have := degreeStep_congr { dim, src, poles, T, radius := p.radius / rsurf, theta := p.theta,
                                 phi := 0, c := p.coeffs } p.phi M
      simp only at this
      rw [this]
  unfold synthValues
  simp only [List.map_map]
  have t1 : pts.map (Point.theta ∘ fun p : Point × Bool =>
      { p.1 with phi := if p.2 then p.1.phi + 360 else p.1.phi }) =
      pts.map (Point.theta ∘ fun p => p.1) := rfl
  rw [t1]
  congr 1
  funext poles
  congr 1
  funext w
  obtain ⟨n0, n1, M⟩ := w
  simp only
  congr 1
  funext src
  rw [List.mapM_map, List.mapM_map]
  apply mapM_congr
  intro p _
  simp only [Function.comp]
  cases hb : p.2 with
  | false => rfl
  | true => exact hpt src poles n0 n1 M p.1

/-- **C19.** The part of a single degree `n` scales with the radius: with `λ` times the radius the
field is multiplied by `λ^-(n+2)` for internal and by `λ^(n-1)` for external sources. -/
theorem C19_radial_scaling (rsurf : ℝ) (ha : rsurf ≠ 0) (dim : ℕ) (pts : List Point) (hne : pts ≠ [])
    (hth : ∀ p ∈ pts, 0 ≤ p.theta ∧ p.theta ≤ 180) (hr : ∀ p ∈ pts, p.radius ≠ 0)
    (n mmax : ℕ) (src : Source) (h0 : 1 ≤ n) (hd : 2 * min n mmax + 1 ≤ dim) (lam : ℝ) (hl : lam ≠ 0) :
    let fac : ℝ := match src with
      | .internal => lam ^ (-((n : ℤ) + 2))
      | .external => lam ^ ((n : ℤ) - 1)
    ∃ l, synthValues rsurf dim pts (some n) (some n) (some mmax) (some src.name) = .ok l ∧
      synthValues rsurf dim (pts.map fun p => { p with radius := lam * p.radius })
        (some n) (some n) (some mmax) (some src.name) =
        .ok (l.map fun B => (fac * B.1, fac * B.2.1, fac * B.2.2)) := by
  intro fac
  have hcs : coefStart n mmax (n + 1) ≤ dim := by
    rw [coefStart_succ _ _ _ le_rfl, coefStart_self]; omega
  have s1 := synthValues_succeeds rsurf ha dim pts n n mmax src h0 le_rfl hne hth hr
    (by rw [Int.toNat_natCast]; exact hcs)
  have s2 := synthValues_succeeds rsurf ha dim (pts.map fun p => { p with radius := lam * p.radius }) n n
    mmax src h0 le_rfl (by simpa using hne)
    (by intro p hp; obtain ⟨p', hp', rfl⟩ := List.mem_map.1 hp; exact hth p' hp')
    (by intro p hp; obtain ⟨p', hp', rfl⟩ := List.mem_map.1 hp; exact mul_ne_zero hl (hr p' hp'))
    (by rw [Int.toNat_natCast]; exact hcs)
  refine ⟨_, s1, ?_⟩
  rw [s2, List.map_map, List.map_map]
  congr 1
  apply List.map_congr_left
  intro p _
  have hrp : rpow src (lam * p.radius / rsurf) n = fac * rpow src (p.radius / rsurf) n := by
    rw [mul_div_assoc]
    cases src with
    | internal => simp only [rpow, fac, mul_zpow]
    | external => simp only [rpow, fac, mul_zpow]
  simp only [Function.comp, Prod.mk.injEq, fieldR, fieldT, fieldP, Finset.Icc_self, Finset.sum_singleton,
    hrp, Finset.mul_sum]
  refine ⟨?_, ?_, ?_⟩ <;> refine Finset.sum_congr rfl fun m _ => ?_ <;> ring

/-- Instance of the hypotheses: degree 2 with all orders needs 5 coefficients. -/
example : 2 * min 2 2 + 1 ≤ 5 ∧ (2 : ℝ) ≠ 0 := by norm_num

/-! ## C21 -/

/-- **C21.** With otherwise valid arguments, the call succeeds exactly for arrays of colatitudes that
are all strictly between 0 and 180, or whose smallest entry is exactly 0, or whose largest entry is
exactly 180; otherwise it raises ValueError. -/
theorem C21_colatitude_check (rsurf : ℝ) (ha : rsurf ≠ 0) (dim : ℕ) (pts : List Point)
    (hr : ∀ p ∈ pts, p.radius ≠ 0)
    (nmin nmax mmax : ℕ) (src : Source) (h0 : 1 ≤ nmin) (h1 : nmin ≤ nmax)
    (hd : windowSize nmin nmax mmax ≤ dim) :
    ((∃ l, synthValues rsurf dim pts (some nmin) (some nmax) (some mmax) (some src.name) = .ok l) ↔
      pts ≠ [] ∧ ((∀ p ∈ pts, 0 < p.theta ∧ p.theta < 180) ∨
        ((∃ p ∈ pts, p.theta = 0) ∧ ∀ p ∈ pts, 0 ≤ p.theta) ∨
        ((∃ p ∈ pts, p.theta = 180) ∧ ∀ p ∈ pts, p.theta ≤ 180))) ∧
    ∀ e, synthValues rsurf dim pts (some nmin) (some nmax) (some mmax) (some src.name) = .error e →
      e = .valueError := by
  have hsucc : ∀ poles, ∃ l, pts.mapM (synthPoint rsurf src poles dim nmin nmax mmax) = .ok l := by
    intro poles
    have : ∀ p ∈ pts, ∃ b, synthPoint rsurf src poles dim nmin nmax mmax p = .ok b := by
      intro p hp
      obtain ⟨T, hT, hsp⟩ := synthPoint_gen rsurf src poles dim nmin nmax mmax p.radius p.theta p.phi
        (by omega) h1 (hr p hp) ha
      have := hsp p.coeffs
      rw [Int.toNat_natCast, if_pos (by rw [← windowSize_eq]; exact hd)] at this
      exact ⟨_, this⟩
    choose! g hg using this
    exact ⟨_, mapM_map _ g pts hg⟩
  rw [synthValues_explicit rsurf dim pts nmin nmax mmax src h0 h1]
  have hiff := fun b => checkColat_ok (pts.map Point.theta) b
  cases hc : checkColat (pts.map Point.theta) with
  | error e =>
    refine ⟨⟨(fun ⟨l, hl⟩ => by cases hl), ?_⟩, fun e' he' => ?_⟩
    · rintro ⟨hne, h⟩
      exfalso
      have hne' : pts.map Point.theta ≠ [] := by simpa using hne
      rcases h with h | ⟨⟨p, hp, hpt⟩, h⟩ | ⟨⟨p, hp, hpt⟩, h⟩
      · have := (hiff false).2 ⟨hne', Or.inl ⟨rfl, by simpa using h⟩⟩
        rw [hc] at this; cases this
      · have := (hiff true).2 ⟨hne', Or.inr ⟨rfl, Or.inl ⟨List.mem_map.2 ⟨p, hp, hpt⟩, by simpa using h⟩⟩⟩
        rw [hc] at this; cases this
      · have := (hiff true).2 ⟨hne', Or.inr ⟨rfl, Or.inr ⟨List.mem_map.2 ⟨p, hp, hpt⟩, by simpa using h⟩⟩⟩
        rw [hc] at this; cases this
    · injection he' with he'
      rw [← he']
      exact checkColat_err _ _ hc
  | ok b =>
    obtain ⟨l, hl⟩ := hsucc b
    simp only [hl]
    refine ⟨⟨fun _ => ?_, fun _ => ⟨l, rfl⟩⟩, fun e he => by cases he⟩
    obtain ⟨hne, h⟩ := (hiff b).1 hc
    refine ⟨by simpa using hne, ?_⟩
    rcases h with ⟨_, h⟩ | ⟨_, ⟨h, h'⟩ | ⟨h, h'⟩⟩
    · left; simpa using h
    · right; left
      obtain ⟨p, hp, hpt⟩ := List.mem_map.1 h
      exact ⟨⟨p, hp, hpt⟩, by simpa using h'⟩
    · right; right
      obtain ⟨p, hp, hpt⟩ := List.mem_map.1 h
      exact ⟨⟨p, hp, hpt⟩, by simpa using h'⟩

/-- **C21, finding.** A colatitude of 200 degrees (or -20) is refused on its own, but accepted when the
array also contains a point exactly at the other pole. -/
theorem C21_out_of_range_slips_through :
    (∃ l, synthValues 6371.2 3 [⟨6371.2, 0, 0, fun _ => 1⟩, ⟨6371.2, 200, 0, fun _ => 1⟩]
      (some (1 : ℕ)) (some (1 : ℕ)) (some (1 : ℕ)) (some Source.internal.name) = .ok l) ∧
    (∃ l, synthValues 6371.2 3 [⟨6371.2, 180, 0, fun _ => 1⟩, ⟨6371.2, -20, 0, fun _ => 1⟩]
      (some (1 : ℕ)) (some (1 : ℕ)) (some (1 : ℕ)) (some Source.internal.name) = .ok l) ∧
    ¬ (∃ l, synthValues 6371.2 3 [⟨6371.2, 200, 0, fun _ => 1⟩]
      (some (1 : ℕ)) (some (1 : ℕ)) (some (1 : ℕ)) (some Source.internal.name) = .ok l) := by
  refine ⟨?_, ?_, ?_⟩
  · rw [(C21_colatitude_check 6371.2 (by norm_num) 3 _ (by simp; norm_num) 1 1 1 .internal le_rfl
      le_rfl (by decide)).1]
    refine ⟨by simp, Or.inr (Or.inl ⟨by simp, by simp⟩)⟩
  · rw [(C21_colatitude_check 6371.2 (by norm_num) 3 _ (by simp; norm_num) 1 1 1 .internal le_rfl
      le_rfl (by decide)).1]
    refine ⟨by simp, Or.inr (Or.inr ⟨by simp, by simp; norm_num⟩)⟩
  · rw [(C21_colatitude_check 6371.2 (by norm_num) 3 _ (by simp; norm_num) 1 1 1 .internal le_rfl
      le_rfl (by decide)).1]
    simp
    norm_num

/-- **C21.** The value returned for a point does not depend on the other points of the call (given that
its own colatitude is in range). -/
theorem C21_pointwise (rsurf : ℝ) (ha : rsurf ≠ 0) (dim : ℕ) (pts : List Point)
    (nmin nmax mmax : ℕ) (src : Source) (h0 : 1 ≤ nmin) (h1 : nmin ≤ nmax) (l : List (ℝ × ℝ × ℝ))
    (h : synthValues rsurf dim pts (some nmin) (some nmax) (some mmax) (some src.name) = .ok l)
    (i : ℕ) (p : Point) (B : ℝ × ℝ × ℝ) (hp : pts[i]? = some p) (hb : l[i]? = some B)
    (hr : p.radius ≠ 0) (ht : 0 ≤ p.theta) (ht' : p.theta ≤ 180) :
    synthValues rsurf dim [p] (some nmin) (some nmax) (some mmax) (some src.name) = .ok [B] := by
  obtain ⟨poles, _, hpole, hall⟩ := synthValues_ok rsurf dim pts nmin nmax mmax src h0 h1 l h
  have hpt := forall₂_get hall i p _ hp hb
  rw [synthPoint_eq rsurf src poles dim nmin nmax mmax p (by omega) h1 hr ha ht ht'
    (hpole p (List.mem_of_getElem? hp))] at hpt
  split_ifs at hpt with hd
  rw [synthValues_succeeds rsurf ha dim [p] nmin nmax mmax src h0 h1 (by simp) (by simpa using ⟨ht, ht'⟩)
    (by simpa using hr) hd]
  simp only [Except.ok.injEq] at hpt
  rw [← hpt]
  rfl

/-! ## C22 -/

theorem continuous_schmidt (n m : ℕ) : Continuous (fun x => schmidt n m x) := by
  unfold schmidt
  have : Continuous fun x => Polynomial.eval (Real.cos x) (Polynomial.derivative^[m] (legendre n)) :=
    (Polynomial.continuous _).comp Real.continuous_cos
  fun_prop

theorem continuous_evalcos (p : Polynomial ℝ) : Continuous fun x => p.eval (Real.cos x) :=
  (Polynomial.continuous _).comp Real.continuous_cos

theorem continuous_rad : Continuous rad := by unfold rad; fun_prop

/-- **C22.** For every source, degree window, order limit, radius, longitude and coefficients, the field
as a function of the colatitude is continuous on the closed interval from pole to pole: the values
returned at the poles are the limits of the values along the meridian. -/
theorem C22_continuous_to_poles (rsurf : ℝ) (ha : rsurf ≠ 0) (dim : ℕ) (r φ : ℝ) (hr : r ≠ 0) (c : ℕ → ℝ)
    (nmin nmax mmax : ℕ) (src : Source) (h0 : 1 ≤ nmin) (h1 : nmin ≤ nmax)
    (hd : windowSize nmin nmax mmax ≤ dim) :
    ∃ B : ℝ → ℝ × ℝ × ℝ,
      (∀ θ, 0 ≤ θ → θ ≤ 180 →
        synthValues rsurf dim [⟨r, θ, φ, c⟩] (some nmin) (some nmax) (some mmax) (some src.name) = .ok [B θ]) ∧
      ContinuousOn B (Set.Icc 0 180) := by
  refine ⟨fun θ => (fieldR src rsurf c nmin nmax mmax r (rad θ) (rad φ),
    fieldT src rsurf c nmin nmax mmax r (rad θ) (rad φ),
    fieldP src rsurf c nmin nmax mmax r (rad θ) (rad φ)), ?_, ?_⟩
  · intro θ ht ht'
    rw [synthValues_succeeds rsurf ha dim _ nmin nmax mmax src h0 h1 (by simp) (by simpa using ⟨ht, ht'⟩)
      (by simpa using hr) (by rw [Int.toNat_natCast]; exact hd)]
    rfl
  · apply Continuous.continuousOn
    refine Continuous.prodMk ?_ (Continuous.prodMk ?_ ?_)
    · refine Continuous.comp (g := fun x => fieldR src rsurf c nmin nmax mmax r x (rad φ)) ?_ continuous_rad
      unfold fieldR
      refine continuous_finsetSum _ fun n _ => continuous_finsetSum _ fun m _ => ?_
      have := continuous_schmidt n m
      fun_prop
    · refine Continuous.comp (g := fun x => fieldT src rsurf c nmin nmax mmax r x (rad φ)) ?_ continuous_rad
      unfold fieldT Legendre.dS
      refine continuous_finsetSum _ fun n _ => continuous_finsetSum _ fun m _ => ?_
      have h1 := continuous_evalcos (Legendre.dl n m)
      have h2 := continuous_evalcos (Legendre.dl n (m + 1))
      fun_prop
    · refine Continuous.comp (g := fun x => fieldP src rsurf c nmin nmax mmax r x (rad φ)) ?_ continuous_rad
      unfold fieldP R
      refine continuous_finsetSum _ fun n _ => continuous_finsetSum _ fun m _ => ?_
      have h1 := continuous_evalcos (Legendre.dl n m)
      fun_prop

/-- Instance: degrees 1..3. -/
example : ∃ B : ℝ → ℝ × ℝ × ℝ,
      (∀ θ, 0 ≤ θ → θ ≤ 180 → synthValues 6371.2 15 [⟨7000, θ, 40, fun i => i⟩] (some (1 : ℕ)) (some (3 : ℕ))
        (some (3 : ℕ)) (some Source.external.name) = .ok [B θ]) ∧ ContinuousOn B (Set.Icc 0 180) :=
  C22_continuous_to_poles 6371.2 (by norm_num) 15 7000 40 (by norm_num) _ 1 3 3 .external le_rfl (by norm_num)
    (by decide)

end ChaosMagPy.Synth
