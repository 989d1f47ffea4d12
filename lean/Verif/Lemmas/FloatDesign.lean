import Verif.Lemmas.FloatField
import Verif.Model.FloatDesign
/-!
# Columns of the design matrices in double precision
-/
namespace ChaosMagPy.FloatLegendre
open ChaosMagPy.Spec ChaosMagPy.Float ChaosMagPy.Legendre ChaosMagPy.Synth
open Real (sin cos sqrt)

variable {R : Rounding} {w : ℝ} {K : ℕ}

/-- Dependence on the azimuth of column `j` of a degree. -/
noncomputable def cs (j : ℕ) (y : ℝ) : ℝ := if j % 2 = 1 ∨ j = 0 then cos (((j + 1) / 2 : ℕ) * y) else sin (((j + 1) / 2 : ℕ) * y)
noncomputable def sn (j : ℕ) (y : ℝ) : ℝ := if j % 2 = 1 ∨ j = 0 then sin (((j + 1) / 2 : ℕ) * y) else -cos (((j + 1) / 2 : ℕ) * y)

section
variable (src : Source) (nmin nmax M : ℕ) (ρ x y : ℝ)

noncomputable def exR (n j : ℕ) : ℝ := rfac src n * schmidt n ((j + 1) / 2) x * rpow src ρ n * cs j y
noncomputable def exT (n j : ℕ) : ℝ := -dS (cos x) (sin x) n ((j + 1) / 2) * rpow src ρ n * cs j y
noncomputable def exP (n j : ℕ) : ℝ := ((j + 1) / 2 : ℕ) * Synth.R n ((j + 1) / 2) x * rpow src ρ n * sn j y

/-- Column `k` holds the values of column `j` of degree `n`. -/
def Good (w : ℝ) (A : Rows) (n j k : ℕ) : Prop :=
  ∃ ar at' ap, A.radius k = some ar ∧ A.theta k = some at' ∧ A.phi k = some ap ∧ Nr w (13 * n + 16) ar (exR src ρ x y n j) (fac x n * rpow src ρ n) ∧
    Nr w (13 * n + 16) at' (exT src ρ x y n j) (fac x n * rpow src ρ n) ∧ Nr w (13 * n + 16) ap (exP src ρ x y n j) (fac x n * rpow src ρ n)

/-- State of the loops: `l` columns of degree `n` are done. -/
structure DInv (w : ℝ) (n l : ℕ) (s : DSt) : Prop where
  num : s.num = coefStart nmin M n + l
  rn : ∃ q, s.rn = some q ∧ Nr w (4 * n + 7) q (rpow src ρ n) (rpow src ρ n)
  zero : ∀ k, s.num ≤ k → s.A.phi k = some 0
  good : ∀ n' j, nmin ≤ n' → (n' < n ∧ j < 2 * min n' M + 1 ∨ n' = n ∧ j < l) → Good src ρ x y w s.A n' j (coefStart nmin M n' + j)

end

section
variable {src : Source} {c : ℕ → ℝ} {nmin nmax M : ℕ} {ρ x y : ℝ} {e : Env} {ρ' : ℝ} (acc : Acc R src c nmin nmax ρ x y w K e ρ')

theorem coefStart_next (nmin M : ℕ) {n : ℕ} (h : nmin ≤ n) : coefStart nmin M (n + 1) = coefStart nmin M n + (2 * min n M + 1) := by
  unfold coefStart
  rw [Finset.sum_Ico_succ_top h]

theorem put_same (f : ℕ → F) (i : ℕ) (v : F) : put f i v i = v := if_pos rfl
theorem put_other (f : ℕ → F) {i k : ℕ} (v : F) (h : k ≠ i) : put f i v k = f k := if_neg h

/-- Columns written before are kept. -/
theorem Good.keep {A A' : Rows} {n j k : ℕ} (h : Good src ρ x y w A n j k) (h1 : A'.radius k = A.radius k) (h2 : A'.theta k = A.theta k) (h3 : A'.phi k = A.phi k) :
    Good src ρ x y w A' n j k := by
  obtain ⟨ar, at', ap, a1, a2, a3, r⟩ := h
  exact ⟨ar, at', ap, h1.trans a1, h2.trans a2, h3.trans a3, r⟩

/-- Earlier columns have smaller numbers. -/
theorem earlier {n l n' j : ℕ} (h1 : nmin ≤ n') (h : n' < n ∧ j < 2 * min n' M + 1 ∨ n' = n ∧ j < l) : coefStart nmin M n' + j < coefStart nmin M n + l := by
  rcases h with ⟨ha, hb⟩ | ⟨rfl, hb⟩
  · have e1 := coefStart_next nmin M h1
    have e2 := coefStart_mono nmin M (show n' + 1 ≤ n by omega)
    omega
  · omega

include acc

/-- The factor of the radial component. -/
theorem Acc.radial {n : ℕ} (hn1 : 1 ≤ n) (hn : n ≤ nmax) : ∃ u, radialFactor R e.internal n = some u ∧ Nr w 0 u (rfac src n) ((n : ℝ) + 1) ∧ R u = u := by
  have g := acc.grow
  have hd := acc.deg
  have hn0 : (0 : ℝ) ≤ n := by positivity
  unfold radialFactor
  rw [acc.int]
  cases src with
  | internal =>
    have ru : R ((n : ℝ) + 1) = (n : ℝ) + 1 := by
      have := r_nat R (n := n + 1) (by omega)
      push_cast at this
      exact this
    refine ⟨(n : ℝ) + 1, by simp [ru], ?_, ru⟩
    have := g.exact (x := (n : ℝ) + 1) 0
    rwa [abs_of_nonneg (by linarith)] at this
  | external =>
    have ru : R (-(n : ℝ)) = -(n : ℝ) := r_neg_nat R (by omega)
    refine ⟨-(n : ℝ), by simp [ru], ?_, ru⟩
    refine g.enlarge (g.exact (x := -(n : ℝ)) 0) ?_
    rw [abs_neg, abs_of_nonneg hn0]
    linarith

/-- Two factors and the radial factor. -/
theorem Acc.col {n k1 : ℕ} {x1 y1 A1 q v vx : ℝ} (hn1 : 1 ≤ n) (hn : n ≤ nmax) (h1 : Nr w k1 x1 y1 A1) (hk1 : k1 ≤ 8 * n + 5) (l1 : 1 ≤ A1) (u1 : A1 ≤ fac x n)
    (hq : Nr w (4 * n + 7) q (rpow src ρ n) (rpow src ρ n)) (hv : Nr w n v vx 1) :
    Nr w (13 * n + 16) (R (R (x1 * q) * v)) (y1 * rpow src ρ n * vx) (fac x n * rpow src ρ n) ∧ Nr w (13 * n + 16) (R (x1 * q)) (y1 * rpow src ρ n) (fac x n * rpow src ρ n) := by
  have g := acc.grow
  have ho := acc.ops
  obtain ⟨a1, a2⟩ := acc.rpow_bounds hn1 (by omega)
  obtain ⟨-, -, f3⟩ := acc.fac_bounds hn1 hn
  have p2 : 0 ≤ rpow src ρ n := le_trans (by positivity) a1
  constructor
  · have := chain R g h1 hq hv (by omega) l1 a1 (pow_le_one₀ (by norm_num) (by norm_num)) (u1.trans f3) a2 (one_le_pow₀ (by norm_num))
    refine g.enlarge (g.mono this (by omega)) ?_
    rw [mul_one]
    exact mul_le_mul_of_nonneg_right u1 p2
  · have l12 : (2 : ℝ)⁻¹ ^ 506 ≤ A1 * rpow src ρ n := by nlinarith
    have u12 : A1 * rpow src ρ n ≤ 2 ^ (360 + 506) := pow_mul_le (u1.trans f3) a2 p2
    have q1 := g.rnd R (g.mul h1 hq) (by omega) (l12.trans' (pow_le_pow_of_le_one (by norm_num) (by norm_num) (by norm_num)))
      (u12.trans (pow_le_pow_right₀ (by norm_num) (by norm_num)))
    exact g.enlarge (g.mono q1 (by omega)) (mul_le_mul_of_nonneg_right u1 p2)

/-- Values and derivatives times their factors. -/
theorem Acc.facts {n m : ℕ} (hn1 : 1 ≤ n) (hm : m ≤ n) (hn : n ≤ nmax) :
    (∃ z, fmul R (radialFactor R e.internal n) (e.T (n, m)) = some z ∧ Nr w (8 * n + 1) z (rfac src n * schmidt n m x) (((n : ℝ) + 1) * (5 / 2) ^ n)) ∧
    (∃ t, e.T (m, n + 1) = some t ∧ Nr w (8 * n + 4) (-t) (-dS (cos x) (sin x) n m) (sqrt 2 * (n + 1) * (5 / 2) ^ n)) ∧
    1 ≤ ((n : ℝ) + 1) * (5 / 2) ^ n ∧ ((n : ℝ) + 1) * (5 / 2) ^ n ≤ fac x n ∧ 1 ≤ sqrt 2 * ((n : ℝ) + 1) * (5 / 2) ^ n ∧ sqrt 2 * ((n : ℝ) + 1) * (5 / 2) ^ n ≤ fac x n := by
  have g := acc.grow
  have ho := acc.ops
  obtain ⟨f1, -, f3⟩ := acc.fac_bounds hn1 hn
  have h5 : (1 : ℝ) ≤ (5 / 2) ^ n := one_le_pow₀ (by norm_num)
  have h2 : sqrt 2 ≤ 2 := by rw [Real.sqrt_le_left (by norm_num)]; norm_num
  have h21 : 1 ≤ sqrt 2 := sqrt_one_le (by norm_num)
  have hn0 : (0 : ℝ) ≤ n := by positivity
  have c1 : 1 ≤ ((n : ℝ) + 1) * (5 / 2) ^ n := by nlinarith
  have c2 : ((n : ℝ) + 1) * (5 / 2) ^ n ≤ fac x n := le_trans (by nlinarith) f1
  have c3 : sqrt 2 * ((n : ℝ) + 1) * (5 / 2) ^ n ≤ fac x n := le_trans (by gcongr) f1
  have c4 : 1 ≤ sqrt 2 * ((n : ℝ) + 1) * (5 / 2 : ℝ) ^ n := by
    have : 1 ≤ sqrt 2 * ((n : ℝ) + 1) := by nlinarith
    nlinarith
  obtain ⟨t1, ht1, v1⟩ := acc.val n m hn1 hm hn
  obtain ⟨t2, ht2, v2⟩ := acc.der n m hn1 hm hn
  obtain ⟨u, hu, nu, -⟩ := acc.radial hn1 hn
  refine ⟨⟨R (u * t1), by rw [hu, ht1]; rfl, ?_⟩, ⟨t2, ht2, g.neg v2⟩, c1, c2, c4, c3⟩
  have := g.rnd R (g.mul nu v1) (by omega) (low_one c1) ((c2.trans f3).trans (pow_le_pow_right₀ (by norm_num) (by norm_num)))
  exact g.mono this (by omega)

/-- The column with `m = 0`. -/
theorem Acc.dzonal {n : ℕ} {s : DSt} (hmin : nmin ≤ n) (hn : n ≤ nmax) (h : DInv src nmin M ρ x y w n 0 s) : DInv src nmin M ρ x y w n 1 (designZonal R e n s) := by
  have g := acc.grow
  have hn1 : 1 ≤ n := acc.first.trans hmin
  obtain ⟨⟨z, hz, nz⟩, ⟨t, ht, nt⟩, l1, u1, l2, u2⟩ := acc.facts (m := 0) hn1 (by omega) hn
  obtain ⟨q, hq, nq⟩ := h.rn
  have one : Nr w n 1 1 1 := by
    have := g.exact (x := 1) n
    rwa [abs_one] at this
  have r1 := (acc.col hn1 hn nz (by omega) l1 u1 nq one).2
  have r2 := (acc.col hn1 hn nt (by omega) l2 u2 nq one).2
  have hnum := h.num
  refine ⟨?_, ⟨q, hq, nq⟩, ?_, ?_⟩
  · show s.num + 1 = _
    omega
  · intro k hk
    exact h.zero k (by
      have : s.num + 1 ≤ k := hk
      omega)
  · intro n' j h1 hj
    by_cases hlast : n' = n ∧ j = 0
    · obtain ⟨rfl, rfl⟩ := hlast
      refine ⟨R (z * q), R (-t * q), 0, ?_, ?_, ?_, ?_, ?_, ?_⟩
      · unfold designZonal
        simp only
        rw [← hnum, put_same, hz, hq]
        rfl
      · unfold designZonal
        simp only
        rw [← hnum, put_same, ht, hq]
        rfl
      · unfold designZonal
        simp only
        exact h.zero _ (by omega)
      · simpa [exR, cs] using r1
      · simpa [exT, cs] using r2
      · have hb := r1.nonneg.1
        simp only [exP, zero_add, Nat.reduceDiv, Nat.cast_zero, zero_mul]
        refine g.enlarge (k := 13 * n' + 16) (A := |0|) (g.exact _) ?_
        rwa [abs_zero]
    · have hj' : n' < n ∧ j < 2 * min n' M + 1 ∨ n' = n ∧ j < 0 := by
        rcases hj with hj | hj
        · exact Or.inl hj
        · exact absurd ⟨hj.1, by omega⟩ hlast
      have hlt := earlier h1 hj'
      have hne : coefStart nmin M n' + j ≠ s.num := by omega
      exact (h.good n' j h1 hj').keep (put_other _ _ hne) (put_other _ _ hne) rfl

/-- The columns with `m ≥ 1`. -/
theorem Acc.dorder {n m : ℕ} {s : DSt} (hm1 : 1 ≤ m) (hm : m ≤ n) (hn : n ≤ nmax) (h : DInv src nmin M ρ x y w n (2 * m - 1) s) :
    DInv src nmin M ρ x y w n (2 * (m + 1) - 1) (designOrder R e n s m) := by
  have g := acc.grow
  have ho := acc.ops
  have hd := acc.deg
  have hn1 : 1 ≤ n := by omega
  obtain ⟨⟨z, hz, nz⟩, ⟨t, ht, nt⟩, l1, u1, l2, u2⟩ := acc.facts hn1 hm hn
  obtain ⟨q, hq, nq⟩ := h.rn
  obtain ⟨t3, ht3, v3⟩ := acc.div n m hm1 hm hn
  obtain ⟨c1, c2⟩ := acc.turn m hm1 (by omega)
  have c1 := g.mono c1 hm
  have c2 := g.mono c2 hm
  obtain ⟨-, f1, f3⟩ := acc.fac_bounds hn1 hn
  have h5 : (1 : ℝ) ≤ (5 / 2) ^ n := one_le_pow₀ (by norm_num)
  have hs := acc.sin_pos
  have h6 : 1 ≤ (5 / 2 : ℝ) ^ n / sin x := by
    rw [le_div_iff₀ hs]
    linarith [Real.sin_le_one x]
  have hm1r : (1 : ℝ) ≤ m := by exact_mod_cast hm1
  have hmr : (m : ℝ) ≤ n := by exact_mod_cast hm
  have u3 : (m : ℝ) * ((5 / 2) ^ n / sin x) ≤ fac x n := le_trans (mul_le_mul_of_nonneg_right (by linarith) (by linarith)) f1
  have l3 : 1 ≤ (m : ℝ) * ((5 / 2 : ℝ) ^ n / sin x) := by nlinarith
  have up := (u3.trans f3).trans (pow_le_pow_right₀ (by norm_num) (by norm_num : 360 ≤ 990))
  have p0 := g.exact (x := (m : ℝ)) 0
  rw [abs_of_nonneg (by linarith)] at p0
  have nd := g.mono (g.rnd R (g.mul p0 v3) (by omega) (low_one l3) up) (show 0 + (8 * n + 4) + 1 ≤ 8 * n + 5 by omega)
  have nd' := g.mono (g.rnd R (g.mul (g.neg p0) v3) (by omega) (low_one l3) up) (show 0 + (8 * n + 4) + 1 ≤ 8 * n + 5 by omega)
  have a1 := (acc.col hn1 hn nz (by omega) l1 u1 nq c1).1
  have a2 := (acc.col hn1 hn nz (by omega) l1 u1 nq c2).1
  have b1 := (acc.col hn1 hn nt (by omega) l2 u2 nq c1).1
  have b2 := (acc.col hn1 hn nt (by omega) l2 u2 nq c2).1
  have d1 := (acc.col hn1 hn nd (by omega) l3 u3 nq c2).1
  have d2 := (acc.col hn1 hn nd' (by omega) l3 u3 nq c1).1
  have rm : R (m : ℝ) = m := r_nat R (by omega)
  have rm' : R (-(m : ℝ)) = -(m : ℝ) := r_neg_nat R (by omega)
  have hnum := h.num
  refine ⟨?_, ⟨q, hq, nq⟩, ?_, ?_⟩
  · show s.num + 2 = _
    omega
  · intro k hk
    have hk : s.num + 2 ≤ k := hk
    show put (put s.A.phi s.num _) (s.num + 1) _ k = _
    rw [put_other _ _ (by omega), put_other _ _ (by omega)]
    exact h.zero k (by omega)
  · intro n' j h1 hj
    by_cases hg : n' = n ∧ j = 2 * m - 1
    · obtain ⟨rfl, rfl⟩ := hg
      have e0 : (2 * m - 1 + 1) / 2 = m := by omega
      have e1 : (2 * m - 1) % 2 = 1 ∨ 2 * m - 1 = 0 := Or.inl (by omega)
      refine ⟨R (R (z * q) * e.cosine (R ((m : ℝ) * e.phi))), R (R (-t * q) * e.cosine (R ((m : ℝ) * e.phi))), R (R (R (m * t3) * q) * e.sine (R ((m : ℝ) * e.phi))), ?_, ?_, ?_, ?_, ?_, ?_⟩
      · show put (put s.A.radius s.num _) (s.num + 1) _ _ = _
        rw [← hnum, put_other _ _ (by omega), put_same, hz, hq]
        rfl
      · show put (put s.A.theta s.num _) (s.num + 1) _ _ = _
        rw [← hnum, put_other _ _ (by omega), put_same, ht, hq]
        rfl
      · show put (put s.A.phi s.num _) (s.num + 1) _ _ = _
        rw [← hnum, put_other _ _ (by omega), put_same]
        unfold designPhi
        simp only
        rw [ht3, hq, rm]
        rfl
      · unfold exR cs
        rw [if_pos e1, e0]
        exact a1
      · unfold exT cs
        rw [if_pos e1, e0]
        exact b1
      · unfold exP sn
        rw [if_pos e1, e0]
        exact d1
    · by_cases hh : n' = n ∧ j = 2 * m
      · obtain ⟨rfl, rfl⟩ := hh
        have e0 : (2 * m + 1) / 2 = m := by omega
        have e1 : ¬ ((2 * m) % 2 = 1 ∨ 2 * m = 0) := by omega
        have hk : coefStart nmin M n' + 2 * m = s.num + 1 := by omega
        refine ⟨R (R (z * q) * e.sine (R ((m : ℝ) * e.phi))), R (R (-t * q) * e.sine (R ((m : ℝ) * e.phi))), R (R (R (-m * t3) * q) * e.cosine (R ((m : ℝ) * e.phi))), ?_, ?_, ?_, ?_, ?_, ?_⟩
        · show put (put s.A.radius s.num _) (s.num + 1) _ _ = _
          rw [hk, put_same, hz, hq]
          rfl
        · show put (put s.A.theta s.num _) (s.num + 1) _ _ = _
          rw [hk, put_same, ht, hq]
          rfl
        · show put (put s.A.phi s.num _) (s.num + 1) _ _ = _
          rw [hk, put_same]
          unfold designPhi
          simp only
          rw [ht3, hq, rm']
          rfl
        · unfold exR cs
          rw [if_neg e1, e0]
          exact a2
        · unfold exT cs
          rw [if_neg e1, e0]
          exact b2
        · unfold exP sn
          rw [if_neg e1, e0]
          simp only [neg_mul, mul_neg] at d2 ⊢
          exact d2
      · have hj' : n' < n ∧ j < 2 * min n' M + 1 ∨ n' = n ∧ j < 2 * m - 1 := by
          rcases hj with hj | hj
          · exact Or.inl hj
          · refine Or.inr ⟨hj.1, ?_⟩
            have := hj.1
            omega
        have hlt := earlier h1 hj'
        have n1 : coefStart nmin M n' + j ≠ s.num := by omega
        have n2 : coefStart nmin M n' + j ≠ s.num + 1 := by omega
        refine (h.good n' j h1 hj').keep ?_ ?_ ?_
        · exact (put_other _ _ n2).trans (put_other _ _ n1)
        · exact (put_other _ _ n2).trans (put_other _ _ n1)
        · exact (put_other _ _ n2).trans (put_other _ _ n1)

theorem Acc.ddegree {n : ℕ} {s : DSt} (hmin : nmin ≤ n) (hn : n ≤ nmax) (h : DInv src nmin M ρ x y w n 0 s) :
    DInv src nmin M ρ x y w (n + 1) 0 (designDegree R e M s n) := by
  have hn1 : 1 ≤ n := acc.first.trans hmin
  have h2 := foldl_inv (designOrder R e n) (fun m s => DInv src nmin M ρ x y w n (2 * m - 1) s) 1 (min n M + 1) (by omega) _ (acc.dzonal hmin hn h)
    (fun m s hm1 hm hs => acc.dorder hm1 (by omega) hn hs)
  have e1 := coefStart_next nmin M hmin
  unfold designDegree
  set s' := (pyRange 1 (min n M + 1)).foldl (designOrder R e n) (designZonal R e n s)
  obtain ⟨q, hq, nq⟩ := h2.rn
  obtain ⟨q', hq', nq'⟩ := acc.factor hn1 hn nq
  refine ⟨?_, ⟨q', ?_, nq'⟩, h2.zero, ?_⟩
  · show s'.num = _
    rw [h2.num, e1]
    omega
  · show (if e.internal then fdiv R s'.rn e.radius else fmul R s'.rn e.radius) = _
    rw [hq]
    exact hq'
  · intro n' j h1 hj
    refine h2.good n' j h1 ?_
    rcases hj with hj | hj
    · by_cases h' : n' < n
      · exact Or.inl ⟨h', hj.2⟩
      · have : n' = n := by omega
        subst this
        exact Or.inr ⟨rfl, by omega⟩
    · omega

/-- All columns. -/
theorem Acc.dall {q : ℝ} (hmin : nmin ≤ nmax) (hq : Nr w (4 * nmin + 7) q (rpow src ρ nmin) (rpow src ρ nmin)) {n j : ℕ} (h1 : nmin ≤ n) (hn : n ≤ nmax) (hj : j < 2 * min n M + 1) :
    Good src ρ x y w ((pyRange nmin (nmax + 1)).foldl (designDegree R e M) ⟨⟨fun _ => some 0, fun _ => some 0, fun _ => some 0⟩, 0, some q⟩).A n j (coefStart nmin M n + j) := by
  have := foldl_inv (designDegree R e M) (fun n s => DInv src nmin M ρ x y w n 0 s) nmin (nmax + 1) (by omega)
    ⟨⟨fun _ => some 0, fun _ => some 0, fun _ => some 0⟩, 0, some q⟩
    ⟨by rw [coefStart_self], ⟨q, rfl, hq⟩, fun _ _ => rfl, fun n' j h1 hj => by omega⟩ (fun n s a b hs => acc.ddegree a (by omega) hs)
  exact this.good n j h1 (Or.inl ⟨by omega, hj⟩)

end

end ChaosMagPy.FloatLegendre
