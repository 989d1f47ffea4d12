import Verif.Props.QResponse
import Verif.Lemmas.Stack
import Verif.Lemmas.Tail
/-!
# C69: the Q-response of layers of constant conductivity above a perfectly conducting core
-/
namespace ChaosMagPy.QResponse
open Complex Filter Topology
open ChaosMagPy.Spec (GoodShells CoreSolution uniform shells Passive)

/-! ### Induction over the layers -/

/-- The logarithmic derivative at the top for exact series. -/
noncomputable def exactB (n : ℕ) (T rc : ℝ) : List (ℝ × ℝ) → ℂ
  | [] => 0
  | [(s, a)] => bottom (waveNumber T s) (exactV n (waveNumber T s) (1000 * a) (1000 * rc))
  | (s, a) :: (s', a') :: ls => upward (waveNumber T s) (exactV n (waveNumber T s) (1000 * a) (1000 * a')) (exactB n T rc ((s', a') :: ls))

theorem uniform_below {s a s' a' : ℝ} {ls : List (ℝ × ℝ)} {r : ℝ} (h : r ≤ a') : uniform ((s, a) :: (s', a') :: ls) r = uniform ((s', a') :: ls) r := by
  simp only [uniform, if_pos h]

theorem uniform_above {s a s' a' : ℝ} {ls : List (ℝ × ℝ)} {r : ℝ} (h : a' < r) : uniform ((s, a) :: (s', a') :: ls) r = s := by
  simp only [uniform, if_neg (not_le.2 h)]

theorem _root_.ChaosMagPy.Spec.GoodShells.tail {l m : ℝ × ℝ} {ls : List (ℝ × ℝ)} {rc : ℝ} (h : GoodShells (l :: m :: ls) rc) : GoodShells (m :: ls) rc :=
  ⟨by simp, fun x hx => h.sigma x (List.mem_cons_of_mem _ hx), h.core, fun x hx => h.radius x (List.mem_cons_of_mem _ hx), by
    have := h.decreasing
    rw [List.map_cons, List.pairwise_cons] at this
    exact this.2⟩

theorem _root_.ChaosMagPy.Spec.GoodShells.step {l m : ℝ × ℝ} {ls : List (ℝ × ℝ)} {rc : ℝ} (h : GoodShells (l :: m :: ls) rc) : m.2 < l.2 := by
  have := h.decreasing
  rw [List.map_cons, List.pairwise_cons] at this
  exact this.1 m.2 (by simp)

theorem shells_cons (l m : ℝ × ℝ) (ls : List (ℝ × ℝ)) (rc : ℝ) : shells (l :: m :: ls) rc = (l, m.2) :: shells (m :: ls) rc := by
  unfold shells
  simp

theorem bottom_lim {f : ℝ → Quotients} {v : Quotients} (h : VLim f v) (k : ℂ) (hD : 1 - v.v4 * v.v1 ≠ 0) :
    Tendsto (fun e => bottom k (f e)) (𝓝[>] 0) (𝓝 (bottom k v)) :=
  ((h.l2.sub (h.l5.mul h.l1)).const_mul k).div (tendsto_const_nhds.sub (h.l4.mul h.l1)) hD

theorem upward_lim {f : ℝ → Quotients} {v : Quotients} (h : VLim f v) (k : ℂ) {F : ℝ → ℂ} {b : ℂ} (hF : Tendsto F (𝓝[>] 0) (𝓝 b))
    (hD : (1 - v.v4 * v.v1) * b + k * (v.v4 * v.v3 - v.v6) ≠ 0) : Tendsto (fun e => upward k (f e) (F e)) (𝓝[>] 0) (𝓝 (upward k v b)) :=
  ((((h.l2.sub (h.l5.mul h.l1)).mul hF).add (((h.l5.mul h.l3).sub (h.l2.mul h.l6)).const_mul k)).const_mul k).div
    (((tendsto_const_nhds.sub (h.l4.mul h.l1)).mul hF).add (((h.l4.mul h.l3).sub h.l6).const_mul k)) hD

theorem stack_main {n : ℕ} (hn : 1 ≤ n) {T : ℝ} (hT : 0 < T) (rc : ℝ) (extra : List ℝ) (ls : List (ℝ × ℝ)) (hg : GoodShells ls rc)
    (hd : ∀ x ∈ shells ls rc, divisorOk n (waveNumber T x.1.1) (1000 * x.1.2) (1000 * x.2)) :
    (∃ u du : ℝ → ℂ, Sol (cof n (angFreq T) mu (uniform (inMetres ls))) (1000 * rc) (1000 * surface ls) u du ∧ u (1000 * rc) = 0 ∧ du (1000 * rc) ≠ 0 ∧
      du (1000 * surface ls) = (exactB n T rc ls + 1 / ((1000 * surface ls : ℝ) : ℂ)) * u (1000 * surface ls)) ∧
    ∃ F : ℝ → ℂ, (∀ eps, 0 < eps → constantB eps n T (ls.map Prod.fst ++ extra) (ls.map Prod.snd ++ [rc]) = some (F eps)) ∧
      Tendsto F (𝓝[>] 0) (𝓝 (exactB n T rc ls)) ∧
      ((∀ x ∈ shells ls rc, 3 ≤ ‖waveNumber T x.1.1 * ((1000 * x.1.2 : ℝ) : ℂ)‖) → ∀ eps, F eps = exactB n T rc ls) := by
  have hrc : 0 < rc := hg.core
  have hrc' : 0 < 1000 * rc := by positivity
  induction ls with
  | nil => exact absurd rfl hg.nonempty
  | cons l ls ih =>
    obtain ⟨s, a⟩ := l
    have hs : 0 < s := hg.sigma (s, a) List.mem_cons_self
    have hra : rc < a := hg.radius (s, a) List.mem_cons_self
    have ha : 0 < a := hrc.trans hra
    have ha' : 0 < 1000 * a := by positivity
    have hk0 := waveNumber_ne hT hs
    obtain ⟨hk2, hkre⟩ := waveNumber_spec hT hs
    have hkn := waveNumber_re hT hs
    set k := waveNumber T s with hkdef
    have hcoef : ∀ {sg : ℝ → ℝ} {r : ℝ}, sg r = s → coef n k r = cof n (angFreq T) mu sg r := by
      intro sg r h
      unfold coef cof
      rw [hk2, h]
    cases ls with
    | nil =>
      have hd0 := hd ((s, a), rc) (by simp [shells])
      obtain ⟨g, g', f, f', hg1, hg2, hw, hA, hB, hV⟩ := exactV_spec hn hkre hkn ha' hrc' hd0
      have hlt : 1000 * rc < 1000 * a := by linarith
      have hsol : Sol (cof n (angFreq T) mu (uniform (inMetres [(s, a)]))) (1000 * rc) (1000 * a) (combU g g' f f' k (1000 * rc) 0 1) (dcombU g g' f f' k (1000 * rc) 0 1) :=
        (combU_sol hg1 hg2 hk0 hrc' 0 1).congr ∅ Set.finite_empty fun r _ _ => hcoef rfl
      obtain ⟨st1, st2⟩ := combU_start (g := g) (g' := g') (f := f) (f' := f') hk0 hw 0 1
      have hen := core_energy hn hrc' hlt hsol st1 (by rw [st2]; exact one_ne_zero)
      obtain ⟨hD, htr⟩ := transport_bottom hk0 ha' hrc' hw hA hB 1 one_ne_zero hen.2.1
      refine ⟨⟨_, _, hsol, st1, by rw [st2]; exact one_ne_zero, ?_⟩, ?_⟩
      · show dcombU g g' f f' k (1000 * rc) 0 1 (1000 * a) = (bottom k (exactV n k (1000 * a) (1000 * rc)) + 1 / ((1000 * a : ℝ) : ℂ)) * combU g g' f f' k (1000 * rc) 0 1 (1000 * a)
        rw [hV]
        exact htr
      · obtain ⟨v, hv1, hv2, hv3⟩ := layerQuotients_lim hn hkre hkn ha hrc hd0
        refine ⟨fun eps => bottom k (v eps), fun eps he => ?_, ?_, fun hl eps => ?_⟩
        · show constantB eps n T (s :: extra) [a, rc] = _
          rw [constantB_two, hv1 eps he]
          rfl
        · exact bottom_lim hv2 k (by rw [hV]; exact hD)
        · simp only [hv3 (hl ((s, a), rc) (by simp [shells])) eps]
          rfl
    | cons m ls =>
      obtain ⟨s', a'⟩ := m
      have hlt' : a' < a := hg.step
      have hrca' : rc < a' := hg.radius (s', a') (by simp)
      have hap : 0 < a' := hrc.trans hrca'
      have hap' : 0 < 1000 * a' := by positivity
      have hd0 := hd ((s, a), a') (by rw [shells_cons]; exact List.mem_cons_self)
      have hdt : ∀ x ∈ shells ((s', a') :: ls) rc, divisorOk n (waveNumber T x.1.1) (1000 * x.1.2) (1000 * x.2) := fun x hx =>
        hd x (by rw [shells_cons]; exact List.mem_cons_of_mem _ hx)
      obtain ⟨⟨u, du, hu, hu0, hdu0, hrel⟩, F, hF1, hF2, hF3⟩ := ih hg.tail hdt
      change Sol _ (1000 * rc) (1000 * a') u du at hu
      change du (1000 * a') = (_ + 1 / ((1000 * a' : ℝ) : ℂ)) * u (1000 * a') at hrel
      set b1 := exactB n T rc ((s', a') :: ls) with hb1
      have hlt1 : 1000 * rc < 1000 * a' := by linarith
      have hlt2 : 1000 * a' < 1000 * a := by linarith
      have hen1 := core_energy hn hrc' hlt1 hu hu0 hdu0
      obtain ⟨g, g', f, f', hg1, hg2, hw, hA, hB, hV⟩ := exactV_spec hn hkre hkn ha' hap' hd0
      set U := combU g g' f f' k (1000 * a') (u (1000 * a')) ((b1 + 1 / ((1000 * a' : ℝ) : ℂ)) * u (1000 * a')) with hU
      set dU := dcombU g g' f f' k (1000 * a') (u (1000 * a')) ((b1 + 1 / ((1000 * a' : ℝ) : ℂ)) * u (1000 * a')) with hdU
      obtain ⟨st1, st2⟩ := combU_start (g := g) (g' := g') (f := f) (f' := f') hk0 hw (u (1000 * a')) ((b1 + 1 / ((1000 * a' : ℝ) : ℂ)) * u (1000 * a'))
      have hsol1 : Sol (cof n (angFreq T) mu (uniform (inMetres ((s, a) :: (s', a') :: ls)))) (1000 * rc) (1000 * a') u du := by
        refine hu.congr ∅ Set.finite_empty fun r hr _ => ?_
        unfold cof
        have : uniform (inMetres ((s, a) :: (s', a') :: ls)) r = uniform (inMetres ((s', a') :: ls)) r := uniform_below hr.2.le
        rw [this]
      have hsol2 : Sol (cof n (angFreq T) mu (uniform (inMetres ((s, a) :: (s', a') :: ls)))) (1000 * a') (1000 * a) U dU := by
        refine (combU_sol hg1 hg2 hk0 hap' _ _).congr ∅ Set.finite_empty fun r hr _ => hcoef ?_
        exact uniform_above hr.1
      have hgl := hsol1.glue hlt1.le hlt2.le hsol2 st1.symm (by rw [hrel]; exact st2.symm)
      have hglu0 : (fun x => if x ≤ 1000 * a' then u x else U x) (1000 * rc) = 0 := by simp only [if_pos hlt1.le]; exact hu0
      have hgld0 : (fun x => if x ≤ 1000 * a' then du x else dU x) (1000 * rc) ≠ 0 := by simp only [if_pos hlt1.le]; exact hdu0
      have hen2 := core_energy hn hrc' (hlt1.trans hlt2) hgl hglu0 hgld0
      have htop1 : (fun x => if x ≤ 1000 * a' then u x else U x) (1000 * a) = U (1000 * a) := by simp only [if_neg (not_le.2 hlt2)]
      have htop2 : (fun x => if x ≤ 1000 * a' then du x else dU x) (1000 * a) = dU (1000 * a) := by simp only [if_neg (not_le.2 hlt2)]
      have hUne : U (1000 * a) ≠ 0 := by rw [← htop1]; exact hen2.2.1
      obtain ⟨hD, htr⟩ := transport_up hk0 ha' hap' hw hA hB (u (1000 * a')) b1 hen1.2.1 hUne
      refine ⟨⟨_, _, hgl, hglu0, hgld0, ?_⟩, ?_⟩
      · show (fun x => if x ≤ 1000 * a' then du x else dU x) (1000 * a) =
          (upward k (exactV n k (1000 * a) (1000 * a')) b1 + 1 / ((1000 * a : ℝ) : ℂ)) * (fun x => if x ≤ 1000 * a' then u x else U x) (1000 * a)
        rw [htop1, htop2, hV]
        exact htr
      · obtain ⟨v, hv1, hv2, hv3⟩ := layerQuotients_lim hn hkre hkn ha hap hd0
        refine ⟨fun eps => upward k (v eps) (F eps), fun eps he => ?_, ?_, fun hl eps => ?_⟩
        · have hF := hF1 eps he
          have key : constantB eps n T (((s, a) :: (s', a') :: ls).map Prod.fst ++ extra) (((s, a) :: (s', a') :: ls).map Prod.snd ++ [rc]) =
              (constantB eps n T (((s', a') :: ls).map Prod.fst ++ extra) (((s', a') :: ls).map Prod.snd ++ [rc])).bind fun b =>
                (layerQuotients eps n k a a').map fun v => upward k v b := by
            cases ls with
            | nil => exact constantB_cons eps n T s _ a a' rc []
            | cons p ls => exact constantB_cons eps n T s _ a a' p.2 (ls.map Prod.snd ++ [rc])
          rw [key, hF, hv1 eps he]
          rfl
        · exact upward_lim hv2 k hF2 (by rw [hV]; exact hD)
        · have e1 := hv3 (hl ((s, a), a') (by rw [shells_cons]; exact List.mem_cons_self)) eps
          have e2 := hF3 (fun x hx => hl x (by rw [shells_cons]; exact List.mem_cons_of_mem _ hx)) eps
          simp only [e1, e2]
          rfl

/-! ### Responses -/

/-- `Re(r u'/u) >= n + 1` above a core. -/
theorem core_growth {n : ℕ} {w m : ℝ} {sigma : ℝ → ℝ} {rc r0 : ℝ} (hc : 0 < rc) (h0 : rc ≤ r0) {u du : ℝ → ℂ}
    (h : Sol (cof n w m sigma) rc r0 u du) (h1 : u rc = 0) : ((n : ℝ) + 1) / r0 * Complex.normSq (u r0) ≤ energyRe u du r0 := by
  obtain ⟨S, hS, e⟩ := energyDeriv h
  have hcu : ContinuousOn (fun r : ℝ => ((n : ℝ) + 1) / r * Complex.normSq (u r)) (Set.Icc rc r0) :=
    (ContinuousOn.div continuousOn_const continuousOn_id fun r hr => (hc.trans_le hr.1).ne').mul (Complex.continuous_normSq.comp_continuousOn h.cont)
  have hmono := mono_off_finite (f := fun r => energyRe u du r - ((n : ℝ) + 1) / r * Complex.normSq (u r))
    (f' := fun r => Complex.normSq (du r - (((n : ℝ) + 1) / r : ℝ) * u r)) hS h0
    ((Complex.continuous_re.comp_continuousOn (energy_cont h)).sub hcu) (fun x hx hxs => ?_) fun x hx hxs => Complex.normSq_nonneg _
  · simp only [energyRe, h1, map_zero, zero_mul, mul_zero, sub_zero, Complex.zero_re] at hmono
    unfold energyRe
    linarith
  · have hx0 : 0 < x := hc.trans hx.1
    have d1 := Complex.reCLM.hasFDerivAt.comp_hasDerivAt x (e x hx hxs)
    have d2 := (h.hasDeriv x ⟨hx.1.le, hx.2.le⟩).hasDerivAt (Icc_mem_nhds hx.1 hx.2)
    have d3 : HasDerivAt (fun r => (u r).re) (du x).re x := Complex.reCLM.hasFDerivAt.comp_hasDerivAt x d2
    have d4 : HasDerivAt (fun r => (u r).im) (du x).im x := Complex.imCLM.hasFDerivAt.comp_hasDerivAt x d2
    have d5 : HasDerivAt (fun r => Complex.normSq (u r)) ((du x).re * (u x).re + (u x).re * (du x).re + ((du x).im * (u x).im + (u x).im * (du x).im)) x := by
      simp only [Complex.normSq_apply]
      exact (d3.mul d3).add (d4.mul d4)
    have d6 : HasDerivAt (fun r : ℝ => ((n : ℝ) + 1) / r) (-(((n : ℝ) + 1)) / x ^ 2) x := by
      refine ((hasDerivAt_inv hx0.ne').const_mul ((n : ℝ) + 1)).congr_deriv ?_
      field_simp
    refine (d1.sub (d6.mul d5)).congr_deriv ?_
    have hcr := (cof_parts n w m sigma x).1
    simp only [Complex.reCLM_apply, Complex.add_re, Complex.ofReal_re, Complex.mul_I_re, Complex.ofReal_im, neg_zero, add_zero, hcr, Complex.normSq_apply,
      Complex.sub_re, Complex.sub_im, Complex.mul_re, Complex.mul_im, zero_mul, sub_zero, Complex.I_re, mul_zero, add_zero]
    field_simp
    ring

/-- The signs and bounds of the responses in terms of the logarithmic derivative `1/2 + p`. -/
theorem passive_of_slope {n : ℕ} (hn : 1 ≤ n) {p : ℂ} (h1 : half n ≤ p.re) (h2 : 0 ≤ p.im) {s : ℝ} (hsp : 0 < s) :
    ‖(n : ℂ) / (n + 1) * ((p - half n) / (p + half n))‖ < n / (n + 1) ∧ 0 ≤ ((n : ℂ) / (n + 1) * ((p - half n) / (p + half n))).re ∧
    0 ≤ ((n : ℂ) / (n + 1) * ((p - half n) / (p + half n))).im ∧ 0 < ((s : ℂ) / (1 / 2 + p)).re ∧ ((s : ℂ) / (1 / 2 + p)).re ≤ s / (n + 1) ∧
    ((s : ℂ) / (1 / 2 + p)).im ≤ 0 := by
  have hreg : half n ≤ p.re ∧ 0 ≤ p.im := ⟨h1, h2⟩
  have hp := half_pos n
  have hne : (1 / 2 + p) ≠ 0 := by
    intro hc
    have := congrArg Complex.re hc
    simp at this
    linarith
  have hne2 : p + half n ≠ 0 := by
    intro hc
    have := congrArg Complex.re hc
    simp at this
    linarith
  have hnr : (1 : ℝ) ≤ n := by exact_mod_cast hn
  have hns : 0 < Complex.normSq (p + half n) := Complex.normSq_pos.2 hne2
  have hns2 : 0 < Complex.normSq (1 / 2 + p) := Complex.normSq_pos.2 hne
  have hk : (0 : ℝ) < n / (n + 1) := by positivity
  have hkc : ((n : ℂ) / (n + 1)) = ((n / (n + 1) : ℝ) : ℂ) := by push_cast; rfl
  rw [hkc]
  have hlt : ‖(p - half n) / (p + half n)‖ < 1 := by
    rw [norm_div, div_lt_one (norm_pos_iff.2 hne2)]
    rw [← sq_lt_sq₀ (norm_nonneg _) (norm_nonneg _), ← Complex.normSq_eq_norm_sq, ← Complex.normSq_eq_norm_sq, Complex.normSq_apply, Complex.normSq_apply]
    simp only [Complex.sub_re, Complex.sub_im, Complex.add_re, Complex.add_im, Complex.ofReal_re, Complex.ofReal_im]
    nlinarith [mul_pos hp (hp.trans_le hreg.1)]
  have hh : half n + 1 / 2 = (n : ℝ) + 1 := by unfold half; ring
  refine ⟨?_, ?_, ?_, ?_, ?_, ?_⟩
  · rw [norm_mul, Complex.norm_real, Real.norm_of_nonneg hk.le]
    nlinarith
  · rw [Complex.re_ofReal_mul]
    refine mul_nonneg hk.le ?_
    rw [Complex.div_re, ← add_div]
    refine div_nonneg ?_ hns.le
    simp only [Complex.sub_re, Complex.sub_im, Complex.add_re, Complex.add_im, Complex.ofReal_re, Complex.ofReal_im]
    nlinarith [mul_self_nonneg p.im, mul_nonneg (sub_nonneg.2 hreg.1) (add_nonneg hp.le (hp.le.trans hreg.1))]
  · rw [Complex.im_ofReal_mul]
    refine mul_nonneg hk.le ?_
    rw [Complex.div_im, ← sub_div]
    refine div_nonneg ?_ hns.le
    simp only [Complex.sub_re, Complex.sub_im, Complex.add_re, Complex.add_im, Complex.ofReal_re, Complex.ofReal_im]
    nlinarith [mul_nonneg hp.le hreg.2]
  · rw [Complex.div_re, ← add_div]
    refine div_pos ?_ hns2
    simp
    nlinarith [mul_pos hsp (hp.trans_le hreg.1)]
  · rw [Complex.div_re, ← add_div, div_le_div_iff₀ hns2 (by positivity), Complex.normSq_apply]
    simp
    rw [← hh]
    have h2 : 0 ≤ p.re - half n := sub_nonneg.2 hreg.1
    have h3 : (2⁻¹ + p.re) * (half n + 1 / 2) ≤ (2⁻¹ + p.re) * (2⁻¹ + p.re) + p.im * p.im := by
      nlinarith [mul_self_nonneg p.im, mul_nonneg h2 (add_nonneg hp.le h2)]
    nlinarith [mul_le_mul_of_nonneg_left h3 hsp.le]
  · rw [Complex.div_im, ← sub_div]
    refine div_nonpos_of_nonpos_of_nonneg ?_ hns2.le
    simp
    nlinarith [mul_nonneg hsp.le hreg.2]

/-- The responses in terms of the logarithmic derivative at the surface. -/
theorem core_response {n : ℕ} (hn : 1 ≤ n) {w m : ℝ} (hw : 0 ≤ w * m) {sigma : ℝ → ℝ} (hs : ∀ r, 0 ≤ sigma r) {rc r0 : ℝ} (hc : 0 < rc) (h0 : rc < r0)
    {u du : ℝ → ℂ} (h : Sol (cof n w m sigma) rc r0 u du) (h1 : u rc = 0) (h2 : du rc ≠ 0) {p : ℂ} (hp : (r0 : ℂ) * du r0 = (1 / 2 + p) * u r0) :
    half n ≤ p.re ∧ 0 ≤ p.im ∧ Spec.CoreResponse n w m sigma rc r0 ((r0 : ℂ) / (1 / 2 + p)) ((n : ℂ) / (n + 1) * ((p - half n) / (p + half n))) := by
  have hr0 : 0 < r0 := hc.trans h0
  have hr0c : (r0 : ℂ) ≠ 0 := by exact_mod_cast hr0.ne'
  obtain ⟨-, hu, hdu⟩ := core_energy hn hc h0 h h1 h2
  have hg := core_growth hc h0.le h h1
  have hi := core_im hw hs h0.le h h1
  have hnu : 0 < Complex.normSq (u r0) := Complex.normSq_pos.2 hu
  have eb : (starRingEnd ℂ) (u r0) * du r0 = ((Complex.normSq (u r0) / r0 : ℝ) : ℂ) * (1 / 2 + p) := by
    have : (r0 : ℂ) * ((starRingEnd ℂ) (u r0) * du r0) = (Complex.normSq (u r0) : ℂ) * (1 / 2 + p) := by
      rw [Complex.normSq_eq_conj_mul_self]
      linear_combination (starRingEnd ℂ) (u r0) * hp
    refine mul_left_cancel₀ hr0c ?_
    rw [this]
    push_cast
    generalize 1 / 2 + p = q
    field_simp
  have hre : half n ≤ p.re := by
    unfold energyRe at hg
    rw [eb, Complex.re_ofReal_mul] at hg
    have : ((n : ℝ) + 1) * (Complex.normSq (u r0) / r0) ≤ (1 / 2 + p).re * (Complex.normSq (u r0) / r0) := by
      calc ((n : ℝ) + 1) * (Complex.normSq (u r0) / r0) = ((n : ℝ) + 1) / r0 * Complex.normSq (u r0) := by ring
        _ ≤ (1 / 2 + p).re * (Complex.normSq (u r0) / r0) := by linarith [mul_comm (Complex.normSq (u r0) / r0) (1 / 2 + p).re]
    have := le_of_mul_le_mul_right this (by positivity)
    unfold half
    simp at this ⊢
    linarith
  have him : 0 ≤ p.im := by
    unfold energyIm at hi
    rw [eb, Complex.im_ofReal_mul] at hi
    have hq : 0 < Complex.normSq (u r0) / r0 := by positivity
    have := nonneg_of_mul_nonneg_right hi hq
    simpa using this
  refine ⟨hre, him, ?_⟩
  have hhp := half_pos n
  have hne : (1 / 2 + p) ≠ 0 := by
    intro hc
    have := congrArg Complex.re hc
    simp at this
    linarith
  have hne2 : p + half n ≠ 0 := by
    intro hc
    have := congrArg Complex.re hc
    simp at this
    linarith
  have hall : ∀ v dv, CoreSolution n w m sigma rc r0 v dv → v r0 = (r0 : ℂ) / (1 / 2 + p) * dv r0 := by
    intro v dv hv
    obtain ⟨hv, hv0⟩ := coreSolution_iff.1 hv
    have hw := wronskian h0.le h hv
    rw [h1, hv0, zero_mul, mul_zero, sub_zero, sub_eq_zero] at hw
    refine mul_left_cancel₀ (mul_ne_zero hne hu) ?_
    have : (1 / 2 + p) * u r0 * ((r0 : ℂ) / (1 / 2 + p) * dv r0) = r0 * (u r0 * dv r0) := by
      generalize 1 / 2 + p = q at hne
      field_simp
    rw [this, hw]
    linear_combination -v r0 * hp
  refine ⟨⟨u, du, coreSolution_iff.2 ⟨h, h1⟩, hu, hdu⟩, hall, fun e i => ?_⟩
  have hnc : (n : ℂ) ≠ 0 := by exact_mod_cast (by omega : n ≠ 0)
  have hn1 : (n : ℂ) + 1 ≠ 0 := by exact_mod_cast (by omega : n + 1 ≠ 0)
  have hh : (half n : ℂ) = n + 1 / 2 := by unfold half; push_cast; ring
  rw [hh] at hne2 ⊢
  have key : ((r0 : ℂ) ^ 2 * (i / n - e / (n + 1)) = (r0 / (1 / 2 + p)) * (-(r0 : ℂ) * (e + i))) ↔
      i = n / (n + 1) * ((p - (n + 1 / 2)) / (p + (n + 1 / 2))) * e := by
    have e1 : (r0 : ℂ) ^ 2 * (i / n - e / (n + 1)) - (r0 / (1 / 2 + p)) * (-(r0 : ℂ) * (e + i)) =
        (r0 : ℂ) ^ 2 * ((p + (n + 1 / 2)) / (n * (1 / 2 + p))) * (i - n / (n + 1) * ((p - (n + 1 / 2)) / (p + (n + 1 / 2))) * e) := by
      generalize hD : p + ((n : ℂ) + 1 / 2) = D at *
      generalize hq : 1 / 2 + p = q at *
      field_simp
      rw [← hD, ← hq]
      ring
    rw [← sub_eq_zero, e1, mul_eq_zero, or_iff_right, sub_eq_zero]
    exact mul_ne_zero (pow_ne_zero _ hr0c) (div_ne_zero hne2 (mul_ne_zero hnc hne))
  constructor
  · rintro ⟨v, dv, hv, e1, e2⟩
    have := hall v dv hv
    rw [e1, e2] at this
    exact key.1 this
  · intro hi
    have hk := key.2 hi
    have hv := coreSolution_iff.2 ⟨Sol.comb h h (-(r0 : ℂ) * (e + i) / du r0) 0, by simp [h1]⟩
    refine ⟨_, _, hv, ?_, ?_⟩
    · rw [hall _ _ hv, hk]
      congr 1
      simp only [zero_mul, add_zero]
      field_simp
    · simp only [zero_mul, add_zero]
      field_simp

/-- The responses are determined by the conductivity (up to finitely many radii). -/
theorem response_unique {n : ℕ} {w m : ℝ} {sg sg' : ℝ → ℝ} {rc r0 : ℝ} {C Q C' Q' : ℂ} {S : Set ℝ} (hS : S.Finite)
    (heq : ∀ r, rc < r → r < r0 → r ∉ S → sg r = sg' r)
    (h : Spec.CoreResponse n w m sg rc r0 C Q) (h' : Spec.CoreResponse n w m sg' rc r0 C' Q') : C = C' ∧ Q = Q' := by
  have hcongr : ∀ {a b : ℝ → ℝ}, (∀ r, rc < r → r < r0 → r ∉ S → a r = b r) → ∀ u du, CoreSolution n w m a rc r0 u du → CoreSolution n w m b rc r0 u du := by
    intro a b hab u du hu
    obtain ⟨h1, h2⟩ := coreSolution_iff.1 hu
    refine coreSolution_iff.2 ⟨h1.congr S hS fun r hr hrs => ?_, h2⟩
    unfold cof
    rw [hab r hr.1 hr.2 hrs]
  obtain ⟨u, du, hu, -, hdu⟩ := h.solvable
  constructor
  · have e1 := h.surface u du hu
    have e2 := h'.surface u du (hcongr heq u du hu)
    rw [e1] at e2
    exact mul_right_cancel₀ hdu e2
  · have e1 := (h.potential 1 Q).2 (by ring)
    obtain ⟨v, dv, hv, e2, e3⟩ := e1
    have := (h'.potential 1 Q).1 ⟨v, dv, hcongr heq v dv hv, e2, e3⟩
    rw [this]
    ring

theorem shells_mem {ls : List (ℝ × ℝ)} {rc : ℝ} (hg : GoodShells ls rc) {x : (ℝ × ℝ) × ℝ} (hx : x ∈ shells ls rc) : x.1 ∈ ls ∧ 0 < x.2 ∧ x.2 ≤ x.1.2 := by
  induction ls with
  | nil => simp [shells] at hx
  | cons l ls ih =>
    cases ls with
    | nil =>
      simp only [shells, List.map_cons, List.map_nil, List.tail_cons, List.nil_append, List.zip_cons_cons, List.zip_nil_right, List.mem_singleton] at hx
      subst hx
      exact ⟨List.mem_cons_self, hg.core, (hg.radius l List.mem_cons_self).le⟩
    | cons m ls =>
      rw [shells_cons, List.mem_cons] at hx
      rcases hx with rfl | hx
      · exact ⟨List.mem_cons_self, hg.core.trans (hg.radius m (by simp)), hg.step.le⟩
      · obtain ⟨h1, h2⟩ := ih hg.tail hx
        exact ⟨List.mem_cons_of_mem _ h1, h2⟩

theorem uniform_nonneg {ls : List (ℝ × ℝ)} (h : ∀ l ∈ ls, 0 ≤ l.1) (r : ℝ) : 0 ≤ uniform ls r := by
  induction ls with
  | nil => exact le_rfl
  | cons l ls ih =>
    obtain ⟨s, a⟩ := l
    cases ls with
    | nil => exact h (s, a) List.mem_cons_self
    | cons m ls =>
      obtain ⟨s', a'⟩ := m
      by_cases hr : r ≤ a'
      · rw [uniform_below hr]
        exact ih fun l hl => h l (List.mem_cons_of_mem _ hl)
      · rw [uniform_above (not_le.1 hr)]
        exact h (s, a) List.mem_cons_self

theorem shells_surface {ls : List (ℝ × ℝ)} {rc : ℝ} (h : GoodShells ls rc) : rc < surface ls := by
  cases ls with
  | nil => exact absurd rfl h.nonempty
  | cons l ls => exact h.radius l List.mem_cons_self

/-- The values that are computed from `b`. -/
noncomputable def ofB (n : ℕ) (T s : ℝ) (b : ℂ) : Response :=
  let r0 : ℂ := s
  let C := r0 / (1 + 1000 * r0 * b)
  { C := C
    rhoA := ((1 / 10 ^ 7 * 8 * Real.pi ^ 2 / T * ‖C * 1000‖ ^ 2 : ℝ) : ℂ)
    phi := 90 + 57.3 * Complex.arg C
    Q := (n : ℂ) / ((n : ℂ) + 1) * (1 - ((n : ℂ) + 1) * C / r0) / (1 + (n : ℂ) * C / r0) }

theorem respondConstant_eq (eps : ℝ) (n : ℕ) (T : ℝ) (sigma : List ℝ) {ls : List (ℝ × ℝ)} (h : ls ≠ []) (rc : ℝ) :
    respondConstant eps n T sigma (ls.map Prod.snd ++ [rc]) = (constantB eps n T sigma (ls.map Prod.snd ++ [rc])).map (ofB n T (surface ls)) := by
  cases ls with
  | nil => exact absurd rfl h
  | cons l ls => rfl

/-- `C` and `Q` in terms of `p = 1/2 + 1000 r0 b`. -/
theorem ofB_eq {n : ℕ} {T s : ℝ} {b p : ℂ} (hs : 0 < s) (hp : p = 1 / 2 + 1000 * s * b) (hne : (1 / 2 + p) ≠ 0) (hne2 : p + half n ≠ 0) :
    (ofB n T s b).C = s / (1 / 2 + p) ∧ (ofB n T s b).Q = n / (n + 1) * ((p - half n) / (p + half n)) := by
  have hsc : (s : ℂ) ≠ 0 := by exact_mod_cast hs.ne'
  have hC : (ofB n T s b).C = s / (1 / 2 + p) := by
    unfold ofB
    simp only
    congr 1
    rw [hp]
    ring
  refine ⟨hC, ?_⟩
  have hQ : (ofB n T s b).Q = (n : ℂ) / ((n : ℂ) + 1) * (1 - ((n : ℂ) + 1) * (ofB n T s b).C / s) / (1 + (n : ℂ) * (ofB n T s b).C / s) := rfl
  rw [hQ, hC, mul_div_assoc]
  congr 1
  have hh : (half n : ℂ) = n + 1 / 2 := by unfold half; push_cast; ring
  rw [hh] at hne2 ⊢
  have e1 : 1 - ((n : ℂ) + 1) * (s / (1 / 2 + p)) / s = (p - (n + 1 / 2)) / (1 / 2 + p) := by
    generalize hq : 1 / 2 + p = q at *
    field_simp
    rw [← hq]
    ring
  have e2 : 1 + (n : ℂ) * (s / (1 / 2 + p)) / s = (p + (n + 1 / 2)) / (1 / 2 + p) := by
    generalize hq : 1 / 2 + p = q at *
    field_simp
    rw [← hq]
    ring
  rw [e1, e2, div_div_div_cancel_right₀ hne]

theorem phase_of_passive {n : ℕ} {s : ℝ} {C Q : ℂ} (h : Passive n s C Q) : (-0.01 : ℝ) < 90 + 57.3 * Complex.arg C ∧ 90 + 57.3 * Complex.arg C ≤ 90 := by
  have ha := Complex.abs_arg_lt_pi_div_two_iff.2 (Or.inl h.pos)
  rw [abs_lt] at ha
  have hb : Complex.arg C ≤ 0 := by
    rcases h.lag.lt_or_eq with hc | hc
    · exact (Complex.arg_neg_iff.2 hc).le
    · rw [Complex.arg_eq_zero_iff.2 ⟨h.pos.le, hc⟩]
  have hpi := Real.pi_lt_d4
  constructor
  · have := ha.1
    norm_num at hpi ⊢
    linarith
  · norm_num
    linarith

/-- Everything about the limit. -/
theorem constant_main {n : ℕ} (hn : 1 ≤ n) {T : ℝ} (hT : 0 < T) {rc : ℝ} (extra : List ℝ) {ls : List (ℝ × ℝ)} (hg : GoodShells ls rc) :
    ∃ F : ℝ → ℂ, (∀ eps, 0 < eps → respondConstant eps n T (ls.map Prod.fst ++ extra) (ls.map Prod.snd ++ [rc]) = some (ofB n T (surface ls) (F eps))) ∧
      Tendsto (fun eps => (ofB n T (surface ls) (F eps)).C) (𝓝[>] 0) (𝓝 (ofB n T (surface ls) (exactB n T rc ls)).C) ∧
      Tendsto (fun eps => (ofB n T (surface ls) (F eps)).Q) (𝓝[>] 0) (𝓝 (ofB n T (surface ls) (exactB n T rc ls)).Q) ∧
      ((∀ x ∈ shells ls rc, 3 ≤ ‖waveNumber T x.1.1 * ((1000 * x.1.2 : ℝ) : ℂ)‖) → ∀ eps, F eps = exactB n T rc ls) ∧
      Spec.CoreResponse n (2 * Real.pi / T) (4 * Real.pi * (1 / 10 ^ 7)) (uniform (inMetres ls)) (1000 * rc) (1000 * surface ls)
        (1000 * (ofB n T (surface ls) (exactB n T rc ls)).C) (ofB n T (surface ls) (exactB n T rc ls)).Q ∧
      Passive n (surface ls) (ofB n T (surface ls) (exactB n T rc ls)).C (ofB n T (surface ls) (exactB n T rc ls)).Q := by
  have hd : ∀ x ∈ shells ls rc, divisorOk n (waveNumber T x.1.1) (1000 * x.1.2) (1000 * x.2) := by
    intro x hx
    obtain ⟨h1, h2, h3⟩ := shells_mem hg hx
    exact divisorOk_of hn hT (hg.sigma _ h1) (by positivity) (by linarith)
  obtain ⟨⟨u, du, hsol, hu0, hdu0, hrel⟩, F, hF1, hF2, hF3⟩ := stack_main hn hT rc extra ls hg hd
  have hs0 : 0 < surface ls := hg.core.trans (shells_surface hg)
  have hsc : (surface ls : ℂ) ≠ 0 := by exact_mod_cast hs0.ne'
  set b := exactB n T rc ls with hb
  obtain ⟨hre, him, hresp⟩ := core_response hn (mul_nonneg (angFreq_pos hT).le mu_pos.le) (uniform_nonneg (fun l hl => by
    obtain ⟨m, hm, rfl⟩ := List.mem_map.1 hl
    exact (hg.sigma m hm).le)) (by linarith [hg.core] : 0 < 1000 * rc) (by linarith [shells_surface hg]) hsol hu0 hdu0 (p := 1 / 2 + 1000 * surface ls * b) (by
      rw [hrel]
      push_cast
      field_simp
      ring)
  set p : ℂ := 1 / 2 + 1000 * surface ls * b with hp
  have hhp := half_pos n
  have hne : (1 / 2 + p) ≠ 0 := by
    intro hc
    have := congrArg Complex.re hc
    simp only [Complex.add_re, Complex.zero_re] at this
    norm_num at this
    linarith
  have hne2 : p + half n ≠ 0 := by
    intro hc
    have := congrArg Complex.re hc
    simp only [Complex.add_re, Complex.zero_re, Complex.ofReal_re] at this
    linarith
  obtain ⟨hC, hQ⟩ := ofB_eq (n := n) (T := T) hs0 hp hne hne2
  have tp : Tendsto (fun eps => 1 / 2 + 1000 * (surface ls : ℂ) * F eps) (𝓝[>] 0) (𝓝 p) := (hF2.const_mul _).const_add _
  have tC : Tendsto (fun eps => (ofB n T (surface ls) (F eps)).C) (𝓝[>] 0) (𝓝 (ofB n T (surface ls) b).C) := by
    refine Tendsto.div tendsto_const_nhds ((hF2.const_mul _).const_add _) ?_
    intro hc
    refine hne ?_
    rw [hp]
    linear_combination hc
  have tQ : Tendsto (fun eps => (ofB n T (surface ls) (F eps)).Q) (𝓝[>] 0) (𝓝 (ofB n T (surface ls) b).Q) := by
    refine Tendsto.div ((((tC.const_mul _).div_const _).const_sub _).const_mul _) (((tC.const_mul _).div_const _).const_add _) ?_
    change 1 + (n : ℂ) * (ofB n T (surface ls) b).C / surface ls ≠ 0
    rw [hC]
    intro hc
    refine hne2 ?_
    have hh : (half n : ℂ) = n + 1 / 2 := by unfold half; push_cast; ring
    have e2 : 1 + (n : ℂ) * (surface ls / (1 / 2 + p)) / surface ls = (p + half n) / (1 / 2 + p) := by
      rw [hh]
      generalize hq : 1 / 2 + p = q at *
      field_simp
      rw [← hq]
      ring
    rw [e2] at hc
    exact (div_eq_zero_iff.1 hc).resolve_right hne
  refine ⟨F, fun eps he => ?_, tC, tQ, hF3, ?_, ?_⟩
  · rw [respondConstant_eq eps n T _ hg.nonempty, hF1 eps he]
    rfl
  · rw [hC, hQ]
    have e : (1000 * ((surface ls : ℂ) / (1 / 2 + p))) = ((1000 * surface ls : ℝ) : ℂ) / (1 / 2 + p) := by push_cast; ring
    rw [e]
    exact hresp
  · rw [hC, hQ]
    obtain ⟨h1, h2, h3, h4, h5, h6⟩ := passive_of_slope hn hre him hs0
    exact ⟨h1, h2, h3, h4, h5, h6⟩

/-! ### The theorems -/

theorem mapM_error_ex {α β ε : Type} {f : α → Except ε β} {l : List α} {e : ε} (h : l.mapM f = .error e) : ∃ a ∈ l, f a = .error e := by
  induction l with
  | nil => exact nomatch (show (Except.ok [] : Except ε (List β)) = .error e from h)
  | cons a l ih =>
    rw [List.mapM_cons] at h
    cases hf : f a with
    | error e' =>
      rw [hf] at h
      have h' : (Except.error e' : Except ε (List β)) = Except.error e := h
      injection h' with h'
      exact ⟨a, List.mem_cons_self, by rw [hf, h']⟩
    | ok b =>
      rw [hf] at h
      cases hl : l.mapM f with
      | error e' =>
        rw [hl] at h
        have h' : (Except.error e' : Except ε (List β)) = Except.error e := h
        injection h' with h'
        obtain ⟨c, hc, hfc⟩ := ih (by rw [hl, h'])
        exact ⟨c, List.mem_cons_of_mem _ hc, hfc⟩
      | ok bs =>
        rw [hl] at h
        exact nomatch (show (Except.ok (b :: bs) : Except ε (List β)) = Except.error e from h)

theorem foldlM_congr_opt {α σ : Type} {f g : σ → α → Option σ} (l : List α) (h : ∀ s, ∀ a ∈ l, f s a = g s a) (s : σ) : l.foldlM f s = l.foldlM g s := by
  induction l generalizing s with
  | nil => rfl
  | cons a l ih =>
    rw [List.foldlM_cons, List.foldlM_cons, h s a List.mem_cons_self]
    congr 1
    funext s'
    exact ih (fun s b hb => h s b (List.mem_cons_of_mem _ hb)) s'


theorem norm_wave {T sg : ℝ} (hT : 0 < T) (hs : 0 < sg) (r : ℝ) (hr : 0 ≤ r) : ‖waveNumber T sg * (r : ℂ)‖ ^ 2 = 2 * Real.pi / T * (4 * Real.pi * (1 / 10 ^ 7)) * sg * r ^ 2 := by
  obtain ⟨hk, -⟩ := waveNumber_spec hT hs
  have hw := angFreq_pos hT
  have hm := mu_pos
  rw [← norm_pow, mul_pow, hk]
  have : Complex.I * angFreq T * mu * sg * (r : ℂ) ^ 2 = Complex.I * ((angFreq T * mu * sg * r ^ 2 : ℝ) : ℂ) := by push_cast; ring
  rw [this, norm_mul, Complex.norm_I, one_mul, Complex.norm_real, Real.norm_of_nonneg (by positivity)]
  rfl

/-- **C69.** For `kind='constant'`, any degree, any period, any number of conducting layers above the core, and any precision `eps > 0` of the
power series (the code has `1e-10`), the computation ends with a result, and for ever smaller `eps` the results `C` and `Q` converge to the
exact responses of the layered sphere. The divisors of the code do not vanish. Conductivities given beyond those of the layers
(such as one for the core) have no influence. -/
theorem C69_limit {n : ℕ} (hn : 1 ≤ n) {T : ℝ} (hT : 0 < T) {rc : ℝ} (extra : List ℝ) {ls : List (ℝ × ℝ)} (hg : GoodShells ls rc) :
    ∃ (R : ℝ → Response) (C Q : ℂ),
      (∀ eps, 0 < eps → respondConstant eps n T (ls.map Prod.fst ++ extra) (ls.map Prod.snd ++ [rc]) = some (R eps)) ∧
      qResponse1D (.array [T]) (ls.map Prod.fst ++ extra) (ls.map Prod.snd ++ [rc]) n (some "constant") = .ok [R (1 / 10 ^ 10)] ∧
      Tendsto (fun eps => (R eps).C) (𝓝[>] 0) (𝓝 C) ∧ Tendsto (fun eps => (R eps).Q) (𝓝[>] 0) (𝓝 Q) ∧
      Spec.CoreResponse n (2 * Real.pi / T) (4 * Real.pi * (1 / 10 ^ 7)) (uniform (inMetres ls)) (1000 * rc) (1000 * surface ls) (1000 * C) Q ∧
      Passive n (surface ls) C Q := by
  obtain ⟨F, h1, h2, h3, -, h5, h6⟩ := constant_main hn hT extra hg
  have hlen : ¬ ((ls.map Prod.snd ++ [rc]).length < 2) := by
    have : 0 < ls.length := List.length_pos_iff.2 hg.nonempty
    simp only [List.length_append, List.length_map, List.length_singleton]
    omega
  have hlen2 : ¬ ((ls.map Prod.fst ++ extra).length < (ls.map Prod.snd ++ [rc]).length - 1) := by
    simp only [List.length_append, List.length_map, List.length_singleton]
    omega
  refine ⟨_, _, _, h1, ?_, h2, h3, h5, h6⟩
  unfold qResponse1D
  simp only [Option.getD_some]
  rw [if_pos trivial]
  unfold constantBranch
  simp only
  rw [List.mapM_cons, if_neg hlen, if_neg hlen2, h1 (1 / 10 ^ 10) (by positivity)]
  rfl

/-- **C69.** The precision of the power series. Where they are used (`|z| < 3`), the loop ends with the sums of the two series up to `eps` and `9 eps`
(for the code, `eps = 1e-10`), not only with small last terms. -/
theorem C69_series {n : ℕ} (hn : 1 ≤ n) {z : ℂ} (hz : ‖z‖ < 3) {eps : ℝ} (he : 0 < eps) (he1 : eps < 1) :
    ∃ s P Q, Series.loop eps n z = some s ∧ ‖s.p - P‖ ≤ eps ∧ ‖s.q - Q‖ ≤ 9 * eps ∧
      HasSum (fun j : ℕ => z ^ (2 * j) / ∏ k ∈ Finset.range j, (2 * ((k : ℂ) + 1) * (2 * ((k : ℂ) + 1) + (2 * n + 1)))) P ∧
      HasSum (fun j : ℕ => z ^ (2 * j) / ∏ k ∈ Finset.range j, (2 * ((k : ℂ) + 1) * (2 * ((k : ℂ) + 1) - (2 * n + 1)))) Q := by
  have hx : ‖z ^ 2‖ < 9 := by
    rw [norm_pow]
    nlinarith [norm_nonneg z]
  obtain ⟨h1, h2⟩ := passes_spec n z he
  obtain ⟨e1, e2, e3, e4, -, -⟩ := after_eq n z (passes n z eps)
  have hp := passes_pos n z he he1
  rw [e1] at h1
  rw [e2] at h2
  refine ⟨_, phi (n + 1) (z ^ 2), phi (-n) (z ^ 2), loop_eq n z he, ?_, ?_, ?_, ?_⟩
  · rw [e3, norm_sub_rev]
    exact (tail_p hn hx hp).trans h1
  · rw [e4, norm_sub_rev]
    exact (tail_q hn hx hp).trans (by linarith)
  · refine ((frob_entire (n + 1)).hasSum (z ^ 2)).congr_fun fun j => ?_
    rw [frob_prod, ← pow_mul, one_div_mul_eq_div]
    congr 1
    refine Finset.prod_congr rfl fun k _ => ?_
    push_cast
    ring
  · refine ((frob_entire (-n)).hasSum (z ^ 2)).congr_fun fun j => ?_
    rw [frob_prod, ← pow_mul, one_div_mul_eq_div]
    congr 1
    refine Finset.prod_congr rfl fun k _ => ?_
    push_cast
    ring

/-- **C69.** If every layer is thick compared to its skin depth, `w mu sigma r^2 >= 9` at its top, no series is needed and the results of
`q_response_1D(..., kind='constant')` are the exact responses, period by period in the given order; the signs are right, the phase lies
between -0.01 and 90 degrees, and the resistance is the real number `w mu |C|^2` (with `C` in metres). -/
theorem C69_exact {n : ℕ} (hn : 1 ≤ n) (Ts : List ℝ) (hT : ∀ T ∈ Ts, 0 < T) {rc : ℝ} (extra : List ℝ) {ls : List (ℝ × ℝ)} (hg : GoodShells ls rc)
    (hthick : ∀ T ∈ Ts, ∀ l ∈ ls, 9 ≤ 2 * Real.pi / T * (4 * Real.pi * (1 / 10 ^ 7)) * l.1 * (1000 * l.2) ^ 2) :
    ∃ Rs, qResponse1D (.array Ts) (ls.map Prod.fst ++ extra) (ls.map Prod.snd ++ [rc]) n (some "constant") = .ok Rs ∧
      List.Forall₂ (fun T (R : Response) =>
        Spec.CoreResponse n (2 * Real.pi / T) (4 * Real.pi * (1 / 10 ^ 7)) (uniform (inMetres ls)) (1000 * rc) (1000 * surface ls) (1000 * R.C) R.Q ∧
        Passive n (surface ls) R.C R.Q ∧ R.rhoA = ((2 * Real.pi / T * (4 * Real.pi * (1 / 10 ^ 7)) * ‖1000 * R.C‖ ^ 2 : ℝ) : ℂ) ∧
        (-0.01 : ℝ) < R.phi ∧ R.phi ≤ 90) Ts Rs := by
  have hlen : ¬ ((ls.map Prod.snd ++ [rc]).length < 2) := by
    have : 0 < ls.length := List.length_pos_iff.2 hg.nonempty
    simp only [List.length_append, List.length_map, List.length_singleton]
    omega
  have hlen2 : ¬ ((ls.map Prod.fst ++ extra).length < (ls.map Prod.snd ++ [rc]).length - 1) := by
    simp only [List.length_append, List.length_map, List.length_singleton]
    omega
  refine ⟨Ts.map fun T => ofB n T (surface ls) (exactB n T rc ls), ?_, ?_⟩
  · unfold qResponse1D
    simp only [Option.getD_some]
    rw [if_pos trivial]
    unfold constantBranch
    simp only
    refine Synth.mapM_map _ _ _ fun T hTm => ?_
    rw [if_neg hlen, if_neg hlen2]
    obtain ⟨F, h1, -, -, h4, -, -⟩ := constant_main hn (hT T hTm) extra hg
    rw [h1 (1 / 10 ^ 10) (by positivity)]
    rw [h4 (fun x hx => ?_)]
    obtain ⟨k1, k2, k3⟩ := shells_mem hg hx
    have e := norm_wave (hT T hTm) (hg.sigma _ k1) (1000 * x.1.2) (by linarith)
    have := hthick T hTm x.1 k1
    rw [← e] at this
    nlinarith [norm_nonneg (waveNumber T x.1.1 * ((1000 * x.1.2 : ℝ) : ℂ))]
  · rw [List.forall₂_map_right_iff, List.forall₂_same]
    intro T hTm
    obtain ⟨F, -, -, -, -, h5, h6⟩ := constant_main hn (hT T hTm) extra hg
    refine ⟨h5, h6, ?_, phase_of_passive h6⟩
    show ((1 / 10 ^ 7 * 8 * Real.pi ^ 2 / T * ‖(ofB n T (surface ls) (exactB n T rc ls)).C * 1000‖ ^ 2 : ℝ) : ℂ) = _
    rw [mul_comm _ (1000 : ℂ)]
    congr 1
    ring

/-- **C69**: the exact responses depend only on the conductivity as a function of the radius (above the core), not on how it is cut into layers. -/
theorem C69_profile {n : ℕ} {w m : ℝ} {ls ms : List (ℝ × ℝ)} {rc r0 : ℝ} {C Q C' Q' : ℂ} {S : Set ℝ} (hS : S.Finite)
    (heq : ∀ r, rc < r → r < r0 → r ∉ S → uniform ls r = uniform ms r) (h : Spec.CoreResponse n w m (uniform ls) rc r0 C Q)
    (h' : Spec.CoreResponse n w m (uniform ms) rc r0 C' Q') : C = C' ∧ Q = Q' := response_unique hS heq h h'

/-- **C69**: the power series end for every argument, degree and positive precision, so the call never hangs. -/
theorem C69_terminates :
    (∀ (eps : ℝ) (n : ℕ) (z : ℂ), 0 < eps → ∃ s, Series.loop eps n z = some s) ∧
    ∀ (periods : Periods) (sigma radius : List ℝ) (n : ℕ) (kind : Option String), qResponse1D periods sigma radius n kind ≠ .error .endless := by
  have hl : ∀ (eps : ℝ) (n : ℕ) (z : ℂ), 0 < eps → ∃ s, Series.loop eps n z = some s := fun eps n z he => ⟨_, loop_eq n z he⟩
  have hq : ∀ (eps : ℝ) (n : ℕ) (k : ℂ) (r r1 : ℝ), 0 < eps → ∃ v, layerQuotients eps n k r r1 = some v := by
    intro eps n k r r1 he
    unfold layerQuotients
    simp only
    split_ifs
    · obtain ⟨s0, h0⟩ := hl eps n (k * r * 1000) he
      obtain ⟨s1, h1⟩ := hl eps n (k * r1 * 1000) he
      rw [h0, h1]
      exact ⟨_, rfl⟩
    · exact ⟨_, rfl⟩
  have hB : ∀ (eps : ℝ) (n : ℕ) (T : ℝ) (sigma radius : List ℝ), 0 < eps → ∃ b, constantB eps n T sigma radius = some b := by
    intro eps n T sigma radius he
    unfold constantB
    simp only
    generalize (List.range (radius.length - 2 + 1)).reverse = L
    generalize (0 : ℂ) = b0
    induction L generalizing b0 with
    | nil => exact ⟨b0, rfl⟩
    | cons i L ih =>
      rw [List.foldlM_cons]
      obtain ⟨v, hv⟩ := hq eps n (waveNumber T (sigma.getD i 0)) (radius.getD i 0) (radius.getD (i + 1) 0) he
      rw [hv]
      exact ih _
  refine ⟨hl, fun periods sigma radius n kind h => ?_⟩
  unfold qResponse1D at h
  simp only at h
  split_ifs at h with h1 h2 h3
  · unfold constantBranch at h
    cases periods with
    | scalar T => simp at h
    | array Ts =>
      simp only at h
      obtain ⟨T, -, hT⟩ := mapM_error_ex h
      split_ifs at hT with h4 h5
      · simp at hT
      · simp at hT
      · obtain ⟨b, hb⟩ := hB (1 / 10 ^ 10) n T sigma radius (by positivity)
        unfold respondConstant at hT
        rw [hb] at hT
        simp at hT
  · injection h with h; exact Error.noConfusion h
  · cases periods <;> simp only at h <;> first | exact nomatch h | (injection h with h; exact Error.noConfusion h)
  · cases periods <;> simp only at h <;> exact nomatch h
  · injection h with h; exact Error.noConfusion h

/-- **C69** (finding): a scalar period is a TypeError; without a layer above the core there is an UnboundLocalError; missing conductivities are an
IndexError; otherwise there is one result per period. -/
theorem C69_outcome (sigma radius : List ℝ) (n : ℕ) :
    (∀ T, qResponse1D (.scalar T) sigma radius n (some "constant") = .error .typeError) ∧
    (∀ Ts, Ts ≠ [] → radius.length < 2 → qResponse1D (.array Ts) sigma radius n (some "constant") = .error .unboundLocal) ∧
    (∀ Ts, Ts ≠ [] → 2 ≤ radius.length → sigma.length < radius.length - 1 → qResponse1D (.array Ts) sigma radius n (some "constant") = .error .indexError) ∧
    (∀ Ts, 2 ≤ radius.length → radius.length - 1 ≤ sigma.length →
      ∃ Rs, qResponse1D (.array Ts) sigma radius n (some "constant") = .ok Rs ∧ Rs.length = Ts.length) := by
  have hcb : ∀ periods, qResponse1D periods sigma radius n (some "constant") = constantBranch periods sigma radius n := fun periods => by
    unfold qResponse1D
    simp only [Option.getD_some]
    rw [if_pos trivial]
  refine ⟨fun T => by rw [hcb]; rfl, fun Ts hne h => ?_, fun Ts hne h h2 => ?_, fun Ts h h2 => ?_⟩
  · rw [hcb]
    obtain ⟨T, Ts, rfl⟩ := List.exists_cons_of_ne_nil hne
    unfold constantBranch
    simp only [List.mapM_cons, if_pos h]
    rfl
  · rw [hcb]
    obtain ⟨T, Ts, rfl⟩ := List.exists_cons_of_ne_nil hne
    unfold constantBranch
    simp only [List.mapM_cons, if_neg (not_lt.2 h), if_pos h2]
    rfl
  · cases hr : qResponse1D (.array Ts) sigma radius n (some "constant") with
    | error e =>
      exfalso
      have hne := C69_terminates.2 (.array Ts) sigma radius n (some "constant")
      rw [hr] at hne
      rw [hcb] at hr
      unfold constantBranch at hr
      simp only at hr
      obtain ⟨T, -, hT⟩ := mapM_error_ex hr
      rw [if_neg (not_lt.2 h), if_neg (not_lt.2 h2)] at hT
      split at hT
      · simp only [Except.error.injEq] at hT
        exact hne (by rw [← hT])
      · simp at hT
    | ok Rs =>
      refine ⟨Rs, rfl, ?_⟩
      rw [hcb] at hr
      unfold constantBranch at hr
      simp only at hr
      exact ((Synth.mapM_ok _ _ _).1 hr).length_eq.symm

/-- **C69**: of the conductivities only one per layer is used; the last one, of the core, is ignored. -/
theorem C69_core_unused (periods : Periods) {sigma sigma' : List ℝ} (radius : List ℝ) (n : ℕ) (h : sigma.take (radius.length - 1) = sigma'.take (radius.length - 1)) :
    qResponse1D periods sigma radius n (some "constant") = qResponse1D periods sigma' radius n (some "constant") := by
  have hlen : (sigma.length < radius.length - 1) = (sigma'.length < radius.length - 1) := by
    have := congrArg List.length h
    rw [List.length_take, List.length_take] at this
    apply propext
    constructor <;> intro hh <;> omega
  have hget : ∀ i, i < radius.length - 1 → sigma.getD i 0 = sigma'.getD i 0 := by
    intro i hi
    have := congrArg (fun l : List ℝ => l.getD i 0) h
    simpa [List.getD_eq_getElem?_getD, List.getElem?_take, hi] using this
  unfold qResponse1D
  simp only [Option.getD_some]
  rw [if_pos trivial, if_pos trivial]
  unfold constantBranch
  cases periods with
  | scalar T => rfl
  | array Ts =>
    simp only
    congr 1
    funext T
    by_cases h2 : radius.length < 2
    · rw [if_pos h2, if_pos h2]
    · rw [if_neg h2, if_neg h2]
      have hB : respondConstant (1 / 10 ^ 10) n T sigma radius = respondConstant (1 / 10 ^ 10) n T sigma' radius := by
        unfold respondConstant constantB
        simp only
        congr 1
        refine foldlM_congr_opt _ (fun b il hil => ?_) _
        rw [List.mem_reverse, List.mem_range] at hil
        rw [hget il (by omega)]
      simp only [hlen, hB]

/-- The hypotheses are met: a mantle of two layers above the core, periods of a day and of a month. -/
theorem ex_shells : GoodShells [(0.5, 6371.2), (2, 5700)] 3480 ∧ surface [(0.5, 6371.2), (2, 5700)] = 6371.2 := by
  refine ⟨⟨by simp, ?_, by norm_num, ?_, ?_⟩, rfl⟩
  · intro l hl; simp at hl; rcases hl with rfl | rfl <;> norm_num
  · intro l hl; simp at hl; rcases hl with rfl | rfl <;> norm_num
  · simp; norm_num

theorem ex_thick : ∀ T ∈ [86400, 2592000], ∀ l ∈ [((0.5 : ℝ), (6371.2 : ℝ)), (2, 5700)], 9 ≤ 2 * Real.pi / T * (4 * Real.pi * (1 / 10 ^ 7)) * l.1 * (1000 * l.2) ^ 2 := by
  have hpi : (9 : ℝ) ≤ Real.pi ^ 2 := by nlinarith [Real.pi_gt_three]
  intro T hT l hl
  simp at hT hl
  rcases hT with rfl | rfl <;> rcases hl with rfl | rfl <;> norm_num <;> nlinarith

end ChaosMagPy.QResponse
