import Verif.Model.FloatModel
import Verif.Props.FloatField
import Verif.Props.FloatLinear
import Verif.Props.Index
import Verif.Props.ChaosField
/-!
# C106: the field of a spline model in double precision
-/
namespace ChaosMagPy.FloatModel
open ChaosMagPy.Spec ChaosMagPy.FloatLegendre ChaosMagPy.Synth
open ChaosMagPy.PPoly (Base Extrap)

variable (R : Rounding)

theorem evalPoly_le (k : ℕ) (a : ℕ → ℝ) (nu : ℕ) (s : ℝ) : |PPoly.evalPoly k a nu s| ≤ PPoly.magnitude k a nu s := by
  unfold PPoly.evalPoly PPoly.magnitude
  refine (Finset.abs_sum_le_sum_abs _ _).trans (Finset.sum_le_sum fun p _ => ?_)
  split_ifs
  · rw [abs_mul, abs_mul, abs_pow, Nat.abs_cast]
  · rw [abs_zero]
    positivity

theorem magnitude_nonneg (k : ℕ) (a : ℕ → ℝ) (nu : ℕ) (s : ℝ) : 0 ≤ PPoly.magnitude k a nu s := (abs_nonneg _).trans (evalPoly_le k a nu s)

theorem sub_R (src : Source) (a : ℝ) (c c' : ℕ → ℝ) (nmin nmax M : ℕ) (r x y : ℝ) :
    fieldR src a c nmin nmax M r x y - fieldR src a c' nmin nmax M r x y = fieldR src a (fun i => c i - c' i) nmin nmax M r x y := by
  unfold fieldR
  rw [← Finset.sum_sub_distrib]
  refine Finset.sum_congr rfl fun n _ => ?_
  rw [← Finset.sum_sub_distrib]
  refine Finset.sum_congr rfl fun m _ => ?_
  unfold coefG coefH
  by_cases h : m = 0 <;> simp only [h, if_true, if_false] <;> ring

theorem sub_T (src : Source) (a : ℝ) (c c' : ℕ → ℝ) (nmin nmax M : ℕ) (r x y : ℝ) :
    fieldT src a c nmin nmax M r x y - fieldT src a c' nmin nmax M r x y = fieldT src a (fun i => c i - c' i) nmin nmax M r x y := by
  unfold fieldT
  rw [← Finset.sum_sub_distrib]
  refine Finset.sum_congr rfl fun n _ => ?_
  rw [← Finset.sum_sub_distrib]
  refine Finset.sum_congr rfl fun m _ => ?_
  unfold coefG coefH
  by_cases h : m = 0 <;> simp only [h, if_true, if_false] <;> ring

theorem sub_P (src : Source) (a : ℝ) (c c' : ℕ → ℝ) (nmin nmax M : ℕ) (r x y : ℝ) :
    fieldP src a c nmin nmax M r x y - fieldP src a c' nmin nmax M r x y = fieldP src a (fun i => c i - c' i) nmin nmax M r x y := by
  unfold fieldP
  rw [← Finset.sum_sub_distrib]
  refine Finset.sum_congr rfl fun n _ => ?_
  rw [← Finset.sum_sub_distrib]
  refine Finset.sum_congr rfl fun m _ => ?_
  unfold coefG coefH
  by_cases h : m = 0 <;> simp only [h, if_true, if_false] <;> ring

theorem coefG_le {c μ : ℕ → ℝ} {k d : ℝ} (h : ∀ i, |c i| ≤ k * |μ i| + d) (nmin M n m : ℕ) : |coefG c nmin M n m| ≤ k * |coefG μ nmin M n m| + d := h _

theorem coefH_le {c μ : ℕ → ℝ} {k d : ℝ} (hd : 0 ≤ d) (h : ∀ i, |c i| ≤ k * |μ i| + d) (nmin M n m : ℕ) : |coefH c nmin M n m| ≤ k * |coefH μ nmin M n m| + d := by
  unfold coefH
  by_cases hm : m = 0
  · simp only [hm, if_true, abs_zero, mul_zero, zero_add]
    exact hd
  · simp only [hm, if_false]
    exact h _

theorem weight_nonneg {radial : ℕ → ℝ} (hr : ∀ n, 0 ≤ radial n) (n : ℕ) : 0 ≤ ((n : ℝ) + 1) * (5 / 2) ^ n * radial n := mul_nonneg (by positivity) (hr n)

/-- Monotony of the error bound. -/
theorem errorBound_le {c μ : ℕ → ℝ} (h : ∀ i, |c i| ≤ 2 * |μ i|) {radial : ℕ → ℝ} (hr : ∀ n, 0 ≤ radial n) {s : ℝ} (hs : 0 < s) (nmin nmax M : ℕ) :
    errorBound c nmin nmax M radial s ≤ 2 * errorBound μ nmin nmax M radial s := by
  unfold errorBound
  rw [mul_left_comm]
  refine mul_le_mul_of_nonneg_left ?_ (by positivity)
  rw [sum2_mul]
  refine Finset.sum_le_sum fun n _ => Finset.sum_le_sum fun m _ => ?_
  have g := coefG_le (k := 2) (d := 0) (fun i => (h i).trans (le_of_eq (by ring))) nmin M n m
  have k := coefH_le (k := 2) (d := 0) le_rfl (fun i => (h i).trans (le_of_eq (by ring))) nmin M n m
  rw [mul_left_comm]
  refine mul_le_mul_of_nonneg_left ?_ (weight_nonneg hr n)
  have : (0 : ℝ) ≤ 2⁻¹ ^ 300 := by positivity
  linarith

/-- The size of a field with small coefficients. -/
theorem fieldSize_le {c μ : ℕ → ℝ} (h : ∀ i, |c i| ≤ 2⁻¹ ^ 46 * |μ i| + 2⁻¹ ^ 100) (hμ : ∀ i, 2⁻¹ ^ 50 ≤ |μ i|) {radial : ℕ → ℝ} (hr : ∀ n, 0 ≤ radial n) {s : ℝ} (hs : 0 < s) (hs1 : s ≤ 1)
    {nmin nmax : ℕ} (hn : 1 ≤ nmax) (M : ℕ) : fieldSize c nmin nmax M radial s ≤ errorBound μ nmin nmax M radial s := by
  unfold fieldSize errorBound
  have key : ∑ n ∈ Finset.Icc nmin nmax, ∑ m ∈ Finset.range (min n M + 1), ((n : ℝ) + 1) * (5 / 2) ^ n * radial n * (|coefG c nmin M n m| + |coefH c nmin M n m| + 2⁻¹ ^ 300) ≤
      2⁻¹ ^ 41 * ∑ n ∈ Finset.Icc nmin nmax, ∑ m ∈ Finset.range (min n M + 1), ((n : ℝ) + 1) * (5 / 2) ^ n * radial n * (|coefG μ nmin M n m| + |coefH μ nmin M n m| + 2⁻¹ ^ 300) := by
    rw [sum2_mul]
    refine Finset.sum_le_sum fun n _ => Finset.sum_le_sum fun m _ => ?_
    have g := coefG_le h nmin M n m
    have k := coefH_le (by positivity) h nmin M n m
    have g0 : (2⁻¹ : ℝ) ^ 50 ≤ |coefG μ nmin M n m| := hμ _
    have k0 := abs_nonneg (coefH μ nmin M n m)
    rw [mul_left_comm]
    refine mul_le_mul_of_nonneg_left ?_ (weight_nonneg hr n)
    have t : (2⁻¹ : ℝ) ^ 300 ≤ 2⁻¹ ^ 100 := pow_le_pow_of_le_one (by norm_num) (by norm_num) (by norm_num)
    have t0 : (0 : ℝ) ≤ 2⁻¹ ^ 300 := by positivity
    generalize (2⁻¹ : ℝ) ^ 300 = u at *
    generalize |coefG μ nmin M n m| = x at *
    generalize |coefH μ nmin M n m| = y at *
    clear h hμ hr hs hs1
    norm_num at g k g0 t ⊢
    linarith
  have S0 : 0 ≤ ∑ n ∈ Finset.Icc nmin nmax, ∑ m ∈ Finset.range (min n M + 1), ((n : ℝ) + 1) * (5 / 2) ^ n * radial n * (|coefG μ nmin M n m| + |coefH μ nmin M n m| + 2⁻¹ ^ 300) :=
    Finset.sum_nonneg fun n _ => Finset.sum_nonneg fun m _ => mul_nonneg (weight_nonneg hr n) (by positivity)
  refine (mul_le_mul_of_nonneg_left key (by positivity)).trans ?_
  rw [← mul_assoc]
  refine mul_le_mul_of_nonneg_right ?_ S0
  have h1 : (1 : ℝ) ≤ (nmax : ℝ) ^ 2 := one_le_pow₀ (by exact_mod_cast hn)
  have h3 : s ^ 3 ≤ s := by
    calc s ^ 3 = s * s ^ 2 := by ring
      _ ≤ s * 1 := mul_le_mul_of_nonneg_left (pow_le_one₀ hs.le hs1) hs.le
      _ = s := mul_one s
  rw [div_mul_eq_mul_div, div_le_div_iff₀ hs (by positivity)]
  have h4 : (2 : ℝ) * 2⁻¹ ^ 41 * s ^ 3 ≤ 2⁻¹ ^ 40 * s := by
    rw [show (2 : ℝ) * 2⁻¹ ^ 41 = 2⁻¹ ^ 40 by norm_num]
    exact mul_le_mul_of_nonneg_left h3 (by positivity)
  refine h4.trans ?_
  have h5 : 0 ≤ (2⁻¹ : ℝ) ^ 40 * s := by positivity
  calc (2⁻¹ : ℝ) ^ 40 * s = 1 * (2⁻¹ ^ 40 * s) := (one_mul _).symm
    _ ≤ (nmax : ℝ) ^ 2 * (2⁻¹ ^ 40 * s) := mul_le_mul_of_nonneg_right h1 h5
    _ = _ := by ring

/-- Field values for coefficients with errors. -/
theorem core {C Sn : ℝ → ℝ} (hC : IsCosine C) (hS : IsSine Sn) (P : FloatSpectrum.Power) (src : Source) {a : ℝ} (ha : 0 < a) {n : ℕ} (h1 : 1 ≤ n) (hmax : n ≤ 250) {v w μ : ℕ → ℝ}
    (hv : ∀ i, |v i| ≤ μ i) (hμ : ∀ i, μ i ≤ 2 ^ 58) (hw : ∀ i, |w i - v i| ≤ 2⁻¹ ^ 46 * μ i + 2⁻¹ ^ 100) {r θ φ : ℝ} (hr1 : a / 4 ≤ r) (hr2 : r ≤ 4 * a)
    (h0 : 0 ≤ θ) (h180 : θ ≤ 180) (hs : 2⁻¹ ^ 13 ≤ Real.sin (rad θ)) (hφ : |φ| ≤ 360) :
    ∃ br bt bp, synthPoint R C Sn P.fn a (decide (src = .internal)) 1 n n (fun i => some (w i)) r θ φ = .ok ⟨some br, some bt, some bp⟩ ∧
      |br - fieldR src a v 1 n n r (rad θ) (rad φ)| ≤ 3 * errorBound (fun i => μ i + 2⁻¹ ^ 50) 1 n n (rpow src (r / a)) (Real.sin (rad θ)) ∧
      |bt - fieldT src a v 1 n n r (rad θ) (rad φ)| ≤ 3 * errorBound (fun i => μ i + 2⁻¹ ^ 50) 1 n n (rpow src (r / a)) (Real.sin (rad θ)) ∧
      |bp - fieldP src a v 1 n n r (rad θ) (rad φ)| ≤ 3 * errorBound (fun i => μ i + 2⁻¹ ^ 50) 1 n n (rpow src (r / a)) (Real.sin (rad θ)) := by
  have hμ0 : ∀ i, 0 ≤ μ i := fun i => (abs_nonneg _).trans (hv i)
  have habs : ∀ i, |μ i + 2⁻¹ ^ 50| = μ i + 2⁻¹ ^ 50 := fun i => abs_of_nonneg (add_nonneg (hμ0 i) (by positivity))
  have b1 : ∀ i, |w i| ≤ 2 * |μ i + 2⁻¹ ^ 50| := by
    intro i
    have t := abs_add_le (w i - v i) (v i)
    rw [sub_add_cancel] at t
    have q1 := hv i
    have q2 := hw i
    have q3 := hμ0 i
    rw [habs]
    norm_num at q2 ⊢
    linarith
  have b2 : ∀ i, |w i| ≤ 2 ^ 60 := by
    intro i
    have t := b1 i
    have q := hμ i
    rw [habs] at t
    norm_num at t q ⊢
    linarith
  have b3 : ∀ i, |w i - v i| ≤ 2⁻¹ ^ 46 * |μ i + 2⁻¹ ^ 50| + 2⁻¹ ^ 100 := by
    intro i
    rw [habs]
    refine (hw i).trans ?_
    norm_num
  have b4 : ∀ i, |w i - v i| ≤ 2 ^ 60 := by
    intro i
    have t := hw i
    have q := hμ i
    norm_num at t q ⊢
    linarith
  have hpos : 0 < Real.sin (rad θ) := lt_of_lt_of_le (by positivity) hs
  have hrad : ∀ k, 0 ≤ rpow src (r / a) k := by
    intro k
    have : 0 < r / a := div_pos (by linarith) ha
    cases src <;> exact (zpow_pos this _).le
  obtain ⟨br, bt, bp, e, ⟨k1, k2, k3⟩, -⟩ := field_accuracy R hC hS P src ha le_rfl h1 hmax (M := n) b2 hr1 hr2 h0 h180 hs hφ
  obtain ⟨-, -, -, -, -, s1, s2, s3⟩ := field_accuracy R hC hS P src ha le_rfl h1 hmax (M := n) b4 hr1 hr2 h0 h180 hs hφ
  have E := errorBound_le b1 hrad hpos 1 n n
  have F := fieldSize_le (M := n) (nmin := 1) b3 (fun i => by rw [habs]; linarith [hμ0 i]) hrad hpos (Real.sin_le_one _) h1
  refine ⟨br, bt, bp, e, ?_, ?_, ?_⟩
  · have t := abs_add_le (br - fieldR src a w 1 n n r (rad θ) (rad φ)) (fieldR src a w 1 n n r (rad θ) (rad φ) - fieldR src a v 1 n n r (rad θ) (rad φ))
    rw [sub_add_sub_cancel, sub_R] at t
    linarith
  · have t := abs_add_le (bt - fieldT src a w 1 n n r (rad θ) (rad φ)) (fieldT src a w 1 n n r (rad θ) (rad φ) - fieldT src a v 1 n n r (rad θ) (rad φ))
    rw [sub_add_sub_cancel, sub_T] at t
    linarith
  · have t := abs_add_le (bp - fieldP src a w 1 n n r (rad θ) (rad φ)) (fieldP src a w 1 n n r (rad θ) (rad φ) - fieldP src a v 1 n n r (rad θ) (rad φ))
    rw [sub_add_sub_cancel, sub_P] at t
    linarith

/-- The degree that is used: all degrees of the model, unless a smaller one is asked for. -/
def usedDegree (N : ℕ) (nmax : Option ℕ) : ℕ := min N (nmax.getD N)

theorem clip_eq (N : ℕ) (nmax : Option ℕ) : Chaos.clipNmax N nmax = usedDegree N nmax := by
  cases nmax with
  | none => simp [Chaos.clipNmax, usedDegree]
  | some m =>
    simp only [Chaos.clipNmax, usedDegree, Option.getD_some]
    split_ifs <;> omega

theorem degrees_le {n N : ℕ} (h : n ≤ N) : n * (n + 2) ≤ N * (N + 2) := Nat.mul_le_mul h (by omega)

/-- The bound of the errors of the field. -/
noncomputable def fieldBound (μ : ℕ → ℝ) (n : ℕ) (radial : ℕ → ℝ) (s : ℝ) : ℝ := 3 * errorBound (fun i => μ i + 2⁻¹ ^ 50) 1 n n radial s

/-- The numbers of a row, zero beyond the degree that is used. -/
noncomputable def upTo (n : ℕ) (v : ℕ → ℝ) : ℕ → ℝ := fun d => if d < n * (n + 2) then v d else 0

/-- Potential of a source. -/
noncomputable def potOf (src : Source) (a : ℝ) (v : ℕ → ℝ) (n : ℕ) (r θ φ : ℝ) : ℝ :=
  match src with
  | .internal => potInt a v 1 n n r θ φ
  | .external => potExt a v 1 n n r θ φ

/-- Ratio of the radii that belongs to degree `k`. -/
noncomputable def ratioOf (src : Source) (a r : ℝ) : ℕ → ℝ :=
  match src with
  | .internal => fun k => (a / r) ^ (k + 2)
  | .external => fun k => (r / a) ^ (k - 1)

/-- The name of a source. -/
def nameOf : Source → String
  | .internal => "internal"
  | .external => "external"

/-- The field at one point, from the coefficients at one time. -/
theorem assemble {C Sn : ℝ → ℝ} (hC : IsCosine C) (hS : IsSine Sn) (P : FloatSpectrum.Power) (src : Source) {a : ℝ} (ha : 0 < a) {m : Chaos.Model} {N : ℕ} (hdim : m.base.dim = N * (N + 2)) (hsrc : m.source = nameOf src)
    {nmax deriv : Option ℕ} {e : Option Extrap} {t : ℝ} (h1 : 1 ≤ usedDegree N nmax) (hmax : usedDegree N nmax ≤ 250) {rows : List (Option (ℕ → ℝ))} {w v μ : ℕ → ℝ}
    (hrows : m.base.synthCoeffsF R [t] (some (usedDegree N nmax * (usedDegree N nmax + 2))) deriv e = .ok (PPoly.columns m.base (some (usedDegree N nmax * (usedDegree N nmax + 2))), rows)) (hrow : rows[0]? = some (some w))
    (hv : ∀ d < usedDegree N nmax * (usedDegree N nmax + 2), |v d| ≤ μ d) (hμ : ∀ d < usedDegree N nmax * (usedDegree N nmax + 2), μ d ≤ 2 ^ 58)
    (hw : ∀ d < m.base.dim, |w d - v d| ≤ 2 ^ (-46 : ℤ) * μ d + 2 ^ (-100 : ℤ)) {r θ φ : ℝ} (hr1 : a / 4 ≤ r) (hr2 : r ≤ 4 * a)
    (h0 : 0 ≤ θ) (h180 : θ ≤ 180) (hs : 2⁻¹ ^ 13 ≤ Real.sin (rad θ)) (hφ : |φ| ≤ 360) :
    ∃ br bt bp Br Bt Bp, modelPoint R C Sn P.fn a m nmax deriv e t r θ φ = .ok ⟨some br, some bt, some bp⟩ ∧
      HasDerivAt (fun r' => potOf src a (upTo (usedDegree N nmax) v) (usedDegree N nmax) r' (rad θ) (rad φ)) (-Br) r ∧
      HasDerivAt (fun x => potOf src a (upTo (usedDegree N nmax) v) (usedDegree N nmax) r x (rad φ)) (-(r * Bt)) (rad θ) ∧
      HasDerivAt (fun y => potOf src a (upTo (usedDegree N nmax) v) (usedDegree N nmax) r (rad θ) y) (-(r * Real.sin (rad θ) * Bp)) (rad φ) ∧
      |br - Br| ≤ fieldBound (upTo (usedDegree N nmax) μ) (usedDegree N nmax) (ratioOf src a r) (Real.sin (rad θ)) ∧
      |bt - Bt| ≤ fieldBound (upTo (usedDegree N nmax) μ) (usedDegree N nmax) (ratioOf src a r) (Real.sin (rad θ)) ∧
      |bp - Bp| ≤ fieldBound (upTo (usedDegree N nmax) μ) (usedDegree N nmax) (ratioOf src a r) (Real.sin (rad θ)) := by
  generalize hn : usedDegree N nmax = n at *
  have hnN : n ≤ N := by rw [← hn]; exact min_le_left _ _
  have hcol : PPoly.columns m.base (some (n * (n + 2))) = n * (n + 2) := by
    have := degrees_le hnN
    simp only [PPoly.columns]
    rw [if_neg (by omega)]
  have hp : modelPoint R C Sn P.fn a m nmax deriv e t r θ φ =
      match synthPoint R C Sn P.fn a (decide (src = .internal)) 1 n n (fun i => some (upTo n w i)) r θ φ with
      | .error e => .error (.inr e)
      | .ok f => .ok f := by
    unfold modelPoint
    have hint : decide (m.source = "internal") = decide (src = .internal) := by
      rw [hsrc]
      cases src <;> simp [nameOf]
    simp only [hdim, Chaos.hdimN, clip_eq, hn]
    rw [hrows]
    simp only [hrow, hcol, hint]
    rfl
  have hle : ∀ d, d < n * (n + 2) → d < m.base.dim := by
    intro d hd
    have := degrees_le hnN
    omega
  obtain ⟨br, bt, bp, e1, k1, k2, k3⟩ := core R hC hS P src ha h1 hmax (v := upTo n v) (w := upTo n w) (μ := upTo n μ)
    (by
      intro i
      unfold upTo
      split_ifs with h
      · exact hv i h
      · simp)
    (by
      intro i
      unfold upTo
      split_ifs with h
      · exact hμ i h
      · positivity)
    (by
      intro i
      unfold upTo
      split_ifs with h
      · refine (hw i (hle i h)).trans (le_of_eq ?_)
        norm_num
      · rw [sub_zero, abs_zero]
        positivity) hr1 hr2 h0 h180 hs hφ
  obtain ⟨d1, d2, d3⟩ := field_gradient src a ha (upTo n v) 1 n n r (rad θ) (rad φ) (by linarith)
  have hb : errorBound (fun i => upTo n μ i + 2⁻¹ ^ 50) 1 n n (rpow src (r / a)) (Real.sin (rad θ)) = errorBound (fun i => upTo n μ i + 2⁻¹ ^ 50) 1 n n (ratioOf src a r) (Real.sin (rad θ)) := by
    unfold errorBound
    congr 1
    refine Finset.sum_congr rfl fun k hk => Finset.sum_congr rfl fun l _ => ?_
    have hk1 : 1 ≤ k := (Finset.mem_Icc.1 hk).1
    have : rpow src (r / a) k = ratioOf src a r k := by
      cases src with
      | internal =>
        show (r / a) ^ (-((k : ℤ) + 2)) = (a / r) ^ (k + 2)
        rw [zpow_neg, ← inv_zpow, inv_div]
        exact_mod_cast rfl
      | external =>
        show (r / a) ^ ((k : ℤ) - 1) = (r / a) ^ (k - 1)
        rw [show ((k : ℤ) - 1) = ((k - 1 : ℕ) : ℤ) by omega]
        exact zpow_natCast _ _
    rw [this]
  rw [hb] at k1 k2 k3
  rw [hp, e1]
  refine ⟨br, bt, bp, _, _, _, rfl, ?_, ?_, ?_, k1, k2, k3⟩
  · cases src <;> exact d1
  · cases src <;> exact d2
  · cases src <;> exact d3

open PPoly in
/-- **C106, inside.** A time inside the model's span (in piece `j`) and a point as in C93: the components returned by `synth_values` of a spline model differ from minus the gradient of the potential whose coefficients are the
exact derivatives of the splines at this time by at most `fieldBound`, the bound of C93 for the magnitudes of the terms of the splines. -/
theorem C106_inside {C Sn : ℝ → ℝ} (hC : IsCosine C) (hS : IsSine Sn) (P : FloatSpectrum.Power) (src : Source) {a : ℝ} (ha : 0 < a) {m : Chaos.Model} {N : ℕ} {c : ℕ → ℕ → ℕ → ℝ} (hb : Proper m.base c)
    (hdim : m.base.dim = N * (N + 2)) (hsrc : m.source = nameOf src) (hord : m.base.order ≤ 16) (hc : ∀ i j d, i < m.base.order → j + 1 < m.base.breaks.length → d < m.base.dim → |c i j d| ≤ 2 ^ 80)
    (hx : ∀ x ∈ m.base.breaks, |x| ≤ 2 ^ 23) (nmax deriv : Option ℕ) (e : Option Extrap) (hder : dOrder deriv ≤ 5) (h1 : 1 ≤ usedDegree N nmax) (hmax : usedDegree N nmax ≤ 250) {t : ℝ} {j : ℕ} (hj : IsPiece m.base.breaks j t)
    (ht : t < last m.base.breaks)
    (hμ : ∀ d < usedDegree N nmax * (usedDegree N nmax + 2), magnitude m.base.order (fun i => c i j d) (dOrder deriv) (t - m.base.breaks.getD j 0) * (365.25 : ℝ) ^ dOrder deriv ≤ 2 ^ 58)
    {r θ φ : ℝ} (hr1 : a / 4 ≤ r) (hr2 : r ≤ 4 * a) (h0 : 0 ≤ θ) (h180 : θ ≤ 180) (hs : 2⁻¹ ^ 13 ≤ Real.sin (rad θ)) (hφ : |φ| ≤ 360) :
    ∃ n v μ br bt bp Br Bt Bp, n = usedDegree N nmax ∧
      v = upTo n (fun d => iteratedDeriv (dOrder deriv) (piece m.base c j d) t * (365.25 : ℝ) ^ dOrder deriv) ∧
      μ = upTo n (fun d => magnitude m.base.order (fun i => c i j d) (dOrder deriv) (t - m.base.breaks.getD j 0) * (365.25 : ℝ) ^ dOrder deriv) ∧
      modelPoint R C Sn P.fn a m nmax deriv e t r θ φ = .ok ⟨some br, some bt, some bp⟩ ∧
      HasDerivAt (fun r' => potOf src a v n r' (rad θ) (rad φ)) (-Br) r ∧
      HasDerivAt (fun x => potOf src a v n r x (rad φ)) (-(r * Bt)) (rad θ) ∧
      HasDerivAt (fun y => potOf src a v n r (rad θ) y) (-(r * Real.sin (rad θ) * Bp)) (rad φ) ∧
      |br - Br| ≤ fieldBound μ n (ratioOf src a r) (Real.sin (rad θ)) ∧
      |bt - Bt| ≤ fieldBound μ n (ratioOf src a r) (Real.sin (rad θ)) ∧
      |bp - Bp| ≤ fieldBound μ n (ratioOf src a r) (Real.sin (rad θ)) := by
  have hout : ¬ Outside m.base [t] := by
    rintro ⟨t', ht', h⟩
    rw [List.mem_singleton] at ht'
    subst ht'
    have hs' := hb.sorted 0 j (by omega) (by have := hj.1; omega)
    rcases h with h | h
    · have hlen := hb.len
      rw [first_eq] at h
      rcases hj.2 with q | q
      · linarith [q.1]
      · linarith [q.1]
    · linarith
  obtain ⟨rows, rowsF, -, e2, -, -, hall⟩ := C88_bound R hb [t] (some (usedDegree N nmax * (usedDegree N nmax + 2))) deriv e (by simp) (Or.inr hout) hord hder hc hx
  obtain ⟨v, vF, -, hF, hd⟩ := hall 0 t j rfl hj ht
  obtain ⟨br, bt, bp, Br, Bt, Bp, k⟩ := assemble R hC hS P src ha (m := m) hdim hsrc h1 hmax (t := t) (w := vF) e2 hF
    (v := fun d => iteratedDeriv (dOrder deriv) (piece m.base c j d) t * (365.25 : ℝ) ^ dOrder deriv)
    (μ := fun d => magnitude m.base.order (fun i => c i j d) (dOrder deriv) (t - m.base.breaks.getD j 0) * (365.25 : ℝ) ^ dOrder deriv)
    (by
      intro d _
      rw [abs_mul, abs_of_nonneg (by positivity : (0 : ℝ) ≤ 365.25 ^ dOrder deriv)]
      refine mul_le_mul_of_nonneg_right ?_ (by positivity)
      have hex : iteratedDeriv (dOrder deriv) (piece m.base c j d) t = evalPoly m.base.order (fun i => c i j d) (dOrder deriv) (t - m.base.breaks.getD j 0) := by
        rw [← evalPoly_iteratedDeriv]
        rfl
      rw [hex]
      exact evalPoly_le _ _ _ _)
    hμ
    (by
      intro d hdd
      obtain ⟨q1, q2, -⟩ := hd d hdd
      rw [q1] at q2
      refine q2.trans ?_
      have q3 : 0 ≤ magnitude m.base.order (fun i => c i j d) (dOrder deriv) (t - m.base.breaks.getD j 0) * (365.25 : ℝ) ^ dOrder deriv := mul_nonneg (magnitude_nonneg _ _ _ _) (by positivity)
      refine add_le_add (mul_le_mul_of_nonneg_right ?_ q3) ?_
      · exact zpow_le_zpow_right₀ (by norm_num) (by norm_num)
      · exact zpow_le_zpow_right₀ (by norm_num) (by norm_num))
    hr1 hr2 h0 h180 hs hφ
  exact ⟨_, _, _, br, bt, bp, Br, Bt, Bp, rfl, rfl, rfl, k⟩

open PPoly in
/-- **C106, outside.** With the default option (`linear`), a time before or after the model's span (`x` is the nearest end, `j` the piece there): the same for the potential with the linearly continued coefficients. -/
theorem C106_linear {C Sn : ℝ → ℝ} (hC : IsCosine C) (hS : IsSine Sn) (P : FloatSpectrum.Power) (src : Source) {a : ℝ} (ha : 0 < a) {m : Chaos.Model} {N : ℕ} {c : ℕ → ℕ → ℕ → ℝ} (hb : Proper m.base c)
    (hdim : m.base.dim = N * (N + 2)) (hsrc : m.source = nameOf src) (horder : 2 ≤ m.base.order) (hord : m.base.order ≤ 16)
    (hc : ∀ i j d, i < m.base.order → j + 1 < m.base.breaks.length → d < m.base.dim → |c i j d| ≤ 2 ^ 80)
    (hx : ∀ x ∈ m.base.breaks, |x| ≤ 2 ^ 23) (nmax : Option ℕ) (e : Option Extrap) (he : e = none ∨ e = some (.str "linear") ∨ e = some (.bool true)) (h1 : 1 ≤ usedDegree N nmax) (hmax : usedDegree N nmax ≤ 250)
    {t x : ℝ} {j : ℕ} (ht : |t| ≤ 2 ^ 23) (hn : NearEnd m.base t x j)
    (hμ : ∀ d < usedDegree N nmax * (usedDegree N nmax + 2), magnitude m.base.order (fun i => c i j d) 0 (x - m.base.breaks.getD j 0) + magnitude m.base.order (fun i => c i j d) 1 (x - m.base.breaks.getD j 0) * |t - x| ≤ 2 ^ 58)
    {r θ φ : ℝ} (hr1 : a / 4 ≤ r) (hr2 : r ≤ 4 * a) (h0 : 0 ≤ θ) (h180 : θ ≤ 180) (hs : 2⁻¹ ^ 13 ≤ Real.sin (rad θ)) (hφ : |φ| ≤ 360) :
    ∃ n v μ br bt bp Br Bt Bp, n = usedDegree N nmax ∧
      v = upTo n (fun d => piece m.base c j d x + deriv (piece m.base c j d) x * (t - x)) ∧
      μ = upTo n (fun d => magnitude m.base.order (fun i => c i j d) 0 (x - m.base.breaks.getD j 0) + magnitude m.base.order (fun i => c i j d) 1 (x - m.base.breaks.getD j 0) * |t - x|) ∧
      modelPoint R C Sn P.fn a m nmax none e t r θ φ = .ok ⟨some br, some bt, some bp⟩ ∧
      HasDerivAt (fun r' => potOf src a v n r' (rad θ) (rad φ)) (-Br) r ∧
      HasDerivAt (fun y => potOf src a v n r y (rad φ)) (-(r * Bt)) (rad θ) ∧
      HasDerivAt (fun y => potOf src a v n r (rad θ) y) (-(r * Real.sin (rad θ) * Bp)) (rad φ) ∧
      |br - Br| ≤ fieldBound μ n (ratioOf src a r) (Real.sin (rad θ)) ∧
      |bt - Bt| ≤ fieldBound μ n (ratioOf src a r) (Real.sin (rad θ)) ∧
      |bp - Bp| ≤ fieldBound μ n (ratioOf src a r) (Real.sin (rad θ)) := by
  obtain ⟨rows, w, e2, hF, hd⟩ := C88_linear R hb horder hord [t] (some (usedDegree N nmax * (usedDegree N nmax + 2))) none e he hc hx 0 t x j rfl ht hn
  have q0 : ∀ d, |piece m.base c j d x| ≤ magnitude m.base.order (fun i => c i j d) 0 (x - m.base.breaks.getD j 0) := by
    intro d
    have hex : piece m.base c j d x = evalPoly m.base.order (fun i => c i j d) 0 (x - m.base.breaks.getD j 0) := by
      rw [← evalPoly_iteratedDeriv, iteratedDeriv_zero]
      rfl
    rw [hex]
    exact evalPoly_le _ _ _ _
  have q1 : ∀ d, |deriv (piece m.base c j d) x| ≤ magnitude m.base.order (fun i => c i j d) 1 (x - m.base.breaks.getD j 0) := by
    intro d
    have hex : deriv (piece m.base c j d) x = evalPoly m.base.order (fun i => c i j d) 1 (x - m.base.breaks.getD j 0) := by
      rw [← evalPoly_iteratedDeriv, iteratedDeriv_one]
      rfl
    rw [hex]
    exact evalPoly_le _ _ _ _
  obtain ⟨br, bt, bp, Br, Bt, Bp, k⟩ := assemble R hC hS P src ha (m := m) hdim hsrc h1 hmax (t := t) (w := w) e2 hF
    (v := fun d => piece m.base c j d x + deriv (piece m.base c j d) x * (t - x))
    (μ := fun d => magnitude m.base.order (fun i => c i j d) 0 (x - m.base.breaks.getD j 0) + magnitude m.base.order (fun i => c i j d) 1 (x - m.base.breaks.getD j 0) * |t - x|)
    (by
      intro d _
      refine (abs_add_le _ _).trans (add_le_add (q0 d) ?_)
      rw [abs_mul]
      exact mul_le_mul_of_nonneg_right (q1 d) (abs_nonneg _))
    hμ (fun d hdd => (hd d hdd).1 rfl) hr1 hr2 h0 h180 hs hφ
  exact ⟨_, _, _, br, bt, bp, Br, Bt, Bp, rfl, rfl, rfl, k⟩

open PPoly in
/-- **C106, outside, first derivative.** The secular variation outside, with the default option: the field of the rates at the nearest end, in units per year. -/
theorem C106_linear_rate {C Sn : ℝ → ℝ} (hC : IsCosine C) (hS : IsSine Sn) (P : FloatSpectrum.Power) (src : Source) {a : ℝ} (ha : 0 < a) {m : Chaos.Model} {N : ℕ} {c : ℕ → ℕ → ℕ → ℝ} (hb : Proper m.base c)
    (hdim : m.base.dim = N * (N + 2)) (hsrc : m.source = nameOf src) (horder : 2 ≤ m.base.order) (hord : m.base.order ≤ 16)
    (hc : ∀ i j d, i < m.base.order → j + 1 < m.base.breaks.length → d < m.base.dim → |c i j d| ≤ 2 ^ 80)
    (hx : ∀ x ∈ m.base.breaks, |x| ≤ 2 ^ 23) (nmax der : Option ℕ) (hder : dOrder der = 1) (e : Option Extrap) (he : e = none ∨ e = some (.str "linear") ∨ e = some (.bool true)) (h1 : 1 ≤ usedDegree N nmax) (hmax : usedDegree N nmax ≤ 250)
    {t x : ℝ} {j : ℕ} (ht : |t| ≤ 2 ^ 23) (hn : NearEnd m.base t x j)
    (hμ : ∀ d < usedDegree N nmax * (usedDegree N nmax + 2), magnitude m.base.order (fun i => c i j d) 1 (x - m.base.breaks.getD j 0) * 365.25 ≤ 2 ^ 58)
    {r θ φ : ℝ} (hr1 : a / 4 ≤ r) (hr2 : r ≤ 4 * a) (h0 : 0 ≤ θ) (h180 : θ ≤ 180) (hs : 2⁻¹ ^ 13 ≤ Real.sin (rad θ)) (hφ : |φ| ≤ 360) :
    ∃ n v μ br bt bp Br Bt Bp, n = usedDegree N nmax ∧
      v = upTo n (fun d => deriv (piece m.base c j d) x * 365.25) ∧
      μ = upTo n (fun d => magnitude m.base.order (fun i => c i j d) 1 (x - m.base.breaks.getD j 0) * 365.25) ∧
      modelPoint R C Sn P.fn a m nmax der e t r θ φ = .ok ⟨some br, some bt, some bp⟩ ∧
      HasDerivAt (fun r' => potOf src a v n r' (rad θ) (rad φ)) (-Br) r ∧
      HasDerivAt (fun y => potOf src a v n r y (rad φ)) (-(r * Bt)) (rad θ) ∧
      HasDerivAt (fun y => potOf src a v n r (rad θ) y) (-(r * Real.sin (rad θ) * Bp)) (rad φ) ∧
      |br - Br| ≤ fieldBound μ n (ratioOf src a r) (Real.sin (rad θ)) ∧
      |bt - Bt| ≤ fieldBound μ n (ratioOf src a r) (Real.sin (rad θ)) ∧
      |bp - Bp| ≤ fieldBound μ n (ratioOf src a r) (Real.sin (rad θ)) := by
  obtain ⟨rows, w, e2, hF, hd⟩ := C88_linear R hb horder hord [t] (some (usedDegree N nmax * (usedDegree N nmax + 2))) der e he hc hx 0 t x j rfl ht hn
  have q1 : ∀ d, |deriv (piece m.base c j d) x| ≤ magnitude m.base.order (fun i => c i j d) 1 (x - m.base.breaks.getD j 0) := by
    intro d
    have hex : deriv (piece m.base c j d) x = evalPoly m.base.order (fun i => c i j d) 1 (x - m.base.breaks.getD j 0) := by
      rw [← evalPoly_iteratedDeriv, iteratedDeriv_one]
      rfl
    rw [hex]
    exact evalPoly_le _ _ _ _
  obtain ⟨br, bt, bp, Br, Bt, Bp, k⟩ := assemble R hC hS P src ha (m := m) hdim hsrc h1 hmax (t := t) (w := w) e2 hF
    (v := fun d => deriv (piece m.base c j d) x * 365.25)
    (μ := fun d => magnitude m.base.order (fun i => c i j d) 1 (x - m.base.breaks.getD j 0) * 365.25)
    (by
      intro d _
      rw [abs_mul, abs_of_pos (by norm_num : (0 : ℝ) < 365.25)]
      exact mul_le_mul_of_nonneg_right (q1 d) (by norm_num))
    hμ (fun d hdd => (hd d hdd).2.1 hder) hr1 hr2 h0 h180 hs hφ
  exact ⟨_, _, _, br, bt, bp, Br, Bt, Bp, rfl, rfl, rfl, k⟩

open PPoly in
/-- **C106, constant.** With `extrapolate='constant'` the components outside the model's span are exactly those at the nearest end `x` (every bit, whatever the point, the functions of the platform and the way the end is evaluated). -/
theorem C106_constant (C Sn : ℝ → ℝ) (power : ℝ → ℤ → ℝ) (a : ℝ) {m : Chaos.Model} {N : ℕ} {c : ℕ → ℕ → ℕ → ℝ} (hb : Proper m.base c) (hdim : m.base.dim = N * (N + 2)) (hord : m.base.order ≤ 16)
    (hc : ∀ i j d, i < m.base.order → j + 1 < m.base.breaks.length → d < m.base.dim → |c i j d| ≤ 2 ^ 80) (hx : ∀ x ∈ m.base.breaks, |x| ≤ 2 ^ 23) (nmax : Option ℕ) (e : Option Extrap) (he : Known (option e))
    {t x : ℝ} {j : ℕ} (hn : NearEnd m.base t x j) (r θ φ : ℝ) :
    modelPoint R C Sn power a m nmax none (some (.str "constant")) t r θ φ = modelPoint R C Sn power a m nmax none e x r θ φ ∧
      ∃ w : ℕ → ℝ, modelPoint R C Sn power a m nmax none e x r θ φ =
        match synthPoint R C Sn power a (decide (m.source = "internal")) 1 (usedDegree N nmax) (usedDegree N nmax) (fun i => some (upTo (usedDegree N nmax) w i)) r θ φ with
        | .error z => .error (.inr z)
        | .ok f => .ok f := by
  have hnN : usedDegree N nmax ≤ N := min_le_left _ _
  obtain ⟨rows, v, rows', v', e1, e2, e3, e4, h⟩ := C88_constant R hb [t] [x] (some (usedDegree N nmax * (usedDegree N nmax + 2))) none e (Or.inl he) hord hc hx 0 0 t x j rfl hn rfl
  have hcol : columns m.base (some (usedDegree N nmax * (usedDegree N nmax + 2))) = usedDegree N nmax * (usedDegree N nmax + 2) := by
    have := degrees_le hnN
    simp only [columns]
    rw [if_neg (by omega)]
  have hvv : (fun i => if i < usedDegree N nmax * (usedDegree N nmax + 2) then v i else 0) = fun i => if i < usedDegree N nmax * (usedDegree N nmax + 2) then v' i else 0 := by
    funext i
    split_ifs with hi
    · have := degrees_le hnN
      exact (h i (by omega)).1 rfl
    · rfl
  have hF : ∀ i, (if i < usedDegree N nmax * (usedDegree N nmax + 2) then v i else 0) = if i < usedDegree N nmax * (usedDegree N nmax + 2) then v' i else 0 := fun i => congrFun hvv i
  constructor
  · unfold modelPoint
    simp only [hdim, Chaos.hdimN, clip_eq]
    rw [e1, e3]
    simp only [e2, e4, hcol, hF]
  · refine ⟨v', ?_⟩
    unfold modelPoint
    simp only [hdim, Chaos.hdimN, clip_eq]
    rw [e3]
    simp only [e4, hcol]
    rfl

section off

theorem fadd_none_right (x : F) : fadd R x none = none := by cases x <;> rfl
theorem fadd_none_left (x : F) : fadd R none x = none := by cases x <;> rfl
theorem fmul_none_right (x : F) : fmul R x none = none := by cases x <;> rfl
theorem fmul_none_left (x : F) : fmul R none x = none := by cases x <;> rfl
theorem fsub_none_left (x : F) : fsub R none x = none := by cases x <;> rfl

/-- Missing coefficients: all sums are NaN after a term of order 1 or more. -/
theorem order_nan (e : Env) (he : ∀ i, e.coeffs i = none) (n m : ℕ) (s : St) : (orderStep R e n s m).B = ⟨none, none, none⟩ := by
  unfold FloatLegendre.orderStep
  simp only [he, fmul_none_left, fmul_none_right, fadd_none_right, fadd_none_left, fsub_none_left, fneg, ite_self]

theorem orders_nan (e : Env) (he : ∀ i, e.coeffs i = none) (n : ℕ) (l : List ℕ) (hl : l ≠ []) (s : St) : (l.foldl (orderStep R e n) s).B = ⟨none, none, none⟩ := by
  obtain ⟨l', m, rfl⟩ : ∃ l' m, l = l' ++ [m] := ⟨l.dropLast, l.getLast hl, (List.dropLast_append_getLast hl).symm⟩
  rw [List.foldl_append]
  exact order_nan R e he n m _

theorem field_nan (e : Env) (he : ∀ i, e.coeffs i = none) {nmax M : ℕ} (h1 : 1 ≤ nmax) (hM : 1 ≤ M) (rn : F) : field R e 1 nmax M rn = ⟨none, none, none⟩ := by
  unfold field
  rw [Index.pyRange_snoc 1 nmax h1, List.foldl_append]
  refine orders_nan R e he nmax _ ?_ _
  intro h
  have : (1 : ℕ) ∈ Legendre.pyRange 1 (min nmax M + 1) := Legendre.mem_pyRange.2 ⟨le_rfl, by omega⟩
  rw [h] at this
  simp at this

open PPoly in
/-- **C106, no extrapolation.** With `extrapolate='off'` (or `False`, or an order up to 0) all components outside the model's span are NaN. -/
theorem C106_off {C Sn : ℝ → ℝ} (hC : IsCosine C) (power : ℝ → ℤ → ℝ) (a : ℝ) {m : Chaos.Model} {N : ℕ} {c : ℕ → ℕ → ℕ → ℝ} (hb : Proper m.base c)
    (hdim : m.base.dim = N * (N + 2)) (nmax deriv : Option ℕ) (e : Option Extrap) (hoff : e = some (.str "off") ∨ e = some (.bool false) ∨ ∃ z ≤ 0, e = some (.int z))
    (h1 : 1 ≤ usedDegree N nmax) (hmax : usedDegree N nmax ≤ 250) {t : ℝ} (ht : t < first m.base.breaks ∨ last m.base.breaks < t)
    {r θ φ : ℝ} (h0 : 0 ≤ θ) (h180 : θ ≤ 180) (hs : 2⁻¹ ^ 20 ≤ Real.sin (rad θ)) :
    modelPoint R C Sn power a m nmax deriv e t r θ φ = .ok ⟨none, none, none⟩ := by
  have hout : Outside m.base [t] := ⟨t, by simp, ht⟩
  have hk : Known (option e) ∧ documentedOrder m.base.order (option e) ≤ 0 := by
    rcases hoff with rfl | rfl | ⟨z, hz, rfl⟩
    · exact ⟨by simp [Known, option], by simp [documentedOrder, option]⟩
    · exact ⟨trivial, by simp [documentedOrder, option]⟩
    · refine ⟨trivial, ?_⟩
      show min z (m.base.order : ℤ) ≤ 0
      omega
  have hprep : prepareF R m.base c [t] (option e) = .ok (pp m.base c, false) := by
    obtain ⟨lo, hi, ha, hiff⟩ := aminmax_outside [t] (first m.base.breaks) (last m.base.breaks) (by simp)
    unfold prepareF
    simp only [ha, bind, Except.bind]
    rw [if_pos (hiff.2 hout), extrapKey_known _ _ hk.1]
    simp only
    rw [if_neg (not_lt.2 hk.2)]
    rfl
  have g1 := hb.order
  have g2 := hb.dim
  have g3 := hb.len
  have hn : ∀ (p : PP) f, p.x = m.base.breaks → (p.evalF R false 0 t).map f = (none : Option (ℕ → ℝ)) := by
    intro p f hp
    unfold PP.evalF findInterval
    rw [hp]
    rcases ht with h | h
    · rw [if_pos h]; rfl
    · rw [if_neg (not_lt.2 (hb.span.le.trans h.le)), if_pos h]; rfl
  obtain ⟨T, hT, -⟩ := C92_values R hC h1 hmax h0 h180 hs
  have hrow : m.base.synthCoeffsF R [t] (some (usedDegree N nmax * (usedDegree N nmax + 2))) deriv e = .ok (columns m.base (some (usedDegree N nmax * (usedDegree N nmax + 2))), [none]) := by
    unfold Base.synthCoeffsF
    rw [hb.coeffs]
    simp only
    rw [if_neg (by omega)]
    simp only [bind, Except.bind]
    rw [show prepareF R m.base c [t] (e.getD (.str "linear")) = _ from hprep]
    simp only [List.map_cons, List.map_nil]
    rw [hn _ _ (derivativeF_x R _ _)]
    rfl
  unfold modelPoint
  simp only [hdim, Chaos.hdimN, clip_eq]
  rw [hrow]
  simp only [List.getElem?_cons_zero]
  unfold FloatLegendre.synthPoint
  rw [hT]
  simp only
  rw [field_nan R _ (fun _ => rfl) h1 h1]

end off

end ChaosMagPy.FloatModel
