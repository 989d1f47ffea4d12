import Verif.Props.FloatModel
import Verif.Props.FloatSpectrum
/-!
# C107: the power spectrum of a spline model in double precision
-/
namespace ChaosMagPy.FloatModel
open ChaosMagPy.Spec ChaosMagPy.FloatSpectrum
open ChaosMagPy.PPoly (Base Extrap Proper piece magnitude IsPiece last dOrder evalPoly)
open ChaosMagPy.Spectrum (docFactor)

variable (R : Rounding)

/-- Squares of numbers with a relative error. -/
theorem square_err {w v ε : ℝ} (h0 : 0 ≤ ε) (h1 : ε ≤ 1) (h : |w - v| ≤ ε * |v|) : |w ^ 2 - v ^ 2| ≤ 3 * ε * v ^ 2 := by
  have e : w ^ 2 - v ^ 2 = (w - v) * (2 * v + (w - v)) := by ring
  rw [e, abs_mul]
  have t : |2 * v + (w - v)| ≤ 3 * |v| := by
    refine (abs_add_le _ _).trans ?_
    rw [abs_mul, abs_two]
    have : ε * |v| ≤ 1 * |v| := mul_le_mul_of_nonneg_right h1 (abs_nonneg v)
    linarith
  calc |w - v| * |2 * v + (w - v)| ≤ (ε * |v|) * (3 * |v|) := mul_le_mul h t (abs_nonneg _) (mul_nonneg h0 (abs_nonneg v))
    _ = 3 * ε * |v| ^ 2 := by ring
    _ = 3 * ε * v ^ 2 := by rw [sq_abs]

theorem power_nonneg (v : ℕ → ℝ) (n : ℕ) : 0 ≤ degreePower v n := Finset.sum_nonneg fun _ _ => by positivity

/-- The power of a degree for coefficients with a relative error. -/
theorem power_err {w v : ℕ → ℝ} {ε : ℝ} (h0 : 0 ≤ ε) (h1 : ε ≤ 1) (h : ∀ i, |w i - v i| ≤ ε * |v i|) (n : ℕ) : |degreePower w n - degreePower v n| ≤ 3 * ε * degreePower v n := by
  unfold degreePower
  rw [← Finset.sum_sub_distrib, Finset.mul_sum]
  refine (Finset.abs_sum_le_sum_abs _ _).trans (Finset.sum_le_sum fun m _ => ?_)
  have hG : |gaussG w n m - gaussG v n m| ≤ ε * |gaussG v n m| := by
    unfold gaussG
    exact h _
  have hH : |gaussH w n m - gaussH v n m| ≤ ε * |gaussH v n m| := by
    unfold gaussH
    split_ifs
    · simp
    · exact h _
  have a := square_err h0 h1 hG
  have b := square_err h0 h1 hH
  rw [add_sub_add_comm, mul_add]
  exact (abs_add_le _ _).trans (add_le_add a b)

theorem docFactor_nonneg (source : String) {a r : ℝ} (ha : 0 < a) (hr : 0 < r) (n : ℕ) : 0 ≤ docFactor source a r n := by
  unfold docFactor factorInternal factorExternal factorToroidal
  split_ifs <;> positivity

/-- A result that is zero for a vanishing coefficient and accurate otherwise. -/
theorem coeff_moderate {w v μ K : ℝ} (hd : IsDouble w) (hK1 : 1 ≤ K) (hK : K ≤ 2 ^ 20) (he : |w - v| ≤ 2 ^ (-47 : ℤ) * μ + 2 ^ (-400 : ℤ)) (h1 : (2 : ℝ) ^ (-198 : ℤ) ≤ |v|) (h2 : |v| ≤ 2 ^ (198 : ℤ)) (hμ : μ ≤ K * |v|) :
    Moderate w ∧ |w - v| ≤ K / 2 ^ 46 * |v| := by
  have e : |w - v| ≤ K / 2 ^ 46 * |v| := by
    refine he.trans ?_
    have g1 : (2 : ℝ) ^ (-47 : ℤ) * μ ≤ 2 ^ (-47 : ℤ) * (K * |v|) := mul_le_mul_of_nonneg_left hμ (by positivity)
    have g2 : (2 : ℝ) ^ (-400 : ℤ) ≤ 2 ^ (-47 : ℤ) * (K * |v|) := by
      calc (2 : ℝ) ^ (-400 : ℤ) ≤ 2 ^ (-47 : ℤ) * 2 ^ (-198 : ℤ) := by
            rw [← zpow_add₀ (by norm_num)]
            exact zpow_le_zpow_right₀ (by norm_num) (by norm_num)
        _ ≤ 2 ^ (-47 : ℤ) * (1 * |v|) := by rw [one_mul]; exact mul_le_mul_of_nonneg_left h1 (by positivity)
        _ ≤ _ := mul_le_mul_of_nonneg_left (mul_le_mul_of_nonneg_right hK1 (abs_nonneg v)) (by positivity)
    have g3 : K / 2 ^ 46 * |v| = 2 ^ (-47 : ℤ) * (K * |v|) + 2 ^ (-47 : ℤ) * (K * |v|) := by
      rw [show (2 : ℝ) ^ (-47 : ℤ) = 1 / 2 ^ 47 by norm_num]
      ring
    rw [g3]
    exact add_le_add g1 g2
  have e2 : |w - v| ≤ 1 / 2 * |v| := by
    refine e.trans (mul_le_mul_of_nonneg_right ?_ (abs_nonneg v))
    rw [div_le_iff₀ (by positivity)]
    refine hK.trans (by norm_num)
  refine ⟨⟨hd, Or.inr ⟨?_, ?_⟩⟩, e⟩
  · have t := abs_sub_abs_le_abs_sub v w
    rw [abs_sub_comm] at t
    have g : (2 : ℝ) ^ (-200 : ℤ) ≤ 1 / 2 * 2 ^ (-198 : ℤ) := by
      rw [show (1 : ℝ) / 2 = 2 ^ (-1 : ℤ) by norm_num, ← zpow_add₀ (by norm_num)]
      exact zpow_le_zpow_right₀ (by norm_num) (by norm_num)
    clear he h2
    generalize (2 : ℝ) ^ (-200 : ℤ) = p at g ⊢
    generalize (2 : ℝ) ^ (-198 : ℤ) = q at g h1
    linarith only [t, g, e2, h1]
  · have t := abs_sub_abs_le_abs_sub w v
    have g : (2 : ℝ) * 2 ^ (198 : ℤ) ≤ 2 ^ 200 := by norm_num
    linarith

theorem magnitude_zero {k : ℕ} {a : ℕ → ℝ} (h : ∀ i < k, a i = 0) (nu : ℕ) (s : ℝ) : magnitude k a nu s = 0 := by
  unfold magnitude
  refine Finset.sum_eq_zero fun q hq => ?_
  have := Finset.mem_range.1 hq
  rw [h _ (by omega), abs_zero, zero_mul, zero_mul]

open PPoly in
/-- **C107.** The power spectrum of a spline model at a time inside its span (in piece `j`), every operation rounded: `K` bounds the cancellation in the evaluation of the splines (sum of the sizes of the terms relative to the size of
the value), coefficients may also vanish. Without a radius it is the spectrum at the reference radius. -/
theorem C107_spectrum (S : Summation R) (P : Power) {a r : ℝ} (ha : 0 < a) (hr : 0 < r) {radius : Option ℝ} (hradius : radius = some r ∨ radius = none ∧ r = a) {m : Chaos.Model} {N : ℕ} {c : ℕ → ℕ → ℕ → ℝ} (hb : Proper m.base c)
    (hdim : m.base.dim = N * (N + 2)) (hsrc : m.source = "internal" ∨ m.source = "external" ∨ m.source = "toroidal") (hord : m.base.order ≤ 16)
    (hc : ∀ i j d, i < m.base.order → j + 1 < m.base.breaks.length → d < m.base.dim → |c i j d| ≤ 2 ^ 80)
    (hx : ∀ x ∈ m.base.breaks, |x| ≤ 2 ^ 23) (nmax deriv : Option ℕ) (e : Option Extrap) (hder : dOrder deriv ≤ 5) (hmax : usedDegree N nmax ≤ 2 ^ 20) {t : ℝ} {j : ℕ} (hj : IsPiece m.base.breaks j t)
    (ht : t < last m.base.breaks) (hpow : (2 : ℝ) ^ (-500 : ℤ) ≤ (a / r) ^ (2 * usedDegree N nmax + 4) ∧ (a / r) ^ (2 * usedDegree N nmax + 4) ≤ 2 ^ 500) {K : ℝ} (hK1 : 1 ≤ K) (hK : K ≤ 2 ^ 20)
    (hv : ∀ d < usedDegree N nmax * (usedDegree N nmax + 2), (∀ i < m.base.order, c i j d = 0) ∨
      (2 : ℝ) ^ (-198 : ℤ) ≤ |iteratedDeriv (dOrder deriv) (piece m.base c j d) t * (365.25 : ℝ) ^ dOrder deriv| ∧
      |iteratedDeriv (dOrder deriv) (piece m.base c j d) t * (365.25 : ℝ) ^ dOrder deriv| ≤ 2 ^ (198 : ℤ) ∧
      magnitude m.base.order (fun i => c i j d) (dOrder deriv) (t - m.base.breaks.getD j 0) * (365.25 : ℝ) ^ dOrder deriv ≤
        K * |iteratedDeriv (dOrder deriv) (piece m.base c j d) t * (365.25 : ℝ) ^ dOrder deriv|) :
    ∃ n v W, n = usedDegree N nmax ∧ v = upTo n (fun d => iteratedDeriv (dOrder deriv) (piece m.base c j d) t * (365.25 : ℝ) ^ dOrder deriv) ∧
      modelSpectrum R S P a m t radius nmax deriv e = .ok (some W) ∧ W.length = n ∧
      ∀ k, 1 ≤ k → k ≤ n → ∃ w, W[k - 1]? = some (some w) ∧
        |w - docFactor m.source a r k * degreePower v k| ≤ ((4 * k + 12) / 2 ^ 52 + 3 * K / 2 ^ 46) * (docFactor m.source a r k * degreePower v k) := by
  have hout : ¬ Outside m.base [t] := by
    rintro ⟨t', ht', h⟩
    rw [List.mem_singleton] at ht'
    subst ht'
    have hs' := hb.sorted 0 j (by omega) (by have := hj.1; omega)
    rcases h with h | h
    · have hlen := hb.len
      rw [first_eq] at h
      rcases hj.2 with q | q
      · linarith [q.1]
      · linarith [q.1]
    · linarith
  obtain ⟨rows, rowsF, -, e2, -, -, hall⟩ := C88_bound R hb [t] (nmax.map fun n => n * (n + 2)) deriv e (by simp) (Or.inr hout) hord hder hc hx
  obtain ⟨v0, vF, -, hF, hd⟩ := hall 0 t j rfl hj ht
  have hcol : columns m.base (nmax.map fun n => n * (n + 2)) = usedDegree N nmax * (usedDegree N nmax + 2) := by
    cases nmax with
    | none => simp [columns, usedDegree, hdim]
    | some k =>
      simp only [columns, usedDegree, Option.map_some, Option.getD_some, hdim]
      rcases le_total k N with h | h
      · rw [min_eq_right h, if_neg (not_lt.2 (degrees_le h))]
      · rw [min_eq_left h]
        split_ifs with g
        · rfl
        · have := degrees_le h
          omega
  have hnN : usedDegree N nmax ≤ N := min_le_left _ _
  generalize usedDegree N nmax = n at *
  set V : ℕ → ℝ := fun d => iteratedDeriv (dOrder deriv) (piece m.base c j d) t * (365.25 : ℝ) ^ dOrder deriv with hV
  have both : ∀ i, Moderate (upTo n vF i) ∧ |upTo n vF i - upTo n V i| ≤ K / 2 ^ 46 * |upTo n V i| := by
    intro i
    unfold upTo
    split_ifs with h
    · have hi : i < m.base.dim := by
        have := degrees_le hnN
        omega
      obtain ⟨q1, q2, q3, q4⟩ := hd i hi
      rw [q1] at q2
      rcases hv i h with hz | ⟨p1, p2, p3⟩
      · have hV0 : V i = 0 := by
          have hex : iteratedDeriv (dOrder deriv) (piece m.base c j i) t = evalPoly m.base.order (fun l => c l j i) (dOrder deriv) (t - m.base.breaks.getD j 0) := by
            rw [← evalPoly_iteratedDeriv]
            rfl
          have hle := evalPoly_le m.base.order (fun l => c l j i) (dOrder deriv) (t - m.base.breaks.getD j 0)
          rw [magnitude_zero hz] at hle
          rw [hV]
          simp only
          rw [hex, abs_nonpos_iff.1 hle, zero_mul]
        rw [hV0, q4 hz]
        exact ⟨⟨Float.double_zero, Or.inl rfl⟩, by simp⟩
      · exact coeff_moderate q3 hK1 hK q2 p1 p2 p3
    · exact ⟨⟨Float.double_zero, Or.inl rfl⟩, by simp⟩
  obtain ⟨W, g1, g2, g3⟩ := C90_power S P ha hr (n * (n + 2)) n le_rfl (by nlinarith) hmax hpow (upTo n vF) (fun i => (both i).1) none m.source hsrc
  refine ⟨n, _, W, rfl, rfl, ?_, by simpa using g2, ?_⟩
  · unfold modelSpectrum
    have hrad : radius.getD a = r := by rcases hradius with rfl | ⟨rfl, rfl⟩ <;> rfl
    simp only [hrad]
    rw [e2]
    simp only [hF, hcol]
    rw [show (fun i => if i < n * (n + 2) then vF i else 0) = upTo n vF from rfl]
    rw [show FloatSpectrum.powerSpectrum R S P a (n * (n + 2)) (upTo n vF) (some r) none (some m.source) = .ok W from g1]
  · intro k hk1 hk2
    obtain ⟨w, hw, hb2⟩ := g3 k hk1 (by simpa using hk2)
    refine ⟨w, hw, ?_⟩
    have ε0 : (0 : ℝ) ≤ K / 2 ^ 46 := by positivity
    have ε1 : K / 2 ^ 46 ≤ 1 / 4 := by
      rw [div_le_iff₀ (by positivity)]
      exact hK.trans (by norm_num)
    have hp := power_err ε0 (ε1.trans (by norm_num)) (fun i => (both i).2) k
    have X0 := docFactor_nonneg m.source ha hr k
    have D0 := power_nonneg (upTo n V) k
    have hpp := abs_le.1 hp
    have hle : degreePower (upTo n vF) k ≤ 2 * degreePower (upTo n V) k := by
      have : 3 * (K / 2 ^ 46) * degreePower (upTo n V) k ≤ 1 * degreePower (upTo n V) k := mul_le_mul_of_nonneg_right (by linarith) D0
      linarith [hpp.2]
    generalize docFactor m.source a r k = X at *
    generalize degreePower (upTo n V) k = D at *
    generalize degreePower (upTo n vF) k = D' at *
    have t1 : |X * D' - X * D| ≤ X * (3 * (K / 2 ^ 46) * D) := by
      rw [← mul_sub, abs_mul, abs_of_nonneg X0]
      exact mul_le_mul_of_nonneg_left hp X0
    have t2 : (4 * (k : ℝ) + 12) / 2 ^ 53 * (X * D') ≤ (4 * (k : ℝ) + 12) / 2 ^ 53 * (X * (2 * D)) :=
      mul_le_mul_of_nonneg_left (mul_le_mul_of_nonneg_left hle X0) (by positivity)
    have t3 := abs_add_le (w - X * D') (X * D' - X * D)
    rw [sub_add_sub_cancel] at t3
    have t4 : (4 * (k : ℝ) + 12) / 2 ^ 53 * (X * (2 * D)) + X * (3 * (K / 2 ^ 46) * D) = ((4 * k + 12) / 2 ^ 52 + 3 * K / 2 ^ 46) * (X * D) := by
      ring
    linarith

open PPoly in
/-- **C107, constant.** With `extrapolate='constant'` the spectrum outside the model's span is exactly that at the nearest end `x`. -/
theorem C107_constant (S : Summation R) (P : Power) (a : ℝ) {m : Chaos.Model} {c : ℕ → ℕ → ℕ → ℝ} (hb : Proper m.base c) (hord : m.base.order ≤ 16)
    (hc : ∀ i j d, i < m.base.order → j + 1 < m.base.breaks.length → d < m.base.dim → |c i j d| ≤ 2 ^ 80) (hx : ∀ x ∈ m.base.breaks, |x| ≤ 2 ^ 23) (radius : Option ℝ) (nmax : Option ℕ) (e : Option Extrap) (he : Known (option e))
    {t x : ℝ} {j : ℕ} (hn : NearEnd m.base t x j) :
    modelSpectrum R S P a m t radius nmax none (some (.str "constant")) = modelSpectrum R S P a m x radius nmax none e := by
  obtain ⟨rows, v, rows', v', e1, e2, e3, e4, h⟩ := C88_constant R hb [t] [x] (nmax.map fun n => n * (n + 2)) none e (Or.inl he) hord hc hx 0 0 t x j rfl hn rfl
  have hcol : columns m.base (nmax.map fun n => n * (n + 2)) ≤ m.base.dim := by
    cases nmax with
    | none => exact le_rfl
    | some k =>
      simp only [columns, Option.map_some]
      split_ifs with g
      · exact le_rfl
      · omega
  have hF : ∀ i, (if i < columns m.base (nmax.map fun n => n * (n + 2)) then v i else 0) = if i < columns m.base (nmax.map fun n => n * (n + 2)) then v' i else 0 := by
    intro i
    split_ifs with hi
    · exact (h i (by omega)).1 rfl
    · rfl
  unfold modelSpectrum
  rw [e1, e3]
  simp only [e2, e4, hF]

end ChaosMagPy.FloatModel
