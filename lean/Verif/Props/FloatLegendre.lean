import Verif.Lemmas.FloatPole
import Verif.Props.Legendre
/-!
# C91: the field near the poles in double precision
-/
namespace ChaosMagPy.FloatLegendre
open ChaosMagPy.Spec ChaosMagPy.Float ChaosMagPy.Legendre

variable (R : Rounding)

/-! ### The table holds numbers -/

/-- Every divisor is the constant 2 or the square root of a positive integer. -/
def Divisors : Expr → Prop
  | .const _ => True
  | .read _ _ => True
  | .rootn _ => True
  | .mul a b => Divisors a ∧ Divisors b
  | .sub a b => Divisors a ∧ Divisors b
  | .div a b => Divisors a ∧ (b = .const 2 ∨ ∃ k : ℤ, b = .rootn k ∧ 1 ≤ k ∧ k ≤ 2 ^ 120)
  | .neg a => Divisors a

theorem evalF_some {T : TableF} (hT : ∀ p, ∃ x, T p = some x) : ∀ e, Divisors e → ∃ x, evalF R T e = some x
  | .const x, _ => ⟨R x, rfl⟩
  | .read i j, _ => hT (i, j)
  | .rootn k, _ => ⟨_, rfl⟩
  | .mul a b, h => by
    obtain ⟨x, hx⟩ := evalF_some hT a h.1
    obtain ⟨y, hy⟩ := evalF_some hT b h.2
    exact ⟨R (x * y), by simp only [evalF, hx, hy, fmul]⟩
  | .sub a b, h => by
    obtain ⟨x, hx⟩ := evalF_some hT a h.1
    obtain ⟨y, hy⟩ := evalF_some hT b h.2
    exact ⟨R (x - y), by simp only [evalF, hx, hy, fsub]⟩
  | .div a b, h => by
    obtain ⟨x, hx⟩ := evalF_some hT a h.1
    rcases h.2 with rfl | ⟨k, rfl, h1, h2⟩
    · exact ⟨R (x / 2), by simp only [evalF, hx, fdiv, r2]; rw [if_neg (by norm_num)]⟩
    · have : R (Real.sqrt k) ≠ 0 := root_ne R (by exact_mod_cast h1) (by exact_mod_cast h2)
      exact ⟨R (x / R (Real.sqrt k)), by simp only [evalF, hx, fdiv]; rw [if_neg this]⟩
  | .neg a, h => by
    obtain ⟨x, hx⟩ := evalF_some hT a h
    exact ⟨-x, by simp only [evalF, hx, fneg]⟩

theorem program_divisors (nmax : ℕ) (c s : ℝ) (hmax : nmax ≤ 2 ^ 25) : ∀ a ∈ program nmax c s, Divisors a.rhs := by
  apply forall_mem_program
  · trivial
  · trivial
  · intro m hm
    have hmz : (m : ℤ) ≤ 2 ^ 25 := by exact_mod_cast (by omega : m ≤ 2 ^ 25)
    have hm0 : (0 : ℤ) ≤ m := by positivity
    apply forall_mem_valueBlock
    · exact ⟨trivial, trivial, trivial⟩
    · intro _
      exact ⟨⟨trivial, trivial, trivial⟩, Or.inr ⟨_, rfl, by omega, by omega⟩⟩
    · intro n h1 h2
      have h1z : (m : ℤ) + 2 ≤ n := by exact_mod_cast h1
      have h2z : (n : ℤ) ≤ 2 ^ 25 := by exact_mod_cast h2.trans hmax
      refine ⟨⟨⟨⟨trivial, trivial⟩, trivial⟩, trivial, trivial⟩, Or.inr ⟨_, rfl, ?_, ?_⟩⟩ <;> norm_num at * <;> nlinarith
  · trivial
  · trivial
  · intro n h1 h2
    apply forall_mem_derivBlock
    · exact ⟨trivial, trivial⟩
    · exact ⟨⟨⟨trivial, trivial⟩, trivial, trivial⟩, Or.inl rfl⟩
    · intro m _ _
      exact ⟨trivial, ⟨trivial, trivial⟩, trivial, trivial⟩
    · exact ⟨⟨trivial, trivial⟩, Or.inl rfl⟩

theorem runF_some (l : List Assign) (hl : ∀ a ∈ l, Divisors a.rhs) (T : TableF) (hT : ∀ p, ∃ x, T p = some x) : ∀ p, ∃ x, runF R l T p = some x := by
  induction l generalizing T with
  | nil => exact hT
  | cons a l ih =>
    refine ih (fun b hb => hl b (List.mem_cons_of_mem _ hb)) _ (fun p => ?_)
    unfold stepF
    split_ifs with hp
    · exact evalF_some R hT _ (hl a List.mem_cons_self)
    · exact hT p

theorem finF_some (nmax : ℕ) (c s : ℝ) (hmax : nmax ≤ 2 ^ 25) : ∀ p, ∃ x, finF R nmax c s p = some x :=
  runF_some R _ (program_divisors nmax c s hmax) _ (fun _ => ⟨0, rfl⟩)

/-! ### The sine -/

theorem sine_fixed {c : ℝ} (h : |c| ≤ 1) : R (sine R c) = sine R c := by
  obtain ⟨a, b⟩ := sine_le_one R h
  refine rnd_double R ?_ (big' (by rw [abs_of_nonneg a]; linarith))
  unfold sine
  have h1 := (sine_range R h).2.1
  exact (R.nearest _ (big' (by
    rw [abs_of_nonneg (Real.sqrt_nonneg _)]
    have : Real.sqrt (R (1 - R (c * c))) ≤ 1 := by rw [Real.sqrt_le_one]; exact h1
    linarith))).1

/-- **C91, table.** For every maximum degree (up to `2^25`) and every colatitude in `[0°, 180°]` the Legendre table is computed and every entry is
a number; the sine of the colatitude (the entry `[1, 1]`) lies in `[0, 1]`, no square root of a negative number was taken, and its square is correct
to `2^-46`. -/
theorem C91_sine {C : ℝ → ℝ} (hC : IsCosine C) {nmax : ℕ} (h1 : 1 ≤ nmax) (hmax : nmax ≤ 2 ^ 25) {θ : ℝ} (h0 : 0 ≤ θ) (h180 : θ ≤ 180) :
    ∃ T s, legendrePolyF R C nmax θ = .ok T ∧ (∀ p, ∃ x, T p = some x) ∧ T (1, 1) = some s ∧ 0 ≤ s ∧ s ≤ 1 ∧
      0 ≤ R (1 - R (C (radians R θ) * C (radians R θ))) ∧ |s ^ 2 - Real.sin (rad θ) ^ 2| ≤ 2⁻¹ ^ 46 := by
  have hle := hC.le_one (radians R θ)
  refine ⟨_, sine R (C (radians R θ)), legendrePolyF_ok R C nmax θ h1, finF_some R _ _ _ hmax, ?_, (sine_le_one R hle).1, (sine_le_one R hle).2,
    (sine_range R hle).1, ?_⟩
  · rw [finF_11, sine_fixed R hle]
  · have e1 := sine_sq_err R hle
    have e2 := hC.err (radians R θ)
    have e3 := radians_err R h0 h180
    have e4 : |Real.cos (radians R θ) - Real.cos (rad θ)| ≤ |radians R θ - rad θ| := Real.abs_cos_sub_cos_le _ _
    set c := C (radians R θ)
    have e5 : |c - Real.cos (rad θ)| ≤ 2⁻¹ ^ 52 + 2⁻¹ ^ 48 := by
      refine (abs_sub_le _ (Real.cos (radians R θ)) _).trans ?_
      linarith
    have e6 : |c ^ 2 - Real.cos (rad θ) ^ 2| ≤ 2 * (2⁻¹ ^ 52 + 2⁻¹ ^ 48) := by
      rw [sq_sub_sq, abs_mul]
      refine mul_le_mul ?_ e5 (abs_nonneg _) (by norm_num)
      exact (abs_add_le _ _).trans (by linarith [Real.abs_cos_le_one (rad θ)])
    rw [Real.sin_sq]
    rw [abs_le] at e1 e6 ⊢
    norm_num at e1 e6 ⊢
    constructor <;> linarith

/-- Angles away from the poles. -/
theorem away_cos {θ a b : ℝ} (hb : b ≤ 1) (h0 : 0 ≤ b) (hab : b ≤ 0.01745 * a - 2⁻¹ ^ 48) (h1 : a ≤ θ) (h2 : θ ≤ 180 - a) (ha : 0 ≤ a) :
    |Real.cos (radians R θ)| ≤ 1 - b ^ 2 / 2 + b ^ 4 * (5 / 96) := by
  have e := radians_err R (θ := θ) (by linarith) (by linarith)
  have hp := Real.pi_gt_d4
  unfold rad at e
  rw [abs_le] at e
  refine cos_away h0 hb ?_ ?_
  · nlinarith
  · have : θ * (Real.pi / 180) ≤ Real.pi - 0.01745 * a := by nlinarith
    linarith

/-- **C91, away from the poles.** For colatitudes of `1.3e-6` degrees (14 cm on the surface) or more from the poles, and any cosine that is good to
`2^-52`, the sine is not zero: it is `2^-26` at least. If the cosine is correctly rounded, this is so from `6.1e-7` degrees on. -/
theorem C91_positive {C : ℝ → ℝ} (hC : IsCosine C) {nmax : ℕ} (h1 : 1 ≤ nmax) {θ a : ℝ} (h : a ≤ θ) (h' : θ ≤ 180 - a)
    (ha : a = 1.3e-6 ∨ C = bestCos R ∧ a = 6.1e-7) :
    ∃ T s, legendrePolyF R C nmax θ = .ok T ∧ T (1, 1) = some s ∧ 2⁻¹ ^ 26 ≤ s := by
  have hlt : |C (radians R θ)| < 1 := by
    rcases ha with rfl | ⟨rfl, rfl⟩
    · have hb := away_cos R (θ := θ) (a := 1.3e-6) (b := 2.2e-8) (by norm_num) (by norm_num) (by norm_num) h h' (by norm_num)
      have e := hC.err (radians R θ)
      have := abs_sub_abs_le_abs_sub (C (radians R θ)) (Real.cos (radians R θ))
      norm_num at hb e
      linarith
    · have hb := away_cos R (θ := θ) (a := 6.1e-7) (b := 1.06e-8) (by norm_num) (by norm_num) (by norm_num) h h' (by norm_num)
      apply bestCos_lt
      refine lt_of_le_of_lt hb ?_
      norm_num
  have hle := hC.le_one (radians R θ)
  refine ⟨_, sine R (C (radians R θ)), legendrePolyF_ok R C nmax θ h1, ?_, sine_pos R (hC.double _) hlt⟩
  rw [finF_11, sine_fixed R hle]

/-! ### At the poles and very close to them -/

/-- The sign of the cosine at the pole. -/
noncomputable def poleSign (θ : ℝ) : ℝ := if θ < 90 then 1 else -1

theorem poleSign_or (θ : ℝ) : poleSign θ = 1 ∨ poleSign θ = -1 := by unfold poleSign; split_ifs <;> simp

theorem cos_window {θ : ℝ} (h0 : 0 ≤ θ) (h180 : θ ≤ 180) (h : θ ≤ 6e-7 ∨ 180 - 6e-7 ≤ θ) : bestCos R (radians R θ) = poleSign θ := by
  have hp := Real.pi_gt_d4
  have hp' := Real.pi_lt_d4
  unfold bestCos poleSign
  rcases h with h | h
  · rw [if_pos (by norm_num at h; linarith)]
    apply cos_one
    have h1 := radians_small R h0 h180
    have h2 : (2⁻¹ : ℝ) ^ 1000 ≤ 2⁻¹ ^ 60 := pow_le_pow_of_le_one (by norm_num) (by norm_num) (by norm_num)
    rw [abs_of_nonneg h1.1]
    generalize (2⁻¹ : ℝ) ^ 1000 = M at *
    norm_num at *
    linarith
  · rw [if_neg (by norm_num at h; linarith)]
    apply cos_neg_one
    have e := radians_err R h0 h180
    have h3 : 0 ≤ Real.pi - rad θ := by unfold rad; nlinarith
    have h4 : Real.pi - rad θ ≤ 1.0473e-8 := by
      unfold rad
      have : Real.pi - θ * (Real.pi / 180) = (180 - θ) * (Real.pi / 180) := by ring
      rw [this]
      have h5 : (180 - θ) ≤ 6e-7 := by linarith
      calc (180 - θ) * (Real.pi / 180) ≤ 6e-7 * (3.1416 / 180) := mul_le_mul h5 (by linarith) (by positivity) (by norm_num)
        _ ≤ 1.0473e-8 := by norm_num
    rw [abs_le] at e ⊢
    norm_num at *
    constructor <;> linarith

theorem table_window {nmax : ℕ} (h1 : 1 ≤ nmax) {θ : ℝ} (h0 : 0 ≤ θ) (h180 : θ ≤ 180) (h : θ ≤ 6e-7 ∨ 180 - 6e-7 ≤ θ) :
    legendrePolyF R (bestCos R) nmax θ = .ok (finF R nmax (poleSign θ) 0) := by
  rw [legendrePolyF_ok R _ nmax θ h1, cos_window R h0 h180 h, sine_one R (poleSign_or θ)]

/-- **C91, at the poles.** With a correctly rounded cosine, the values of the Legendre functions at the two poles are exact for every degree
up to `2^25`, and their derivatives are correct to half a unit in the last place. -/
theorem C91_poles {nmax : ℕ} (h1 : 1 ≤ nmax) (hmax : nmax ≤ 2 ^ 25) {θ : ℝ} (hθ : θ = 0 ∨ θ = 180) :
    ∃ T, legendrePolyF R (bestCos R) nmax θ = .ok T ∧ ∀ n m, m ≤ n → n ≤ nmax → T (n, m) = some (schmidt n m (rad θ)) ∧
      (1 ≤ n → ∃ d x, T (m, n + 1) = some d ∧ HasDerivAt (fun t => schmidt n m t) x (rad θ) ∧ |d - x| ≤ 2⁻¹ ^ 53 * |x|) := by
  have h0 : 0 ≤ θ := by rcases hθ with rfl | rfl <;> norm_num
  have h180 : θ ≤ 180 := by rcases hθ with rfl | rfl <;> norm_num
  have hw : θ ≤ 6e-7 ∨ 180 - 6e-7 ≤ θ := by rcases hθ with rfl | rfl <;> norm_num
  refine ⟨_, table_window R h1 h0 h180 hw, fun n m hm hn => ?_⟩
  have hσ := poleSign_or θ
  have hc : Real.cos (rad θ) = poleSign θ := by
    unfold rad poleSign
    rcases hθ with rfl | rfl
    · simp
    · rw [show (180 : ℝ) * (Real.pi / 180) = Real.pi by ring, Real.cos_pi]; norm_num
  have hs : Real.sin (rad θ) = 0 := by
    unfold rad
    rcases hθ with rfl | rfl
    · simp
    · rw [show (180 : ℝ) * (Real.pi / 180) = Real.pi by ring, Real.sin_pi]
  set σ := poleSign θ
  have hval : ∀ n m, m ≤ n → n ≤ nmax → schmidt n m (rad θ) = Legendre.fin nmax σ 0 (n, m) := by
    intro n m hm hn
    rw [schmidt_eq, hc, hs]
    exact (fin_val nmax σ 0 n m h1 hm hn).symm
  have hder : ∀ n m, m ≤ n → n ≤ nmax → HasDerivAt (fun t => schmidt n m t) (Legendre.fin nmax σ 0 (m, n + 1)) (rad θ) := by
    intro n m hm hn
    have hsq : (0 : ℝ) ^ 2 = 1 - σ ^ 2 := by rcases hσ with e | e <;> rw [e] <;> norm_num
    rw [fin_deriv nmax σ 0 hsq n m h1 hm hn]
    have := hasDerivAt_schmidt n m (rad θ)
    rwa [hc, hs] at this
  refine ⟨?_, fun hn1 => ?_⟩
  · rw [hval n m hm hn]
    rcases Nat.eq_zero_or_pos m with rfl | h
    · rw [finF_pole_zonal R nmax hσ hmax h1 n hn, fin_pole_zonal nmax hσ h1 n hn]
    · rw [finF_pole_order R nmax hσ hmax h1 n m h hm hn, fin_pole_order nmax hσ h1 n m h hm hn]
  · have ord := fin_pole_order nmax hσ h1
    by_cases hm1 : m = 1
    · subst hm1
      refine ⟨_, _, finF_pole_deriv_one R nmax hσ hmax h1 n hn1 hn, hder n 1 hm hn, ?_⟩
      have hx : Legendre.fin nmax σ 0 (1, n + 1) = σ ^ n * (Real.sqrt (2 * ((n : ℝ) * n + n)) / 2) := by
        rcases eq_or_lt_of_le hn1 with rfl | h2
        · have e := fin_eq nmax σ 0 ⟨(1, 2), .read 1 0⟩ (by simp [program])
          simp only [Expr.eval] at e
          rw [e, fin_pole_zonal nmax hσ h1 1 h1]
          have : Real.sqrt (2 * (((1 : ℕ) : ℝ) * ((1 : ℕ) : ℝ) + ((1 : ℕ) : ℝ))) = 2 := by
            rw [show 2 * (((1 : ℕ) : ℝ) * ((1 : ℕ) : ℝ) + ((1 : ℕ) : ℝ)) = 2 ^ 2 by norm_num]
            exact Real.sqrt_sq (by norm_num)
          rw [this]; norm_num
        · have e := fin_eq nmax σ 0 ⟨(1, n + 1), .div (.sub (.mul (.const (Real.sqrt (2 * ((n : ℝ) * n + n)))) (.read n 0))
            (.mul (.const (Real.sqrt ((n : ℝ) * n + n - 2))) (.read n 2))) (.const 2)⟩ (mem_deriv nmax σ 0 h2 hn (by simp [derivBlock]))
          simp only [Expr.eval] at e
          rw [e, fin_pole_zonal nmax hσ h1 n hn, ord n 2 (by norm_num) h2 hn]
          ring
      rw [hx, ← mul_sub, abs_mul, abs_mul, ← sub_div]
      have hy : 1 ≤ Real.sqrt (2 * ((n : ℝ) * n + n)) := by
        rw [Real.one_le_sqrt]
        have : (1 : ℝ) ≤ n := by exact_mod_cast hn1
        nlinarith
      have hy2 : |Real.sqrt (2 * ((n : ℝ) * n + n))| ≤ 2 ^ 60 := by
        rw [abs_of_nonneg (Real.sqrt_nonneg _)]
        have hb : (n : ℝ) ≤ 33554432 := by exact_mod_cast (hn.trans hmax)
        have h0 : (0 : ℝ) ≤ n := by positivity
        exact Real.sqrt_le_iff.2 ⟨by positivity, by norm_num; nlinarith⟩
      have hr := rnd_normal R (x := Real.sqrt (2 * ((n : ℝ) * n + n))) (by
        rw [abs_of_nonneg (Real.sqrt_nonneg _)]
        refine le_trans ?_ hy
        exact zpow_le_one_of_nonpos₀ (by norm_num) (by norm_num)) (big hy2)
      rw [abs_div, abs_div]
      have hu : uu = 2⁻¹ ^ 53 := by unfold uu; norm_num
      rw [hu] at hr
      have h2 : (0 : ℝ) < |(2 : ℝ)| := by norm_num
      calc |σ ^ n| * (|R (Real.sqrt (2 * ((n : ℝ) * n + n))) - Real.sqrt (2 * ((n : ℝ) * n + n))| / |2|)
          ≤ |σ ^ n| * (2⁻¹ ^ 53 * |Real.sqrt (2 * ((n : ℝ) * n + n))| / |2|) := by gcongr
        _ = _ := by ring
    · refine ⟨_, _, finF_pole_deriv R nmax hσ hmax h1 n m hm1 hm hn1 hn, hder n m hm hn, ?_⟩
      have hx : Legendre.fin nmax σ 0 (m, n + 1) = 0 := by
        rcases Nat.eq_zero_or_pos m with rfl | hm0
        · rcases eq_or_lt_of_le hn1 with rfl | h2
          · have e := fin_eq nmax σ 0 ⟨(0, 2), .neg (.read 1 1)⟩ (by simp [program])
            simp only [Expr.eval] at e
            rw [e, ord 1 1 le_rfl le_rfl h1, neg_zero]
          · have e := fin_eq nmax σ 0 ⟨(0, n + 1), .mul (.neg (.const (Real.sqrt (((n : ℝ) * n + n) / 2)))) (.read n 1)⟩
              (mem_deriv nmax σ 0 h2 hn (by simp [derivBlock]))
            simp only [Expr.eval] at e
            rw [e, ord n 1 le_rfl (by omega) hn, mul_zero]
        · have hm2 : 2 ≤ m := by omega
          rcases eq_or_lt_of_le hm with rfl | hlt
          · have e := fin_eq nmax σ 0 ⟨(m, m + 1), .div (.mul (.const (Real.sqrt (2 * m))) (.read m (m - 1))) (.const 2)⟩
              (mem_deriv nmax σ 0 hm2 hn (by simp [derivBlock]))
            simp only [Expr.eval] at e
            rw [e, ord m (m - 1) (by omega) (by omega) hn, mul_zero, zero_div]
          · have e := fin_eq nmax σ 0 (derivStep n m) (mem_deriv nmax σ 0 (by omega) hn (by
              simp only [derivBlock, List.mem_append, List.mem_map, mem_pyRange]
              exact Or.inl (Or.inr ⟨m, ⟨hm2, hlt⟩, rfl⟩)))
            simp only [derivStep, Expr.eval] at e
            rw [e, ord n (m - 1) (by omega) (by omega) hn, ord n (m + 1) (by omega) (by omega) hn]
            ring
      rw [hx]
      simp

/-! ### The field -/

/-- Division by a vanishing sine. -/
theorem divPnm_window {nmax : ℕ} (h1 : 1 ≤ nmax) (hmax : nmax ≤ 2 ^ 25) {θ : ℝ} (hne : θ ≠ 0) (hne' : θ ≠ 180) (n m : ℕ) :
    divPnm R (finF R nmax (poleSign θ) 0) θ n m = none := by
  unfold divPnm
  rw [if_neg (by tauto), finF_11, r0]
  obtain ⟨x, hx⟩ := finF_some R nmax (poleSign θ) 0 hmax (n, m)
  rw [hx]
  simp [fdiv]

section loops
variable (e : Env)

theorem orderStep_none (n : ℕ) (s : St) (m : ℕ) (h : s.B.phi = none ∨ divPnm R e.T e.theta n m = none) : (orderStep R e n s m).B.phi = none := by
  unfold orderStep
  rcases h with h | h
  · simp [h, fadd]
  · simp only [h]
    cases s.B.phi <;> simp [fmul, fadd]

theorem orders_none (n : ℕ) (l : List ℕ) (s : St) (h : s.B.phi = none) : (l.foldl (orderStep R e n) s).B.phi = none := by
  induction l generalizing s with
  | nil => exact h
  | cons m l ih => exact ih _ (orderStep_none R e n s m (Or.inl h))

theorem degrees_none (mmax : ℕ) (l : List ℕ) (s : St) (h : s.B.phi = none) : (l.foldl (degreeStep R e mmax) s).B.phi = none := by
  induction l generalizing s with
  | nil => exact h
  | cons n l ih => exact ih _ (orders_none R e n _ _ h)

/-- One undefined quotient spoils the azimuthal component. -/
theorem field_none {nmin nmax mmax : ℕ} (h1 : 1 ≤ nmin) (h2 : nmin ≤ nmax) (h3 : 1 ≤ mmax) (rn : F) (h : divPnm R e.T e.theta nmin 1 = none) :
    (field R e nmin nmax mmax rn).phi = none := by
  unfold field
  have e1 : pyRange nmin (nmax + 1) = nmin :: pyRange (nmin + 1) (nmax + 1) := by
    unfold pyRange
    rw [show nmax + 1 - nmin = (nmax + 1 - (nmin + 1)) + 1 by omega, List.range'_succ]
  have e2 : pyRange 1 (min nmin mmax + 1) = 1 :: pyRange 2 (min nmin mmax + 1) := by
    have : 1 ≤ min nmin mmax := by omega
    unfold pyRange
    rw [show min nmin mmax + 1 - 1 = (min nmin mmax + 1 - 2) + 1 by omega, List.range'_succ]
  rw [e1, List.foldl_cons]
  apply degrees_none
  unfold degreeStep
  rw [e2, List.foldl_cons]
  apply orders_none
  exact orderStep_none R e nmin _ 1 (Or.inr h)

/-- Two states with the same radial and colatitudinal components. -/
def Same (s s' : St) : Prop := s.B.radius = s'.B.radius ∧ s.B.theta = s'.B.theta ∧ s.num = s'.num ∧ s.rn = s'.rn

theorem orders_same (θ : ℝ) (n : ℕ) (l : List ℕ) (s s' : St) (h : Same s s') :
    Same (l.foldl (orderStep R e n) s) (l.foldl (orderStep R { e with theta := θ } n) s') := by
  induction l generalizing s s' with
  | nil => exact h
  | cons m l ih =>
    refine ih _ _ ?_
    obtain ⟨a, b, c, d⟩ := h
    unfold orderStep Same
    simp only [a, b, c, d, and_self]

theorem degrees_same (θ : ℝ) (mmax : ℕ) (l : List ℕ) (s s' : St) (h : Same s s') :
    Same (l.foldl (degreeStep R e mmax) s) (l.foldl (degreeStep R { e with theta := θ } mmax) s') := by
  induction l generalizing s s' with
  | nil => exact h
  | cons n l ih =>
    refine ih _ _ ?_
    have hz : Same (zonalStep R e n s) (zonalStep R { e with theta := θ } n s') := by
      obtain ⟨a, b, c, d⟩ := h
      unfold zonalStep Same
      simp only [a, b, c, d, and_self]
    obtain ⟨a, b, c, d⟩ := orders_same R e θ n (pyRange 1 (min n mmax + 1)) _ _ hz
    unfold degreeStep Same
    simp only [a, b, c, d, and_self]

/-- All components are numbers. -/
def Numbers (s : St) : Prop := (∃ x, s.B.radius = some x) ∧ (∃ x, s.B.theta = some x) ∧ (∃ x, s.B.phi = some x) ∧ ∃ x, s.rn = some x

theorem fmul_some {a b : F} (ha : ∃ x, a = some x) (hb : ∃ x, b = some x) : ∃ x, fmul R a b = some x := by
  obtain ⟨x, rfl⟩ := ha
  obtain ⟨y, rfl⟩ := hb
  exact ⟨_, rfl⟩

theorem fadd_some {a b : F} (ha : ∃ x, a = some x) (hb : ∃ x, b = some x) : ∃ x, fadd R a b = some x := by
  obtain ⟨x, rfl⟩ := ha
  obtain ⟨y, rfl⟩ := hb
  exact ⟨_, rfl⟩

theorem fsub_some {a b : F} (ha : ∃ x, a = some x) (hb : ∃ x, b = some x) : ∃ x, fsub R a b = some x := by
  obtain ⟨x, rfl⟩ := ha
  obtain ⟨y, rfl⟩ := hb
  exact ⟨_, rfl⟩

theorem fneg_some {a : F} (ha : ∃ x, a = some x) : ∃ x, fneg a = some x := by
  obtain ⟨x, rfl⟩ := ha
  exact ⟨_, rfl⟩

theorem orders_numbers (hT : ∀ p, ∃ x, e.T p = some x) (hc : ∀ i, ∃ x, e.coeffs i = some x) (n : ℕ)
    (hd : ∀ m, ∃ x, divPnm R e.T e.theta n m = some x) (l : List ℕ) (s : St) (h : Numbers s) : Numbers (l.foldl (orderStep R e n) s) := by
  induction l generalizing s with
  | nil => exact h
  | cons m l ih =>
    refine ih _ ?_
    obtain ⟨h1, h2, h3, h4⟩ := h
    have hx : ∀ x : ℝ, ∃ y, (some x : F) = some y := fun x => ⟨x, rfl⟩
    unfold orderStep Numbers
    simp only
    have even : ∃ x, fadd R (fmul R (e.coeffs s.num) (some (e.cosine (R ((m : ℝ) * e.phi))))) (fmul R (e.coeffs (s.num + 1)) (some (e.sine (R ((m : ℝ) * e.phi))))) = some x :=
      fadd_some R (fmul_some R (hc _) (hx _)) (fmul_some R (hc _) (hx _))
    have odd : ∃ x, fsub R (fmul R (e.coeffs s.num) (some (e.sine (R ((m : ℝ) * e.phi))))) (fmul R (e.coeffs (s.num + 1)) (some (e.cosine (R ((m : ℝ) * e.phi))))) = some x :=
      fsub_some R (fmul_some R (hc _) (hx _)) (fmul_some R (hc _) (hx _))
    refine ⟨?_, ?_, ?_, h4⟩
    · split_ifs
      · exact fadd_some R h1 (fmul_some R (fmul_some R (fmul_some R (hx _) (hT _)) h4) even)
      · exact fadd_some R h1 (fneg_some (fmul_some R (fmul_some R (fmul_some R (hx _) (hT _)) h4) even))
    · exact fadd_some R h2 (fmul_some R (fmul_some R (fneg_some (hT _)) h4) even)
    · exact fadd_some R h3 (fmul_some R (fmul_some R (fmul_some R (hx _) (hd _)) h4) odd)

theorem degrees_numbers (hT : ∀ p, ∃ x, e.T p = some x) (hc : ∀ i, ∃ x, e.coeffs i = some x) (hr : ∃ x, e.radius = some x ∧ x ≠ 0)
    (hd : ∀ n m, ∃ x, divPnm R e.T e.theta n m = some x) (mmax : ℕ) (l : List ℕ) (s : St) (h : Numbers s) : Numbers (l.foldl (degreeStep R e mmax) s) := by
  induction l generalizing s with
  | nil => exact h
  | cons n l ih =>
    refine ih _ ?_
    have hz : Numbers (zonalStep R e n s) := by
      obtain ⟨h1, h2, h3, h4⟩ := h
      have hx : ∀ x : ℝ, ∃ y, (some x : F) = some y := fun x => ⟨x, rfl⟩
      unfold zonalStep Numbers
      simp only
      refine ⟨?_, ?_, h3, h4⟩
      · split_ifs
        · exact fadd_some R h1 (fmul_some R (fmul_some R (fmul_some R (hx _) (hT _)) h4) (hc _))
        · exact fadd_some R h1 (fmul_some R (fmul_some R (fmul_some R (hx _) (hT _)) h4) (hc _))
      · exact fadd_some R h2 (fmul_some R (fmul_some R (fneg_some (hT _)) h4) (hc _))
    obtain ⟨h1, h2, h3, x, h4⟩ := orders_numbers R e hT hc n (hd n) (pyRange 1 (min n mmax + 1)) _ hz
    obtain ⟨r, hr1, hr2⟩ := hr
    unfold degreeStep Numbers
    simp only
    refine ⟨h1, h2, h3, ?_⟩
    rw [h4, hr1]
    split_ifs
    · exact ⟨R (x / r), by simp [fdiv, hr2]⟩
    · exact ⟨_, rfl⟩

end loops

/-- **C91, lost longitude.** With a correctly rounded cosine, at every colatitude within `6e-7` degrees (7 cm on the surface) of a pole but not at
the pole, the azimuthal component is NaN - for all coefficients, azimuths and radii, all degrees and orders (from order 1 on) and both sources -
while the other two components are those at the pole. -/
theorem C91_lost (sin : ℝ → ℝ) (power : ℝ → ℤ → ℝ) (rsurf : ℝ) (internal : Bool) {nmin nmax mmax : ℕ} (h1 : 1 ≤ nmin) (h2 : nmin ≤ nmax)
    (h3 : 1 ≤ mmax) (hmax : nmax ≤ 2 ^ 25) (coeffs : ℕ → F) (radius phi : ℝ) {θ pole : ℝ} (hp : pole = 0 ∨ pole = 180) (hd : |θ - pole| ≤ 6e-7)
    (hne : θ ≠ pole) (hr : 0 ≤ θ ∧ θ ≤ 180) :
    ∃ B P, synthPoint R (bestCos R) sin power rsurf internal nmin nmax mmax coeffs radius θ phi = .ok B ∧
      synthPoint R (bestCos R) sin power rsurf internal nmin nmax mmax coeffs radius pole phi = .ok P ∧
      B.phi = none ∧ B.radius = P.radius ∧ B.theta = P.theta := by
  have hd' := abs_le.1 hd
  have hw : θ ≤ 6e-7 ∨ 180 - 6e-7 ≤ θ := by
    rcases hp with rfl | rfl
    · left; linarith
    · right; linarith
  have hwp : pole ≤ 6e-7 ∨ 180 - 6e-7 ≤ pole := by rcases hp with rfl | rfl <;> norm_num
  have hsign : poleSign pole = poleSign θ := by
    unfold poleSign
    norm_num at hd'
    rcases hp with rfl | rfl
    · rw [if_pos (by norm_num), if_pos (by linarith)]
    · rw [if_neg (by norm_num), if_neg (by linarith)]
  have t1 := table_window R (nmax := nmax) (by omega) hr.1 hr.2 hw
  have t2 := table_window R (nmax := nmax) (θ := pole) (by omega) (by rcases hp with rfl | rfl <;> norm_num) (by rcases hp with rfl | rfl <;> norm_num) hwp
  unfold synthPoint
  rw [t1, t2, hsign]
  simp only
  refine ⟨_, _, rfl, rfl, ?_, ?_, ?_⟩
  · apply field_none R _ h1 h2 h3
    have : θ ≠ 0 ∧ θ ≠ 180 := by
      norm_num at hd'
      rcases hp with rfl | rfl
      · exact ⟨hne, by intro h; rw [h] at hd'; norm_num at hd'⟩
      · exact ⟨by intro h; rw [h] at hd'; norm_num at hd', hne⟩
    exact divPnm_window R (by omega) hmax this.1 this.2 nmin 1
  · have := degrees_same R ⟨internal, some (R (radius / rsurf)), θ, radians R phi, coeffs, finF R nmax (poleSign θ) 0, bestCos R, sin⟩ pole mmax
      (pyRange nmin (nmax + 1)) ⟨⟨some 0, some 0, some 0⟩, 0, rnInit internal power nmin (R (radius / rsurf))⟩ _ ⟨rfl, rfl, rfl, rfl⟩
    exact this.1
  · have := degrees_same R ⟨internal, some (R (radius / rsurf)), θ, radians R phi, coeffs, finF R nmax (poleSign θ) 0, bestCos R, sin⟩ pole mmax
      (pyRange nmin (nmax + 1)) ⟨⟨some 0, some 0, some 0⟩, 0, rnInit internal power nmin (R (radius / rsurf))⟩ _ ⟨rfl, rfl, rfl, rfl⟩
    exact this.2.1

/-- **C91, lost longitude in the design matrix.** At the same points all entries of `A_phi` with order 1 or more are NaN. -/
theorem C91_design (sin : ℝ → ℝ) {nmax : ℕ} (h1 : 1 ≤ nmax) (hmax : nmax ≤ 2 ^ 25) (phi : ℝ) (rn : F) {θ pole : ℝ} (hp : pole = 0 ∨ pole = 180)
    (hd : |θ - pole| ≤ 6e-7) (hne : θ ≠ pole) (hr : 0 ≤ θ ∧ θ ≤ 180) :
    ∃ T, legendrePolyF R (bestCos R) nmax θ = .ok T ∧ ∀ n m, designPhi R (bestCos R) sin T θ phi rn n m = (none, none) := by
  have hd' := abs_le.1 hd
  have hw : θ ≤ 6e-7 ∨ 180 - 6e-7 ≤ θ := by
    rcases hp with rfl | rfl
    · left; linarith
    · right; linarith
  refine ⟨_, table_window R h1 hr.1 hr.2 hw, fun n m => ?_⟩
  have : θ ≠ 0 ∧ θ ≠ 180 := by
    norm_num at hd'
    rcases hp with rfl | rfl
    · exact ⟨hne, by intro h; rw [h] at hd'; norm_num at hd'⟩
    · exact ⟨by intro h; rw [h] at hd'; norm_num at hd', hne⟩
  unfold designPhi
  simp only [divPnm_window R h1 hmax this.1 this.2 n m]
  rfl

/-- **C91, defined field.** At the poles and `6.1e-7` degrees or more away from them (`1.3e-6` degrees for every cosine that is good to `2^-52`), no
operand is undefined: all three components are numbers, for all coefficients that are numbers, all radii that are not zero in units of the reference
radius, and both sources. -/
theorem C91_defined {C : ℝ → ℝ} (hC : IsCosine C) (sin : ℝ → ℝ) (power : ℝ → ℤ → ℝ) (rsurf : ℝ) (internal : Bool) {nmin nmax mmax : ℕ}
    (h1 : 1 ≤ nmin) (h2 : nmin ≤ nmax) (hmax : nmax ≤ 2 ^ 25) (coeffs : ℕ → ℝ) (radius phi : ℝ)
    (hrad : 2⁻¹ ^ 1000 ≤ radius / rsurf) (hrad' : radius / rsurf ≤ 2 ^ 1000) {θ a : ℝ}
    (ha : a = 1.3e-6 ∨ C = bestCos R ∧ a = 6.1e-7) (hθ : θ = 0 ∨ θ = 180 ∨ a ≤ θ ∧ θ ≤ 180 - a) :
    ∃ B x y z, synthPoint R C sin power rsurf internal nmin nmax mmax (fun i => some (coeffs i)) radius θ phi = .ok B ∧
      B.radius = some x ∧ B.theta = some y ∧ B.phi = some z := by
  have t := legendrePolyF_ok R C nmax θ (by omega)
  unfold synthPoint
  rw [t]
  simp only
  have hT := finF_some R nmax (C (radians R θ)) (sine R (C (radians R θ))) hmax
  have hrat : R (radius / rsurf) ≠ 0 := by
    have hpos : (0 : ℝ) < 2⁻¹ ^ 1000 := by positivity
    have hdb : IsDouble (2⁻¹ ^ 1000) := by
      have := double_of (m := 1) (e := -1000) (by norm_num) (by norm_num) (by norm_num)
      rw [Int.cast_one, one_mul, zpow_neg, zpow_ofNat, ← inv_pow] at this
      exact this
    have hle1 : (2⁻¹ : ℝ) ^ 1000 ≤ 1 := pow_le_one₀ (by norm_num) (by norm_num)
    have hab : |(2⁻¹ : ℝ) ^ 1000| ≤ 2 ^ 1000 := big' (by rw [abs_of_pos hpos]; linarith)
    have hm := rnd_mono R hab (y := radius / rsurf) (by rw [abs_of_pos (hpos.trans_le hrad)]; exact hrad') hrad
    rw [rnd_double R hdb hab] at hm
    exact (hpos.trans_le hm).ne'
  obtain ⟨b1, b2, b3, -⟩ := degrees_numbers R ⟨internal, some (R (radius / rsurf)), θ, radians R phi, fun i => some (coeffs i),
      finF R nmax (C (radians R θ)) (sine R (C (radians R θ))), C, sin⟩ hT (fun i => ⟨_, rfl⟩) ⟨_, rfl, hrat⟩ (fun n m => by
        unfold divPnm
        by_cases hpole : θ = 0 ∨ θ = 180
        · simp only
          rw [if_pos hpole]
          exact fmul_some R (hT _) (hT _)
        · simp only
          rw [if_neg hpole]
          have haw : a ≤ θ ∧ θ ≤ 180 - a := by tauto
          obtain ⟨T', s, hT', hs, hpos⟩ := C91_positive R hC (nmax := nmax) (by omega) haw.1 haw.2 ha
          rw [t] at hT'
          cases hT'
          rw [hs]
          obtain ⟨x, hx⟩ := hT (n, m)
          rw [hx]
          have : s ≠ 0 := by
            have : (0 : ℝ) < 2⁻¹ ^ 26 := by positivity
            linarith
          exact ⟨R (x / s), by simp [fdiv, this]⟩) mmax (pyRange nmin (nmax + 1)) ⟨⟨some 0, some 0, some 0⟩, 0, rnInit internal power nmin (R (radius / rsurf))⟩
      ⟨⟨0, rfl⟩, ⟨0, rfl⟩, ⟨0, rfl⟩, by
        unfold rnInit
        simp only
        exact ⟨_, if_neg (fun h => hrat h.1)⟩⟩
  obtain ⟨x, hx⟩ := b1
  obtain ⟨y, hy⟩ := b2
  obtain ⟨z, hz⟩ := b3
  exact ⟨_, x, y, z, rfl, hx, hy, hz⟩

/-- The derivatives at the poles are doubles. -/
theorem pole_deriv_double {nmax : ℕ} (h1 : 1 ≤ nmax) (hmax : nmax ≤ 2 ^ 25) {σ : ℝ} (hσ : σ = 1 ∨ σ = -1) (n m : ℕ) (hm : m ≤ n) (hn1 : 1 ≤ n)
    (hn : n ≤ nmax) : ∃ d, finF R nmax σ 0 (m, n + 1) = some d ∧ IsDouble d ∧ |d| ≤ 2 ^ 60 := by
  by_cases hm1 : m = 1
  · subst hm1
    refine ⟨_, finF_pole_deriv_one R nmax hσ hmax h1 n hn1 hn, ?_⟩
    have hb : (n : ℝ) ≤ 33554432 := by exact_mod_cast (hn.trans hmax)
    have hn1' : (1 : ℝ) ≤ n := by exact_mod_cast hn1
    have hx1 : (1 : ℝ) ≤ 2 * ((n : ℝ) * n + n) := by nlinarith
    have hx2 : 2 * ((n : ℝ) * n + n) ≤ 2 ^ 120 := by norm_num; nlinarith
    have hq := root_ge R hx1 hx2
    have hsb : |Real.sqrt (2 * ((n : ℝ) * n + n))| ≤ 2 ^ 60 := by
      rw [abs_of_nonneg (Real.sqrt_nonneg _)]
      exact Real.sqrt_le_iff.2 ⟨by positivity, by rw [← pow_mul]; exact hx2⟩
    have hd := (R.nearest _ (big hsb)).1
    have hq2 : R (Real.sqrt (2 * ((n : ℝ) * n + n))) ≤ 2 ^ 60 := by
      have := rnd_mono R (big hsb) (y := 2 ^ 60) (big (by norm_num)) ((le_abs_self _).trans hsb)
      rwa [rnd_double R (x := 2 ^ 60) (by simpa using double_of (m := 1) (e := 60) (by norm_num) (by norm_num) (by norm_num)) (big (by norm_num))] at this
    have hab : |R (Real.sqrt (2 * ((n : ℝ) * n + n))) / 2| ≤ 2 ^ 60 := by rw [abs_of_nonneg (by linarith)]; linarith
    have hpow : σ ^ n = 1 ∨ σ ^ n = -1 := by
      rcases hσ with rfl | rfl
      · left; simp
      · exact neg_one_pow_eq_or ℝ n
    rcases hpow with e | e <;> rw [e]
    · rw [one_mul]; exact ⟨half_double hd hq, hab⟩
    · rw [neg_one_mul, abs_neg]; exact ⟨double_neg (half_double hd hq), hab⟩
  · exact ⟨0, finF_pole_deriv R nmax hσ hmax h1 n m hm1 hm hn1 hn, double_zero, by norm_num⟩

/-- **C91, azimuthal factors.** The factors `P_n^m / sin θ` of the azimuthal component: at the poles they are the limit (the derivative times
the cosine) correct to half a unit in the last place, and for degree and order one they are exactly one, at the poles and `6.1e-7` degrees away. -/
theorem C91_quotient {nmax : ℕ} (h1 : 1 ≤ nmax) (hmax : nmax ≤ 2 ^ 25) {θ : ℝ} (hθ : θ = 0 ∨ θ = 180 ∨ 6.1e-7 ≤ θ ∧ θ ≤ 180 - 6.1e-7) :
    ∃ T, legendrePolyF R (bestCos R) nmax θ = .ok T ∧ divPnm R T θ 1 1 = some 1 ∧
      ((θ = 0 ∨ θ = 180) → ∀ n m, m ≤ n → 1 ≤ n → n ≤ nmax → ∃ d x, divPnm R T θ n m = some d ∧
        HasDerivAt (fun t => schmidt n m t) x (rad θ) ∧ |d - x * Real.cos (rad θ)| ≤ 2⁻¹ ^ 53 * |x|) := by
  by_cases hpole : θ = 0 ∨ θ = 180
  · obtain ⟨T, hT, hall⟩ := C91_poles R h1 hmax hpole
    have hw : legendrePolyF R (bestCos R) nmax θ = .ok (finF R nmax (poleSign θ) 0) := by
      refine table_window R h1 ?_ ?_ ?_ <;> rcases hpole with rfl | rfl <;> norm_num
    rw [hw] at hT
    cases hT
    have hσ := poleSign_or θ
    have hcos : Real.cos (rad θ) = poleSign θ := by
      unfold rad poleSign
      rcases hpole with rfl | rfl
      · simp
      · rw [show (180 : ℝ) * (Real.pi / 180) = Real.pi by ring, Real.cos_pi]; norm_num
    have h10 : finF R nmax (poleSign θ) 0 (1, 0) = some (poleSign θ) := by
      rw [finF_pole_zonal R nmax hσ hmax h1 1 h1, pow_one]
    have key : ∀ n m, m ≤ n → 1 ≤ n → n ≤ nmax → ∃ d, finF R nmax (poleSign θ) 0 (m, n + 1) = some d ∧
        divPnm R (finF R nmax (poleSign θ) 0) θ n m = some (d * poleSign θ) := by
      intro n m hm hn1 hn
      obtain ⟨d, e1, e2, e3⟩ := pole_deriv_double R h1 hmax hσ n m hm hn1 hn
      refine ⟨d, e1, ?_⟩
      unfold divPnm
      rw [if_pos hpole, e1, h10, fmul]
      congr 1
      rcases hσ with e | e <;> rw [e]
      · rw [mul_one, rnd_double R e2 (big e3)]
      · rw [mul_neg_one, rnd_double R (double_neg e2) (big (by rwa [abs_neg]))]
    refine ⟨_, hw, ?_, fun _ n m hm hn1 hn => ?_⟩
    · obtain ⟨d, e1, e2⟩ := key 1 1 le_rfl le_rfl h1
      have h12 := finF_12 R nmax (poleSign θ) 0
      rw [h10] at h12
      rw [h12] at e1
      cases e1
      rw [e2]
      rcases hσ with e | e <;> rw [e] <;> norm_num
    · obtain ⟨d, e1, e2⟩ := key n m hm hn1 hn
      obtain ⟨-, h⟩ := hall n m hm hn
      obtain ⟨d', x, e3, e4, e5⟩ := h hn1
      rw [e1] at e3
      cases e3
      refine ⟨_, x, e2, e4, ?_⟩
      rw [hcos, ← sub_mul, abs_mul]
      have : |poleSign θ| = 1 := by rcases hσ with e | e <;> rw [e] <;> norm_num
      rw [this, mul_one]
      exact e5
  · have haw : 6.1e-7 ≤ θ ∧ θ ≤ 180 - 6.1e-7 := by tauto
    obtain ⟨T, s, hT, hs, hpos⟩ := C91_positive R (bestCos_isCosine R) h1 haw.1 haw.2 (Or.inr ⟨rfl, rfl⟩)
    refine ⟨T, hT, ?_, fun h => absurd h hpole⟩
    have : s ≠ 0 := by
      have : (0 : ℝ) < 2⁻¹ ^ 26 := by positivity
      linarith
    unfold divPnm
    rw [if_neg hpole, hs]
    simp [fdiv, this, r1]

end ChaosMagPy.FloatLegendre
