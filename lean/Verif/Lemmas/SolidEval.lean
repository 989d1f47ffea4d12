import Verif.Lemmas.Solid
import Verif.Lemmas.LegendreTable
/-! Values of solid harmonics on the unit sphere. -/
namespace ChaosMagPy.Solid
open MvPolynomial Finset
open ChaosMagPy.Spec (schmidt schmidtNorm)
open ChaosMagPy.Legendre (dl dl_three dl_sub dl_diag dl_zero_zero)

noncomputable section

/-- Point of the unit sphere (angles in radians). -/
def pt (x y : ℝ) : Fin 3 → ℝ := ![Real.sin x * Real.cos y, Real.sin x * Real.sin y, Real.cos x]

theorem ev_px (x y : ℝ) : eval (pt x y) px = Real.sin x * Real.cos y := by unfold px pt; simp
theorem ev_py (x y : ℝ) : eval (pt x y) py = Real.sin x * Real.sin y := by unfold py pt; simp
theorem ev_pz (x y : ℝ) : eval (pt x y) pz = Real.cos x := by unfold pz pt; simp

theorem ev_r2 (x y : ℝ) : eval (pt x y) r2 = 1 := by
  unfold r2
  rw [map_add, map_add, map_pow, map_pow, map_pow, ev_px, ev_py, ev_pz]
  linear_combination Real.sin x ^ 2 * Real.sin_sq_add_cos_sq y + Real.sin_sq_add_cos_sq x

/-- Cosine or sine. -/
def trig (s : Bool) (y : ℝ) : ℝ := if s then Real.sin y else Real.cos y

theorem ev_cs (m : ℕ) (x y : ℝ) : eval (pt x y) (cs m).1 = Real.sin x ^ m * Real.cos (m * y) ∧ eval (pt x y) (cs m).2 = Real.sin x ^ m * Real.sin (m * y) := by
  induction m with
  | zero => simp [cs]
  | succ m ih =>
    have b1 : (cs (m + 1)).1 = px * (cs m).1 - py * (cs m).2 := rfl
    have b2 : (cs (m + 1)).2 = px * (cs m).2 + py * (cs m).1 := rfl
    rw [b1, b2, map_sub, map_add, map_mul, map_mul, map_mul, map_mul, ih.1, ih.2, ev_px, ev_py]
    push_cast
    rw [add_mul, one_mul, Real.cos_add, Real.sin_add]
    constructor <;> ring

theorem ev_az (s : Bool) (m : ℕ) (x y : ℝ) : eval (pt x y) (az s m) = Real.sin x ^ m * trig s (m * y) := by
  cases s
  · exact (ev_cs m x y).1
  · exact (ev_cs m x y).2

theorem dl_dfac (m : ℕ) : dl m m = Polynomial.C (dfac m) := by
  induction m with
  | zero => rw [dl_zero_zero]; simp [dfac]
  | succ m ih => rw [dl_diag, ih, ← Polynomial.C_mul]; rfl

theorem ev_sol (s : Bool) (m j : ℕ) (x y : ℝ) :
    eval (pt x y) (sol s m j) = (dl (m + j) m).eval (Real.cos x) * (Real.sin x ^ m * trig s (m * y)) := by
  induction j using Nat.strong_induction_on with
  | _ j ih =>
    match j with
    | 0 =>
      rw [sol, map_mul, eval_C, ev_az, Nat.add_zero, dl_dfac, Polynomial.eval_C]
    | 1 =>
      rw [sol, map_mul, map_mul, map_mul, eval_C, eval_C, ev_az, ev_pz, dl_sub, dl_dfac]
      simp only [Polynomial.eval_mul, Polynomial.eval_C, Polynomial.eval_X]
      ring
    | j + 2 =>
      have h1 := congrArg (eval (pt x y)) (sol_rec s m j)
      simp only [map_mul, map_sub, eval_C, ev_pz, ev_r2, ih (j + 1) (by omega), ih j (by omega)] at h1
      have h2 := congrArg (Polynomial.eval (Real.cos x)) (dl_three (m + j) m)
      simp only [Polynomial.eval_mul, Polynomial.eval_sub, Polynomial.eval_C, Polynomial.eval_X] at h2
      have hj : (j + 2 : ℝ) ≠ 0 := by positivity
      refine mul_left_cancel₀ hj ?_
      rw [h1]
      push_cast at h2
      have e1 : m + (j + 1) = m + j + 1 := rfl
      have e2 : m + (j + 2) = m + j + 2 := rfl
      rw [e1, e2]
      linear_combination (-(Real.sin x ^ m * trig s (m * y))) * h2

theorem schmidtNorm_pos (n m : ℕ) : 0 < schmidtNorm n m := by
  unfold schmidtNorm
  split_ifs
  · exact one_pos
  · exact Real.sqrt_pos.2 (by positivity)

theorem ev_sol_schmidt (s : Bool) (m j : ℕ) (x y : ℝ) :
    schmidt (m + j) m x * trig s (m * y) = schmidtNorm (m + j) m * eval (pt x y) (sol s m j) := by
  rw [ev_sol]
  unfold schmidt
  change _ * (dl (m + j) m).eval (Real.cos x) * _ = _
  ring

/-- Values of a member of the span of the solid harmonics. -/
theorem W_eval {k : ℕ} {f : Poly} (hf : f ∈ spanW k) :
    ∃ a b : ℕ → ℝ, ∀ x y, eval (pt x y) f = ∑ m ∈ range (k + 1), (a m * Real.cos (m * y) + b m * Real.sin (m * y)) * schmidt k m x := by
  induction hf using Submodule.span_induction with
  | mem f hf =>
    obtain ⟨s, m, j, hk, rfl⟩ := hf
    have hN := (schmidtNorm_pos k m).ne'
    refine ⟨fun l => if l = m then (if s then 0 else 1 / schmidtNorm k m) else 0, fun l => if l = m then (if s then 1 / schmidtNorm k m else 0) else 0, fun x y => ?_⟩
    rw [sum_eq_single m]
    · have h := ev_sol_schmidt s m j x y
      rw [hk] at h
      simp only [if_true]
      cases s
      · simp only [Bool.false_eq_true, if_false, zero_mul, add_zero]
        rw [div_mul_eq_mul_div, div_mul_eq_mul_div, eq_div_iff hN, mul_comm, ← h]
        unfold trig
        simp only [Bool.false_eq_true, if_false]
        ring
      · simp only [if_true, zero_mul, zero_add]
        rw [div_mul_eq_mul_div, div_mul_eq_mul_div, eq_div_iff hN, mul_comm, ← h]
        unfold trig
        simp only [if_true]
        ring
    · intro l _ hl
      simp [hl]
    · intro hm
      exact absurd (mem_range.2 (by omega)) hm
  | zero => exact ⟨fun _ => 0, fun _ => 0, fun x y => by simp⟩
  | add f g _ _ hf hg =>
    obtain ⟨a, b, h⟩ := hf
    obtain ⟨a', b', h'⟩ := hg
    refine ⟨fun m => a m + a' m, fun m => b m + b' m, fun x y => ?_⟩
    rw [map_add, h, h', ← sum_add_distrib]
    refine sum_congr rfl fun m _ => ?_
    ring
  | smul c f _ hf =>
    obtain ⟨a, b, h⟩ := hf
    refine ⟨fun m => c * a m, fun m => c * b m, fun x y => ?_⟩
    rw [← C_mul', map_mul, eval_C, h, mul_sum]
    refine sum_congr rfl fun m _ => ?_
    ring

theorem ev_rot (B : Fin 3 → Fin 3 → ℝ) (v : Fin 3 → ℝ) (f : Poly) : eval v (rot B f) = eval (fun i => B i 0 * v 0 + B i 1 * v 1 + B i 2 * v 2) f := by
  induction f using MvPolynomial.induction_on with
  | C a =>
    have e : rot B (C a) = C a := (rot B).commutes a
    rw [e, eval_C, eval_C]
  | add f g hf hg => rw [map_add, map_add, hf, hg, map_add]
  | mul_X f i hf =>
    rw [map_mul, map_mul, hf, map_mul, rot_X, eval_X]
    unfold px py pz
    simp only [map_add, map_mul, eval_C, eval_X]

/-- A harmonic in rotated coordinates is an expansion of the same degree. -/
theorem rotated {B : Fin 3 → Fin 3 → ℝ} (hB : Orth B) (s : Bool) {k m : ℕ} (hm : m ≤ k) :
    ∃ a b : ℕ → ℝ, ∀ x y x' y', (pt x' y' = fun i => B i 0 * pt x y 0 + B i 1 * pt x y 1 + B i 2 * pt x y 2) →
      schmidt k m x' * trig s (m * y') = ∑ l ∈ range (k + 1), (a l * Real.cos (l * y) + b l * Real.sin (l * y)) * schmidt k l x := by
  have e : m + (k - m) = k := by omega
  have h := rot_sol hB s m (k - m)
  rw [e] at h
  obtain ⟨a, b, hab⟩ := W_eval h
  refine ⟨fun l => schmidtNorm k m * a l, fun l => schmidtNorm k m * b l, fun x y x' y' hp => ?_⟩
  have h1 := ev_sol_schmidt s m (k - m) x' y'
  rw [e] at h1
  rw [h1, hp, ← ev_rot, hab, mul_sum]
  refine sum_congr rfl fun l _ => ?_
  ring

end

end ChaosMagPy.Solid
