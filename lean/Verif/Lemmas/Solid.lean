import Mathlib.RingTheory.MvPolynomial.EulerIdentity
import Mathlib.RingTheory.MvPolynomial.Homogeneous
import Mathlib.Algebra.MvPolynomial.PDeriv
import Mathlib.Data.Real.Basic
import Mathlib.Tactic.LinearCombination
import Mathlib.Tactic.FieldSimp
import Mathlib.LinearAlgebra.Matrix.Notation
/-! Solid spherical harmonics as polynomials in three variables, and their behaviour under rotations. -/
namespace ChaosMagPy.Solid
open MvPolynomial

/-- Polynomials in `x, y, z`. -/
abbrev Poly := MvPolynomial (Fin 3) ℝ

noncomputable section

/-- `x`. -/
def px : Poly := X 0
/-- `y`. -/
def py : Poly := X 1
/-- `z`. -/
def pz : Poly := X 2
/-- `x² + y² + z²`. -/
def r2 : Poly := px ^ 2 + py ^ 2 + pz ^ 2

/-- Laplacian. -/
def lap (f : Poly) : Poly := pderiv 0 (pderiv 0 f) + pderiv 1 (pderiv 1 f) + pderiv 2 (pderiv 2 f)

/-- Real and imaginary part of `(x + iy)^m`. -/
def cs : ℕ → Poly × Poly
  | 0 => (1, 0)
  | m + 1 => (px * (cs m).1 - py * (cs m).2, px * (cs m).2 + py * (cs m).1)

/-- Real (`false`) or imaginary (`true`) part. -/
def az (s : Bool) (m : ℕ) : Poly := if s then (cs m).2 else (cs m).1

theorem d0x : pderiv 0 px = (1 : Poly) := by unfold px; simp
theorem d1x : pderiv 1 px = (0 : Poly) := by unfold px; exact pderiv_X_of_ne (by decide)
theorem d2x : pderiv 2 px = (0 : Poly) := by unfold px; exact pderiv_X_of_ne (by decide)
theorem d0y : pderiv 0 py = (0 : Poly) := by unfold py; exact pderiv_X_of_ne (by decide)
theorem d1y : pderiv 1 py = (1 : Poly) := by unfold py; simp
theorem d2y : pderiv 2 py = (0 : Poly) := by unfold py; exact pderiv_X_of_ne (by decide)
theorem d0z : pderiv 0 pz = (0 : Poly) := by unfold pz; exact pderiv_X_of_ne (by decide)
theorem d1z : pderiv 1 pz = (0 : Poly) := by unfold pz; exact pderiv_X_of_ne (by decide)
theorem d2z : pderiv 2 pz = (1 : Poly) := by unfold pz; simp

theorem dmul (i : Fin 3) (f g : Poly) : pderiv i (f * g) = pderiv i f * g + f * pderiv i g := by
  rw [pderiv_mul]

theorem dC (i : Fin 3) (a : ℝ) (f : Poly) : pderiv i (C a * f) = C a * pderiv i f := by
  rw [dmul, pderiv_C, zero_mul, zero_add]

theorem d0r : pderiv 0 r2 = (2 * px : Poly) := by
  unfold r2; simp only [map_add, pow_two, dmul, d0x, d0y, d0z]; ring
theorem d1r : pderiv 1 r2 = (2 * py : Poly) := by
  unfold r2; simp only [map_add, pow_two, dmul, d1x, d1y, d1z]; ring
theorem d2r : pderiv 2 r2 = (2 * pz : Poly) := by
  unfold r2; simp only [map_add, pow_two, dmul, d2x, d2y, d2z]; ring

/-! ### Azimuthal part -/

theorem cs_deriv (m : ℕ) : pderiv 0 (cs (m + 1)).1 = C (m + 1 : ℝ) * (cs m).1 ∧ pderiv 1 (cs (m + 1)).1 = -(C (m + 1 : ℝ) * (cs m).2) ∧
    pderiv 0 (cs (m + 1)).2 = C (m + 1 : ℝ) * (cs m).2 ∧ pderiv 1 (cs (m + 1)).2 = C (m + 1 : ℝ) * (cs m).1 := by
  induction m with
  | zero => simp [cs, d0x, d1x, d0y, d1y]
  | succ m ih =>
    obtain ⟨h1, h2, h3, h4⟩ := ih
    have e : (C (((m + 1 : ℕ) : ℝ) + 1) : Poly) = C (m + 1 : ℝ) + 1 := by push_cast; rw [C_add, map_one]
    have c1 : (cs (m + 1 + 1)).1 = px * (cs (m + 1)).1 - py * (cs (m + 1)).2 := rfl
    have c2 : (cs (m + 1 + 1)).2 = px * (cs (m + 1)).2 + py * (cs (m + 1)).1 := rfl
    have b1 : (cs (m + 1)).1 = px * (cs m).1 - py * (cs m).2 := rfl
    have b2 : (cs (m + 1)).2 = px * (cs m).2 + py * (cs m).1 := rfl
    rw [c1, c2, e]
    simp only [map_add, map_sub, dmul, d0x, d1x, d0y, d1y, h1, h2, h3, h4]
    refine ⟨?_, ?_, ?_, ?_⟩
    · rw [b1]; ring
    · rw [b2]; ring
    · rw [b2]; ring
    · rw [b1]; ring

theorem cs_dz (m : ℕ) : pderiv 2 (cs m).1 = 0 ∧ pderiv 2 (cs m).2 = 0 := by
  induction m with
  | zero => simp [cs]
  | succ m ih =>
    constructor
    · change pderiv 2 (px * (cs m).1 - py * (cs m).2) = 0
      simp only [map_sub, dmul, d2x, d2y, ih.1, ih.2]; ring
    · change pderiv 2 (px * (cs m).2 + py * (cs m).1) = 0
      simp only [map_add, dmul, d2x, d2y, ih.1, ih.2]; ring

theorem az_dz (s : Bool) (m : ℕ) : pderiv 2 (az s m) = 0 := by
  cases s
  · exact (cs_dz m).1
  · exact (cs_dz m).2

theorem az_lap (s : Bool) (m : ℕ) : lap (az s m) = 0 := by
  unfold lap
  rw [az_dz, map_zero, add_zero]
  cases m with
  | zero => cases s <;> simp [az, cs]
  | succ m =>
    obtain ⟨h1, h2, h3, h4⟩ := cs_deriv m
    cases m with
    | zero =>
      cases s
      · change pderiv 0 (pderiv 0 (cs 1).1) + pderiv 1 (pderiv 1 (cs 1).1) = 0
        rw [h1, h2]; simp [cs]
      · change pderiv 0 (pderiv 0 (cs 1).2) + pderiv 1 (pderiv 1 (cs 1).2) = 0
        rw [h3, h4]; simp [cs]
    | succ m =>
      obtain ⟨g1, g2, g3, g4⟩ := cs_deriv m
      cases s
      · change pderiv 0 (pderiv 0 (cs (m + 1 + 1)).1) + pderiv 1 (pderiv 1 (cs (m + 1 + 1)).1) = 0
        rw [h1, h2, map_neg, dC, dC, g1, g4]; ring
      · change pderiv 0 (pderiv 0 (cs (m + 1 + 1)).2) + pderiv 1 (pderiv 1 (cs (m + 1 + 1)).2) = 0
        rw [h3, h4, dC, dC, g3, g2]; ring

theorem px_hom : px.IsHomogeneous 1 := isHomogeneous_X _ _
theorem py_hom : py.IsHomogeneous 1 := isHomogeneous_X _ _
theorem pz_hom : pz.IsHomogeneous 1 := isHomogeneous_X _ _

theorem r2_hom : r2.IsHomogeneous 2 := by
  unfold r2
  exact ((px_hom.pow 2).add (py_hom.pow 2)).add (pz_hom.pow 2)

theorem cs_hom (m : ℕ) : (cs m).1.IsHomogeneous m ∧ (cs m).2.IsHomogeneous m := by
  induction m with
  | zero => exact ⟨isHomogeneous_one _ _, isHomogeneous_zero _ _ _⟩
  | succ m ih =>
    rw [Nat.add_comm m 1]
    have e : cs (1 + m) = (px * (cs m).1 - py * (cs m).2, px * (cs m).2 + py * (cs m).1) := by rw [Nat.add_comm]; rfl
    rw [e]
    exact ⟨(px_hom.mul ih.1).sub (py_hom.mul ih.2), (px_hom.mul ih.2).add (py_hom.mul ih.1)⟩

theorem az_hom (s : Bool) (m : ℕ) : (az s m).IsHomogeneous m := by
  cases s
  · exact (cs_hom m).1
  · exact (cs_hom m).2

/-! ### Solid harmonics -/

/-- `(2m-1)!!`. -/
def dfac : ℕ → ℝ
  | 0 => 1
  | m + 1 => (2 * m + 1) * dfac m

/-- Solid harmonic of degree `m + j` and order `m`. -/
def sol (s : Bool) (m : ℕ) : ℕ → Poly
  | 0 => C (dfac m) * az s m
  | 1 => C (2 * m + 1 : ℝ) * (pz * (C (dfac m) * az s m))
  | j + 2 => C (1 / (j + 2 : ℝ)) * (C (2 * (m + j) + 3 : ℝ) * (pz * sol s m (j + 1)) - C (2 * m + j + 1 : ℝ) * (r2 * sol s m j))

theorem sol_rec (s : Bool) (m j : ℕ) :
    C (j + 2 : ℝ) * sol s m (j + 2) = C (2 * (m + j) + 3 : ℝ) * (pz * sol s m (j + 1)) - C (2 * m + j + 1 : ℝ) * (r2 * sol s m j) := by
  rw [sol, ← mul_assoc, ← C_mul]
  have : (j + 2 : ℝ) * (1 / (j + 2)) = 1 := by
    have : (j + 2 : ℝ) ≠ 0 := by positivity
    field_simp
  rw [this, map_one, one_mul]

theorem sol_hom (s : Bool) (m j : ℕ) : (sol s m j).IsHomogeneous (m + j) := by
  induction j using Nat.strong_induction_on with
  | _ j ih =>
    match j with
    | 0 => exact (az_hom s m).C_mul _
    | 1 =>
      rw [Nat.add_comm m 1]
      exact (pz_hom.mul ((az_hom s m).C_mul _)).C_mul _
    | j + 2 =>
      refine IsHomogeneous.C_mul ?_ _
      refine IsHomogeneous.sub (IsHomogeneous.C_mul ?_ _) (IsHomogeneous.C_mul ?_ _)
      · have := pz_hom.mul (ih (j + 1) (by omega))
        rw [show 1 + (m + (j + 1)) = m + (j + 2) by omega] at this
        exact this
      · have := r2_hom.mul (ih j (by omega))
        rw [show 2 + (m + j) = m + (j + 2) by omega] at this
        exact this

theorem C_ne (a : ℝ) (h : a ≠ 0) : (C a : Poly) ≠ 0 := by
  intro hc
  exact h (C_injective (Fin 3) ℝ (by rw [hc, map_zero]))

theorem C2 : (C (2 : ℝ) : Poly) = 2 := map_ofNat C 2
theorem C3 : (C (3 : ℝ) : Poly) = 3 := map_ofNat C 3

theorem sol_dz (s : Bool) (m j : ℕ) : pderiv 2 (sol s m (j + 1)) = C (2 * m + j + 1 : ℝ) * sol s m j := by
  induction j using Nat.strong_induction_on with
  | _ j ih =>
    match j with
    | 0 =>
      change pderiv 2 (C (2 * m + 1 : ℝ) * (pz * (C (dfac m) * az s m))) = C (2 * m + ((0 : ℕ) : ℝ) + 1 : ℝ) * (C (dfac m) * az s m)
      rw [dC, dmul, d2z, dC, az_dz, mul_zero, mul_zero, add_zero, one_mul]
      simp
    | 1 =>
      have hr := congrArg (pderiv 2) (sol_rec s m 0)
      have h0 : pderiv 2 (sol s m 0) = 0 := by
        change pderiv 2 (C (dfac m) * az s m) = 0
        rw [dC, az_dz, mul_zero]
      have h1 := ih 0 (by omega)
      rw [dC, map_sub, dC, dC, dmul, dmul, d2z, d2r, h0, h1] at hr
      have h2 : sol s m 1 = C (2 * m + 1 : ℝ) * (pz * sol s m 0) := rfl
      refine mul_left_cancel₀ (C_ne ((0 : ℕ) + 2 : ℝ) (by norm_num)) ?_
      rw [hr, zero_add, h2]
      simp only [Nat.cast_zero, zero_add, add_zero, Nat.cast_one, C_add, C_mul, map_one, C2, C3]
      ring
    | j + 2 =>
      have hr := congrArg (pderiv 2) (sol_rec s m (j + 1))
      have h0 := ih j (by omega)
      have h1 := ih (j + 1) (by omega)
      have h3 := sol_rec s m j
      rw [dC, map_sub, dC, dC, dmul, dmul, d2z, d2r, h0] at hr
      rw [show j + 1 + 1 = j + 2 by omega] at hr h1
      rw [h1] at hr
      refine mul_left_cancel₀ (C_ne ((j + 1 : ℕ) + 2 : ℝ) (by positivity)) ?_
      rw [show j + 2 + 1 = j + 1 + 2 by omega, hr]
      push_cast at h3 ⊢
      simp only [C_add, C_mul, map_one, C2, C3] at h3 ⊢
      linear_combination (-(2 * C (m : ℝ) + C (j : ℝ) + 2) : Poly) * h3

theorem euler {f : Poly} {n : ℕ} (h : f.IsHomogeneous n) : px * pderiv 0 f + py * pderiv 1 f + pz * pderiv 2 f = C (n : ℝ) * f := by
  have := h.sum_X_mul_pderiv
  rw [Fin.sum_univ_three] at this
  rw [px, py, pz, this, nsmul_eq_mul, map_natCast]

theorem lap_C (a : ℝ) (f : Poly) : lap (C a * f) = C a * lap f := by
  unfold lap; simp only [dC]; ring

theorem lap_add (f g : Poly) : lap (f + g) = lap f + lap g := by
  unfold lap; simp only [map_add]; ring

theorem lap_sub (f g : Poly) : lap (f - g) = lap f - lap g := by
  unfold lap; simp only [map_sub]; ring

theorem lap_pz (f : Poly) : lap (pz * f) = pz * lap f + 2 * pderiv 2 f := by
  unfold lap
  simp only [dmul, map_add, d0z, d1z, d2z, map_zero, map_one, Derivation.map_one_eq_zero]
  ring

theorem lap_r2 {f : Poly} {n : ℕ} (h : f.IsHomogeneous n) : lap (r2 * f) = C (4 * n + 6 : ℝ) * f + r2 * lap f := by
  have he := euler h
  unfold lap
  simp only [dmul, map_add, d0r, d1r, d2r, d0x, d1y, d2z]
  have e0 : ∀ i : Fin 3, pderiv i (2 : Poly) = 0 := fun i => by rw [← C2]; exact pderiv_C
  simp only [e0]
  simp only [C_add, C_mul]
  have e4 : (C (4 : ℝ) : Poly) = 4 := map_ofNat C 4
  have e6 : (C (6 : ℝ) : Poly) = 6 := map_ofNat C 6
  rw [e4, e6]
  linear_combination 4 * he

theorem sol_lap (s : Bool) (m j : ℕ) : lap (sol s m j) = 0 := by
  induction j using Nat.strong_induction_on with
  | _ j ih =>
    match j with
    | 0 =>
      change lap (C (dfac m) * az s m) = 0
      rw [lap_C, az_lap, mul_zero]
    | 1 =>
      change lap (C (2 * m + 1 : ℝ) * (pz * (C (dfac m) * az s m))) = 0
      rw [lap_C, lap_pz, lap_C, az_lap, dC, az_dz]
      ring
    | j + 2 =>
      refine mul_left_cancel₀ (C_ne (j + 2 : ℝ) (by positivity)) ?_
      rw [← lap_C, sol_rec, lap_sub, lap_C, lap_C, lap_pz, lap_r2 (sol_hom s m j), ih (j + 1) (by omega), ih j (by omega), sol_dz]
      push_cast
      have e4 : (C (4 : ℝ) : Poly) = 4 := map_ofNat C 4
      have e6 : (C (6 : ℝ) : Poly) = 6 := map_ofNat C 6
      simp only [C_add, C_mul, map_one, C2, C3, e4, e6]
      ring

/-! ### Decomposition of homogeneous polynomials -/

/-- Span of `z^a r^(2i) Re/Im (x+iy)^m` of total degree `k`. -/
def spanV (k : ℕ) : Submodule ℝ Poly :=
  Submodule.span ℝ {f | ∃ (s : Bool) (a i m : ℕ), a + 2 * i + m = k ∧ f = pz ^ a * r2 ^ i * az s m}

/-- Span of `r^(2i)` times solid harmonics, total degree `k`. -/
def spanU (k : ℕ) : Submodule ℝ Poly :=
  Submodule.span ℝ {f | ∃ (s : Bool) (i m j : ℕ), m + j + 2 * i = k ∧ f = r2 ^ i * sol s m j}

/-- Span of the solid harmonics of degree `k`. -/
def spanW (k : ℕ) : Submodule ℝ Poly :=
  Submodule.span ℝ {f | ∃ (s : Bool) (m j : ℕ), m + j = k ∧ f = sol s m j}

theorem span_mul {S : Set Poly} {T : Submodule ℝ Poly} (p : Poly) (h : ∀ f ∈ S, p * f ∈ T) {f : Poly} (hf : f ∈ Submodule.span ℝ S) : p * f ∈ T := by
  induction hf using Submodule.span_induction with
  | mem f hf => exact h f hf
  | zero => rw [mul_zero]; exact T.zero_mem
  | add f g _ _ hf hg => rw [mul_add]; exact T.add_mem hf hg
  | smul a f _ hf => rw [mul_smul_comm]; exact T.smul_mem a hf

theorem mem_C {T : Submodule ℝ Poly} {f : Poly} (a : ℝ) (h : f ∈ T) : C a * f ∈ T := by
  rw [C_mul']; exact T.smul_mem a h

theorem genV {k : ℕ} (s : Bool) (a i m : ℕ) (h : a + 2 * i + m = k) : pz ^ a * r2 ^ i * az s m ∈ spanV k :=
  Submodule.subset_span ⟨s, a, i, m, h, rfl⟩

theorem genU {k : ℕ} (s : Bool) (i m j : ℕ) (h : m + j + 2 * i = k) : r2 ^ i * sol s m j ∈ spanU k :=
  Submodule.subset_span ⟨s, i, m, j, h, rfl⟩

theorem cs_low (m : ℕ) : px * (cs (m + 1)).1 + py * (cs (m + 1)).2 = (px ^ 2 + py ^ 2) * (cs m).1 ∧
    px * (cs (m + 1)).2 - py * (cs (m + 1)).1 = (px ^ 2 + py ^ 2) * (cs m).2 := by
  have b1 : (cs (m + 1)).1 = px * (cs m).1 - py * (cs m).2 := rfl
  have b2 : (cs (m + 1)).2 = px * (cs m).2 + py * (cs m).1 := rfl
  rw [b1, b2]
  constructor <;> ring

/-- The lower azimuthal term in multiplications by `x` and `y`. -/
def low (s : Bool) (m : ℕ) : Poly := if m = 0 then 0 else (px ^ 2 + py ^ 2) * az s (m - 1)

theorem px_az (s : Bool) (m : ℕ) : ∃ (α β : ℝ), px * az s m = C α * az s (m + 1) + C β * low s m := by
  cases m with
  | zero =>
    refine ⟨if s then 0 else 1, 0, ?_⟩
    cases s <;> simp [az, cs]
  | succ m =>
    refine ⟨1 / 2, 1 / 2, ?_⟩
    have h2 : (2 : Poly) * C (1 / 2 : ℝ) = 1 := by rw [← C2, ← C_mul]; norm_num
    unfold low
    rw [if_neg (by omega), Nat.add_sub_cancel]
    have b1 : (cs (m + 1 + 1)).1 = px * (cs (m + 1)).1 - py * (cs (m + 1)).2 := rfl
    have b2 : (cs (m + 1 + 1)).2 = px * (cs (m + 1)).2 + py * (cs (m + 1)).1 := rfl
    obtain ⟨l1, l2⟩ := cs_low m
    cases s
    · change px * (cs (m + 1)).1 = C (1 / 2) * (cs (m + 1 + 1)).1 + C (1 / 2) * ((px ^ 2 + py ^ 2) * (cs m).1)
      rw [← l1, b1]
      linear_combination (-(px * (cs (m + 1)).1)) * h2
    · change px * (cs (m + 1)).2 = C (1 / 2) * (cs (m + 1 + 1)).2 + C (1 / 2) * ((px ^ 2 + py ^ 2) * (cs m).2)
      rw [← l2, b2]
      linear_combination (-(px * (cs (m + 1)).2)) * h2

theorem py_az (s : Bool) (m : ℕ) : ∃ (α β : ℝ), py * az s m = C α * az (!s) (m + 1) + C β * low (!s) m := by
  have h2 : (2 : Poly) * C (1 / 2 : ℝ) = 1 := by rw [← C2, ← C_mul]; norm_num
  cases m with
  | zero =>
    refine ⟨if s then 0 else 1, 0, ?_⟩
    cases s <;> simp [az, cs]
  | succ m =>
    have b1 : (cs (m + 1 + 1)).1 = px * (cs (m + 1)).1 - py * (cs (m + 1)).2 := rfl
    have b2 : (cs (m + 1 + 1)).2 = px * (cs (m + 1)).2 + py * (cs (m + 1)).1 := rfl
    obtain ⟨l1, l2⟩ := cs_low m
    unfold low
    rw [if_neg (by omega), Nat.add_sub_cancel]
    cases s
    · refine ⟨1 / 2, -(1 / 2), ?_⟩
      change py * (cs (m + 1)).1 = C (1 / 2) * (cs (m + 1 + 1)).2 + C (-(1 / 2)) * ((px ^ 2 + py ^ 2) * (cs m).2)
      rw [← l2, b2, C_neg]
      linear_combination (-(py * (cs (m + 1)).1)) * h2
    · refine ⟨-(1 / 2), 1 / 2, ?_⟩
      change py * (cs (m + 1)).2 = C (-(1 / 2)) * (cs (m + 1 + 1)).1 + C (1 / 2) * ((px ^ 2 + py ^ 2) * (cs m).1)
      rw [← l1, b1, C_neg]
      linear_combination (-(py * (cs (m + 1)).2)) * h2

theorem low_mem (s : Bool) (a i m k : ℕ) (h : a + 2 * i + m = k) : pz ^ a * r2 ^ i * low s m ∈ spanV (k + 1) := by
  unfold low
  split_ifs with h0
  · rw [mul_zero]; exact Submodule.zero_mem _
  · have e : pz ^ a * r2 ^ i * ((px ^ 2 + py ^ 2) * az s (m - 1)) = pz ^ a * r2 ^ (i + 1) * az s (m - 1) - pz ^ (a + 2) * r2 ^ i * az s (m - 1) := by
      unfold r2; ring
    rw [e]
    exact Submodule.sub_mem _ (genV s _ _ _ (by omega)) (genV s _ _ _ (by omega))

theorem X_mul_V (n : Fin 3) {k : ℕ} {f : Poly} (hf : f ∈ spanV k) : X n * f ∈ spanV (k + 1) := by
  refine span_mul _ ?_ hf
  rintro f ⟨s, a, i, m, h, rfl⟩
  match n with
  | 0 =>
    obtain ⟨α, β, e⟩ := px_az s m
    have e2 : X 0 * (pz ^ a * r2 ^ i * az s m) = C α * (pz ^ a * r2 ^ i * az s (m + 1)) + C β * (pz ^ a * r2 ^ i * low s m) := by
      change px * _ = _
      linear_combination (pz ^ a * r2 ^ i) * e
    rw [e2]
    exact Submodule.add_mem _ (mem_C _ (genV s _ _ _ (by omega))) (mem_C _ (low_mem s a i m k h))
  | 1 =>
    obtain ⟨α, β, e⟩ := py_az s m
    have e2 : X 1 * (pz ^ a * r2 ^ i * az s m) = C α * (pz ^ a * r2 ^ i * az (!s) (m + 1)) + C β * (pz ^ a * r2 ^ i * low (!s) m) := by
      change py * _ = _
      linear_combination (pz ^ a * r2 ^ i) * e
    rw [e2]
    exact Submodule.add_mem _ (mem_C _ (genV (!s) _ _ _ (by omega))) (mem_C _ (low_mem (!s) a i m k h))
  | 2 =>
    have e2 : X 2 * (pz ^ a * r2 ^ i * az s m) = pz ^ (a + 1) * r2 ^ i * az s m := by
      change pz * _ = _
      ring
    rw [e2]
    exact genV s _ _ _ (by omega)

theorem X_pow_mul_V (n : Fin 3) (e : ℕ) {k : ℕ} {f : Poly} (hf : f ∈ spanV k) : X n ^ e * f ∈ spanV (k + e) := by
  induction e with
  | zero => simpa using hf
  | succ e ih =>
    rw [pow_succ', mul_assoc]
    exact X_mul_V n ih

/-- Every homogeneous polynomial is a combination. -/
theorem hom_mem_V {f : Poly} {k : ℕ} (h : f.IsHomogeneous k) : f ∈ spanV k := by
  rw [f.as_sum]
  refine Submodule.sum_mem _ fun d hd => ?_
  have hdeg : d.degree = k := by
    by_contra hne
    exact (mem_support_iff.1 hd) (h.coeff_eq_zero hne)
  have e : monomial d (coeff d f) = C (coeff d f) * (X 0 ^ d 0 * (X 1 ^ d 1 * (X 2 ^ d 2 * 1))) := by
    rw [monomial_eq, Finsupp.prod_fintype _ _ (by simp), Fin.prod_univ_three]
    ring
  rw [e]
  refine mem_C _ ?_
  have h1 : (1 : Poly) ∈ spanV 0 := by
    have := genV (k := 0) false 0 0 0 rfl
    simpa [az, cs] using this
  have h2 := X_pow_mul_V 0 (d 0) (X_pow_mul_V 1 (d 1) (X_pow_mul_V 2 (d 2) h1))
  have hk : 0 + d 2 + d 1 + d 0 = k := by
    rw [← hdeg, Finsupp.degree_eq_sum, Fin.sum_univ_three]
    ring
  rw [hk] at h2
  exact h2

theorem dfac_pos (m : ℕ) : 0 < dfac m := by
  induction m with
  | zero => exact one_pos
  | succ m ih => unfold dfac; positivity

theorem pz_mul_U {k : ℕ} {f : Poly} (hf : f ∈ spanU k) : pz * f ∈ spanU (k + 1) := by
  refine span_mul _ ?_ hf
  rintro f ⟨s, i, m, j, h, rfl⟩
  cases j with
  | zero =>
    have e : pz * (r2 ^ i * sol s m 0) = C (1 / (2 * m + 1) : ℝ) * (r2 ^ i * sol s m 1) := by
      have e1 : sol s m 1 = C (2 * m + 1 : ℝ) * (pz * sol s m 0) := rfl
      have e2 : (C (1 / (2 * m + 1) : ℝ) : Poly) * C (2 * m + 1 : ℝ) = 1 := by
        rw [← C_mul, one_div_mul_cancel (by positivity), map_one]
      rw [e1]
      linear_combination (-(r2 ^ i * (pz * sol s m 0))) * e2
    rw [e]
    exact mem_C _ (genU s _ _ _ (by omega))
  | succ j =>
    have hr := sol_rec s m j
    have e2 : (C (1 / (2 * (m + j) + 3) : ℝ) : Poly) * C (2 * (m + j) + 3 : ℝ) = 1 := by
      rw [← C_mul, one_div_mul_cancel (by positivity), map_one]
    have e : pz * (r2 ^ i * sol s m (j + 1)) = C (1 / (2 * (m + j) + 3) : ℝ) * (C (j + 2 : ℝ) * (r2 ^ i * sol s m (j + 2))) +
        C (1 / (2 * (m + j) + 3) : ℝ) * (C (2 * m + j + 1 : ℝ) * (r2 ^ (i + 1) * sol s m j)) := by
      linear_combination (-(r2 ^ i * (pz * sol s m (j + 1)))) * e2 - C (1 / (2 * (m + j) + 3) : ℝ) * r2 ^ i * hr
    rw [e]
    exact Submodule.add_mem _ (mem_C _ (mem_C _ (genU s _ _ _ (by omega)))) (mem_C _ (mem_C _ (genU s _ _ _ (by omega))))

theorem V_le_U (k : ℕ) : spanV k ≤ spanU k := by
  refine Submodule.span_le.2 ?_
  rintro f ⟨s, a, i, m, h, rfl⟩
  have base : r2 ^ i * az s m ∈ spanU (m + 2 * i) := by
    have e : r2 ^ i * az s m = C (1 / dfac m) * (r2 ^ i * sol s m 0) := by
      have e1 : sol s m 0 = C (dfac m) * az s m := rfl
      have e2 : (C (1 / dfac m) : Poly) * C (dfac m) = 1 := by rw [← C_mul, one_div_mul_cancel (dfac_pos m).ne', map_one]
      rw [e1]
      linear_combination (-(r2 ^ i * az s m)) * e2
    rw [e]
    exact mem_C _ (genU s i m 0 (by omega))
  have : ∀ a : ℕ, pz ^ a * (r2 ^ i * az s m) ∈ spanU (m + 2 * i + a) := by
    intro a
    induction a with
    | zero => simpa using base
    | succ a ih =>
      rw [pow_succ', mul_assoc]
      exact pz_mul_U ih
  have h2 := this a
  rw [show m + 2 * i + a = k by omega, ← mul_assoc] at h2
  exact h2

theorem U_split {k : ℕ} {f : Poly} (hf : f ∈ spanU k) : ∃ h ∈ spanW k, ∃ q : Poly, (2 ≤ k → q.IsHomogeneous (k - 2)) ∧ (k < 2 → q = 0) ∧ f = h + r2 * q := by
  induction hf using Submodule.span_induction with
  | mem f hf =>
    obtain ⟨s, i, m, j, h, rfl⟩ := hf
    cases i with
    | zero =>
      refine ⟨sol s m j, Submodule.subset_span ⟨s, m, j, by omega, rfl⟩, 0, fun _ => isHomogeneous_zero _ _ _, fun _ => rfl, ?_⟩
      ring
    | succ i =>
      refine ⟨0, Submodule.zero_mem _, r2 ^ i * sol s m j, fun _ => ?_, fun hk => by omega, ?_⟩
      · have := (r2_hom.pow i).mul (sol_hom s m j)
        rw [show 2 * i + (m + j) = k - 2 by omega] at this
        exact this
      · ring
  | zero => exact ⟨0, Submodule.zero_mem _, 0, fun _ => isHomogeneous_zero _ _ _, fun _ => rfl, by ring⟩
  | add f g _ _ hf hg =>
    obtain ⟨h1, hh1, q1, hq1, hk1, rfl⟩ := hf
    obtain ⟨h2, hh2, q2, hq2, hk2, rfl⟩ := hg
    exact ⟨h1 + h2, Submodule.add_mem _ hh1 hh2, q1 + q2, fun hk => (hq1 hk).add (hq2 hk), fun hk => by rw [hk1 hk, hk2 hk, add_zero], by ring⟩
  | smul a f _ hf =>
    obtain ⟨h1, hh1, q1, hq1, hk1, rfl⟩ := hf
    refine ⟨a • h1, Submodule.smul_mem _ a hh1, C a * q1, fun hk => (hq1 hk).C_mul a, fun hk => by rw [hk1 hk, mul_zero], ?_⟩
    rw [smul_add, ← C_mul', ← C_mul']
    ring

theorem lap_hom {f : Poly} {n : ℕ} (h : f.IsHomogeneous n) : (lap f).IsHomogeneous (n - 2) := by
  unfold lap
  exact (h.pderiv.pderiv.add h.pderiv.pderiv).add h.pderiv.pderiv

theorem lap_low {f : Poly} {n : ℕ} (h : f.IsHomogeneous n) (hn : n < 2) : lap f = 0 := by
  have h0 : ∀ i : Fin 3, pderiv i (pderiv i f) = 0 := by
    intro i
    have : (pderiv i f).IsHomogeneous 0 := by
      have := h.pderiv (i := i)
      rwa [show n - 1 = 0 by omega] at this
    have h1 : (pderiv i f).totalDegree = 0 := Nat.le_zero.1 this.totalDegree_le
    rw [totalDegree_eq_zero_iff_eq_C] at h1
    rw [h1, pderiv_C]
  unfold lap
  rw [h0, h0, h0]
  ring

/-- `c f + r² Δ f = 0` with `c > 0` forces `f = 0`. -/
theorem eq_zero_of_lap {n : ℕ} {f : Poly} (h : f.IsHomogeneous n) {c : ℝ} (hc : 0 < c) (he : C c * f + r2 * lap f = 0) : f = 0 := by
  induction n using Nat.strong_induction_on generalizing f c with
  | _ n ih =>
    have hl : lap f = 0 := by
      by_cases hn : n < 2
      · exact lap_low h hn
      · have h1 := congrArg lap he
        rw [lap_add, lap_C, lap_r2 (lap_hom h)] at h1
        have h2 : C (c + (4 * ((n - 2 : ℕ) : ℝ) + 6)) * lap f + r2 * lap (lap f) = 0 := by
          rw [C_add]
          have : lap 0 = 0 := by unfold lap; simp
          rw [this] at h1
          linear_combination h1
        exact ih (n - 2) (by omega) (lap_hom h) (by positivity) h2
    rw [hl, mul_zero, add_zero] at he
    exact (mul_eq_zero.1 he).resolve_left (C_ne c hc.ne')

/-- A harmonic homogeneous polynomial is a combination of the solid harmonics of its degree. -/
theorem harmonic_mem_W {f : Poly} {k : ℕ} (h : f.IsHomogeneous k) (hl : lap f = 0) : f ∈ spanW k := by
  obtain ⟨g, hg, q, hq, hk, rfl⟩ := U_split (V_le_U k (hom_mem_V h))
  by_cases h2 : k < 2
  · rw [hk h2, mul_zero, add_zero]; exact hg
  · have hq := hq (by omega)
    have hgl : lap g = 0 := by
      have : ∀ g ∈ spanW k, lap g = 0 := by
        intro g hg
        induction hg using Submodule.span_induction with
        | mem f hf => obtain ⟨s, m, j, -, rfl⟩ := hf; exact sol_lap s m j
        | zero => unfold lap; simp
        | add f g _ _ hf hg => rw [lap_add, hf, hg, add_zero]
        | smul a f _ hf => rw [← C_mul', lap_C, hf, mul_zero]
      exact this g hg
    rw [lap_add, hgl, zero_add, lap_r2 hq] at hl
    rw [eq_zero_of_lap hq (by positivity) hl, mul_zero, add_zero]
    exact hg

/-! ### Rotations -/

/-- Substitution of the linear forms given by the rows of `B`. -/
def rot (B : Fin 3 → Fin 3 → ℝ) : Poly →ₐ[ℝ] Poly := aeval fun i => C (B i 0) * px + C (B i 1) * py + C (B i 2) * pz

theorem rot_hom (B : Fin 3 → Fin 3 → ℝ) {f : Poly} {n : ℕ} (h : f.IsHomogeneous n) : (rot B f).IsHomogeneous n := by
  have := h.aeval (fun i => C (B i 0) * px + C (B i 1) * py + C (B i 2) * pz) (n := 1) fun i =>
    ((px_hom.C_mul _).add (py_hom.C_mul _)).add (pz_hom.C_mul _)
  rwa [one_mul] at this

theorem rot_X (B : Fin 3 → Fin 3 → ℝ) (i : Fin 3) : rot B (X i) = C (B i 0) * px + C (B i 1) * py + C (B i 2) * pz := by
  unfold rot; rw [aeval_X]

theorem rot_pderiv (B : Fin 3 → Fin 3 → ℝ) (n : Fin 3) (f : Poly) :
    pderiv n (rot B f) = C (B 0 n) * rot B (pderiv 0 f) + C (B 1 n) * rot B (pderiv 1 f) + C (B 2 n) * rot B (pderiv 2 f) := by
  induction f using MvPolynomial.induction_on with
  | C a =>
    have e : rot B (C a) = C a := (rot B).commutes a
    rw [e, pderiv_C, pderiv_C, pderiv_C, pderiv_C]
    simp
  | add f g hf hg =>
    simp only [map_add, hf, hg]
    ring
  | mul_X f i hf =>
    have hX : pderiv n (rot B (X i)) = C (B i n) := by
      rw [rot_X]
      simp only [map_add, dC]
      fin_cases n
      · simp only [Fin.zero_eta, d0x, d0y, d0z]; ring
      · simp only [Fin.mk_one, d1x, d1y, d1z]; ring
      · simp only [Fin.reduceFinMk, d2x, d2y, d2z]; ring
    have hs : ∀ l : Fin 3, rot B (pderiv l (f * X i)) = rot B (pderiv l f) * rot B (X i) + rot B f * (if i = l then 1 else 0) := by
      intro l
      rw [dmul, map_add, map_mul, map_mul, pderiv_X]
      congr 2
      rw [Pi.single_apply]
      split_ifs with h1
      · exact map_one _
      · exact map_zero _
    rw [map_mul, dmul, hf, hX, hs, hs, hs]
    fin_cases i <;> simp <;> ring

/-- Rows of `B` are orthonormal. -/
def Orth (B : Fin 3 → Fin 3 → ℝ) : Prop := ∀ i j, B i 0 * B j 0 + B i 1 * B j 1 + B i 2 * B j 2 = if i = j then 1 else 0

theorem pderiv_swap (i j : Fin 3) (f : Poly) : pderiv i (pderiv j f) = pderiv j (pderiv i f) := by
  induction f using MvPolynomial.induction_on with
  | C a => simp
  | add f g hf hg => simp only [map_add, hf, hg]
  | mul_X f l hf =>
    have h1 : ∀ i j : Fin 3, pderiv i (pderiv j (X l : Poly)) = 0 := by
      intro i j
      rw [pderiv_X, Pi.single_apply]
      split_ifs <;> simp
    simp only [Derivation.leibniz, map_add, smul_eq_mul, h1, hf]
    ring

theorem rot_lap {B : Fin 3 → Fin 3 → ℝ} (hB : Orth B) (f : Poly) : lap (rot B f) = rot B (lap f) := by
  have hc : ∀ i j : Fin 3, (C (B i 0) * C (B j 0) + C (B i 1) * C (B j 1) + C (B i 2) * C (B j 2) : Poly) = if i = j then 1 else 0 := by
    intro i j
    rw [← C_mul, ← C_mul, ← C_mul, ← C_add, ← C_add, hB i j]
    split_ifs <;> simp
  have h00 := hc 0 0
  have h11 := hc 1 1
  have h22 := hc 2 2
  have h01 := hc 0 1
  have h02 := hc 0 2
  have h12 := hc 1 2
  simp at h00 h11 h22 h01 h02 h12
  unfold lap
  simp only [rot_pderiv, map_add, dC]
  have sw : ∀ i j : Fin 3, pderiv i (pderiv j f) = pderiv j (pderiv i f) := fun i j => pderiv_swap i j f
  rw [sw 1 0, sw 2 0, sw 2 1]
  linear_combination rot B (pderiv 0 (pderiv 0 f)) * h00 + rot B (pderiv 1 (pderiv 1 f)) * h11 + rot B (pderiv 2 (pderiv 2 f)) * h22 +
    2 * rot B (pderiv 0 (pderiv 1 f)) * h01 + 2 * rot B (pderiv 0 (pderiv 2 f)) * h02 + 2 * rot B (pderiv 1 (pderiv 2 f)) * h12

/-- A rotated solid harmonic is a combination of the solid harmonics of the same degree. -/
theorem rot_sol {B : Fin 3 → Fin 3 → ℝ} (hB : Orth B) (s : Bool) (m j : ℕ) : rot B (sol s m j) ∈ spanW (m + j) :=
  harmonic_mem_W (rot_hom B (sol_hom s m j)) (by rw [rot_lap hB, sol_lap, map_zero])

end

end ChaosMagPy.Solid
