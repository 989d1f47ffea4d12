import Verif.Model.Analysis
import Verif.Spec.Quadrature
import Verif.Lemmas.LegendreOrth
import Verif.Lemmas.SynthCall
import Verif.Props.Legendre
import Verif.Props.Index
import Mathlib.Algebra.Field.GeomSum
/-! Quadrature on the sphere. -/
namespace ChaosMagPy.Analysis
open ChaosMagPy.Spec (schmidt rad GaussRule coefG coefH coefStart)
open ChaosMagPy.Legendre (pyRange mem_pyRange pairPoly integ)
open Finset

/-! ### Discrete Fourier transform -/

theorem root_sum (N : ℕ) (hN : 0 < N) (k : ℤ) :
    ∑ j ∈ range N, Complex.exp (2 * (Real.pi : ℂ) * Complex.I * k * j / N) = if (N : ℤ) ∣ k then (N : ℂ) else 0 := by
  have hNc : (N : ℂ) ≠ 0 := by exact_mod_cast hN.ne'
  set ζ := Complex.exp (2 * (Real.pi : ℂ) * Complex.I * k / N) with hζ
  have hpow : ∀ j : ℕ, Complex.exp (2 * (Real.pi : ℂ) * Complex.I * k * j / N) = ζ ^ j := by
    intro j
    rw [hζ, ← Complex.exp_nat_mul]
    congr 1
    ring
  rw [sum_congr rfl fun j _ => hpow j]
  have hone : ζ = 1 ↔ (N : ℤ) ∣ k := by
    rw [hζ, Complex.exp_eq_one_iff]
    have hpi : (Real.pi : ℂ) ≠ 0 := by exact_mod_cast Real.pi_ne_zero
    constructor
    · rintro ⟨n, hn⟩
      refine ⟨n, ?_⟩
      have : (k : ℂ) = N * n := by
        have h2 : (2 * (Real.pi : ℂ) * Complex.I) ≠ 0 := mul_ne_zero (mul_ne_zero two_ne_zero hpi) Complex.I_ne_zero
        field_simp at hn
        have h3 : (2 * (Real.pi : ℂ) * Complex.I) * k = (2 * (Real.pi : ℂ) * Complex.I) * (N * n) := by linear_combination hn * (2 * (Real.pi : ℂ) * Complex.I)
        exact mul_left_cancel₀ h2 h3
      exact_mod_cast this
    · rintro ⟨n, rfl⟩
      refine ⟨n, ?_⟩
      push_cast
      field_simp
  have hN1 : ζ ^ N = 1 := by
    rw [hζ, ← Complex.exp_nat_mul, Complex.exp_eq_one_iff]
    exact ⟨k, by field_simp⟩
  split_ifs with h
  · rw [hone.2 h]
    simp
  · have hne : ζ ≠ 1 := fun hc => h (hone.1 hc)
    rw [geom_sum_eq hne, hN1, sub_self, zero_div]

/-- Angle of grid point `j`. -/
noncomputable def ang (N j : ℕ) : ℝ := 2 * Real.pi * j / N

theorem rad_azimuth (N j : ℕ) : rad (azimuth N j) = ang N j := by
  unfold rad azimuth Coord.degrees ang
  have := Real.pi_ne_zero
  field_simp

theorem dft_exp (N : ℕ) (hN : 0 < N) (l : ℤ) (m : ℕ) :
    (∑ j ∈ range N, Complex.exp (Complex.I * l * ang N j) * Complex.exp (-2 * (Real.pi : ℂ) * Complex.I * m * j / N)) / N =
      if (N : ℤ) ∣ l - m then 1 else 0 := by
  have h := root_sum N hN (l - m)
  have hNc : (N : ℂ) ≠ 0 := by exact_mod_cast hN.ne'
  have e : ∀ j ∈ range N, Complex.exp (Complex.I * l * ang N j) * Complex.exp (-2 * (Real.pi : ℂ) * Complex.I * m * j / N) =
      Complex.exp (2 * (Real.pi : ℂ) * Complex.I * ((l - m : ℤ) : ℂ) * j / N) := by
    intro j _
    rw [← Complex.exp_add]
    congr 1
    unfold ang
    push_cast
    ring
  rw [sum_congr rfl e, h]
  split_ifs
  · exact div_self hNc
  · exact zero_div _

theorem cos_exp (x : ℝ) : ((Real.cos x : ℝ) : ℂ) = (Complex.exp (Complex.I * x) + Complex.exp (Complex.I * -x)) / 2 := by
  rw [Complex.ofReal_cos, Complex.cos]
  congr 2
  · rw [mul_comm]
  · congr 1; ring

theorem sin_exp (x : ℝ) : ((Real.sin x : ℝ) : ℂ) = (Complex.exp (Complex.I * x) - Complex.exp (Complex.I * -x)) / 2 * -Complex.I := by
  rw [Complex.ofReal_sin, Complex.sin]
  have e1 : (-(x : ℂ)) * Complex.I = Complex.I * -x := by ring
  have e2 : ((x : ℂ)) * Complex.I = Complex.I * x := by ring
  rw [e1, e2]
  ring

theorem not_dvd {N : ℕ} {k : ℤ} (h1 : -(N : ℤ) < k) (h2 : k < N) (h0 : k ≠ 0) : ¬ (N : ℤ) ∣ k := by
  intro h
  exact h0 (Int.eq_zero_of_abs_lt_dvd h (abs_lt.2 ⟨h1, h2⟩))

theorem dft_cos (N : ℕ) (l m : ℕ) (h : l + m < N) :
    dft N (fun j => Real.cos (l * ang N j)) m = if l = m then (if m = 0 then 1 else 1 / 2) else 0 := by
  have hN : 0 < N := by omega
  unfold dft
  have e : ∀ j ∈ range N, ((Real.cos (l * ang N j) : ℝ) : ℂ) * Complex.exp (-2 * (Real.pi : ℂ) * Complex.I * m * j / N) =
      (1 / 2) * (Complex.exp (Complex.I * (l : ℤ) * ang N j) * Complex.exp (-2 * (Real.pi : ℂ) * Complex.I * m * j / N)) +
      (1 / 2) * (Complex.exp (Complex.I * (-(l : ℤ) : ℤ) * ang N j) * Complex.exp (-2 * (Real.pi : ℂ) * Complex.I * m * j / N)) := by
    intro j _
    rw [cos_exp]
    push_cast
    have e1 : Complex.I * -((l : ℂ) * ang N j) = Complex.I * -(l : ℂ) * ang N j := by ring
    have e2 : Complex.I * ((l : ℂ) * ang N j) = Complex.I * (l : ℂ) * ang N j := by ring
    rw [e1, e2]
    ring
  rw [sum_congr rfl e, sum_add_distrib, ← mul_sum, ← mul_sum, add_div, mul_div_assoc, mul_div_assoc, dft_exp N hN, dft_exp N hN]
  by_cases hlm : l = m
  · subst hlm
    rw [if_pos (by simp), if_pos rfl]
    by_cases h0 : l = 0
    · subst h0
      rw [if_pos (by simp), if_pos rfl]
      norm_num
    · rw [if_neg (not_dvd (by omega) (by omega) (by omega)), if_neg h0]
      norm_num
  · rw [if_neg (not_dvd (by omega) (by omega) (by omega)), if_neg (not_dvd (by omega) (by omega) (by omega)), if_neg hlm]
    norm_num

theorem dft_sin (N : ℕ) (l m : ℕ) (h : l + m < N) :
    dft N (fun j => Real.sin (l * ang N j)) m = if l = m then (if m = 0 then 0 else -Complex.I / 2) else 0 := by
  have hN : 0 < N := by omega
  unfold dft
  have e : ∀ j ∈ range N, ((Real.sin (l * ang N j) : ℝ) : ℂ) * Complex.exp (-2 * (Real.pi : ℂ) * Complex.I * m * j / N) =
      (-Complex.I / 2) * (Complex.exp (Complex.I * (l : ℤ) * ang N j) * Complex.exp (-2 * (Real.pi : ℂ) * Complex.I * m * j / N)) +
      (Complex.I / 2) * (Complex.exp (Complex.I * (-(l : ℤ) : ℤ) * ang N j) * Complex.exp (-2 * (Real.pi : ℂ) * Complex.I * m * j / N)) := by
    intro j _
    rw [sin_exp]
    push_cast
    have e1 : Complex.I * -((l : ℂ) * ang N j) = Complex.I * -(l : ℂ) * ang N j := by ring
    have e2 : Complex.I * ((l : ℂ) * ang N j) = Complex.I * (l : ℂ) * ang N j := by ring
    rw [e1, e2]
    ring
  rw [sum_congr rfl e, sum_add_distrib, ← mul_sum, ← mul_sum, add_div, mul_div_assoc, mul_div_assoc, dft_exp N hN, dft_exp N hN]
  by_cases hlm : l = m
  · subst hlm
    rw [if_pos (by simp), if_pos rfl]
    by_cases h0 : l = 0
    · subst h0
      rw [if_pos (by simp), if_pos rfl]
      ring
    · rw [if_neg (not_dvd (by omega) (by omega) (by omega)), if_neg h0]
      norm_num
  · rw [if_neg (not_dvd (by omega) (by omega) (by omega)), if_neg (not_dvd (by omega) (by omega) (by omega)), if_neg hlm]
    norm_num

theorem dft_sum {ι : Type} (N : ℕ) (s : Finset ι) (f : ι → ℕ → ℝ) (m : ℕ) : dft N (fun j => ∑ i ∈ s, f i j) m = ∑ i ∈ s, dft N (f i) m := by
  unfold dft
  rw [← sum_div, sum_comm]
  congr 1
  refine sum_congr rfl fun j _ => ?_
  push_cast
  rw [sum_mul]

theorem dft_smul (N : ℕ) (a : ℝ) (f : ℕ → ℝ) (m : ℕ) : dft N (fun j => a * f j) m = a * dft N f m := by
  unfold dft
  rw [← mul_div_assoc, mul_sum]
  congr 1
  refine sum_congr rfl fun j _ => ?_
  push_cast
  ring

theorem dft_add (N : ℕ) (f g : ℕ → ℝ) (m : ℕ) : dft N (fun j => f j + g j) m = dft N f m + dft N g m := by
  unfold dft
  rw [← add_div, ← sum_add_distrib]
  congr 1
  refine sum_congr rfl fun j _ => ?_
  push_cast
  ring

/-! ### Expansions -/

/-- A general expansion of degrees `0..K` (angles in radians). -/
noncomputable def series (a b : ℕ → ℕ → ℝ) (K : ℕ) (x y : ℝ) : ℝ :=
  ∑ n ∈ range (K + 1), ∑ m ∈ range (n + 1), (a n m * Real.cos (m * y) + b n m * Real.sin (m * y)) * schmidt n m x

/-- Complex coefficient found by the Fourier transform. -/
noncomputable def gam (a b : ℕ → ℕ → ℝ) (n m : ℕ) : ℂ := if m = 0 then (a n 0 : ℂ) else ((a n m : ℂ) - Complex.I * (b n m : ℂ)) / 2

theorem dft_series (a b : ℕ → ℕ → ℝ) (K N m : ℕ) (h : K + m < N) (x : ℝ) :
    dft N (fun j => series a b K x (ang N j)) m = ∑ n ∈ (range (K + 1)).filter (m ≤ ·), gam a b n m * (schmidt n m x : ℂ) := by
  unfold series
  rw [dft_sum, sum_filter]
  refine sum_congr rfl fun n hn => ?_
  rw [mem_range] at hn
  rw [dft_sum]
  have e : ∀ l ∈ range (n + 1), dft N (fun j => (a n l * Real.cos (l * ang N j) + b n l * Real.sin (l * ang N j)) * schmidt n l x) m =
      if l = m then gam a b n m * (schmidt n m x : ℂ) else 0 := by
    intro l hl
    rw [mem_range] at hl
    have e1 : (fun j => (a n l * Real.cos (l * ang N j) + b n l * Real.sin (l * ang N j)) * schmidt n l x) =
        fun j => (a n l * schmidt n l x) * Real.cos (l * ang N j) + (b n l * schmidt n l x) * Real.sin (l * ang N j) := by
      funext j; ring
    rw [e1, dft_add, dft_smul, dft_smul, dft_cos N l m (by omega), dft_sin N l m (by omega)]
    by_cases hlm : l = m
    · subst hlm
      rw [if_pos rfl, if_pos rfl, if_pos rfl]
      unfold gam
      split_ifs with h0
      · subst h0; push_cast; ring
      · push_cast; ring
    · rw [if_neg hlm, if_neg hlm, if_neg hlm]
      ring
  rw [sum_congr rfl e, sum_ite_eq']
  by_cases hm : m ≤ n
  · rw [if_pos (mem_range.2 (by omega)), if_pos hm]
  · rw [if_neg (by rw [mem_range]; omega), if_neg hm]

/-! ### Quadrature in colatitude -/

theorem quad_sum {n0 : ℕ} {rule : List (ℝ × ℝ)} (hr : GaussRule n0 rule) {n k m : ℕ} (hn : m ≤ n) (hk : m ≤ k) (hd : n + k < 2 * n0) :
    (rule.map fun q => q.2 * (schmidt n m (Real.arccos q.1) * schmidt k m (Real.arccos q.1))).sum =
      if n = k then (if m = 0 then (2 : ℝ) / (2 * n + 1) else 4 / (2 * n + 1)) else 0 := by
  rw [← Legendre.integ_pairPoly hn hk]
  unfold integ
  rw [← hr.exact _ (lt_of_le_of_lt (Legendre.natDegree_pairPoly hn hk) hd)]
  congr 1
  refine List.map_congr_left fun q hq => ?_
  rw [← Legendre.pairPoly_eval, Real.cos_arccos (hr.inside q hq).1 (hr.inside q hq).2]

theorem list_sum_finset {α ι : Type} (l : List α) (s : Finset ι) (f : α → ι → ℂ) :
    (l.map fun q => ∑ i ∈ s, f q i).sum = ∑ i ∈ s, (l.map fun q => f q i).sum := by
  induction l with
  | nil => simp
  | cons q l ih => simp only [List.map_cons, List.sum_cons, ih, sum_add_distrib]

/-- The Gauss sum of an expansion over a sufficiently fine grid. -/
theorem gaussSum_series {n0 : ℕ} {rule : List (ℝ × ℝ)} (hr : GaussRule n0 rule) (a b : ℕ → ℕ → ℝ) (K N nmax : ℕ) (rings : List Ring)
    (hrings : List.Forall₂ (fun q (s : Ring) => s.weight = q.2 ∧ (∀ m ≤ nmax, s.fft m = dft N (fun j => series a b K (Real.arccos q.1) (ang N j)) m) ∧
      ∀ n m, m ≤ n → n ≤ nmax → s.P (n, m) = schmidt n m (Real.arccos q.1)) rule rings)
    (h1 : K + nmax < N) (h2 : K + nmax < 2 * n0) {n m : ℕ} (hm : m ≤ n) (hn : n ≤ nmax) :
    gaussSum rings n m = if n ≤ K then gam a b n m * (if m = 0 then (2 : ℂ) / (2 * n + 1) else 4 / (2 * n + 1)) else 0 := by
  have e1 : gaussSum rings n m = (rule.map fun q => ∑ k ∈ (range (K + 1)).filter (m ≤ ·),
      gam a b k m * ((q.2 * (schmidt n m (Real.arccos q.1) * schmidt k m (Real.arccos q.1)) : ℝ) : ℂ)).sum := by
    unfold gaussSum
    congr 1
    clear h2 hr
    induction hrings with
    | nil => rfl
    | @cons q s rule rings hqs _ ih =>
      rw [List.map_cons, List.map_cons, ih]
      congr 1
      obtain ⟨hw, hf, hP⟩ := hqs
      rw [hw, hf m (by omega), hP n m hm hn, dft_series a b K N m (by omega), sum_mul, sum_mul]
      refine sum_congr rfl fun k _ => ?_
      push_cast
      ring
  rw [e1, list_sum_finset]
  have e2 : ∀ k ∈ (range (K + 1)).filter (m ≤ ·), (rule.map fun q => gam a b k m * ((q.2 * (schmidt n m (Real.arccos q.1) * schmidt k m (Real.arccos q.1)) : ℝ) : ℂ)).sum =
      if n = k then gam a b k m * (if m = 0 then (2 : ℂ) / (2 * n + 1) else 4 / (2 * n + 1)) else 0 := by
    intro k hk
    rw [mem_filter, mem_range] at hk
    have h3 := quad_sum hr hm hk.2 (by omega : n + k < 2 * n0)
    have h4 : (rule.map fun q => gam a b k m * ((q.2 * (schmidt n m (Real.arccos q.1) * schmidt k m (Real.arccos q.1)) : ℝ) : ℂ)).sum =
        gam a b k m * (((rule.map fun q => q.2 * (schmidt n m (Real.arccos q.1) * schmidt k m (Real.arccos q.1))).sum : ℝ) : ℂ) := by
      clear h3 e1 h2 hrings hr
      induction rule with
      | nil => simp
      | cons q l ih => simp only [List.map_cons, List.sum_cons, ih]; push_cast; ring
    rw [h4, h3]
    split_ifs <;> push_cast <;> ring
  rw [sum_congr rfl e2, sum_ite_eq]
  by_cases hK : n ≤ K
  · rw [if_pos (by rw [mem_filter, mem_range]; omega), if_pos hK]
  · rw [if_neg (by rw [mem_filter, mem_range]; omega), if_neg hK]

/-! ### Writing the coefficients -/

theorem foldlM_flatMap {α β σ ε : Type} (g : σ → β → Except ε σ) (f : α → List β) (l : List α) (s : σ) :
    (l.flatMap f).foldlM g s = l.foldlM (fun s a => (f a).foldlM g s) s := by
  induction l generalizing s with
  | nil => rfl
  | cons a l ih =>
    rw [List.flatMap_cons, List.foldlM_append, List.foldlM_cons]
    cases h : (f a).foldlM g s with
    | error e => rfl
    | ok s' => exact ih s'

theorem foldlM_put {α : Type} (vals done rest : List α) (h : vals.length ≤ rest.length) :
    vals.foldlM put (done.length, done ++ rest) = .ok (done.length + vals.length, done ++ vals ++ rest.drop vals.length) := by
  induction vals generalizing done rest with
  | nil => simp [pure, Except.pure]
  | cons v vals ih =>
    cases rest with
    | nil => simp at h
    | cons x rest =>
      rw [List.foldlM_cons]
      have e : put (done.length, done ++ x :: rest) v = .ok ((done ++ [v]).length, (done ++ [v]) ++ rest) := by
        unfold put
        rw [if_pos (by simp)]
        simp
      rw [e]
      have := ih (done ++ [v]) rest (by simpa using h)
      change vals.foldlM put _ = _
      rw [this]
      simp
      omega

theorem foldlM_put_all {α : Type} (vals : List α) (x : α) (n : ℕ) (h : vals.length = n) :
    vals.foldlM put (0, List.replicate n x) = .ok (n, vals) := by
  have := foldlM_put vals [] (List.replicate n x) (by simp [h])
  simpa [h] using this

/-- Values written for one degree. -/
def degVals {α : Type} (A B : ℕ → ℕ → α) (n : ℕ) : List α := A n 0 :: (pyRange 1 (n + 1)).flatMap fun m => [A n m, B n m]

/-- All values. -/
def allVals {α : Type} (A B : ℕ → ℕ → α) (N : ℕ) : List α := (pyRange 1 (N + 1)).flatMap (degVals A B)

theorem pyRange_succ (a b : ℕ) (h : a ≤ b) : pyRange a (b + 1) = pyRange a b ++ [b] := by
  unfold pyRange
  rw [Nat.sub_add_comm h, List.range'_concat]
  congr 2
  omega

theorem degVals_map {α β : Type} (f : α → β) (A B : ℕ → ℕ → α) (n : ℕ) : (degVals A B n).map f = degVals (fun n m => f (A n m)) (fun n m => f (B n m)) n := by
  unfold degVals
  rw [List.map_cons, List.map_flatMap]
  rfl

theorem allVals_map {α β : Type} (f : α → β) (A B : ℕ → ℕ → α) (N : ℕ) : (allVals A B N).map f = allVals (fun n m => f (A n m)) (fun n m => f (B n m)) N := by
  unfold allVals
  rw [List.map_flatMap]
  congr 1
  funext n
  exact degVals_map f A B n

theorem degVals_congr {α : Type} {A B A' B' : ℕ → ℕ → α} {n : ℕ} (h0 : A n 0 = A' n 0) (h : ∀ m, 1 ≤ m → m ≤ n → A n m = A' n m ∧ B n m = B' n m) :
    degVals A B n = degVals A' B' n := by
  unfold degVals
  rw [h0]
  congr 1
  refine List.flatMap_congr fun m hm => ?_
  rw [mem_pyRange] at hm
  rw [(h m hm.1 (by omega)).1, (h m hm.1 (by omega)).2]

theorem allVals_congr {α : Type} {A B A' B' : ℕ → ℕ → α} {N : ℕ}
    (h : ∀ n m, 1 ≤ n → n ≤ N → m ≤ n → A n m = A' n m ∧ (1 ≤ m → B n m = B' n m)) : allVals A B N = allVals A' B' N := by
  unfold allVals
  refine List.flatMap_congr fun n hn => ?_
  rw [mem_pyRange] at hn
  exact degVals_congr (h n 0 hn.1 (by omega) (by omega)).1 fun m h1 h2 => ⟨(h n m hn.1 (by omega) h2).1, (h n m hn.1 (by omega) h2).2 h1⟩

/-- Positions written. -/
theorem inner_positions (s n : ℕ) : s :: (pyRange 1 (n + 1)).flatMap (fun m => [s + 2 * m - 1, s + 2 * m]) = List.range' s (2 * n + 1) := by
  induction n with
  | zero => rfl
  | succ n ih =>
    rw [pyRange_succ 1 (n + 1) (by omega), List.flatMap_append, ← List.cons_append, ih]
    have e : 2 * (n + 1) + 1 = (2 * n + 1) + 1 + 1 := by omega
    rw [e, List.range'_concat (n := 2 * n + 1 + 1), List.range'_concat (n := 2 * n + 1), List.append_assoc]
    congr 1
    simp only [List.flatMap_cons, List.flatMap_nil, List.append_nil, List.cons_append, List.nil_append]
    have e1 : s + 2 * (n + 1) - 1 = s + 1 * (2 * n + 1) := by omega
    have e2 : s + 2 * (n + 1) = s + 1 * (2 * n + 1 + 1) := by omega
    rw [← e1, ← e2]

theorem all_positions (N : ℕ) :
    allVals (fun n m => if m = 0 then n ^ 2 - 1 else n ^ 2 - 1 + 2 * m - 1) (fun n m => n ^ 2 - 1 + 2 * m) N = List.range (N * (N + 2)) := by
  induction N with
  | zero => rfl
  | succ N ih =>
    unfold allVals at ih ⊢
    rw [pyRange_succ 1 (N + 1) (by omega), List.flatMap_append, ih]
    simp only [List.flatMap_cons, List.flatMap_nil, List.append_nil]
    have e := inner_positions ((N + 1) ^ 2 - 1) (N + 1)
    have e2 : degVals (fun n m => if m = 0 then n ^ 2 - 1 else n ^ 2 - 1 + 2 * m - 1) (fun n m => n ^ 2 - 1 + 2 * m) (N + 1) =
        List.range' ((N + 1) ^ 2 - 1) (2 * (N + 1) + 1) := by
      rw [← e]
      unfold degVals
      simp only [if_true]
      congr 1
      refine List.flatMap_congr fun m hm => ?_
      rw [mem_pyRange] at hm
      rw [if_neg (by omega)]
    rw [e2, List.range_eq_range', List.range_eq_range']
    have e3 : (N + 1) ^ 2 - 1 = 0 + 1 * (N * (N + 2)) := by
      have : (N + 1) ^ 2 = N * (N + 2) + 1 := by ring
      omega
    rw [e3, List.range'_append]
    congr 1
    ring

theorem coefStart_full (n : ℕ) (hn : 1 ≤ n) (M : ℕ) (hM : n ≤ M) : coefStart 1 M n = n ^ 2 - 1 := by
  unfold coefStart
  induction n, hn using Nat.le_induction with
  | base => simp
  | succ n hn ih =>
    rw [sum_Ico_succ_top (by omega), ih (by omega), min_eq_left (by omega)]
    have h1 : 1 ≤ n ^ 2 := Nat.one_le_pow _ _ hn
    have e : (n + 1) ^ 2 = n ^ 2 + 2 * n + 1 := by ring
    omega

/-- The coefficient vector as a table of `g` and `h`. -/
theorem allVals_coef (c : ℕ → ℝ) (N : ℕ) : allVals (fun n m => coefG c 1 n n m) (fun n m => coefH c 1 n n m) N = (List.range (N * (N + 2))).map c := by
  rw [← all_positions N, allVals_map]
  refine allVals_congr fun n m hn hN hm => ⟨?_, fun h1 => ?_⟩
  · unfold coefG
    rw [coefStart_full n hn n le_rfl]
    have h2 : 1 ≤ n ^ 2 := Nat.one_le_pow _ _ hn
    split_ifs with h0
    · rw [Nat.add_zero]
    · congr 1
      omega
  · unfold coefH
    rw [coefStart_full n hn n le_rfl, if_neg (by omega)]

end ChaosMagPy.Analysis
