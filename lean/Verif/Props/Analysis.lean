import Verif.Lemmas.Analysis
import Verif.Lemmas.GaussRule
/-!
# C45: spherical harmonic analysis
-/
namespace ChaosMagPy.Analysis
open ChaosMagPy.Spec (schmidt rad GaussRule coefG coefH coefStart expansion surfaceTerm)
open ChaosMagPy.Legendre (pyRange mem_pyRange legendrePoly)
open Finset

theorem rad_colat (x : ℝ) : rad (colat x) = Real.arccos x := by
  unfold rad colat Coord.degrees
  have := Real.pi_ne_zero
  field_simp

theorem colat_range (x : ℝ) : 0 ≤ colat x ∧ colat x ≤ 180 := by
  unfold colat Coord.degrees
  have hp := Real.pi_pos
  refine ⟨mul_nonneg (Real.arccos_nonneg _) (by positivity), ?_⟩
  have := Real.arccos_le_pi x
  calc Real.arccos x * (180 / Real.pi) ≤ Real.pi * (180 / Real.pi) := mul_le_mul_of_nonneg_right this (by positivity)
    _ = 180 := by field_simp

theorem schmidt_zero (x : ℝ) : schmidt 0 0 x = 1 := by
  unfold schmidt Spec.schmidtNorm
  simp [Legendre.legendre_zero]

/-- An expansion with a constant is a series. -/
theorem expansion_series (a0 : ℝ) (c : ℕ → ℝ) (K : ℕ) (theta phi : ℝ) :
    a0 + expansion c K theta phi = series (fun n m => if n = 0 then a0 else coefG c 1 n n m) (fun n m => if n = 0 then 0 else coefH c 1 n n m) K (rad theta) (rad phi) := by
  unfold series expansion surfaceTerm
  rw [range_eq_Ico, sum_eq_sum_Ico_succ_bot (by omega : 0 < K + 1)]
  congr 1
  · simp [schmidt_zero]
  · rw [zero_add]
    have : Finset.Icc 1 K = Finset.Ico 1 (K + 1) := by ext i; rw [Finset.mem_Icc, Finset.mem_Ico]; omega
    rw [this]
    refine sum_congr rfl fun n hn => ?_
    rw [Finset.mem_Ico] at hn
    refine sum_congr rfl fun m _ => ?_
    beta_reduce
    rw [if_neg (by omega), if_neg (by omega)]

theorem analysisDegree_eq (rings : List Ring) (st : ℕ × List ℝ) (n : ℕ) :
    analysisDegree rings st n = (degVals (fun n m => (gaussSum rings n m / (2 / (2 * (n : ℂ) + 1))).re)
      (fun n m => -(gaussSum rings n m / (2 / (2 * (n : ℂ) + 1))).im) n).foldlM put st := by
  unfold analysisDegree degVals
  rw [List.foldlM_cons]
  refine congrArg _ ?_
  funext st
  beta_reduce
  rw [foldlM_flatMap]
  congr 1
  funext st m
  simp only [List.foldlM_cons, List.foldlM_nil]
  cases put st (gaussSum rings n m / (2 / (2 * (n : ℂ) + 1))).re with
  | error e => rfl
  | ok st' =>
    change put st' _ = put st' _ >>= pure
    cases put st' (-(gaussSum rings n m / (2 / (2 * (n : ℂ) + 1))).im) <;> rfl

theorem degVals_length {α : Type} (A B : ℕ → ℕ → α) (n : ℕ) : (degVals A B n).length = 2 * n + 1 := by
  unfold degVals
  rw [List.length_cons, List.length_flatMap]
  simp only [List.length_cons, List.length_nil]
  rw [List.map_const', List.sum_replicate]
  simp [pyRange]
  omega

theorem allVals_length {α : Type} (A B : ℕ → ℕ → α) (N : ℕ) : (allVals A B N).length = N * (N + 2) := by
  induction N with
  | zero => rfl
  | succ N ih =>
    unfold allVals at ih ⊢
    rw [pyRange_succ 1 (N + 1) (by omega), List.flatMap_append, List.length_append, ih]
    simp only [List.flatMap_cons, List.flatMap_nil, List.append_nil]
    rw [degVals_length]
    ring

/-- Coefficients cut off above degree `K`. -/
theorem coef_cut (c : ℕ → ℝ) (K n m : ℕ) (hn : 1 ≤ n) (hm : m ≤ n) :
    coefG (fun i => if i < K * (K + 2) then c i else 0) 1 n n m = (if n ≤ K then coefG c 1 n n m else 0) ∧
    coefH (fun i => if i < K * (K + 2) then c i else 0) 1 n n m = (if n ≤ K then coefH c 1 n n m else 0) := by
  unfold coefG coefH
  rw [coefStart_full n hn n le_rfl]
  have h2 : 1 ≤ n ^ 2 := Nat.one_le_pow _ _ hn
  have e1 : K * (K + 2) = (K + 1) ^ 2 - 1 := by
    have : (K + 1) ^ 2 = K * (K + 2) + 1 := by ring
    omega
  rw [e1]
  by_cases hK : n ≤ K
  · have h3 : (n + 1) ^ 2 ≤ (K + 1) ^ 2 := Nat.pow_le_pow_left (by omega) 2
    have h4 : (n + 1) ^ 2 = n ^ 2 + 2 * n + 1 := by ring
    rw [if_pos hK, if_pos hK]
    beta_reduce
    constructor
    · rw [if_pos]
      split_ifs <;> omega
    · split_ifs with h0 h5
      · rfl
      · rfl
      · omega
  · have h3 : (K + 1) ^ 2 ≤ n ^ 2 := Nat.pow_le_pow_left (by omega) 2
    rw [if_neg hK, if_neg hK]
    beta_reduce
    constructor
    · rw [if_neg]
      omega
    · split_ifs with h0 h5
      · rfl
      · omega
      · rfl

theorem lift_ok {α : Type} {x : Except Legendre.Error α} {a : α} (h : x = .ok a) : lift x = .ok a := by rw [h]; rfl

/-- **C45.** Applied to a function that is a constant plus a spherical harmonic expansion up to degree `K`, where `K` is at
most the larger of `nmax` and `kmax`, the analysis returns exactly the expansion coefficients up to degree `nmax` (zeros
for degrees above `K`), for every coefficient vector. -/
theorem C45_recovers (leggauss : ℕ → List (ℝ × ℝ)) (nmax : ℕ) (hn : 1 ≤ nmax) (kmax : Option ℕ)
    (hrule : GaussRule (max nmax (kmax.getD nmax) + 1) (leggauss (max nmax (kmax.getD nmax) + 1)))
    (K : ℕ) (hK : K ≤ max nmax (kmax.getD nmax)) (a0 : ℝ) (c : ℕ → ℝ) (func : ℝ → ℝ → ℝ)
    (hf : ∀ theta phi, 0 ≤ theta → theta ≤ 180 → func theta phi = a0 + expansion c K theta phi) :
    shAnalysis leggauss func nmax kmax = .ok ((List.range (nmax * (nmax + 2))).map fun i => if i < K * (K + 2) then c i else 0) := by
  unfold shAnalysis
  simp only
  set M := max nmax (kmax.getD nmax) with hM
  have hnM : nmax ≤ M := le_max_left _ _
  set N := 2 * (M + 1) with hN
  have hT : ∀ q : ℝ × ℝ, ∃ T, legendrePoly nmax (colat q.1) = .ok T ∧ ∀ n m, m ≤ n → n ≤ nmax → T (n, m) = schmidt n m (Real.arccos q.1) := by
    intro q
    obtain ⟨T, h1, h2⟩ := Legendre.C14_legendre_table nmax (colat q.1) hn (colat_range q.1).1 (colat_range q.1).2
    refine ⟨T, h1, fun n m h3 h4 => ?_⟩
    rw [(h2 n m h3 h4).1, rad_colat]
  choose T hT1 hT2 using hT
  have hrings : ((leggauss (M + 1)).mapM fun q => do
      let T ← lift (legendrePoly nmax (colat q.1))
      pure (⟨q.2, dft N fun j => func (colat q.1) (azimuth N j), T⟩ : Ring)) =
      .ok ((leggauss (M + 1)).map fun q => (⟨q.2, dft N fun j => func (colat q.1) (azimuth N j), T q⟩ : Ring)) := by
    refine Synth.mapM_map _ _ _ fun q _ => ?_
    rw [lift_ok (hT1 q)]
    rfl
  rw [hrings]
  simp only [bind, Except.bind]
  set rings := (leggauss (M + 1)).map fun q => (⟨q.2, dft N fun j => func (colat q.1) (azimuth N j), T q⟩ : Ring) with hr
  have hfold : (pyRange 1 (nmax + 1)).foldlM (analysisDegree rings) (0, List.replicate (nmax * (nmax + 2)) 0) =
      .ok (nmax * (nmax + 2), allVals (fun n m => (gaussSum rings n m / (2 / (2 * (n : ℂ) + 1))).re)
      (fun n m => -(gaussSum rings n m / (2 / (2 * (n : ℂ) + 1))).im) nmax) := by
    rw [← foldlM_put_all _ (0 : ℝ) _ (allVals_length _ _ _)]
    unfold allVals
    rw [foldlM_flatMap]
    congr 1
    funext st n
    exact analysisDegree_eq rings st n
  rw [hfold]
  simp only [pure, Except.pure]
  congr 1
  rw [← allVals_coef]
  refine allVals_congr fun n m h1 h2 h3 => ?_
  have hsum := gaussSum_series hrule (fun n m => if n = 0 then a0 else coefG c 1 n n m) (fun n m => if n = 0 then 0 else coefH c 1 n n m) K N nmax rings
    (by
      rw [hr, List.forall₂_map_right_iff, List.forall₂_same]
      intro q _
      refine ⟨rfl, fun m _ => ?_, hT2 q⟩
      simp only
      congr 1
      funext j
      rw [hf _ _ (colat_range q.1).1 (colat_range q.1).2, expansion_series, rad_colat, rad_azimuth])
    (by omega) (by omega) h3 h2
  obtain ⟨hc1, hc2⟩ := coef_cut c K n m h1 h3
  rw [hsum, hc1, hc2]
  have hn1 : (2 * (n : ℂ) + 1) ≠ 0 := by exact_mod_cast (by omega : 2 * n + 1 ≠ 0)
  have hval : (if n ≤ K then gam (fun n m => if n = 0 then a0 else coefG c 1 n n m) (fun n m => if n = 0 then 0 else coefH c 1 n n m) n m *
      (if m = 0 then (2 : ℂ) / (2 * n + 1) else 4 / (2 * n + 1)) else 0) / (2 / (2 * (n : ℂ) + 1)) =
      if n ≤ K then (((coefG c 1 n n m : ℝ) : ℂ) - Complex.I * ((coefH c 1 n n m : ℝ) : ℂ)) else 0 := by
    split_ifs with hk h0
    · subst h0
      unfold gam
      beta_reduce
      rw [if_pos rfl, if_neg (by omega)]
      have : coefH c 1 n n 0 = 0 := by unfold coefH; rw [if_pos rfl]
      rw [this]
      field_simp
      simp
    · unfold gam
      beta_reduce
      rw [if_neg h0, if_neg (by omega), if_neg (by omega)]
      field_simp
      ring
    · rw [zero_div]
  rw [hval]
  constructor
  · split_ifs
    · simp
    · simp
  · intro _
    split_ifs
    · simp
    · simp

/-- **C45** (the hypothesis on the quadrature can be met): for every number of points there is a rule with that many points that
integrates all polynomials of degree `2n - 1` exactly. -/
theorem C45_gauss_rule : ∃ leggauss : ℕ → List (ℝ × ℝ), ∀ n, GaussRule n (leggauss n) ∧ (leggauss n).length = n := by
  choose f hf using Legendre.gaussRule_exists
  exact ⟨f, hf⟩

/-- **C45**: the expansion in the documentation (a single harmonic of degree 7 is invisible at degree 1 with a sufficient grid), and
recovery of a given degree-2 expansion. -/
example : ∃ leggauss : ℕ → List (ℝ × ℝ),
    shAnalysis leggauss (expansion (fun i => if i = 48 then 1 else 0) 7) 1 (some 7) = .ok [0, 0, 0] ∧
    shAnalysis leggauss (expansion (fun i => i + 1) 2) 2 none = .ok [1, 2, 3, 4, 5, 6, 7, 8] := by
  obtain ⟨f, hf⟩ := C45_gauss_rule
  refine ⟨f, ?_, ?_⟩
  · rw [C45_recovers f 1 le_rfl (some 7) (hf _).1 7 (by decide) 0 (fun i => if i = 48 then 1 else 0) _ fun _ _ _ _ => (zero_add _).symm]
    norm_num [List.range_succ]
  · rw [C45_recovers f 2 (by omega) none (hf _).1 2 (by decide) 0 (fun i => i + 1) _ fun _ _ _ _ => (zero_add _).symm]
    norm_num [List.range_succ]

/-- **C45**: degree zero is refused. -/
theorem C45_degree_zero (leggauss : ℕ → List (ℝ × ℝ)) (func : ℝ → ℝ → ℝ) (kmax : Option ℕ)
    (hne : leggauss (max 0 (kmax.getD 0) + 1) ≠ []) : shAnalysis leggauss func 0 kmax = .error .indexError := by
  unfold shAnalysis
  simp only
  obtain ⟨q, l, hl⟩ := List.exists_cons_of_ne_nil hne
  rw [hl, List.mapM_cons, Legendre.C15_degree_zero]
  rfl

end ChaosMagPy.Analysis
