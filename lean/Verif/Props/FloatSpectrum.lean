import Verif.Lemmas.Rel
import Verif.Props.Spectrum
import Verif.Props.FloatAngle
/-!
# C90: power spectra, degree correlations and sensitivities in double precision
-/
namespace ChaosMagPy.FloatSpectrum
open ChaosMagPy.Spec ChaosMagPy.Float
open ChaosMagPy.Spectrum (Error Num clipDegree docFactor foldl_set sum_block degreePower_nonneg cauchy)
open ChaosMagPy.Legendre (pyRange)

/-- A double that is zero or of a size between `2^(-200)` and `2^200`, so that squares neither overflow nor underflow. -/
def Moderate (x : ℝ) : Prop := IsDouble x ∧ (x = 0 ∨ (2 : ℝ) ^ (-200 : ℤ) ≤ |x| ∧ |x| ≤ 2 ^ 200)

variable {R : Rounding} (S : Summation R) (P : Power)

theorem Moderate.range {x : ℝ} (h : Moderate x) (h0 : x ≠ 0) : In (-200) 200 |x| := (h.2.resolve_left h0)

theorem Moderate.le {x : ℝ} (h : Moderate x) : |x| ≤ (2 : ℝ) ^ (200 : ℤ) := by
  rcases h.2 with rfl | h
  · rw [abs_zero]; positivity
  · exact h.2

theorem prod_le {x y : ℝ} (hx : Moderate x) (hy : Moderate y) : |x * y| ≤ (2 : ℝ) ^ (400 : ℤ) := by
  rw [abs_mul, show (400 : ℤ) = 200 + 200 by norm_num, zpow_add₀ (by norm_num)]
  exact mul_le_mul hx.le hy.le (abs_nonneg _) (by positivity)

theorem prod_rel {x y : ℝ} (hx : Moderate x) (hy : Moderate y) : Rel 1 (R (x * y)) (x * y) ∧ IsDouble (R (x * y)) := by
  have hb : |x * y| ≤ 2 ^ 1000 := (prod_le hx hy).trans (by
    rw [show (2 : ℝ) ^ 1000 = (2 : ℝ) ^ (1000 : ℤ) from rfl]
    exact zpow_le_zpow_right₀ (by norm_num) (by norm_num))
  refine ⟨rel_rnd R ?_, rnd_isDouble R hb⟩
  by_cases h0 : x * y = 0
  · exact Or.inl h0
  · refine Or.inr ⟨?_, hb⟩
    have := ((hx.range (left_ne_zero_of_mul h0)).mul (hy.range (right_ne_zero_of_mul h0))).1
    rw [abs_mul]
    exact (zpow_le_zpow_right₀ (by norm_num) (by norm_num)).trans this

/-! ### Lists and degrees -/

theorem sum_range' (f : ℕ → ℝ) (lo len : ℕ) : ((List.range' lo len).map f).sum = ∑ i ∈ Finset.Ico lo (lo + len), f i := by
  induction len with
  | zero => simp
  | succ len ih =>
    rw [List.range'_concat, List.map_append, List.sum_append, ih, ← Nat.add_assoc, Finset.sum_Ico_succ_top (by omega)]
    simp

theorem rel_sum {α : Type} (L : List α) (f g : α → ℝ) (k : ℕ) (h : ∀ i, Rel k (f i) (g i)) (h0 : ∀ i, 0 ≤ g i) : Rel k (L.map f).sum (L.map g).sum := by
  induction L with
  | nil => exact (Rel.refl 0).mono (Nat.zero_le k)
  | cons x L ih =>
    simp only [List.map_cons, List.sum_cons]
    exact (h x).add ih (h0 x) (List.sum_nonneg (by simpa using fun x _ => h0 x))

/-- The list of the elements of one degree. -/
theorem slice_list {dim N n : ℕ} (h1 : N * (N + 2) ≤ dim) (hn : 1 ≤ n) (hle : n ≤ N) :
    min (n ^ 2 - 1 + (2 * n + 1)) dim - (n ^ 2 - 1) = 2 * n + 1 := by
  have hsq : 1 ≤ n ^ 2 := Nat.one_le_pow _ _ hn
  have hd : n * (n + 2) ≤ dim := le_trans (Nat.mul_le_mul hle (by omega)) h1
  have e : n * (n + 2) = n ^ 2 + 2 * n := by ring
  omega

theorem sum_le (L : List ℕ) (f : ℕ → ℝ) (B : ℝ) (h : ∀ i, f i ≤ B) : (L.map f).sum ≤ L.length * B := by
  induction L with
  | nil => simp
  | cons x L ih =>
    simp only [List.map_cons, List.sum_cons, List.length_cons]
    push_cast
    linarith [h x]

theorem power_list (c : ℕ → ℝ) (n : ℕ) (hn : 1 ≤ n) : ((List.range' (n ^ 2 - 1) (2 * n + 1)).map fun i => c i ^ 2).sum = degreePower c n := by
  rw [sum_range', sum_block _ n hn]
  unfold degreePower gaussG gaussH
  apply Finset.sum_congr rfl
  intro m _
  split_ifs <;> simp

theorem product_list (c d : ℕ → ℝ) (n : ℕ) (hn : 1 ≤ n) : ((List.range' (n ^ 2 - 1) (2 * n + 1)).map fun i => c i * d i).sum = degreeProduct c d n := by
  rw [sum_range', sum_block _ n hn]
  unfold degreeProduct gaussG gaussH
  apply Finset.sum_congr rfl
  intro m _
  split_ifs <;> simp

theorem nat_le_22 {n : ℕ} (hn : n ≤ 2 ^ 20) : (2 * (n : ℝ) + 1) ≤ (2 : ℝ) ^ (22 : ℤ) := by
  have h1 : (n : ℝ) ≤ 2 ^ 20 := by exact_mod_cast hn
  have h2 : (2 : ℝ) ^ (22 : ℤ) = 4 * 2 ^ 20 := by norm_num
  rw [h2]
  linarith

/-- The power of a degree is zero or neither very large nor very small. -/
theorem power_range (c : ℕ → ℝ) (hc : ∀ i, Moderate (c i)) (n : ℕ) (hn : 1 ≤ n) (hn2 : n ≤ 2 ^ 20) (h0 : degreePower c n ≠ 0) : In (-400) 422 (degreePower c n) := by
  rw [← power_list c n hn] at h0 ⊢
  constructor
  · by_contra hc2
    push Not at hc2
    apply h0
    apply List.sum_eq_zero
    intro y hy
    obtain ⟨i, hi, rfl⟩ := List.mem_map.1 hy
    have hle : c i ^ 2 ≤ ((List.range' (n ^ 2 - 1) (2 * n + 1)).map fun i => c i ^ 2).sum :=
      List.single_le_sum (fun y hy => by
        obtain ⟨j, _, rfl⟩ := List.mem_map.1 hy
        exact sq_nonneg (c j)) _ hy
    by_contra hne
    have h0' : c i ≠ 0 := fun h => hne (by rw [h]; norm_num)
    have h3 := ((hc i).range h0').mul ((hc i).range h0')
    rw [← abs_mul, ← sq, abs_of_nonneg (sq_nonneg _)] at h3
    have := h3.1
    norm_num only at this hc2
    linarith
  · refine (sum_le _ _ ((2 : ℝ) ^ (400 : ℤ)) ?_).trans ?_
    · intro i
      have := prod_le (hc i) (hc i)
      rw [← sq, abs_of_nonneg (sq_nonneg _)] at this
      exact this
    · rw [List.length_range', show (422 : ℤ) = 22 + 400 by norm_num, zpow_add₀ (by norm_num)]
      push_cast
      exact mul_le_mul_of_nonneg_right (nat_le_22 hn2) (by positivity)

/-- Computed power of a degree. -/
theorem square_sum {dim N n : ℕ} (h1 : N * (N + 2) ≤ dim) (hn : 1 ≤ n) (hle : n ≤ N) (hN : N ≤ 2 ^ 20) (c : ℕ → ℝ) (hc : ∀ i, Moderate (c i)) :
    IsDouble (sumSlice R S dim (fun i => R (c i * c i)) (n ^ 2 - 1) (n ^ 2 - 1 + (2 * n + 1))) ∧
      Rel (2 * n + 2) (sumSlice R S dim (fun i => R (c i * c i)) (n ^ 2 - 1) (n ^ 2 - 1 + (2 * n + 1))) (degreePower c n) := by
  unfold sumSlice
  rw [slice_list h1 hn hle]
  have hs : Rel 1 ((List.range' (n ^ 2 - 1) (2 * n + 1)).map fun i => R (c i * c i)).sum (degreePower c n) := by
    rw [← power_list c n hn]
    refine rel_sum _ _ _ 1 ?_ fun i => sq_nonneg _
    intro i
    rw [sq]
    exact (prod_rel (hc i) (hc i)).1
  have hnn := degreePower_nonneg c n
  have hle2 : ((List.range' (n ^ 2 - 1) (2 * n + 1)).map fun i => R (c i * c i)).sum ≤ 2 ^ 990 := by
    by_cases h0 : degreePower c n = 0
    · rw [hs.zero_iff.2 h0]
      positivity
    · have := ((power_range c hc n hn (hle.trans hN) h0).rel hs (by norm_num)).2
      exact this.trans (by
        rw [show (2 : ℝ) ^ 990 = (2 : ℝ) ^ (990 : ℤ) from rfl]
        exact zpow_le_zpow_right₀ (by norm_num) (by norm_num))
  have := added_rel (S.order ((List.range' (n ^ 2 - 1) (2 * n + 1)).map fun i => R (c i * c i))) (by
    intro x hx
    obtain ⟨i, _, rfl⟩ := List.mem_map.1 hx
    have := prod_rel (R := R) (hc i) (hc i)
    exact ⟨this.2, this.1.nonneg (mul_self_nonneg _)⟩) (by rw [List.length_map, List.length_range']; omega) hle2
  rw [List.length_map, List.length_range'] at this
  exact ⟨this.1, (this.2.trans hs).mono (by omega)⟩

/-! ### Power spectrum -/

theorem pow_range {x : ℝ} (hx : 0 < x) {K j : ℕ} (h : In (-500) 500 (x ^ K)) (hj : j ≤ K) : In (-500) 500 (x ^ j) := by
  rcases le_total 1 x with h1 | h1
  · refine ⟨le_trans ?_ (one_le_pow₀ h1), (pow_le_pow_right₀ h1 hj).trans h.2⟩
    rw [← zpow_zero (2 : ℝ)]
    exact zpow_le_zpow_right₀ (by norm_num) (by norm_num)
  · refine ⟨h.1.trans (pow_le_pow_of_le_one hx.le h1 hj), (pow_le_one₀ hx.le h1).trans ?_⟩
    rw [← zpow_zero (2 : ℝ)]
    exact zpow_le_zpow_right₀ (by norm_num) (by norm_num)

/-- A power of the computed ratio of the radii. -/
theorem power_rel {x y : ℝ} (hr : Rel 1 x y) (hy : 0 < y) (k : ℤ) (hk : k.natAbs ≤ 2 ^ 24) (h : In (-500) 500 (y ^ k)) : Rel (k.natAbs + 3) (P.fn x k) (y ^ k) := by
  have hz := hr.zpow k
  rw [mul_one] at hz
  have hi := (h.rel hz (by omega)).mono (show (-900 : ℤ) ≤ _ by norm_num) (show _ ≤ (900 : ℤ) by norm_num)
  have ha := (P.accurate x k (hr.pos hy) hi.1 hi.2).2
  have hp := hi.pos
  have h3 : Rel 3 (P.fn x k) (x ^ k) := by
    rw [rel_iff hp.le]
    have hu := uu_eq
    have e : (2 : ℝ) ^ (-52 : ℤ) = 2 * uu := by rw [hu]; norm_num
    rw [e] at ha
    obtain ⟨h4, h5⟩ := abs_le.1 ha
    have v3 : vv ^ 3 = 1 - 3 * uu + 3 * uu ^ 2 - uu ^ 3 := by unfold vv; ring
    have hu0 := uu_pos
    have hu1 : uu ≤ 1 / 16 := by rw [hu]; norm_num
    have v1 : vv ^ 3 ≤ 1 - 2 * uu := by rw [v3]; nlinarith [mul_pos hu0 hu0]
    have v2 : (1 + 2 * uu) * vv ^ 3 ≤ 1 := by
      have : (1 + 2 * uu) * (1 - 2 * uu) ≤ 1 := by nlinarith
      exact (mul_le_mul_of_nonneg_left v1 (by linarith)).trans this
    have v0 := vvp 3
    constructor
    · nlinarith
    · have : P.fn x k ≤ (1 + 2 * uu) * x ^ k := by linarith
      calc P.fn x k * vv ^ 3 ≤ (1 + 2 * uu) * x ^ k * vv ^ 3 := mul_le_mul_of_nonneg_right this v0.le
        _ = ((1 + 2 * uu) * vv ^ 3) * x ^ k := by ring
        _ ≤ 1 * x ^ k := mul_le_mul_of_nonneg_right v2 hp.le
        _ = x ^ k := one_mul _
  exact (h3.trans hz).mono (by omega)

/-- The computed factor of a degree. -/
theorem factor_rel (source : String) (hsrc : source = "internal" ∨ source = "external" ∨ source = "toroidal") {x y : ℝ} (hr : Rel 1 x y) (hy : 0 < y) {N : ℕ}
    (hN : N ≤ 2 ^ 20) (h : In (-500) 500 (y ^ (2 * N + 4))) :
    ∃ facF fac, factor R P (some source) = .ok facF ∧ Spectrum.factor (some source) = .ok fac ∧
      ∀ n : ℕ, 1 ≤ n → n ≤ N → Rel (2 * n + 8) (facF n x) (fac n y) ∧ In (-501) 522 (fac n y) := by
  rcases hsrc with rfl | rfl | rfl
  · refine ⟨_, _, rfl, rfl, ?_⟩
    intro n hn hle
    have h1 := pow_range hy h (show 2 * n + 4 ≤ 2 * N + 4 by omega)
    have e : (2 * (n : ℤ) + 4) = ((2 * n + 4 : ℕ) : ℤ) := by push_cast; ring
    have hz : In (-500) 500 (y ^ (2 * (n : ℤ) + 4)) := by rw [e, zpow_natCast]; exact h1
    have hp := power_rel P hr hy (2 * (n : ℤ) + 4) (by omega) hz
    have hnat := In.nat (n := n + 1) (k := 21) (by omega) (by omega)
    push_cast at hnat
    have hm := ((Rel.refl ((n : ℝ) + 1)).mul hp)
    have hI := hnat.mul hz
    have hI2 := hI.rel hm (by omega)
    refine ⟨((hI2.rnd R (by norm_num) (by norm_num)).1.trans hm).mono (by omega), hI.mono (by norm_num) (by norm_num)⟩
  · refine ⟨_, _, rfl, rfl, ?_⟩
    intro n hn hle
    have h1 := (pow_range hy h (show 2 * n - 2 ≤ 2 * N + 4 by omega)).inv
    have e : (2 * (n : ℤ) - 2) = ((2 * n - 2 : ℕ) : ℤ) := by omega
    have hz : In (-500) 500 (y ^ (-(2 * (n : ℤ) - 2))) := by rw [e, zpow_neg, zpow_natCast]; exact h1
    have hp := power_rel P hr hy (-(2 * (n : ℤ) - 2)) (by omega) hz
    have hnat := In.nat (n := n) (k := 21) (by omega) (by omega)
    have hm := ((Rel.refl (n : ℝ)).mul hp)
    have hI := hnat.mul hz
    have hI2 := hI.rel hm (by omega)
    refine ⟨((hI2.rnd R (by norm_num) (by norm_num)).1.trans hm).mono (by omega), hI.mono (by norm_num) (by norm_num)⟩
  · refine ⟨_, _, rfl, rfl, ?_⟩
    intro n hn hle
    have h1 := In.nat (n := n) (k := 21) (by omega) (by omega)
    have h2 := In.nat (n := n + 1) (k := 21) (by omega) (by omega)
    have h3 := In.nat (n := 2 * n + 1) (k := 22) (by omega) (by omega)
    push_cast at h2 h3
    have hI := (h1.mul h2).div h3
    exact ⟨(hI.rnd R (by norm_num) (by norm_num)).1.mono (by omega), hI.mono (by norm_num) (by norm_num)⟩

theorem degree_of {dim N : ℕ} (h1 : N * (N + 2) ≤ dim) (h2 : dim < (N + 1) * (N + 3)) (hN : N ≤ 2 ^ 20) : degreeOf R dim = N :=
  C12_degree_float R dim N h1 h2 (by omega)

/-- **C90** (power spectrum). In double precision, with any order of the additions and a power function that is off by at most one unit in the last place, every entry of the
spectrum differs from the documented value by a relative error of at most `(4n + 12) 2^(-53)`; degrees without power give exactly zero. -/
theorem C90_power {a r : ℝ} (ha : 0 < a) (hr : 0 < r) (dim N : ℕ) (h1 : N * (N + 2) ≤ dim) (h2 : dim < (N + 1) * (N + 3)) (hN : N ≤ 2 ^ 20)
    (hpow : (2 : ℝ) ^ (-500 : ℤ) ≤ (a / r) ^ (2 * N + 4) ∧ (a / r) ^ (2 * N + 4) ≤ 2 ^ 500) (c : ℕ → ℝ) (hc : ∀ i, Moderate (c i))
    (nmax : Option ℕ) (source : String) (hsrc : source = "internal" ∨ source = "external" ∨ source = "toroidal") :
    ∃ W : List (Option ℝ), powerSpectrum R S P a dim c (some r) (nmax.map (fun n : ℕ => (n : ℤ))) (some source) = .ok W ∧
      W.length = min (nmax.getD N) N ∧
      ∀ n, 1 ≤ n → n ≤ min (nmax.getD N) N → ∃ w, W[n - 1]? = some (some w) ∧
        |w - docFactor source a r n * degreePower c n| ≤ (4 * n + 12) / 2 ^ 53 * (docFactor source a r n * degreePower c n) := by
  have hy : 0 < a / r := div_pos ha hr
  have hI : In (-500) 500 ((a / r) ^ (2 * N + 4)) := hpow
  have hbase : In (-500) 500 (a / r) := by simpa using pow_range hy hI (show 1 ≤ 2 * N + 4 by omega)
  have hq := (hbase.rnd R (by norm_num) (by norm_num)).1
  obtain ⟨facF, fac, e1, e2, hf⟩ := factor_rel (R := R) P source hsrc hq hy hN hI
  obtain ⟨fac', e3, hdoc⟩ := Spectrum.factor_eq source hsrc a r
  obtain rfl : fac = fac' := by
    rw [e2] at e3
    exact Except.ok.inj e3
  have hclip : clipDegree (N : ℤ) (nmax.map fun n : ℕ => (n : ℤ)) = ((min (nmax.getD N) N : ℕ) : ℤ) := by
    cases nmax with
    | none => simp [clipDegree]
    | some m =>
      simp only [Option.map_some, clipDegree, Option.getD_some]
      split_ifs <;> omega
  refine ⟨(List.range (min (nmax.getD N) N)).map fun i => some (R (facF (i + 1) (R (a / r)) *
      sumSlice R S dim (fun i => R (c i * c i)) ((i + 1) ^ 2 - 1) ((i + 1) ^ 2 - 1 + (2 * (i + 1) + 1)))), ?_, by simp, ?_⟩
  · unfold powerSpectrum
    simp only [if_neg hr.ne', degree_of h1 h2 hN, hclip, e1, pure_bind, bind, Except.bind, pure, Except.pure]
    rw [if_neg (by omega)]
    simp only [Int.toNat_natCast]
    rw [foldl_set (fun n => some (R (facF n (R (a / r)) * sumSlice R S dim (fun i => R (c i * c i)) (n ^ 2 - 1) (n ^ 2 - 1 + (2 * n + 1)))))]
  · intro n hn hle
    have hnN : n ≤ N := hle.trans (min_le_right _ _)
    refine ⟨R (facF n (R (a / r)) * sumSlice R S dim (fun i => R (c i * c i)) (n ^ 2 - 1) (n ^ 2 - 1 + (2 * n + 1))), ?_, ?_⟩
    · rw [List.getElem?_map, List.getElem?_range (by omega)]
      simp only [Option.map_some, Nat.sub_add_cancel hn]
    · obtain ⟨f1, f2⟩ := hf n hn hnN
      obtain ⟨_, s2⟩ := square_sum S h1 hn hnN hN c hc
      have hp := f1.mul s2
      rw [← hdoc n hn]
      have hnn : 0 ≤ fac n (a / r) * degreePower c n := mul_nonneg f2.pos.le (degreePower_nonneg c n)
      have hR := rel_rnd R (x := facF n (R (a / r)) * sumSlice R S dim (fun i => R (c i * c i)) (n ^ 2 - 1) (n ^ 2 - 1 + (2 * n + 1))) (by
        by_cases h0 : degreePower c n = 0
        · exact Or.inl (by rw [s2.zero_iff.2 h0, mul_zero])
        · have hI3 := ((f2.mul (power_range c hc n hn (hnN.trans hN) h0)).rel hp (by omega)).mono (show (-1021 : ℤ) ≤ _ by norm_num) (show _ ≤ (1000 : ℤ) by norm_num)
          refine Or.inr ?_
          rw [abs_of_pos hI3.pos]
          exact hI3)
      have herr := ((hR.trans hp).mono (show _ ≤ 4 * n + 11 by omega)).err (by omega)
      rw [abs_of_nonneg hnn] at herr
      push_cast at herr
      refine herr.trans (le_of_eq ?_)
      ring

/-- **C90** (defaults). Leaving out the radius means the reference radius, and the internal source is the default, with the same rounding. -/
theorem C90_defaults {a : ℝ} (ha : a ≠ 0) (dim : ℕ) (c : ℕ → ℝ) (nmax : Option ℤ) (source : Option String) (radius : Option ℝ) :
    powerSpectrum R S P a dim c none nmax source = powerSpectrum R S P a dim c (some a) nmax source ∧
    powerSpectrum R S P a dim c radius nmax none = powerSpectrum R S P a dim c radius nmax (some "internal") := by
  constructor
  · unfold powerSpectrum
    have h1 : R (1 : ℝ) = 1 := by exact_mod_cast rnd_int R (m := 1) (by norm_num)
    simp only [if_neg ha, div_self ha, h1]
  · rfl

/-! ### Degree correlation -/

theorem ww_err {k : ℕ} (hk : k ≤ 2 ^ 26) : ww ^ k - 1 ≤ (k + 1) / 2 ^ 53 := by
  have hr : Rel k (ww ^ k) 1 := by
    refine ⟨ww ^ k, by ring, (vvp_le k).trans (one_le_pow₀ one_le_ww), ?_⟩
    unfold ww
    rw [inv_pow, inv_mul_cancel₀ (vvp k).ne']
  have := hr.err hk
  rw [abs_one, mul_one] at this
  exact (le_abs_self _).trans this

theorem Rel.upper {k : ℕ} {x y : ℝ} (h : Rel k x y) : |x| ≤ ww ^ k * |y| := by
  obtain ⟨θ, rfl, h1, h2⟩ := h
  have hθ : 0 < θ := (vvp k).trans_le h1
  rw [abs_mul, abs_of_pos hθ]
  refine mul_le_mul_of_nonneg_right ?_ (abs_nonneg y)
  unfold ww
  rw [inv_pow, ← one_div, le_div_iff₀ (vvp k)]
  exact h2

theorem Rel.abs_sub {k : ℕ} {x y : ℝ} (h : Rel k x y) : |x - y| ≤ (ww ^ k - 1) * |y| := by
  have hu := Rel.upper h
  obtain ⟨θ, rfl, h1, h2⟩ := h
  have hθ : 0 < θ := (vvp k).trans_le h1
  rw [show θ * y - y = (θ - 1) * y by ring, abs_mul]
  refine mul_le_mul_of_nonneg_right ?_ (abs_nonneg y)
  have hv := vvp k
  have hw : ww ^ k * vv ^ k = 1 := by unfold ww; rw [inv_pow, inv_mul_cancel₀ hv.ne']
  have hw1 : 1 ≤ ww ^ k := one_le_pow₀ one_le_ww
  rw [abs_le]
  constructor
  · have : 2 ≤ ww ^ k + vv ^ k := by nlinarith [sq_nonneg (ww ^ k - 1)]
    linarith
  · have : θ ≤ ww ^ k := by
      have h3 : θ * vv ^ k ≤ ww ^ k * vv ^ k := by rw [hw]; exact h2
      exact le_of_mul_le_mul_right h3 hv
    linarith

theorem power_abs (c : ℕ → ℝ) (n : ℕ) : degreePower (fun i => |c i|) n = degreePower c n := by
  unfold degreePower gaussG gaussH
  apply Finset.sum_congr rfl
  intro m _
  split_ifs <;> simp

theorem list_abs_sub (L : List ℕ) (f g : ℕ → ℝ) (e : ℝ) (h : ∀ i, |f i - g i| ≤ e * |g i|) : |(L.map f).sum - (L.map g).sum| ≤ e * (L.map fun i => |g i|).sum := by
  induction L with
  | nil => simp
  | cons x L ih =>
    simp only [List.map_cons, List.sum_cons]
    rw [add_sub_add_comm, mul_add]
    exact (abs_add_le _ _).trans (add_le_add (h x) ih)

theorem list_abs_le (L : List ℕ) (f g : ℕ → ℝ) (w : ℝ) (h : ∀ i, |f i| ≤ w * |g i|) : (L.map fun i => |f i|).sum ≤ w * (L.map fun i => |g i|).sum := by
  induction L with
  | nil => simp
  | cons x L ih =>
    simp only [List.map_cons, List.sum_cons]
    rw [mul_add]
    exact add_le_add (h x) ih

/-- Computed sum of the products of a degree. -/
theorem product_sum {dim N n : ℕ} (h1 : N * (N + 2) ≤ dim) (hn : 1 ≤ n) (hle : n ≤ N) (hN : N ≤ 2 ^ 20) (c d : ℕ → ℝ) (hc : ∀ i, Moderate (c i)) (hd : ∀ i, Moderate (d i)) :
    |sumSlice R S dim (fun i => R (c i * d i)) (n ^ 2 - 1) (n ^ 2 - 1 + (2 * n + 1)) - degreeProduct c d n| ≤
      (ww ^ (2 * n + 2) - 1) * Real.sqrt (degreePower c n * degreePower d n) := by
  unfold sumSlice
  rw [slice_list h1 hn hle]
  have hprod := fun i => prod_rel (R := R) (hc i) (hd i)
  set L := List.range' (n ^ 2 - 1) (2 * n + 1) with hL
  have hlen : (L.map fun i => R (c i * d i)).length = 2 * n + 1 := by rw [List.length_map, hL, List.length_range']
  -- absolute values
  have hA : (L.map fun i => |c i * d i|).sum ≤ Real.sqrt (degreePower c n * degreePower d n) := by
    have e : (L.map fun i => |c i * d i|).sum = degreeProduct (fun i => |c i|) (fun i => |d i|) n := by
      rw [← product_list _ _ n hn]
      simp only [abs_mul]
      rfl
    rw [e]
    apply Real.le_sqrt_of_sq_le
    have := cauchy (fun i => |c i|) (fun i => |d i|) n
    rwa [power_abs, power_abs] at this
  have hA0 : 0 ≤ (L.map fun i => |c i * d i|).sum := List.sum_nonneg (fun y hy => by
    obtain ⟨i, _, rfl⟩ := List.mem_map.1 hy
    exact abs_nonneg _)
  have s1 : |(L.map fun i => R (c i * d i)).sum - (L.map fun i => c i * d i).sum| ≤ (ww - 1) * (L.map fun i => |c i * d i|).sum := by
    refine list_abs_sub L _ _ _ ?_
    intro i
    have := Rel.abs_sub (hprod i).1
    rwa [pow_one] at this
  have s2 : ((L.map fun i => R (c i * d i)).map fun x => |x|).sum ≤ ww * (L.map fun i => |c i * d i|).sum := by
    rw [List.map_map]
    refine list_abs_le L (fun i => R (c i * d i)) (fun i => c i * d i) _ ?_
    intro i
    have := Rel.upper (hprod i).1
    rwa [pow_one] at this
  have hbig : ((L.map fun i => R (c i * d i)).map fun x => |x|).sum ≤ 2 ^ 990 := by
    refine s2.trans ?_
    have h3 : (L.map fun i => |c i * d i|).sum ≤ L.length * (2 : ℝ) ^ (400 : ℤ) := sum_le L _ _ fun i => prod_le (hc i) (hd i)
    have h4 : (L.length : ℝ) ≤ (2 : ℝ) ^ (22 : ℤ) := by
      rw [hL, List.length_range']
      push_cast
      exact nat_le_22 (hle.trans hN)
    have h5 : ww ≤ (2 : ℝ) ^ (1 : ℤ) := by
      have := wwp_le (k := 1) (by norm_num)
      simpa using this
    calc ww * (L.map fun i => |c i * d i|).sum ≤ (2 : ℝ) ^ (1 : ℤ) * ((2 : ℝ) ^ (22 : ℤ) * (2 : ℝ) ^ (400 : ℤ)) :=
          mul_le_mul h5 (h3.trans (mul_le_mul_of_nonneg_right h4 (by positivity))) hA0 (by positivity)
      _ = (2 : ℝ) ^ (423 : ℤ) := by rw [← zpow_add₀ (by norm_num), ← zpow_add₀ (by norm_num)]; norm_num only
      _ ≤ (2 : ℝ) ^ (990 : ℤ) := zpow_le_zpow_right₀ (by norm_num) (by norm_num)
      _ = 2 ^ 990 := rfl
  have hadd := (added_err (S.order (L.map fun i => R (c i * d i))) (by
    intro x hx
    obtain ⟨i, _, rfl⟩ := List.mem_map.1 hx
    exact (hprod i).2) (by rw [hlen]; omega) hbig).2
  rw [hlen] at hadd
  rw [← product_list c d n hn, ← hL]
  have hw0 : 0 ≤ ww ^ (2 * n + 1) - 1 := by linarith [one_le_pow₀ (n := 2 * n + 1) one_le_ww]
  have t := abs_sub_le (S.fn (L.map fun i => R (c i * d i))) (L.map fun i => R (c i * d i)).sum (L.map fun i => c i * d i).sum
  have t2 := mul_le_mul_of_nonneg_left s2 hw0
  have hw1 : ww ^ (2 * n + 2) = ww ^ (2 * n + 1) * ww := pow_succ _ _
  calc _ ≤ _ := t
    _ ≤ (ww ^ (2 * n + 2) - 1) * (L.map fun i => |c i * d i|).sum := by rw [hw1]; nlinarith
    _ ≤ _ := mul_le_mul_of_nonneg_left hA (by linarith [one_le_pow₀ (n := 2 * n + 2) one_le_ww])

/-- The computed denominator of the correlation. -/
theorem denominator {x y p q : ℝ} {n : ℕ} (hn : n ≤ 2 ^ 20) (hx : Rel (2 * n + 2) x p) (hy : Rel (2 * n + 2) y q) (hp : In (-400) 422 p) (hq : In (-400) 422 q) :
    Rel (2 * n + 4) (R (Real.sqrt (R (x * y)))) (Real.sqrt (p * q)) := by
  have h1 := hx.mul hy
  have h2 := hp.mul hq
  have h3 := h2.rel h1 (by omega)
  have h4 := ((h3.rnd R (by norm_num) (by norm_num)).1.trans h1).mono (show _ ≤ 2 * (2 * n + 3) by omega)
  have h5 := h4.sqrt'
  have h6 : In (-400) 422 (Real.sqrt (p * q)) := In.sqrt (h2.mono (by norm_num) (by norm_num))
  have h7 := (h6.rel h5 (by omega)).rnd R (by norm_num) (by norm_num)
  exact (h7.1.trans h5).mono (by omega)

theorem correlation_eq {dim N : ℕ} (h1 : N * (N + 2) ≤ dim) (h2 : dim < (N + 1) * (N + 3)) (hN : N ≤ 2 ^ 20) (c d : ℕ → ℝ) :
    degreeCorrelation R S dim c dim d = .ok ((List.range N).map fun i =>
      div R (sumSlice R S dim (fun j => R (c j * d j)) ((i + 1) ^ 2 - 1) ((i + 1) ^ 2 - 1 + (2 * (i + 1) + 1)))
        (R (Real.sqrt (R (sumSlice R S dim (fun j => R (c j * c j)) ((i + 1) ^ 2 - 1) ((i + 1) ^ 2 - 1 + (2 * (i + 1) + 1)) *
          sumSlice R S dim (fun j => R (d j * d j)) ((i + 1) ^ 2 - 1) ((i + 1) ^ 2 - 1 + (2 * (i + 1) + 1))))))) := by
  unfold degreeCorrelation
  rw [if_neg (by simp)]
  simp only [degree_of h1 h2 hN, pure_bind, bind, Except.bind, pure, Except.pure, Int.toNat_natCast]
  rw [foldl_set (fun n => div R (sumSlice R S dim (fun j => R (c j * d j)) (n ^ 2 - 1) (n ^ 2 - 1 + (2 * n + 1)))
        (R (Real.sqrt (R (sumSlice R S dim (fun j => R (c j * c j)) (n ^ 2 - 1) (n ^ 2 - 1 + (2 * n + 1)) *
          sumSlice R S dim (fun j => R (d j * d j)) (n ^ 2 - 1) (n ^ 2 - 1 + (2 * n + 1)))))))]

theorem rnd_zero : R (0 : ℝ) = 0 := rnd_double R double_zero (by simp)

/-- **C90** (degree correlation). In double precision, with any order of the additions, the result differs from the documented value by at most `(4n + 9) 2^(-53)`; degrees
in which one of the models has no power give NaN. -/
theorem C90_correlation (dim N : ℕ) (h1 : N * (N + 2) ≤ dim) (h2 : dim < (N + 1) * (N + 3)) (hN : N ≤ 2 ^ 20) (c d : ℕ → ℝ) (hc : ∀ i, Moderate (c i)) (hd : ∀ i, Moderate (d i)) :
    ∃ C : List Num, degreeCorrelation R S dim c dim d = .ok C ∧ C.length = N ∧ ∀ n, 1 ≤ n → n ≤ N →
      (degreePower c n = 0 ∨ degreePower d n = 0 → C[n - 1]? = some .nan) ∧
      (degreePower c n ≠ 0 → degreePower d n ≠ 0 → ∃ x, C[n - 1]? = some (.val x) ∧
        |x - degreeProduct c d n / (Real.sqrt (degreePower c n) * Real.sqrt (degreePower d n))| ≤ (4 * n + 9) / 2 ^ 53) := by
  refine ⟨_, correlation_eq S h1 h2 hN c d, by simp, ?_⟩
  intro n hn hle
  rw [List.getElem?_map, List.getElem?_range (by omega)]
  simp only [Option.map_some, Nat.sub_add_cancel hn]
  obtain ⟨_, rc⟩ := square_sum S h1 hn hle hN c hc
  obtain ⟨_, rd⟩ := square_sum S h1 hn hle hN d hd
  have hp := product_sum S h1 hn hle hN c d hc hd
  set s := sumSlice R S dim (fun j => R (c j * d j)) (n ^ 2 - 1) (n ^ 2 - 1 + (2 * n + 1))
  set x := sumSlice R S dim (fun j => R (c j * c j)) (n ^ 2 - 1) (n ^ 2 - 1 + (2 * n + 1))
  set y := sumSlice R S dim (fun j => R (d j * d j)) (n ^ 2 - 1) (n ^ 2 - 1 + (2 * n + 1))
  constructor
  · intro h0
    have hxy : x * y = 0 := by
      rcases h0 with h0 | h0
      · rw [rc.zero_iff.2 h0, zero_mul]
      · rw [rd.zero_iff.2 h0, mul_zero]
    have hpq : degreePower c n * degreePower d n = 0 := by
      rcases h0 with h0 | h0
      · rw [h0, zero_mul]
      · rw [h0, mul_zero]
    have hP : degreeProduct c d n = 0 := by
      have := cauchy c d n
      rw [hpq] at this
      exact pow_eq_zero_iff (two_ne_zero) |>.1 (le_antisymm this (sq_nonneg _))
    rw [hpq, Real.sqrt_zero, mul_zero, hP, sub_zero] at hp
    have hs : s = 0 := abs_nonpos_iff.1 hp
    rw [hxy, hs, rnd_zero, Real.sqrt_zero, rnd_zero]
    simp [div]
  · intro hc0 hd0
    have hpc := power_range c hc n hn (hle.trans hN) hc0
    have hpd := power_range d hd n hn (hle.trans hN) hd0
    have hden := denominator (R := R) (hle.trans hN) rc rd hpc hpd
    rw [← Real.sqrt_mul hpc.pos.le]
    have hQ : 0 < Real.sqrt (degreePower c n * degreePower d n) := Real.sqrt_pos.2 (mul_pos hpc.pos hpd.pos)
    set Q := Real.sqrt (degreePower c n * degreePower d n) with hQdef
    set D := R (Real.sqrt (R (x * y)))
    have hD := hden.pos hQ
    have hne : D ≠ 0 := hD.ne'
    simp only [div, if_neg hne]
    refine ⟨_, rfl, ?_⟩
    have hz1 : |s / Q - degreeProduct c d n / Q| ≤ ww ^ (2 * n + 2) - 1 := by
      rw [← sub_div, abs_div, abs_of_pos hQ, div_le_iff₀ hQ]
      exact hp
    have hz2 : |degreeProduct c d n / Q| ≤ 1 := by
      rw [abs_div, abs_of_pos hQ, div_le_one hQ, hQdef]
      apply Real.le_sqrt_of_sq_le
      rw [sq_abs]
      exact cauchy c d n
    have hz3 : |s / Q| ≤ ww ^ (2 * n + 2) := by
      have := abs_sub_abs_le_abs_sub (s / Q) (degreeProduct c d n / Q)
      linarith
    have hrel : Rel (2 * n + 4) (s / D) (s / Q) := by simpa using (Rel.refl s).div hden
    have hw : ∀ k, 1 ≤ ww ^ k := fun k => one_le_pow₀ one_le_ww
    have hz4 : |s / D - degreeProduct c d n / Q| ≤ ww ^ (4 * n + 6) - 1 := by
      have h4 := Rel.abs_sub hrel
      have h5 := abs_sub_le (s / D) (s / Q) (degreeProduct c d n / Q)
      have h6 : (ww ^ (2 * n + 4) - 1) * |s / Q| ≤ (ww ^ (2 * n + 4) - 1) * ww ^ (2 * n + 2) :=
        mul_le_mul_of_nonneg_left hz3 (by linarith [hw (2 * n + 4)])
      have h7 : ww ^ (4 * n + 6) = ww ^ (2 * n + 4) * ww ^ (2 * n + 2) := by rw [← pow_add]; congr 1; ring
      rw [h7]
      linarith
    have hz5 : |s / D| ≤ ww ^ (4 * n + 6) := by
      have := abs_sub_abs_le_abs_sub (s / D) (degreeProduct c d n / Q)
      linarith
    have hz6 := rnd_rel R (x := s / D) (hz5.trans ((wwp_le (by omega)).trans (by
      have : (2 : ℝ) ^ 1 ≤ 2 ^ 1000 := pow_le_pow_right₀ (by norm_num) (by norm_num)
      simpa using this)))
    have hz7 := abs_sub_le (R (s / D)) (s / D) (degreeProduct c d n / Q)
    have h8 : uu * |s / D| ≤ uu * ww ^ (4 * n + 6) := mul_le_mul_of_nonneg_left hz5 uu_pos.le
    have h9 : (1 + uu) * ww ^ (4 * n + 6) ≤ ww ^ (4 * n + 7) := by
      rw [show ww ^ (4 * n + 7) = ww ^ (4 * n + 6) * ww from pow_succ _ _, mul_comm]
      exact mul_le_mul_of_nonneg_left ww_ge (by linarith [hw (4 * n + 6)])
    have h10 := ww_err (k := 4 * n + 7) (by omega)
    push_cast at h10
    have h11 : tiny ≤ 1 / 2 ^ 53 := by
      rw [← uu_eq]
      unfold tiny uu
      exact zpow_le_zpow_right₀ (by norm_num) (by norm_num)
    have h12 : (4 * (n : ℝ) + 9) / 2 ^ 53 = (4 * n + 7 + 1) / 2 ^ 53 + 1 / 2 ^ 53 := by ring
    rw [h12]
    linarith

/-- **C90** (self-correlation). The correlation of a model with itself is exactly one in double precision in every degree with power. -/
theorem C90_self (dim N : ℕ) (h1 : N * (N + 2) ≤ dim) (h2 : dim < (N + 1) * (N + 3)) (hN : N ≤ 2 ^ 20) (c : ℕ → ℝ) (hc : ∀ i, Moderate (c i)) :
    ∃ C : List Num, degreeCorrelation R S dim c dim c = .ok C ∧ ∀ n, 1 ≤ n → n ≤ N → degreePower c n ≠ 0 → C[n - 1]? = some (.val 1) := by
  refine ⟨_, correlation_eq S h1 h2 hN c c, ?_⟩
  intro n hn hle h0
  rw [List.getElem?_map, List.getElem?_range (by omega)]
  simp only [Option.map_some, Nat.sub_add_cancel hn]
  obtain ⟨dc, rc⟩ := square_sum S h1 hn hle hN c hc
  have hI := (power_range c hc n hn (hle.trans hN) h0).rel rc (by omega)
  rw [sqrt_sq dc (hI.mono (show (-500 : ℤ) ≤ _ by norm_num) le_rfl).1 (hI.mono le_rfl (show _ ≤ (499 : ℤ) by norm_num)).2]
  have hne := hI.pos.ne'
  simp only [div, if_neg hne, div_self hne]
  have h1 : R (1 : ℝ) = 1 := by exact_mod_cast rnd_int R (m := 1) (by norm_num)
  rw [h1]

/-- **C90** (symmetry). Exchanging the models changes nothing in double precision. -/
theorem C90_symmetric (dim : ℕ) (c d : ℕ → ℝ) : degreeCorrelation R S dim c dim d = degreeCorrelation R S dim d dim c := by
  unfold degreeCorrelation
  simp only [ne_eq, not_true, if_false, mul_comm]

/-! ### Sensitivity -/

/-- One pass of the loop over the array. -/
theorem foldl_blocks (w : ℕ → Num) (dim : ℕ) (g : ℕ → ℝ) (K : ℕ) :
    (pyRange 1 (K + 1)).foldl (fun (L : List Num) (n : ℕ) =>
      L.mapIdx fun i s => if n ^ 2 - 1 ≤ i ∧ i < n ^ 2 - 1 + (2 * n + 1) then scaleEntry R (w n) s else s)
      ((List.range dim).map fun i => Num.val (g i)) =
    (List.range dim).map fun i => if (i + 1).sqrt ≤ K then mul R (g i) (w (i + 1).sqrt) else .val (g i) := by
  induction K with
  | zero =>
    simp only [pyRange, Nat.zero_add, Nat.sub_self, List.range'_zero, List.foldl_nil]
    apply List.map_congr_left
    intro i _
    rw [if_neg]
    have : 0 < (i + 1).sqrt := Nat.sqrt_pos.2 (by omega)
    omega
  | succ K ih =>
    rw [Index.pyRange_snoc _ _ (by omega), List.foldl_append, ih]
    simp only [List.foldl_cons, List.foldl_nil]
    apply List.ext_getElem
    · simp
    intro i h1 h2
    rw [List.getElem_mapIdx, List.getElem_map, List.getElem_map, List.getElem_range]
    have hiff : ((K + 1) ^ 2 - 1 ≤ i ∧ i < (K + 1) ^ 2 - 1 + (2 * (K + 1) + 1)) ↔ (i + 1).sqrt = K + 1 := by
      have hsq : 1 ≤ (K + 1) ^ 2 := Nat.one_le_pow _ _ (by omega)
      rw [eq_comm, Nat.eq_sqrt']
      have : (K + 1 + 1) ^ 2 = (K + 1) ^ 2 + 2 * (K + 1) + 1 := by ring
      rw [this]
      omega
    by_cases h : (i + 1).sqrt = K + 1
    · rw [if_pos (hiff.2 h), h, if_neg (by omega), if_pos le_rfl]
      rfl
    · rw [if_neg (fun hc => h (hiff.1 hc))]
      by_cases h' : (i + 1).sqrt ≤ K
      · rw [if_pos h', if_pos (by omega)]
      · rw [if_neg h', if_neg (by omega)]

/-- The difference of two doubles of moderate size: one rounding, and zero or not very small. -/
theorem diff_rel {x y : ℝ} (hx : Moderate x) (hy : Moderate y) : Rel 1 (R (x - y)) (x - y) ∧ (x - y ≠ 0 → In (-253) 202 |x - y|) := by
  have hb : |x - y| ≤ (2 : ℝ) ^ (202 : ℤ) := by
    refine (abs_sub x y).trans ?_
    have h1 := hx.le
    have h2 := hy.le
    have e : (2 : ℝ) ^ (202 : ℤ) = 4 * (2 : ℝ) ^ (200 : ℤ) := by
      rw [show (202 : ℤ) = 2 + 200 by norm_num, zpow_add₀ (by norm_num)]
      norm_num only
    rw [e]
    have : (0 : ℝ) < (2 : ℝ) ^ (200 : ℤ) := by positivity
    linarith
  constructor
  · rw [sub_eq_add_neg] at hb ⊢
    refine rel_add R hx.1 (double_neg hy.1) (hb.trans ?_)
    rw [show (2 : ℝ) ^ 1000 = (2 : ℝ) ^ (1000 : ℤ) from rfl]
    exact zpow_le_zpow_right₀ (by norm_num) (by norm_num)
  · intro hne
    refine ⟨?_, hb⟩
    have mult : ∀ z, Moderate z → ∃ m : ℤ, z = m * (2 : ℝ) ^ (-252 : ℤ) := by
      intro z hz
      rcases hz.2 with rfl | h
      · exact ⟨0, by simp⟩
      · obtain ⟨m, hm⟩ := double_multiple hz.1 h.1
        exact ⟨m, by rw [hm]; norm_num only⟩
    obtain ⟨m, rfl⟩ := mult x hx
    obtain ⟨k, rfl⟩ := mult y hy
    have e : (m : ℝ) * (2 : ℝ) ^ (-252 : ℤ) - k * (2 : ℝ) ^ (-252 : ℤ) = ((m - k : ℤ) : ℝ) * (2 : ℝ) ^ (-252 : ℤ) := by push_cast; ring
    rw [e] at hne ⊢
    have hmk : m - k ≠ 0 := by
      intro h
      rw [h] at hne
      exact hne (by simp)
    have h1 : (1 : ℝ) ≤ |((m - k : ℤ) : ℝ)| := by
      have := Int.one_le_abs hmk
      exact_mod_cast this
    rw [abs_mul, abs_of_pos (show (0 : ℝ) < (2 : ℝ) ^ (-252 : ℤ) by positivity)]
    calc (2 : ℝ) ^ (-253 : ℤ) ≤ 1 * (2 : ℝ) ^ (-252 : ℤ) := by
          rw [one_mul]
          exact zpow_le_zpow_right₀ (by norm_num) (by norm_num)
      _ ≤ _ := mul_le_mul_of_nonneg_right h1 (by positivity)

/-- **C90** (sensitivity). In double precision every entry of a degree in which the true model has power differs from the documented value by a relative error of at most
`(n + 7) 2^(-53)` (so that equal coefficients give exactly zero); without power it is NaN or infinite with the sign of the misfit. -/
theorem C90_sensitivity (dim N : ℕ) (h1 : N * (N + 2) ≤ dim) (h2 : dim < (N + 1) * (N + 3)) (hN : N ≤ 2 ^ 20) (c d : ℕ → ℝ) (hc : ∀ i, Moderate (c i)) (hd : ∀ i, Moderate (d i)) :
    ∃ L : List Num, sensitivity R S dim c dim d = .ok L ∧ L.length = dim ∧
      (∀ (n : ℕ) (m : ℤ), 1 ≤ n → n ≤ N → m.natAbs ≤ n →
        (degreePower d n ≠ 0 → ∃ x, L[gaussPos n m]? = some (.val x) ∧
          |x - (c (gaussPos n m) - d (gaussPos n m)) / Real.sqrt (degreePower d n / (2 * n + 1))| ≤
            (n + 7) / 2 ^ 53 * |(c (gaussPos n m) - d (gaussPos n m)) / Real.sqrt (degreePower d n / (2 * n + 1))|) ∧
        (degreePower d n = 0 → L[gaussPos n m]? = some (
          if c (gaussPos n m) - d (gaussPos n m) = 0 then .nan else if 0 < c (gaussPos n m) - d (gaussPos n m) then .posInf else .negInf))) ∧
      ∀ i, N * (N + 2) ≤ i → i < dim → L[i]? = some (.val (R (c i - d i))) := by
  refine ⟨_, by
    unfold sensitivity
    rw [if_neg (by simp)]
    simp only [degree_of h1 h2 hN, pure_bind, bind, Except.bind, pure, Except.pure, Int.toNat_natCast]
    rw [foldl_blocks (fun n => div R 1 (R (Real.sqrt (R (sumSlice R S dim (fun i => R (d i * d i)) (n ^ 2 - 1) (n ^ 2 - 1 + (2 * n + 1)) / (2 * n + 1))))))
      dim (fun i => R (c i - d i)) N], by simp, ?_, ?_⟩
  · intro n m hn hle hm
    obtain ⟨_, hb1, hb2⟩ := Index.block_get n m hn hm
    have hsq : 1 ≤ n ^ 2 := Nat.one_le_pow _ _ hn
    have e2 : (n + 1) ^ 2 = n ^ 2 + 2 * n + 1 := by ring
    have hdim : n * (n + 2) ≤ dim := le_trans (Nat.mul_le_mul hle (by omega)) h1
    have hnn : n * (n + 2) = n ^ 2 + 2 * n := by ring
    have hlt : gaussPos n m < dim := by omega
    have hs : (gaussPos n m + 1).sqrt = n := by
      rw [eq_comm, Nat.eq_sqrt', e2]
      omega
    rw [List.getElem?_map, List.getElem?_range hlt]
    simp only [Option.map_some, hs]
    rw [if_pos hle]
    obtain ⟨_, rd⟩ := square_sum S h1 hn hle hN d hd
    obtain ⟨hdr, hdi⟩ := diff_rel (R := R) (hc (gaussPos n m)) (hd (gaussPos n m))
    set e := c (gaussPos n m) - d (gaussPos n m)
    set y := sumSlice R S dim (fun j => R (d j * d j)) (n ^ 2 - 1) (n ^ 2 - 1 + (2 * n + 1))
    constructor
    · intro h0
      have hp := power_range d hd n hn (hle.trans hN) h0
      have h3 := In.nat (n := 2 * n + 1) (k := 22) (by omega) (by omega)
      push_cast at h3
      have q1 := rd.div (Rel.refl (2 * (n : ℝ) + 1))
      have q2 := hp.div h3
      have q3 := (q2.rel q1 (by omega)).rnd R (by norm_num) (by norm_num)
      have q4 := (q3.1.trans q1).mono (show _ ≤ 2 * (n + 2) by omega)
      have q5 := q4.sqrt'
      have q6 : In (-211) 211 (Real.sqrt (degreePower d n / (2 * n + 1))) := In.sqrt (q2.mono (by norm_num) (by norm_num))
      have q7 := ((q6.rel q5 (by omega)).rnd R (by norm_num) (by norm_num)).1.trans q5
      have q8 := (Rel.refl 1).div q7
      have q9 := ((In.nat (n := 1) (k := 0) le_rfl le_rfl).div q6)
      push_cast at q9
      have q10 := ((q9.rel q8 (by omega)).rnd R (by norm_num) (by norm_num)).1.trans q8
      have hne : R (Real.sqrt (R (y / (2 * n + 1)))) ≠ 0 := (q7.pos q6.pos).ne'
      simp only [div, if_neg hne, mul]
      refine ⟨_, rfl, ?_⟩
      have q11 := hdr.mul q10
      have q12 : Rel 1 (R (R e * R (1 / R (Real.sqrt (R (y / (2 * n + 1))))))) (R e * R (1 / R (Real.sqrt (R (y / (2 * n + 1)))))) := by
        refine rel_rnd R ?_
        by_cases he : e = 0
        · exact Or.inl (by rw [hdr.zero_iff.2 he, zero_mul])
        · refine Or.inr ?_
          have habs : ∀ {k : ℕ} {x y : ℝ}, Rel k x y → Rel k |x| |y| := by
            rintro k x y ⟨θ, rfl, t1, t2⟩
            exact ⟨θ, by rw [abs_mul, abs_of_pos ((vvp k).trans_le t1)], t1, t2⟩
          have t1 := ((hdi he).mul q9)
          have t2 := habs q11
          rw [abs_mul e, abs_of_pos q9.pos] at t2
          have t3 := (t1.rel t2 (by omega)).mono (show (-1021 : ℤ) ≤ _ by norm_num) (show _ ≤ (1000 : ℤ) by norm_num)
          exact t3
      have q13 := ((q12.trans q11).mono (show _ ≤ n + 6 by omega)).err (by omega)
      push_cast at q13
      rw [mul_one_div] at q13
      refine q13.trans (le_of_eq ?_)
      ring
    · intro h0
      have hy : y = 0 := rd.zero_iff.2 h0
      rw [hy, zero_div, rnd_zero, Real.sqrt_zero, rnd_zero]
      simp only [div, if_pos, one_ne_zero, if_false, zero_lt_one, mul, hdr.zero_iff, hdr.pos_iff]
  · intro i hi1 hi2
    rw [List.getElem?_map, List.getElem?_range hi2]
    simp only [Option.map_some]
    rw [if_neg]
    intro hc
    have : (i + 1).sqrt < N + 1 := by omega
    rw [Nat.sqrt_lt'] at this
    have e2 : (N + 1) ^ 2 = N * (N + 2) + 1 := by ring
    omega

end ChaosMagPy.FloatSpectrum
