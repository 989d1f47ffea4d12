import Verif.Lemmas.Rotation
/-!
# C57: matrices that rotate spherical harmonic expansions
-/
namespace ChaosMagPy.Analysis
open ChaosMagPy.Spec
open ChaosMagPy.Coord (SamePoint Base)
open ChaosMagPy.Solid (trig)
open Finset

variable {leggauss : ℕ → List (ℝ × ℝ)} {nmax kmax : ℕ} {b : Base} {M : List (List ℝ)}

/-- **C57** (shape): for orthonormal base vectors `rotate_gauss` succeeds, with a matrix of `nmax (nmax + 2)` rows and
`kmax (kmax + 2)` columns. -/
theorem C57_shape (hn : 1 ≤ nmax) (hk : 1 ≤ kmax)
    (hrule : GaussRule ((nmax + kmax + 1) / 2 + 1) (leggauss ((nmax + kmax + 1) / 2 + 1))) (hb : RightHanded b.e1 b.e2 b.e3) :
    ∃ M, rotateGauss leggauss nmax kmax b = .ok M ∧ M.length = kmax * (kmax + 2) ∧ ∀ col ∈ M, col.length = nmax * (nmax + 2) := by
  obtain ⟨A, B, -, h⟩ := rotateGauss_form leggauss nmax kmax hn hk hrule b hb
  refine ⟨_, h, allVals_length _ _ _, fun col hc => ?_⟩
  rw [allVals, List.mem_flatMap] at hc
  obtain ⟨k, -, hc⟩ := hc
  rw [degVals, List.mem_cons, List.mem_flatMap] at hc
  rcases hc with rfl | ⟨l, -, hc⟩
  · exact allVals_length _ _ _
  · rw [List.mem_cons, List.mem_singleton] at hc
    rcases hc with rfl | rfl <;> exact allVals_length _ _ _

/-- Coefficients of the product. -/
theorem matVec_form {A B : Bool → ℕ → ℕ → ℕ → ℝ} (hM : M = allVals
        (fun k l => allVals (fun n m => if n = k then A false k l m else 0) (fun n m => if n = k then B false k l m else 0) nmax)
        (fun k l => allVals (fun n m => if n = k then A true k l m else 0) (fun n m => if n = k then B true k l m else 0) nmax) kmax)
    (c : ℕ → ℝ) {n m : ℕ} (h1 : 1 ≤ n) (h2 : n ≤ nmax) (hm : m ≤ n) :
    coefG (matVec M c) 1 n n m = (if n ≤ kmax then ∑ l ∈ range (n + 1), (A false n l m * coefG c 1 n n l + A true n l m * coefH c 1 n n l) else 0) ∧
    (1 ≤ m → coefH (matVec M c) 1 n n m = if n ≤ kmax then ∑ l ∈ range (n + 1), (B false n l m * coefG c 1 n n l + B true n l m * coefH c 1 n n l) else 0) := by
  have hlen : M.length = kmax * (kmax + 2) := by rw [hM]; exact allVals_length _ _ _
  have hgen : ∀ (i : ℕ) (E : Bool → ℕ → ℕ → ℝ),
      (∀ s k l, (allVals (fun n m => if n = k then A s k l m else 0) (fun n m => if n = k then B s k l m else 0) nmax).getD i 0 = if n = k then E s k l else 0) →
      matVec M c i = if n ≤ kmax then ∑ l ∈ range (n + 1), (E false n l * coefG c 1 n n l + E true n l * coefH c 1 n n l) else 0 := by
    intro i E hE
    unfold matVec
    rw [hlen, sum_coef c (fun j => (M.getD j []).getD i 0)]
    have e : ∀ k ∈ Finset.Icc 1 kmax, ∑ l ∈ range (k + 1), ((M.getD (posG k l) []).getD i 0 * coefG c 1 k k l + (M.getD (posH k l) []).getD i 0 * coefH c 1 k k l) =
        if n = k then ∑ l ∈ range (n + 1), (E false n l * coefG c 1 n n l + E true n l * coefH c 1 n n l) else 0 := by
      intro k hk
      rw [Finset.mem_Icc] at hk
      have e2 : ∀ l ∈ range (k + 1), (M.getD (posG k l) []).getD i 0 * coefG c 1 k k l + (M.getD (posH k l) []).getD i 0 * coefH c 1 k k l =
          if n = k then E false k l * coefG c 1 k k l + E true k l * coefH c 1 k k l else 0 := by
        intro l hl
        rw [mem_range] at hl
        rw [hM, allVals_getG _ _ hk.1 hk.2 (by omega), hE]
        by_cases h0 : l = 0
        · have : coefH c 1 k k l = 0 := by unfold coefH; rw [if_pos h0]
          rw [this]
          split_ifs <;> ring
        · rw [allVals_getH _ _ hk.1 hk.2 (by omega) (by omega), hE]
          split_ifs <;> ring
      rw [sum_congr rfl e2]
      split_ifs with hnk
      · subst hnk; rfl
      · exact sum_const_zero
    rw [sum_congr rfl e, sum_ite_eq]
    by_cases hK : n ≤ kmax
    · rw [if_pos (Finset.mem_Icc.2 ⟨h1, hK⟩), if_pos hK]
    · rw [if_neg (by rw [Finset.mem_Icc]; omega), if_neg hK]
  constructor
  · rw [coefG_pos _ h1]
    exact hgen _ (fun s k l => A s k l m) fun s k l => by rw [allVals_getG _ _ h1 h2 hm]
  · intro h0
    rw [coefH_pos _ h1, if_neg (by omega)]
    exact hgen _ (fun s k l => B s k l m) fun s k l => by rw [allVals_getH _ _ h1 h2 h0 hm]

/-- **C57.** For orthonormal base vectors, every coefficient vector `c` of the rotated system, and every point: the part of
degree `n` of the expansion with coefficients `c`, evaluated at the coordinates of the point in the rotated system, equals
the part of degree `n` of the expansion with coefficients `M c`, evaluated at the geographic coordinates. -/
theorem C57_rotation (hn : 1 ≤ nmax) (hk : 1 ≤ kmax)
    (hrule : GaussRule ((nmax + kmax + 1) / 2 + 1) (leggauss ((nmax + kmax + 1) / 2 + 1))) (hb : RightHanded b.e1 b.e2 b.e3)
    (hM : rotateGauss leggauss nmax kmax b = .ok M) (c : ℕ → ℝ) (theta phi thetaRef phiRef : ℝ)
    (hp : combine b.e1 b.e2 b.e3 (direction thetaRef phiRef) = direction theta phi) (n : ℕ) (h1 : 1 ≤ n) (h2 : n ≤ nmax) :
    degreePart (matVec M c) n theta phi = if n ≤ kmax then degreePart c n thetaRef phiRef else 0 := by
  obtain ⟨A, B, hAB, h⟩ := rotateGauss_form leggauss nmax kmax hn hk hrule b hb
  rw [hM] at h
  injection h with h
  unfold degreePart surfaceTerm
  by_cases hK : n ≤ kmax
  · rw [if_pos hK]
    have e : ∀ l ∈ range (n + 1), (coefG c 1 n n l * Real.cos (l * rad phiRef) + coefH c 1 n n l * Real.sin (l * rad phiRef)) * schmidt n l (rad thetaRef) =
        ∑ m ∈ range (n + 1), ((A false n l m * coefG c 1 n n l + A true n l m * coefH c 1 n n l) * Real.cos (m * rad phi) +
          (B false n l m * coefG c 1 n n l + B true n l m * coefH c 1 n n l) * Real.sin (m * rad phi)) * schmidt n m (rad theta) := by
      intro l hl
      rw [mem_range] at hl
      have f := hAB false n l (by omega) _ _ _ _ hp
      have t := hAB true n l (by omega) _ _ _ _ hp
      simp only [trig, Bool.false_eq_true, if_false] at f
      simp only [trig, if_true] at t
      calc _ = coefG c 1 n n l * (schmidt n l (rad thetaRef) * Real.cos (l * rad phiRef)) + coefH c 1 n n l * (schmidt n l (rad thetaRef) * Real.sin (l * rad phiRef)) := by ring
        _ = _ := by
          rw [f, t, mul_sum, mul_sum, ← sum_add_distrib]
          refine sum_congr rfl fun m _ => ?_
          ring
    rw [sum_congr rfl e, sum_comm]
    refine sum_congr rfl fun m hm => ?_
    rw [mem_range] at hm
    obtain ⟨g1, g2⟩ := matVec_form h c h1 h2 (show m ≤ n by omega)
    rw [g1, if_pos hK]
    by_cases h0 : m = 0
    · subst h0
      simp only [Nat.cast_zero, zero_mul, Real.cos_zero, Real.sin_zero, mul_one, mul_zero, add_zero]
      rw [sum_mul]
    · rw [g2 (by omega), if_pos hK, ← sum_mul, sum_add_distrib (f := fun l => (A false n l m * coefG c 1 n n l + A true n l m * coefH c 1 n n l) * Real.cos (m * rad phi)),
        ← sum_mul, ← sum_mul]
  · rw [if_neg hK]
    refine sum_eq_zero fun m hm => ?_
    rw [mem_range] at hm
    obtain ⟨g1, g2⟩ := matVec_form h c h1 h2 (show m ≤ n by omega)
    rw [g1, if_neg hK]
    by_cases h0 : m = 0
    · subst h0
      unfold coefH
      simp
    · rw [g2 (by omega), if_neg hK]
      simp

/-- **C57** (degrees do not mix): the elements of the matrix between coefficients of different degrees are zero. -/
theorem C57_blocks (hn : 1 ≤ nmax) (hk : 1 ≤ kmax)
    (hrule : GaussRule ((nmax + kmax + 1) / 2 + 1) (leggauss ((nmax + kmax + 1) / 2 + 1))) (hb : RightHanded b.e1 b.e2 b.e3)
    (hM : rotateGauss leggauss nmax kmax b = .ok M) (n k i j : ℕ) (h1 : 1 ≤ n) (h2 : n ≤ nmax) (h3 : 1 ≤ k) (h4 : k ≤ kmax) (hnk : n ≠ k)
    (hi : n ^ 2 - 1 ≤ i ∧ i < (n + 1) ^ 2 - 1) (hj : k ^ 2 - 1 ≤ j ∧ j < (k + 1) ^ 2 - 1) : (M.getD j []).getD i 0 = 0 := by
  obtain ⟨A, B, -, h⟩ := rotateGauss_form leggauss nmax kmax hn hk hrule b hb
  rw [hM] at h
  injection h with h
  have hrow : ∀ (a b : ℕ → ℝ), (allVals (fun n m => if n = k then a m else 0) (fun n m => if n = k then b m else 0) nmax).getD i 0 = 0 := by
    intro a b
    rcases pos_cases h1 hi.1 hi.2 with ⟨m, hm, rfl⟩ | ⟨m, hm0, hm, rfl⟩
    · rw [allVals_getG _ _ h1 h2 hm, if_neg hnk]
    · rw [allVals_getH _ _ h1 h2 hm0 hm, if_neg hnk]
  rcases pos_cases h3 hj.1 hj.2 with ⟨l, hl, rfl⟩ | ⟨l, hl0, hl, rfl⟩
  · rw [h, allVals_getG _ _ h3 h4 hl]; exact hrow _ _
  · rw [h, allVals_getH _ _ h3 h4 hl0 hl]; exact hrow _ _

/-- **C57** (potentials): up to any degree `K ≤ nmax` the potentials of internal and of external sources of the two expansions are
equal everywhere in space; degrees of the rotated expansion above `kmax` count as zero. -/
theorem C57_potential (hn : 1 ≤ nmax) (hk : 1 ≤ kmax)
    (hrule : GaussRule ((nmax + kmax + 1) / 2 + 1) (leggauss ((nmax + kmax + 1) / 2 + 1))) (hb : RightHanded b.e1 b.e2 b.e3)
    (hM : rotateGauss leggauss nmax kmax b = .ok M) (c : ℕ → ℝ) (a r theta phi thetaRef phiRef : ℝ)
    (hp : combine b.e1 b.e2 b.e3 (direction thetaRef phiRef) = direction theta phi) (K : ℕ) (hK : K ≤ nmax) :
    potExt a (matVec M c) 1 K K r (rad theta) (rad phi) = potExt a c 1 (min K kmax) (min K kmax) r (rad thetaRef) (rad phiRef) ∧
    potInt a (matVec M c) 1 K K r (rad theta) (rad phi) = potInt a c 1 (min K kmax) (min K kmax) r (rad thetaRef) (rad phiRef) := by
  have hst : ∀ (c : ℕ → ℝ) (K n m : ℕ) (x y : ℝ), 1 ≤ n → n ≤ K → surfaceTerm c 1 K n m x y = surfaceTerm c 1 n n m x y := by
    intro c K n m x y h1 h2
    unfold surfaceTerm coefG coefH
    rw [coefStart_full n h1 K h2, coefStart_full n h1 n le_rfl]
  have hgen : ∀ w : ℕ → ℝ, ∑ n ∈ Finset.Icc 1 K, ∑ m ∈ range (min n K + 1), w n * surfaceTerm (matVec M c) 1 K n m (rad theta) (rad phi) =
      ∑ n ∈ Finset.Icc 1 (min K kmax), ∑ m ∈ range (min n (min K kmax) + 1), w n * surfaceTerm c 1 (min K kmax) n m (rad thetaRef) (rad phiRef) := by
    intro w
    have e1 : ∀ n ∈ Finset.Icc 1 K, ∑ m ∈ range (min n K + 1), w n * surfaceTerm (matVec M c) 1 K n m (rad theta) (rad phi) =
        w n * (if n ≤ kmax then degreePart c n thetaRef phiRef else 0) := by
      intro n hnK
      rw [Finset.mem_Icc] at hnK
      rw [← C57_rotation hn hk hrule hb hM c theta phi thetaRef phiRef hp n hnK.1 (by omega)]
      unfold degreePart
      rw [min_eq_left hnK.2, mul_sum]
      exact sum_congr rfl fun m _ => by rw [hst _ K n m _ _ hnK.1 hnK.2]
    have e2 : ∀ n ∈ Finset.Icc 1 (min K kmax), ∑ m ∈ range (min n (min K kmax) + 1), w n * surfaceTerm c 1 (min K kmax) n m (rad thetaRef) (rad phiRef) =
        w n * degreePart c n thetaRef phiRef := by
      intro n hnK
      rw [Finset.mem_Icc] at hnK
      unfold degreePart
      rw [min_eq_left hnK.2, mul_sum]
      exact sum_congr rfl fun m _ => by rw [hst _ _ n m _ _ hnK.1 hnK.2]
    rw [sum_congr rfl e1, sum_congr rfl e2]
    symm
    refine sum_subset_zero_on_sdiff (Finset.Icc_subset_Icc_right (min_le_left _ _)) ?_ ?_
    · intro n hnn
      rw [mem_sdiff, Finset.mem_Icc, Finset.mem_Icc] at hnn
      rw [if_neg (by omega), mul_zero]
    · intro n hnn
      rw [Finset.mem_Icc] at hnn
      rw [if_pos (by omega)]
  unfold potExt potInt
  exact ⟨congrArg _ (hgen fun n => (r / a) ^ n), congrArg _ (hgen fun n => (a / r) ^ (n + 1))⟩

/-- Expansions determine their coefficients. -/
theorem degreePart_unique {n : ℕ} (hn : 1 ≤ n) (c d : ℕ → ℝ) (h : ∀ theta phi, 0 ≤ theta → theta ≤ 180 → degreePart c n theta phi = degreePart d n theta phi)
    (i : ℕ) (h1 : n ^ 2 - 1 ≤ i) (h2 : i < (n + 1) ^ 2 - 1) : c i = d i := by
  obtain ⟨f, hf⟩ := C45_gauss_rule
  have hN : n * (n + 2) = (n + 1) ^ 2 - 1 := by
    have : (n + 1) ^ 2 = n * (n + 2) + 1 := by ring
    omega
  have hcut : ∀ (c : ℕ → ℝ) (theta phi : ℝ), expansion (fun i => if n ^ 2 - 1 ≤ i then c i else 0) n theta phi = degreePart c n theta phi := by
    intro c theta phi
    unfold expansion degreePart
    rw [sum_eq_single n]
    · refine sum_congr rfl fun m hm => ?_
      unfold surfaceTerm coefG coefH
      rw [coefStart_full n hn n le_rfl]
      beta_reduce
      rw [if_pos (by omega)]
      split_ifs with h3 h4
      · rfl
      · rfl
      · omega
    · intro k hk hkn
      rw [Finset.mem_Icc] at hk
      refine sum_eq_zero fun m hm => ?_
      rw [mem_range] at hm
      have h3 : 1 ≤ k ^ 2 := Nat.one_le_pow _ _ hk.1
      have h5 : (k + 1) ^ 2 ≤ n ^ 2 := Nat.pow_le_pow_left (by omega) 2
      have h6 : (k + 1) ^ 2 = k ^ 2 + 2 * k + 1 := by ring
      unfold surfaceTerm coefG coefH
      rw [coefStart_full k hk.1 k le_rfl]
      beta_reduce
      rw [if_neg (by split_ifs <;> omega)]
      split_ifs with h3 h4
      · ring
      · omega
      · ring
    · intro hc
      exact absurd (Finset.mem_Icc.2 ⟨hn, le_rfl⟩) hc
  have e1 := C45_recovers f n hn none (hf _).1 n (by simp) 0 (fun i => if n ^ 2 - 1 ≤ i then c i else 0) (degreePart c n)
    fun theta phi _ _ => by rw [hcut, zero_add]
  have e2 := C45_recovers f n hn none (hf _).1 n (by simp) 0 (fun i => if n ^ 2 - 1 ≤ i then d i else 0) (degreePart c n)
    fun theta phi ht1 ht2 => by rw [h theta phi ht1 ht2, hcut, zero_add]
  rw [e1] at e2
  injection e2 with e2
  rw [List.map_inj_left] at e2
  have hi : i < n * (n + 2) := by omega
  have h3 := e2 i (List.mem_range.2 hi)
  simp only [if_pos hi, if_pos h1] at h3
  exact h3

/-- A vector of unit length is a direction. -/
theorem exists_direction (v : Fin 3 → ℝ) (hv : dot v v = 1) : ∃ theta phi, 0 ≤ theta ∧ theta ≤ 180 ∧ direction theta phi = v :=
  ⟨_, _, (Coord.cart_range v).1, (Coord.cart_range v).2.1, Coord.unit_direction v hv⟩

theorem exists_ref (hb : RightHanded b.e1 b.e2 b.e3) (theta phi : ℝ) : ∃ thetaRef phiRef, 0 ≤ thetaRef ∧ thetaRef ≤ 180 ∧
    combine b.e1 b.e2 b.e3 (direction thetaRef phiRef) = direction theta phi :=
  ⟨_, _, (Coord.geoToBase_range b theta phi false).1, (Coord.geoToBase_range b theta phi false).2.1, Coord.geoToBase_forward b hb theta phi⟩

/-- **C57** (uniqueness): the geographic coefficients produced by the matrix are the only ones with the property of `C57_rotation`: a vector
`d` whose part of degree `n` agrees with the rotated expansion at all points agrees with `M c` in all coefficients of that degree. -/
theorem C57_unique (hn : 1 ≤ nmax) (hk : 1 ≤ kmax)
    (hrule : GaussRule ((nmax + kmax + 1) / 2 + 1) (leggauss ((nmax + kmax + 1) / 2 + 1))) (hb : RightHanded b.e1 b.e2 b.e3)
    (hM : rotateGauss leggauss nmax kmax b = .ok M) (c d : ℕ → ℝ) (n : ℕ) (h1 : 1 ≤ n) (h2 : n ≤ nmax) (h3 : n ≤ kmax)
    (hd : ∀ theta phi thetaRef phiRef, combine b.e1 b.e2 b.e3 (direction thetaRef phiRef) = direction theta phi →
      degreePart d n theta phi = degreePart c n thetaRef phiRef) (i : ℕ) (hi1 : n ^ 2 - 1 ≤ i) (hi2 : i < (n + 1) ^ 2 - 1) : d i = matVec M c i := by
  refine degreePart_unique h1 d (matVec M c) (fun theta phi _ _ => ?_) i hi1 hi2
  obtain ⟨tr, pr, -, -, hp⟩ := exists_ref hb theta phi
  rw [hd _ _ _ _ hp, C57_rotation hn hk hrule hb hM c _ _ _ _ hp n h1 h2, if_pos h3]

/-- **C57** (trivial rotation): with the geographic axes as base vectors the matrix is the identity. -/
theorem C57_identity (hn : 1 ≤ nmax) (hrule : GaussRule ((nmax + nmax + 1) / 2 + 1) (leggauss ((nmax + nmax + 1) / 2 + 1)))
    (hM : rotateGauss leggauss nmax nmax ⟨![1, 0, 0], ![0, 1, 0], ![0, 0, 1]⟩ = .ok M) (c : ℕ → ℝ) (i : ℕ) (hi : i < nmax * (nmax + 2)) :
    matVec M c i = c i := by
  have hb : RightHanded (![1, 0, 0] : Fin 3 → ℝ) ![0, 1, 0] ![0, 0, 1] := by
    refine ⟨?_, ?_, ?_, ?_, ?_, ?_, ?_⟩ <;> simp [dot, vecProd]
  obtain ⟨n, h1, h2, h3⟩ := deg_exists i
  have hnn : n ≤ nmax := by
    by_contra hc
    have h5 : (nmax + 1) ^ 2 ≤ n ^ 2 := Nat.pow_le_pow_left (by omega) 2
    have h6 : (nmax + 1) ^ 2 = nmax * (nmax + 2) + 1 := by ring
    omega
  refine (C57_unique hn hn hrule hb hM c c n h1 hnn hnn (fun theta phi tr pr hp => ?_) i h2 h3).symm
  have e : direction theta phi = direction tr pr := by
    rw [← hp]
    funext j
    fin_cases j <;> simp [combine]
  have hd : ∀ s m k, m ≤ k → schmidt k m (rad theta) * trig s (m * rad phi) = schmidt k m (rad tr) * trig s (m * rad pr) := by
    intro s m k hm
    have e1 := Solid.ev_sol_schmidt s m (k - m) (rad theta) (rad phi)
    have e2 := Solid.ev_sol_schmidt s m (k - m) (rad tr) (rad pr)
    rw [show m + (k - m) = k by omega] at e1 e2
    rw [e1, e2, pt_direction, pt_direction, e]
  unfold degreePart surfaceTerm
  refine sum_congr rfl fun m hm => ?_
  rw [mem_range] at hm
  have f := hd false m n (by omega)
  have t := hd true m n (by omega)
  simp only [trig, Bool.false_eq_true, if_false] at f
  simp only [trig, if_true] at t
  linear_combination coefG c 1 n n m * f + coefH c 1 n n m * t

/-- The base whose vectors have the components `b2` in the base `b1`. -/
def composed (b1 b2 : Base) : Base :=
  ⟨combine b1.e1 b1.e2 b1.e3 b2.e1, combine b1.e1 b1.e2 b1.e3 b2.e2, combine b1.e1 b1.e2 b1.e3 b2.e3⟩

theorem composed_rightHanded {b1 b2 : Base} (hb1 : RightHanded b1.e1 b1.e2 b1.e3) (hb2 : RightHanded b2.e1 b2.e2 b2.e3) :
    RightHanded (composed b1 b2).e1 (composed b1 b2).e2 (composed b1 b2).e3 := by
  obtain ⟨h11, h22, h33, h12, h13, h23, hx⟩ := hb2
  have hdot : ∀ u v, dot (combine b1.e1 b1.e2 b1.e3 u) (combine b1.e1 b1.e2 b1.e3 v) = dot u v := by
    intro u v
    obtain ⟨g11, g22, g33, g12, g13, g23, -⟩ := hb1
    unfold dot at g11 g22 g33 g12 g13 g23
    unfold dot combine
    linear_combination u 0 * v 0 * g11 + u 1 * v 1 * g22 + u 2 * v 2 * g33 + (u 0 * v 1 + u 1 * v 0) * g12 + (u 0 * v 2 + u 2 * v 0) * g13 + (u 1 * v 2 + u 2 * v 1) * g23
  refine ⟨?_, ?_, ?_, ?_, ?_, ?_, ?_⟩
  · exact (hdot _ _).trans h11
  · exact (hdot _ _).trans h22
  · exact (hdot _ _).trans h33
  · exact (hdot _ _).trans h12
  · exact (hdot _ _).trans h13
  · exact (hdot _ _).trans h23
  · obtain ⟨g11, g22, g33, g12, g13, g23, gx⟩ := hb1
    have c0 : b1.e3 0 = b1.e1 1 * b1.e2 2 - b1.e1 2 * b1.e2 1 := by rw [← gx]; rfl
    have c1 : b1.e3 1 = b1.e1 2 * b1.e2 0 - b1.e1 0 * b1.e2 2 := by rw [← gx]; rfl
    have c2 : b1.e3 2 = b1.e1 0 * b1.e2 1 - b1.e1 1 * b1.e2 0 := by rw [← gx]; rfl
    have x0 : b2.e3 0 = b2.e1 1 * b2.e2 2 - b2.e1 2 * b2.e2 1 := by rw [← hx]; rfl
    have x1 : b2.e3 1 = b2.e1 2 * b2.e2 0 - b2.e1 0 * b2.e2 2 := by rw [← hx]; rfl
    have x2 : b2.e3 2 = b2.e1 0 * b2.e2 1 - b2.e1 1 * b2.e2 0 := by rw [← hx]; rfl
    unfold dot at g11 g22 g12
    funext i
    fin_cases i
    · simp only [composed, vecProd, combine, Matrix.cons_val, Fin.zero_eta]
      rw [c0, c1, c2, x0, x1, x2]
      linear_combination (b2.e1 1 * b2.e2 2 - b2.e1 2 * b2.e2 1) * (b1.e1 0 * g22 - b1.e2 0 * g12) + (b2.e1 2 * b2.e2 0 - b2.e1 0 * b2.e2 2) * (b1.e2 0 * g11 - b1.e1 0 * g12)
    · simp only [composed, vecProd, combine, Matrix.cons_val, Fin.mk_one]
      rw [c0, c1, c2, x0, x1, x2]
      linear_combination (b2.e1 1 * b2.e2 2 - b2.e1 2 * b2.e2 1) * (b1.e1 1 * g22 - b1.e2 1 * g12) + (b2.e1 2 * b2.e2 0 - b2.e1 0 * b2.e2 2) * (b1.e2 1 * g11 - b1.e1 1 * g12)
    · simp only [composed, vecProd, combine, Matrix.cons_val, Fin.reduceFinMk]
      rw [c0, c1, c2, x0, x1, x2]
      linear_combination (b2.e1 1 * b2.e2 2 - b2.e1 2 * b2.e2 1) * (b1.e1 2 * g22 - b1.e2 2 * g12) + (b2.e1 2 * b2.e2 0 - b2.e1 0 * b2.e2 2) * (b1.e2 2 * g11 - b1.e1 2 * g12)

/-- **C57** (composition): transforming from a base given relative to a first base, and then from the first base to geographic
coordinates, is the same as transforming directly from the composed base. -/
theorem C57_compose (hn : 1 ≤ nmax) (hrule : GaussRule ((nmax + nmax + 1) / 2 + 1) (leggauss ((nmax + nmax + 1) / 2 + 1)))
    (b1 b2 : Base) (hb1 : RightHanded b1.e1 b1.e2 b1.e3) (hb2 : RightHanded b2.e1 b2.e2 b2.e3)
    (M1 M2 M : List (List ℝ))
    (h1 : rotateGauss leggauss nmax nmax b1 = .ok M1) (h2 : rotateGauss leggauss nmax nmax b2 = .ok M2)
    (hM : rotateGauss leggauss nmax nmax (composed b1 b2) = .ok M) (c : ℕ → ℝ) (i : ℕ) (hi : i < nmax * (nmax + 2)) :
    matVec M c i = matVec M1 (matVec M2 c) i := by
  have hb := composed_rightHanded hb1 hb2
  obtain ⟨n, d1, d2, d3⟩ := deg_exists i
  have hnn : n ≤ nmax := by
    by_contra hc
    have h5 : (nmax + 1) ^ 2 ≤ n ^ 2 := Nat.pow_le_pow_left (by omega) 2
    have h6 : (nmax + 1) ^ 2 = nmax * (nmax + 2) + 1 := by ring
    omega
  refine degreePart_unique d1 _ _ (fun theta phi _ _ => ?_) i d2 d3
  obtain ⟨t1, p1, -, -, hp1⟩ := exists_ref hb1 theta phi
  obtain ⟨t2, p2, -, -, hp2⟩ := exists_ref hb2 t1 p1
  have hp : combine (composed b1 b2).e1 (composed b1 b2).e2 (composed b1 b2).e3 (direction t2 p2) = direction theta phi := by
    rw [← hp1, ← hp2]
    unfold composed combine
    funext j
    simp only
    ring
  rw [C57_rotation hn hn hrule hb hM c _ _ _ _ hp n d1 hnn, C57_rotation hn hn hrule hb1 h1 _ _ _ _ _ hp1 n d1 hnn,
    if_pos hnn, if_pos hnn, C57_rotation hn hn hrule hb2 h2 _ _ _ _ _ hp2 n d1 hnn, if_pos hnn]

/-- **C57** (degree zero is refused). -/
theorem C57_degree_zero (nmax kmax : ℕ) (b : Base) (h : nmax = 0 ∨ kmax = 0) (hne : leggauss ((nmax + kmax + 1) / 2 + 1) ≠ []) :
    rotateGauss leggauss nmax kmax b = .error .indexError := by
  unfold rotateGauss
  simp only
  obtain ⟨q, l, hl⟩ := List.exists_cons_of_ne_nil hne
  rw [hl]
  by_cases h0 : nmax = 0
  · subst h0
    rw [List.mapM_cons, Legendre.C15_degree_zero]
    rfl
  · have hk : kmax = 0 := by omega
    subst hk
    have hT : ∀ q : ℝ × ℝ, ∃ T, Legendre.legendrePoly nmax (colat q.1) = .ok T := by
      intro q
      obtain ⟨T, h1, -⟩ := Legendre.C14_legendre_table nmax (colat q.1) (by omega) (colat_range q.1).1 (colat_range q.1).2
      exact ⟨T, h1⟩
    choose T hT using hT
    rw [Synth.mapM_map _ T (q :: l) fun q _ => lift_ok (hT q)]
    have : refTables 0 (2 * ((nmax + 0 + 1) / 2 + 1)) (q :: l) b = .error .indexError := by
      unfold refTables
      rw [List.mapM_cons, show 2 * ((nmax + 0 + 1) / 2 + 1) = (2 * ((nmax + 0 + 1) / 2) + 1) + 1 by ring, List.range_succ_eq_map, List.mapM_cons,
        Legendre.C15_degree_zero]
      rfl
    rw [this]
    rfl

/-- **C57**: hypotheses met by a concrete case — degree 2, the axes exchanged cyclically; the axial dipole of the rotated system becomes the
`h_1^1` dipole (the third base vector is the geographic `y` axis). -/
example : ∃ leggauss : ℕ → List (ℝ × ℝ), ∃ M, rotateGauss leggauss 2 2 ⟨![0, 0, 1], ![1, 0, 0], ![0, 1, 0]⟩ = .ok M ∧
    matVec M (fun i => if i = 0 then 1 else 0) 0 = 0 ∧ matVec M (fun i => if i = 0 then 1 else 0) 1 = 0 ∧ matVec M (fun i => if i = 0 then 1 else 0) 2 = 1 := by
  obtain ⟨f, hf⟩ := C45_gauss_rule
  have hb : RightHanded (![0, 0, 1] : Fin 3 → ℝ) ![1, 0, 0] ![0, 1, 0] := by
    refine ⟨?_, ?_, ?_, ?_, ?_, ?_, ?_⟩ <;> simp [dot, vecProd]
  obtain ⟨M, hM, -, -⟩ := C57_shape (b := ⟨![0, 0, 1], ![1, 0, 0], ![0, 1, 0]⟩) (nmax := 2) (kmax := 2) (by omega) (by omega) (hf _).1 hb
  refine ⟨f, M, hM, ?_⟩
  have hu := fun i h1 h2 => C57_unique (nmax := 2) (kmax := 2) (by omega) (by omega) (hf _).1 hb hM
    (fun i => if i = 0 then 1 else 0) (fun i => if i = 2 then 1 else 0) 1 le_rfl (by omega) (by omega) (fun theta phi tr pr hp => ?_) i h1 h2
  · exact ⟨(hu 0 (by norm_num) (by norm_num)).symm.trans (by norm_num), (hu 1 (by norm_num) (by norm_num)).symm.trans (by norm_num),
      (hu 2 (by norm_num) (by norm_num)).symm.trans (by norm_num)⟩
  · have e1 := congrFun hp 1
    simp [combine, direction] at e1
    unfold degreePart surfaceTerm coefG coefH coefStart
    simp only [sum_range_succ, sum_range_zero]
    simp [Synth.schmidt_1_0, Synth.schmidt_1_1]
    unfold rad
    rw [← mul_div_assoc, ← mul_div_assoc, ← mul_div_assoc, mul_comm, ← e1]

end ChaosMagPy.Analysis
