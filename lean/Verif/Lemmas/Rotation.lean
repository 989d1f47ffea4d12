import Verif.Props.Analysis
import Verif.Props.Coord
import Verif.Lemmas.SolidEval
/-! Columns of the matrices of `rotate_gauss`. -/
namespace ChaosMagPy.Analysis
open ChaosMagPy.Spec
open ChaosMagPy.Legendre (pyRange mem_pyRange legendrePoly Table)
open ChaosMagPy.Coord (SamePoint Base geoToBase)
open ChaosMagPy.Solid (Orth pt trig rotated)
open Finset

theorem foldlM_congr_mem {α σ ε : Type} (f g : σ → α → Except ε σ) (l : List α) (s : σ) (h : ∀ a ∈ l, ∀ s, f s a = g s a) :
    l.foldlM f s = l.foldlM g s := by
  induction l generalizing s with
  | nil => rfl
  | cons a l ih =>
    rw [List.foldlM_cons, List.foldlM_cons, h a List.mem_cons_self]
    refine congrArg _ ?_
    funext s
    exact ih s fun a ha => h a (List.mem_cons_of_mem _ ha)

/-! ### Normalisation -/

theorem tri_succ (n : ℕ) : ((n + 1) ^ 2 + (n + 1)) / 2 = (n ^ 2 + n) / 2 + (n + 1) := by
  have : (n + 1) ^ 2 + (n + 1) = n ^ 2 + n + (n + 1) * 2 := by ring
  rw [this, Nat.add_mul_div_right _ _ (by omega)]

theorem tri_mono {n N : ℕ} (h : n < N) : (n ^ 2 + n) / 2 + n + 1 ≤ (N ^ 2 + N) / 2 := by
  have h1 := tri_succ n
  have h2 : ((n + 1) ^ 2 + (n + 1)) / 2 ≤ (N ^ 2 + N) / 2 := Nat.div_le_div_right (by nlinarith)
  omega

theorem tri_up (n : ℕ) : (n ^ 2 + 3 * n) / 2 = (n ^ 2 + n) / 2 + n := by
  have : n ^ 2 + 3 * n = n ^ 2 + n + n * 2 := by ring
  rw [this, Nat.add_mul_div_right _ _ (by omega)]

theorem tri_pos {n : ℕ} (h : 1 ≤ n) : 1 ≤ (n ^ 2 + n) / 2 := by
  have := tri_mono (show 0 < n by omega)
  simpa using this

theorem normArray_eq (N : ℕ) {n m : ℕ} (h1 : 1 ≤ n) (h2 : n ≤ N) (hm : m ≤ n) :
    normArray N ((n ^ 2 + n) / 2 - 1 + m) = if m = 0 then 2 / (2 * (n : ℝ) + 1) else 4 / (2 * (n : ℝ) + 1) := by
  induction N with
  | zero => omega
  | succ N ih =>
    unfold normArray at ih ⊢
    rw [pyRange_succ 1 (N + 1) (by omega), List.foldl_append]
    simp only [List.foldl_cons, List.foldl_nil]
    have p1 := tri_pos h1
    by_cases hn : n = N + 1
    · subst hn
      rw [tri_up]
      by_cases h0 : m = 0
      · rw [if_pos (by omega), if_pos h0]
      · rw [if_neg (by omega), if_pos (by omega), if_neg h0]
    · have h3 := tri_mono (show n < N + 1 by omega)
      rw [if_neg (by omega), if_neg (by omega), ih (by omega)]

/-! ### Columns -/

theorem columnDegree_eq (rings : List Ring) (norm : ℕ → ℝ) (st : ℕ × List ℝ) (n : ℕ) :
    columnDegree rings norm st n = (degVals
      (fun n m => if m = 0 then (gaussSum rings n 0 / norm ((n ^ 2 + n) / 2 - 1)).re else (2 * gaussSum rings n m / norm ((n ^ 2 + n) / 2 - 1 + m)).re)
      (fun n m => -(2 * gaussSum rings n m / norm ((n ^ 2 + n) / 2 - 1 + m)).im) n).foldlM put st := by
  unfold columnDegree degVals
  rw [List.foldlM_cons]
  beta_reduce
  rw [if_pos rfl]
  refine congrArg _ ?_
  funext st
  beta_reduce
  rw [foldlM_flatMap]
  refine foldlM_congr_mem _ _ _ _ ?_
  intro m hm st
  rw [mem_pyRange] at hm
  rw [if_neg (by omega)]
  simp only [List.foldlM_cons, List.foldlM_nil]
  cases put st (2 * gaussSum rings n m / norm ((n ^ 2 + n) / 2 - 1 + m)).re with
  | error e => rfl
  | ok st' =>
    change put st' _ = put st' _ >>= pure
    cases put st' (-(2 * gaussSum rings n m / norm ((n ^ 2 + n) / 2 - 1 + m)).im) <;> rfl

theorem column_series {n0 : ℕ} {rule : List (ℝ × ℝ)} (hr : GaussRule n0 rule) (nmax N K : ℕ) (h1 : K + nmax < N) (h2 : K + nmax < 2 * n0)
    (T : ℝ × ℝ → Table) (hT : ∀ q ∈ rule, ∀ n m, m ≤ n → n ≤ nmax → T q (n, m) = schmidt n m (Real.arccos q.1))
    (values : ℕ → ℕ → ℝ) (a b : ℕ → ℕ → ℝ)
    (hv : ∀ i (hi : i < rule.length) j, j < N → values i j = series a b K (Real.arccos (rule[i]).1) (ang N j)) :
    column nmax N rule (rule.map T) values = .ok (allVals (fun n m => if n ≤ K then a n m else 0) (fun n m => if n ≤ K then b n m else 0) nmax) := by
  unfold column
  simp only
  set rings := (rule.zip (rule.map T)).zipIdx.map fun q => (⟨q.1.1.2, dft N (values q.2), q.1.2⟩ : Ring) with hrings
  have hF : List.Forall₂ (fun q (s : Ring) => s.weight = q.2 ∧ (∀ m ≤ nmax, s.fft m = dft N (fun j => series a b K (Real.arccos q.1) (ang N j)) m) ∧
      ∀ n m, m ≤ n → n ≤ nmax → s.P (n, m) = schmidt n m (Real.arccos q.1)) rule rings := by
    rw [List.forall₂_iff_get]
    have hl : rule.length = rings.length := by rw [hrings]; simp
    refine ⟨hl, fun i hi hi' => ?_⟩
    have e : rings.get ⟨i, hi'⟩ = (⟨(rule[i]).2, dft N (values i), T (rule[i])⟩ : Ring) := by
      rw [List.get_eq_getElem]
      simp only [hrings, List.getElem_map, List.getElem_zipIdx, List.getElem_zip, Nat.zero_add]
    rw [e, List.get_eq_getElem]
    refine ⟨rfl, fun m _ => ?_, fun n m hm hn => hT _ (List.getElem_mem _) n m hm hn⟩
    simp only
    unfold dft
    congr 1
    refine sum_congr rfl fun j hj => ?_
    rw [hv i hi j (mem_range.1 hj)]
  have hfold : (pyRange 1 (nmax + 1)).foldlM (columnDegree rings (normArray nmax)) (0, List.replicate (nmax * (nmax + 2)) 0) =
      .ok (nmax * (nmax + 2), allVals
      (fun n m => if m = 0 then (gaussSum rings n 0 / normArray nmax ((n ^ 2 + n) / 2 - 1)).re else (2 * gaussSum rings n m / normArray nmax ((n ^ 2 + n) / 2 - 1 + m)).re)
      (fun n m => -(2 * gaussSum rings n m / normArray nmax ((n ^ 2 + n) / 2 - 1 + m)).im) nmax) := by
    rw [← foldlM_put_all _ (0 : ℝ) _ (allVals_length _ _ _)]
    unfold allVals
    rw [foldlM_flatMap]
    congr 1
    funext st n
    exact columnDegree_eq rings _ st n
  rw [hfold]
  simp only [bind, Except.bind, pure, Except.pure]
  congr 1
  refine allVals_congr fun n m hn1 hn2 hm => ?_
  have hsum := fun m (hm : m ≤ n) => gaussSum_series hr a b K N nmax rings hF h1 h2 hm hn2
  have hnc : (2 * (n : ℂ) + 1) ≠ 0 := by exact_mod_cast (by omega : 2 * n + 1 ≠ 0)
  have hpos : ∀ m, 1 ≤ m → m ≤ n → 2 * gaussSum rings n m / ((normArray nmax ((n ^ 2 + n) / 2 - 1 + m) : ℝ) : ℂ) =
      if n ≤ K then (a n m : ℂ) - Complex.I * (b n m : ℂ) else 0 := by
    intro m hm1 hm2
    have h0 : m ≠ 0 := by omega
    rw [hsum m hm2, normArray_eq nmax hn1 hn2 hm2, if_neg h0, if_neg h0]
    split_ifs with hk
    · unfold gam
      rw [if_neg (by omega)]
      push_cast
      field_simp
    · simp
  constructor
  · by_cases h0 : m = 0
    · subst h0
      rw [if_pos rfl]
      have h3 := normArray_eq nmax hn1 hn2 (Nat.zero_le n)
      rw [Nat.add_zero, if_pos rfl] at h3
      rw [hsum 0 (Nat.zero_le _), h3, if_pos rfl]
      split_ifs with hk
      · unfold gam
        rw [if_pos rfl]
        push_cast
        have : (a n 0 : ℂ) * (2 / (2 * n + 1)) / (2 / (2 * n + 1)) = (a n 0 : ℂ) := by field_simp
        rw [this]
        simp
      · simp
    · rw [if_neg h0, hpos m (by omega) hm]
      split_ifs <;> simp
  · intro hm1
    rw [hpos m hm1 hm]
    split_ifs <;> simp

/-- An expansion with a single degree. -/
theorem series_single (k : ℕ) (a b : ℕ → ℝ) (x y : ℝ) :
    series (fun n m => if n = k then a m else 0) (fun n m => if n = k then b m else 0) k x y =
      ∑ m ∈ range (k + 1), (a m * Real.cos (m * y) + b m * Real.sin (m * y)) * schmidt k m x := by
  unfold series
  rw [sum_eq_single k]
  · simp
  · intro n _ hn
    simp [hn]
  · intro h
    exact absurd (mem_range.2 (by omega)) h

theorem columnsDegree_eq (col : (ℕ → ℕ → ℝ) → Except Error (List ℝ)) (re im : ℕ → ℕ → ℕ → ℕ → ℝ) (R I : ℕ → ℕ → List ℝ) (k : ℕ)
    (hR : ∀ l ≤ k, col (re k l) = .ok (R k l)) (hI : ∀ l ≤ k, col (im k l) = .ok (I k l)) (st : ℕ × List (List ℝ)) :
    columnsDegree col re im st k = (degVals R I k).foldlM put st := by
  unfold columnsDegree degVals
  rw [List.foldlM_cons, hR 0 (Nat.zero_le _)]
  change put st (R k 0) >>= _ = _
  refine congrArg _ ?_
  funext st
  beta_reduce
  rw [foldlM_flatMap]
  refine foldlM_congr_mem _ _ _ _ ?_
  intro l hl st
  rw [mem_pyRange] at hl
  rw [hR l (by omega), hI l (by omega)]
  simp only [List.foldlM_cons, List.foldlM_nil, bind, Except.bind]
  cases put st (R k l) with
  | error e => rfl
  | ok st' =>
    change put st' _ = Except.bind (put st' _) pure
    cases put st' (I k l) <;> rfl

/-- The base vectors as the rows of a matrix. -/
def baseMat (b : Base) : Fin 3 → Fin 3 → ℝ := ![b.e1, b.e2, b.e3]

theorem baseMat_orth {b : Base} (hb : RightHanded b.e1 b.e2 b.e3) : Orth (baseMat b) := by
  obtain ⟨h11, h22, h33, h12, h13, h23, -⟩ := hb
  unfold dot at h11 h22 h33 h12 h13 h23
  intro i j
  fin_cases i <;> fin_cases j <;> simp [baseMat] <;> linarith

theorem pt_direction (theta phi : ℝ) : pt (rad theta) (rad phi) = direction theta phi := by
  unfold pt direction rad
  simp only [mul_div_assoc]

/-- Coordinates in the base. -/
theorem samePoint_pt {b : Base} (hb : RightHanded b.e1 b.e2 b.e3) {theta phi thetaRef phiRef : ℝ} (h : SamePoint b theta phi thetaRef phiRef) :
    pt (rad thetaRef) (rad phiRef) =
      fun i => baseMat b i 0 * pt (rad theta) (rad phi) 0 + baseMat b i 1 * pt (rad theta) (rad phi) 1 + baseMat b i 2 * pt (rad theta) (rad phi) 2 := by
  rw [pt_direction, pt_direction, ← h]
  obtain ⟨h11, h22, h33, h12, h13, h23, -⟩ := hb
  unfold dot at h11 h22 h33 h12 h13 h23
  generalize direction thetaRef phiRef = v
  funext i
  fin_cases i
  · simp [baseMat, combine]
    linear_combination (-v 0) * h11 - v 1 * h12 - v 2 * h13
  · simp [baseMat, combine]
    linear_combination (-v 0) * h12 - v 1 * h22 - v 2 * h23
  · simp [baseMat, combine]
    linear_combination (-v 0) * h13 - v 1 * h23 - v 2 * h33

theorem rotateGauss_form (leggauss : ℕ → List (ℝ × ℝ)) (nmax kmax : ℕ) (hn : 1 ≤ nmax) (hk : 1 ≤ kmax)
    (hrule : GaussRule ((nmax + kmax + 1) / 2 + 1) (leggauss ((nmax + kmax + 1) / 2 + 1))) (b : Base) (hb : RightHanded b.e1 b.e2 b.e3) :
    ∃ A B : Bool → ℕ → ℕ → ℕ → ℝ,
      (∀ s k l, l ≤ k → ∀ theta phi thetaRef phiRef, SamePoint b theta phi thetaRef phiRef →
        schmidt k l (rad thetaRef) * trig s (l * rad phiRef) =
          ∑ m ∈ range (k + 1), (A s k l m * Real.cos (m * rad phi) + B s k l m * Real.sin (m * rad phi)) * schmidt k m (rad theta)) ∧
      rotateGauss leggauss nmax kmax b = .ok (allVals
        (fun k l => allVals (fun n m => if n = k then A false k l m else 0) (fun n m => if n = k then B false k l m else 0) nmax)
        (fun k l => allVals (fun n m => if n = k then A true k l m else 0) (fun n m => if n = k then B true k l m else 0) nmax) kmax) := by
  have hrot : ∀ (s : Bool) (k l : ℕ), ∃ a b' : ℕ → ℝ, l ≤ k → ∀ theta phi thetaRef phiRef, SamePoint b theta phi thetaRef phiRef →
        schmidt k l (rad thetaRef) * trig s (l * rad phiRef) =
          ∑ m ∈ range (k + 1), (a m * Real.cos (m * rad phi) + b' m * Real.sin (m * rad phi)) * schmidt k m (rad theta) := by
    intro s k l
    by_cases hl : l ≤ k
    · obtain ⟨a, b', h⟩ := rotated (baseMat_orth hb) s hl
      exact ⟨a, b', fun _ theta phi thetaRef phiRef hp => h _ _ _ _ (samePoint_pt hb hp)⟩
    · exact ⟨0, 0, fun h => absurd h hl⟩
  choose A B hAB using hrot
  refine ⟨A, B, fun s k l hl => hAB s k l hl, ?_⟩
  unfold rotateGauss
  simp only
  set ntheta := (nmax + kmax + 1) / 2 + 1 with hnt
  set rule := leggauss ntheta with hrl
  set N := 2 * ntheta with hN
  have hT : ∀ q : ℝ × ℝ, ∃ T, legendrePoly nmax (colat q.1) = .ok T ∧ ∀ n m, m ≤ n → n ≤ nmax → T (n, m) = schmidt n m (Real.arccos q.1) := by
    intro q
    obtain ⟨T, h1, h2⟩ := Legendre.C14_legendre_table nmax (colat q.1) hn (colat_range q.1).1 (colat_range q.1).2
    refine ⟨T, h1, fun n m h3 h4 => ?_⟩
    rw [(h2 n m h3 h4).1, rad_colat]
  choose T hT1 hT2 using hT
  have hTr : ∀ (q : ℝ × ℝ) (j : ℕ), ∃ T, legendrePoly kmax (geoToBase (colat q.1) (azimuth N j) b false).1 = .ok T ∧
      ∀ n m, m ≤ n → n ≤ kmax → T (n, m) = schmidt n m (rad (geoToBase (colat q.1) (azimuth N j) b false).1) := by
    intro q j
    obtain ⟨r1, r2, -, -⟩ := Coord.geoToBase_range b (colat q.1) (azimuth N j) false
    obtain ⟨T, h1, h2⟩ := Legendre.C14_legendre_table kmax _ hk r1 r2
    exact ⟨T, h1, fun n m h3 h4 => (h2 n m h3 h4).1⟩
  choose Tr hTr1 hTr2 using hTr
  have hPs : (rule.mapM fun q => lift (legendrePoly nmax (colat q.1))) = .ok (rule.map T) :=
    Synth.mapM_map _ _ _ fun q _ => lift_ok (hT1 q)
  have hPref : refTables kmax N rule b = .ok (rule.map fun q => (List.range N).map (Tr q)) := by
    unfold refTables
    refine Synth.mapM_map _ _ _ fun q _ => ?_
    exact Synth.mapM_map _ _ _ fun j _ => lift_ok (hTr1 q j)
  rw [hPs, hPref]
  simp only [bind, Except.bind]
  set Tf : ℕ → ℕ → Table := fun i j => ((rule.map fun q => (List.range N).map (Tr q)).getD i []).getD j fun _ => 0 with hTf
  set phiRef : ℕ → ℕ → ℝ := fun i j => (geoToBase (colat (rule.getD i (0, 0)).1) (azimuth N j) b false).2 with hphi
  have hTfe : ∀ i (hi : i < rule.length) j, j < N → Tf i j = Tr (rule[i]) j := by
    intro i hi j hj
    rw [hTf]
    simp [List.getD, hi, hj]
  have hphe : ∀ i (hi : i < rule.length) j, phiRef i j = (geoToBase (colat (rule[i]).1) (azimuth N j) b false).2 := by
    intro i hi j
    rw [hphi]
    simp [List.getD, hi]
  have hval : ∀ (s : Bool) (k l : ℕ), l ≤ k → k ≤ kmax → ∀ i (hi : i < rule.length) j, j < N →
      Tf i j (k, l) * trig s (l * rad (phiRef i j)) =
      series (fun n m => if n = k then A s k l m else 0) (fun n m => if n = k then B s k l m else 0) k (Real.arccos (rule[i]).1) (ang N j) := by
    intro s k l hl hkk i hi j hj
    rw [hTfe i hi j hj, hphe i hi j, hTr2 _ _ k l hl hkk,
      hAB s k l hl _ _ _ _ (Coord.geoToBase_forward b hb (colat (rule[i]).1) (azimuth N j)), series_single, rad_colat, rad_azimuth]
  have hrad : ∀ x : ℝ, Coord.radians x = rad x := fun x => rfl
  have hradmul : ∀ (l : ℕ) (x : ℝ), Coord.radians (l * x) = l * rad x := by
    intro l x
    rw [hrad]
    unfold rad
    ring
  have hcol : ∀ (s : Bool) (f : ℕ → ℕ → ℝ) (k l : ℕ), l ≤ k → k ≤ kmax → (∀ i j, f i j = Tf i j (k, l) * trig s (l * rad (phiRef i j))) →
      column nmax N rule (rule.map T) f =
        .ok (allVals (fun n m => if n = k then A s k l m else 0) (fun n m => if n = k then B s k l m else 0) nmax) := by
    intro s f k l hl hkk hf
    have h3 := column_series hrule nmax N k (by omega) (by omega) T (fun q _ => hT2 q) f
      (fun n m => if n = k then A s k l m else 0) (fun n m => if n = k then B s k l m else 0) (fun i hi j hj => by rw [hf, hval s k l hl hkk i hi j hj])
    rw [h3]
    congr 1
    refine allVals_congr fun n m _ _ _ => ⟨?_, fun _ => ?_⟩
    · split_ifs <;> first | rfl | omega
    · split_ifs <;> first | rfl | omega
  have hfold : (pyRange 1 (kmax + 1)).foldlM (columnsDegree (column nmax N rule (rule.map T)) (harmonicRe Tf phiRef) (harmonicIm Tf phiRef))
      (0, List.replicate (kmax * (kmax + 2)) []) = .ok (kmax * (kmax + 2), allVals
        (fun k l => allVals (fun n m => if n = k then A false k l m else 0) (fun n m => if n = k then B false k l m else 0) nmax)
        (fun k l => allVals (fun n m => if n = k then A true k l m else 0) (fun n m => if n = k then B true k l m else 0) nmax) kmax) := by
    rw [← foldlM_put_all _ ([] : List ℝ) _ (allVals_length _ _ _)]
    conv_rhs => unfold allVals
    rw [foldlM_flatMap]
    refine foldlM_congr_mem _ _ _ _ fun k hkm st => ?_
    rw [mem_pyRange] at hkm
    refine columnsDegree_eq _ _ _ _ _ k (fun l hl => ?_) (fun l hl => ?_) st
    · refine hcol false _ k l hl (by omega) fun i j => ?_
      unfold harmonicRe trig
      rw [hradmul]
      simp
    · refine hcol true _ k l hl (by omega) fun i j => ?_
      unfold harmonicIm trig
      rw [hradmul]
      simp
  rw [hfold]
  rfl

/-! ### Elements of the arrays -/

/-- Position of the first coefficient of a pair. -/
def posG (n m : ℕ) : ℕ := if m = 0 then n ^ 2 - 1 else n ^ 2 - 1 + 2 * m - 1

/-- Position of the second coefficient. -/
def posH (n m : ℕ) : ℕ := n ^ 2 - 1 + 2 * m

theorem coefG_pos (c : ℕ → ℝ) {n : ℕ} (hn : 1 ≤ n) (m : ℕ) : coefG c 1 n n m = c (posG n m) := by
  unfold coefG posG
  rw [coefStart_full n hn n le_rfl]
  have h2 : 1 ≤ n ^ 2 := Nat.one_le_pow _ _ hn
  split_ifs
  · rw [Nat.add_zero]
  · congr 1; omega

theorem coefH_pos (c : ℕ → ℝ) {n : ℕ} (hn : 1 ≤ n) (m : ℕ) : coefH c 1 n n m = if m = 0 then 0 else c (posH n m) := by
  unfold coefH posH
  rw [coefStart_full n hn n le_rfl]

theorem mem_allVals_G {α : Type} (A B : ℕ → ℕ → α) {N n m : ℕ} (h1 : 1 ≤ n) (h2 : n ≤ N) (hm : m ≤ n) : A n m ∈ allVals A B N := by
  unfold allVals
  rw [List.mem_flatMap]
  refine ⟨n, mem_pyRange.2 ⟨h1, by omega⟩, ?_⟩
  unfold degVals
  by_cases h0 : m = 0
  · subst h0; exact List.mem_cons_self
  · refine List.mem_cons_of_mem _ ?_
    rw [List.mem_flatMap]
    exact ⟨m, mem_pyRange.2 ⟨by omega, by omega⟩, List.mem_cons_self⟩

theorem mem_allVals_H {α : Type} (A B : ℕ → ℕ → α) {N n m : ℕ} (h1 : 1 ≤ n) (h2 : n ≤ N) (h0 : 1 ≤ m) (hm : m ≤ n) : B n m ∈ allVals A B N := by
  unfold allVals
  rw [List.mem_flatMap]
  refine ⟨n, mem_pyRange.2 ⟨h1, by omega⟩, ?_⟩
  unfold degVals
  refine List.mem_cons_of_mem _ ?_
  rw [List.mem_flatMap]
  exact ⟨m, mem_pyRange.2 ⟨h0, by omega⟩, List.mem_cons_of_mem _ List.mem_cons_self⟩

/-- Element of a list of pairs whose second parts are the positions. -/
theorem getD_of_pair {α : Type} (P : List (α × ℕ)) {L : ℕ} (h : P.map Prod.snd = List.range L) (x d : α) (i : ℕ) (hm : (x, i) ∈ P) :
    (P.map Prod.fst).getD i d = x := by
  obtain ⟨j, hj, he⟩ := List.getElem_of_mem hm
  have h1 : (P.map Prod.snd)[j]'(by simpa using hj) = j := by
    simp only [h, List.getElem_range]
  rw [List.getElem_map, he] at h1
  simp only at h1
  subst h1
  simp [List.getD, hj, he]

theorem allVals_getG {α : Type} (A B : ℕ → ℕ → α) {N n m : ℕ} (h1 : 1 ≤ n) (h2 : n ≤ N) (hm : m ≤ n) (d : α) : (allVals A B N).getD (posG n m) d = A n m := by
  have e1 := allVals_map Prod.fst (fun n m => (A n m, posG n m)) (fun n m => (B n m, posH n m)) N
  have e2 := allVals_map Prod.snd (fun n m => (A n m, posG n m)) (fun n m => (B n m, posH n m)) N
  have := getD_of_pair _ (e2.trans (all_positions N)) (A n m) d (posG n m) (mem_allVals_G _ _ h1 h2 hm)
  rwa [e1] at this

theorem allVals_getH {α : Type} (A B : ℕ → ℕ → α) {N n m : ℕ} (h1 : 1 ≤ n) (h2 : n ≤ N) (h0 : 1 ≤ m) (hm : m ≤ n) (d : α) :
    (allVals A B N).getD (posH n m) d = B n m := by
  have e1 := allVals_map Prod.fst (fun n m => (A n m, posG n m)) (fun n m => (B n m, posH n m)) N
  have e2 := allVals_map Prod.snd (fun n m => (A n m, posG n m)) (fun n m => (B n m, posH n m)) N
  have := getD_of_pair _ (e2.trans (all_positions N)) (B n m) d (posH n m) (mem_allVals_H _ _ h1 h2 h0 hm)
  rwa [e1] at this

/-- A position belongs to some degree and order. -/
theorem pos_cases {n i : ℕ} (hn : 1 ≤ n) (h1 : n ^ 2 - 1 ≤ i) (h2 : i < (n + 1) ^ 2 - 1) :
    (∃ m ≤ n, i = posG n m) ∨ ∃ m, 1 ≤ m ∧ m ≤ n ∧ i = posH n m := by
  have h3 : 1 ≤ n ^ 2 := Nat.one_le_pow _ _ hn
  have e : (n + 1) ^ 2 = n ^ 2 + 2 * n + 1 := by ring
  obtain ⟨d, rfl⟩ := Nat.exists_eq_add_of_le h1
  rcases Nat.even_or_odd' d with ⟨m, hm | hm⟩
  · by_cases h0 : m = 0
    · left; exact ⟨0, by omega, by unfold posG; rw [if_pos rfl]; omega⟩
    · right; exact ⟨m, by omega, by omega, by unfold posH; omega⟩
  · left; exact ⟨m + 1, by omega, by unfold posG; rw [if_neg (by omega)]; omega⟩

theorem deg_exists (i : ℕ) : ∃ n, 1 ≤ n ∧ n ^ 2 - 1 ≤ i ∧ i < (n + 1) ^ 2 - 1 := by
  refine ⟨Nat.sqrt (i + 1), Nat.sqrt_pos.2 (by omega), ?_, ?_⟩
  · have := Nat.sqrt_le' (i + 1)
    omega
  · have := Nat.lt_succ_sqrt' (i + 1)
    have e : (Nat.sqrt (i + 1)).succ = Nat.sqrt (i + 1) + 1 := rfl
    rw [e] at this
    omega

theorem allVals_sum (A B : ℕ → ℕ → ℝ) (N : ℕ) (hB : ∀ n, B n 0 = 0) :
    (allVals A B N).sum = ∑ n ∈ Finset.Icc 1 N, ∑ m ∈ range (n + 1), (A n m + B n m) := by
  have hd : ∀ n, (degVals A B n).sum = ∑ m ∈ range (n + 1), (A n m + B n m) := by
    intro n
    unfold degVals
    rw [List.sum_cons]
    have : ∀ k, A n 0 + ((pyRange 1 (k + 1)).flatMap fun m => [A n m, B n m]).sum = ∑ m ∈ range (k + 1), (A n m + B n m) := by
      intro k
      induction k with
      | zero => simp [pyRange, hB]
      | succ k ih =>
        rw [pyRange_succ 1 (k + 1) (by omega), List.flatMap_append, List.sum_append, sum_range_succ, ← ih]
        simp
        ring
    exact this n
  induction N with
  | zero => simp [allVals, pyRange]
  | succ N ih =>
    unfold allVals at ih ⊢
    rw [pyRange_succ 1 (N + 1) (by omega), List.flatMap_append, List.sum_append, ih, sum_Icc_succ_top (by omega)]
    congr 1
    simp [hd]

/-- Sum over the coefficients, degree by degree. -/
theorem sum_coef (c e : ℕ → ℝ) (N : ℕ) : ∑ j ∈ range (N * (N + 2)), e j * c j =
    ∑ n ∈ Finset.Icc 1 N, ∑ m ∈ range (n + 1), (e (posG n m) * coefG c 1 n n m + e (posH n m) * coefH c 1 n n m) := by
  have h1 : ∑ j ∈ range (N * (N + 2)), e j * c j = ((List.range (N * (N + 2))).map fun j => e j * c j).sum := by
    rw [Finset.sum_range, ← List.sum_ofFn]
    congr 1
    apply List.ext_getElem
    · simp
    · intro i h1 h2; simp
  rw [h1, ← allVals_coef, allVals_sum _ _ _ (fun n => by unfold coefH; simp)]
  refine sum_congr rfl fun n hn => sum_congr rfl fun m _ => ?_
  rw [Finset.mem_Icc] at hn
  rw [coefG_pos _ hn.1, coefG_pos _ hn.1, coefH_pos _ hn.1, coefH_pos _ hn.1]
  split_ifs <;> ring

end ChaosMagPy.Analysis
