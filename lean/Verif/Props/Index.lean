import Verif.Model.Index
import Verif.Spec.Gauss
import Verif.Props.SynthMore
/-!
# C12: the order of the Gauss coefficients
-/
namespace ChaosMagPy.Index
open ChaosMagPy.Legendre (pyRange)
open ChaosMagPy.Synth
open ChaosMagPy.Spec

theorem pyRange_snoc (a b : ℕ) (h : a ≤ b) : pyRange a (b + 1) = pyRange a b ++ [b] := by
  unfold pyRange
  have : b + 1 - a = (b - a) + 1 := by omega
  rw [this, List.range'_concat]
  simp
  omega

/-- Orders of one degree: `0, 1, -1, ..., n, -n`. -/
def ords (n : ℕ) : List ℤ := 0 :: (List.range n).flatMap fun k => [((k + 1 : ℕ) : ℤ), -((k + 1 : ℕ) : ℤ)]

theorem appendOrders_eq (ord : List ℤ) (n : ℕ) :
    appendOrders ord n = ord ++ (List.range n).flatMap fun k => [((k + 1 : ℕ) : ℤ), -((k + 1 : ℕ) : ℤ)] := by
  induction n with
  | zero => simp [appendOrders, pyRange_empty]
  | succ n ih =>
    unfold appendOrders at ih ⊢
    rw [pyRange_snoc _ _ (by omega), List.foldl_append, ih, List.range_succ, List.flatMap_append]
    simp

theorem ords_length (n : ℕ) : (ords n).length = 2 * n + 1 := by
  induction n with
  | zero => rfl
  | succ n ih =>
    simp only [ords, List.length_cons, List.range_succ, List.flatMap_append, List.length_append] at ih ⊢
    simp only [List.flatMap_cons, List.flatMap_nil, List.length_append, List.length_cons, List.length_nil]
    omega

theorem flat_get (n k : ℕ) (h : k < n) :
    ((List.range n).flatMap fun k => [((k + 1 : ℕ) : ℤ), -((k + 1 : ℕ) : ℤ)])[2 * k]? = some ((k + 1 : ℕ) : ℤ) ∧
    ((List.range n).flatMap fun k => [((k + 1 : ℕ) : ℤ), -((k + 1 : ℕ) : ℤ)])[2 * k + 1]? = some (-((k + 1 : ℕ) : ℤ)) := by
  induction n with
  | zero => omega
  | succ n ih =>
    have hl := ords_length n
    simp only [ords, List.length_cons] at hl
    have hl' : ((List.range n).flatMap fun k => [((k + 1 : ℕ) : ℤ), -((k + 1 : ℕ) : ℤ)]).length = 2 * n := by omega
    rw [List.range_succ, List.flatMap_append]
    rcases Nat.lt_or_ge k n with h1 | h1
    · rw [List.getElem?_append_left (by rw [hl']; omega), List.getElem?_append_left (by rw [hl']; omega)]
      exact ih h1
    · obtain rfl : k = n := by omega
      rw [List.getElem?_append_right (by rw [hl']), List.getElem?_append_right (by rw [hl']; omega), hl']
      simp

theorem degOrd_eq (nmin k : ℕ) :
    ((degOrd nmin (nmin + k)).1 = (pyRange nmin (nmin + k + 1)).flatMap (fun n => List.replicate (2 * n + 1) n)) ∧
    ((degOrd nmin (nmin + k)).2 = (pyRange nmin (nmin + k + 1)).flatMap ords) := by
  have gen : ∀ (l : List ℕ) (a : List ℕ) (b : List ℤ),
      l.foldl (fun (s : List ℕ × List ℤ) (n : ℕ) =>
        (s.1 ++ List.replicate (2 * n + 1) n, appendOrders (s.2 ++ [0]) n)) (a, b) =
      (a ++ l.flatMap (fun n => List.replicate (2 * n + 1) n), b ++ l.flatMap ords) := by
    intro l
    induction l with
    | nil => simp
    | cons n l ih =>
      intro a b
      rw [List.foldl_cons, ih, appendOrders_eq]
      simp [ords]
  unfold degOrd
  rw [gen]
  simp

/-- Labels of one degree. -/
def block (n : ℕ) : List (ℕ × ℤ) := (ords n).map fun m => (n, m)

theorem zip_replicate (n : ℕ) (l : List ℤ) : (List.replicate l.length n).zip l = l.map fun m => (n, m) := by
  induction l with
  | nil => rfl
  | cons a l ih => simp [List.replicate_succ, ih]

theorem labels_eq (nmin nmax : ℕ) (h : nmin ≤ nmax + 1) :
    labels nmin nmax = (pyRange nmin (nmax + 1)).flatMap block := by
  rcases Nat.lt_or_ge nmax nmin with h' | h'
  · obtain rfl : nmin = nmax + 1 := by omega
    simp [labels, degOrd, pyRange_empty]
  obtain ⟨k, rfl⟩ : ∃ k, nmax = nmin + k := ⟨nmax - nmin, by omega⟩
  unfold labels
  rw [(degOrd_eq nmin k).1, (degOrd_eq nmin k).2]
  induction (pyRange nmin (nmin + k + 1)) with
  | nil => rfl
  | cons n l ih =>
    rw [List.flatMap_cons, List.flatMap_cons, List.flatMap_cons, List.zip_append (by simp [ords_length]), ih]
    congr 1
    have := zip_replicate n (ords n)
    rw [ords_length] at this
    exact this

theorem block_length (n : ℕ) : (block n).length = 2 * n + 1 := by simp [block, ords_length]

theorem labels_length' (nmin nmax : ℕ) (h : nmin ≤ nmax + 1) :
    (labels nmin nmax).length + nmin ^ 2 = (nmax + 1) ^ 2 := by
  rw [labels_eq nmin nmax h]
  obtain ⟨k, hk⟩ : ∃ k, nmax + 1 = nmin + k := ⟨nmax + 1 - nmin, by omega⟩
  rw [hk]
  clear h hk
  induction k with
  | zero => simp [pyRange_empty]
  | succ k ih =>
    rw [← Nat.add_assoc, pyRange_snoc _ _ (by omega), List.flatMap_append, List.length_append]
    simp only [List.flatMap_cons, List.flatMap_nil, List.length_append, block_length, List.length_nil]
    nlinarith

/-- Position within the block of a degree. -/
theorem block_get (n : ℕ) (m : ℤ) (hn : 1 ≤ n) (hm : m.natAbs ≤ n) :
    (block n)[gaussPos n m - (n ^ 2 - 1)]? = some (n, m) ∧ n ^ 2 - 1 ≤ gaussPos n m ∧
      gaussPos n m < (n + 1) ^ 2 - 1 := by
  have hsq : 1 ≤ n ^ 2 := Nat.one_le_pow _ _ hn
  have h2 : (n + 1) ^ 2 = n ^ 2 + 2 * n + 1 := by ring
  unfold gaussPos
  rcases lt_trichotomy m 0 with h | h | h
  · rw [if_neg (by omega), if_neg (by omega)]
    have e : n ^ 2 + 2 * m.natAbs - 1 - (n ^ 2 - 1) = (2 * (m.natAbs - 1) + 1) + 1 := by omega
    rw [e]
    refine ⟨?_, by omega, by omega⟩
    have := (flat_get n (m.natAbs - 1) (by omega)).2
    unfold block ords
    rw [List.getElem?_map, List.getElem?_cons_succ, this]
    simp only [Option.map_some]
    congr 2
    omega
  · subst h
    simp [block, ords]
    rw [h2]
    omega
  · rw [if_neg (by omega), if_pos h]
    have e : n ^ 2 + 2 * m.natAbs - 2 - (n ^ 2 - 1) = (2 * (m.natAbs - 1)) + 1 := by omega
    rw [e]
    refine ⟨?_, by omega, by omega⟩
    have := (flat_get n (m.natAbs - 1) (by omega)).1
    unfold block ords
    rw [List.getElem?_map, List.getElem?_cons_succ, this]
    simp only [Option.map_some]
    congr 2
    omega

/-- **C12.** In a file for degrees `nmin..nmax`, degree `n` and order `m` stand at position
`gaussPos n m - (nmin² - 1)`, i.e. at the same place as in a full vector after dropping the degrees
below `nmin`. -/
theorem C12_label_at (nmin nmax n : ℕ) (m : ℤ) (h0 : 1 ≤ nmin) (h1 : nmin ≤ n) (h2 : n ≤ nmax)
    (hm : m.natAbs ≤ n) :
    (labels nmin nmax)[gaussPos n m - (nmin ^ 2 - 1)]? = some (n, m) := by
  obtain ⟨hb, hlo, hhi⟩ := block_get n m (by omega) hm
  have hsq : nmin ^ 2 ≤ n ^ 2 := Nat.pow_le_pow_left h1 2
  have hsq1 : 1 ≤ nmin ^ 2 := Nat.one_le_pow _ _ h0
  have hpre := labels_length' nmin (n - 1) (by omega)
  rw [show n - 1 + 1 = n by omega] at hpre
  have hsplit : labels nmin nmax = labels nmin (n - 1) ++ (block n ++ (pyRange (n + 1) (nmax + 1)).flatMap block) := by
    rw [labels_eq _ _ (by omega), labels_eq _ _ (by omega), show n - 1 + 1 = n by omega]
    have : pyRange nmin (nmax + 1) = pyRange nmin n ++ (n :: pyRange (n + 1) (nmax + 1)) := by
      rw [← pyRange_cons _ _ (by omega)]
      unfold pyRange
      have e : nmax + 1 - nmin = (n - nmin) + (nmax + 1 - n) := by omega
      rw [e, ← List.range'_append]
      congr 2
      omega
    rw [this, List.flatMap_append, List.flatMap_cons]
  rw [hsplit, List.getElem?_append_right (by omega)]
  have e : gaussPos n m - (nmin ^ 2 - 1) - (labels nmin (n - 1)).length = gaussPos n m - (n ^ 2 - 1) := by omega
  have hl := block_length n
  have hh : (n + 1) ^ 2 = n ^ 2 + 2 * n + 1 := by ring
  rw [e, List.getElem?_append_left (by omega), hb]

/-- **C12.** The number of coefficients. -/
theorem C12_count (nmin nmax : ℕ) (h0 : 1 ≤ nmin) (h : nmin ≤ nmax) :
    (labels nmin nmax).length = (nmax + 1) ^ 2 - nmin ^ 2 ∧ (labels 1 nmax).length = nmax * (nmax + 2) := by
  have h1 := labels_length' nmin nmax (by omega)
  have h2 := labels_length' 1 nmax (by omega)
  constructor
  · omega
  · nlinarith

/-- Every pair that occurs as a label is a degree within the window and an order not above it. -/
theorem mem_labels (nmin nmax n : ℕ) (m : ℤ) (h : (n, m) ∈ labels nmin nmax) (hw : nmin ≤ nmax + 1) :
    nmin ≤ n ∧ n ≤ nmax ∧ m.natAbs ≤ n := by
  rw [labels_eq _ _ hw, List.mem_flatMap] at h
  obtain ⟨k, hk, hb⟩ := h
  rw [Legendre.mem_pyRange] at hk
  unfold block at hb
  rw [List.mem_map] at hb
  obtain ⟨a, ha, he⟩ := hb
  cases he
  refine ⟨hk.1, by omega, ?_⟩
  unfold ords at ha
  rw [List.mem_cons, List.mem_flatMap] at ha
  rcases ha with rfl | ⟨j, hj, hm⟩
  · simp
  · rw [List.mem_range] at hj
    simp only [List.mem_cons, List.not_mem_nil, or_false] at hm
    rcases hm with rfl | rfl <;> omega

/-- **C12.** Bijection: every position of the window carries exactly one label (degree within the
window, order bounded by the degree), and every such label stands at exactly one position, the one
given by the closed formula. -/
theorem C12_bijection (nmin nmax : ℕ) (h0 : 1 ≤ nmin) (h : nmin ≤ nmax) :
    (∀ i < (nmax + 1) ^ 2 - nmin ^ 2, ∃ n : ℕ, ∃ m : ℤ, nmin ≤ n ∧ n ≤ nmax ∧ m.natAbs ≤ n ∧
      (labels nmin nmax)[i]? = some (n, m)) ∧
    (∀ (n : ℕ) (m : ℤ), nmin ≤ n → n ≤ nmax → m.natAbs ≤ n →
      ∀ i, (labels nmin nmax)[i]? = some (n, m) ↔ i = gaussPos n m - (nmin ^ 2 - 1)) := by
  have hlen := (C12_count nmin nmax h0 h).1
  have hget := fun n m h1 h2 hm => C12_label_at nmin nmax n m h0 h1 h2 hm
  -- counting: positions and labels are equally many, so the map is injective
  have key : ∀ i < (labels nmin nmax).length, ∃ n : ℕ, ∃ m : ℤ, nmin ≤ n ∧ n ≤ nmax ∧ m.natAbs ≤ n ∧
      (labels nmin nmax)[i]? = some (n, m) := by
    intro i hi
    obtain ⟨⟨n, m⟩, hnm⟩ : ∃ p, (labels nmin nmax)[i] = p := ⟨_, rfl⟩
    have hmem : (n, m) ∈ labels nmin nmax := by rw [← hnm]; exact List.getElem_mem hi
    obtain ⟨a, b, c⟩ := mem_labels _ _ _ _ hmem (by omega)
    exact ⟨n, m, a, b, c, by rw [List.getElem?_eq_getElem hi, hnm]⟩
  -- explicit inverse: the position determines its label
  have inj : ∀ i < (labels nmin nmax).length, ∃ n : ℕ, ∃ m : ℤ, nmin ≤ n ∧ n ≤ nmax ∧ m.natAbs ≤ n ∧
      i = gaussPos n m - (nmin ^ 2 - 1) := by
    intro i hi
    have hsq1 : 1 ≤ nmin ^ 2 := Nat.one_le_pow _ _ h0
    set j := i + (nmin ^ 2 - 1) with hj
    have hn1 : nmin ≤ Nat.sqrt (j + 1) := by rw [Nat.le_sqrt']; omega
    have hn2 : Nat.sqrt (j + 1) < nmax + 1 := by rw [Nat.sqrt_lt']; omega
    have hlow := Nat.sqrt_le' (j + 1)
    have hupp := Nat.lt_succ_sqrt' (j + 1)
    set n := Nat.sqrt (j + 1) with hn
    have hs : n.succ ^ 2 = n ^ 2 + 2 * n + 1 := by simp only [Nat.succ_eq_add_one]; ring
    by_cases hd0 : j + 1 = n ^ 2
    · refine ⟨n, 0, hn1, by omega, by simp, ?_⟩
      simp only [gaussPos, if_true]
      omega
    · rcases Nat.even_or_odd' (j + 1 - n ^ 2) with ⟨k, hk | hk⟩
      · refine ⟨n, -(k : ℤ), hn1, by omega, by omega, ?_⟩
        unfold gaussPos
        rw [if_neg (by omega), if_neg (by omega)]
        omega
      · refine ⟨n, ((k + 1 : ℕ) : ℤ), hn1, by omega, by omega, ?_⟩
        unfold gaussPos
        rw [if_neg (by omega), if_pos (by omega)]
        omega
  refine ⟨fun i hi => key i (by omega), fun n m h1 h2 hm i => ⟨fun hi => ?_, fun hi => by rw [hi]; exact hget n m h1 h2 hm⟩⟩
  have hi' : i < (labels nmin nmax).length := by
    by_contra hc
    rw [List.getElem?_eq_none (by omega)] at hi
    cases hi
  obtain ⟨n', m', a, b, c, e⟩ := inj i hi'
  have := hget n' m' a b c
  rw [← e, hi] at this
  injection this with this
  injection this with e1 e2
  subst e1 e2
  exact e

/-- **C12.** The order spelled out on the first two degrees, and a non-trivial position. -/
example : labels 1 2 = [(1, 0), (1, 1), (1, -1), (2, 0), (2, 1), (2, -1), (2, 2), (2, -2)] := by decide

example : gaussPos 13 (-13) = 194 := by decide

/-- **C12.** The degree inferred from the number of coefficients is the largest degree for which all
coefficients are present. -/
theorem C12_nmax_of_dim (dim N : ℕ) :
    nmaxOfDim dim = N ↔ N * (N + 2) ≤ dim ∧ dim < (N + 1) * (N + 3) := by
  unfold nmaxOfDim
  have h := pyInt_sqrt (dim + 1) (by omega)
  push_cast at h
  rw [h]
  have e : ((Nat.sqrt (dim + 1) : ℤ) - 1 = N) ↔ N + 1 = Nat.sqrt (dim + 1) := by omega
  rw [e, Nat.eq_sqrt']
  constructor
  · rintro ⟨a, b⟩; constructor <;> nlinarith
  · rintro ⟨a, b⟩; constructor <;> nlinarith

/-- Complete sets of coefficients give their degree back; 24 coefficients are degree 4. -/
theorem C12_nmax_complete (N : ℕ) : nmaxOfDim (N * (N + 2)) = N :=
  (C12_nmax_of_dim _ _).2 ⟨le_rfl, by nlinarith⟩

/-- **C12.** The degree attributed to coefficient `gaussPos n m` when selecting the response is `n`
(index `n - 1` in the list of degrees). -/
theorem C12_degree_of_position (n : ℕ) (m : ℤ) (hn : 1 ≤ n) (hm : m.natAbs ≤ n) :
    degreeIndex (gaussPos n m) = n - 1 := by
  obtain ⟨_, hlo, hhi⟩ := block_get n m hn hm
  have hsq : 1 ≤ n ^ 2 := Nat.one_le_pow _ _ hn
  unfold degreeIndex
  rw [Int.floor_eq_iff]
  have h1 : (n : ℝ) ≤ Real.sqrt ((gaussPos n m : ℝ) + 1) := by
    apply Real.le_sqrt_of_sq_le
    have : n ^ 2 ≤ gaussPos n m + 1 := by omega
    exact_mod_cast this
  have h2 : Real.sqrt ((gaussPos n m : ℝ) + 1) < n + 1 := by
    rw [Real.sqrt_lt' (by positivity)]
    have : gaussPos n m + 1 < (n + 1) ^ 2 := by omega
    exact_mod_cast this
  push_cast
  constructor <;> linarith

example : degreeIndex (gaussPos 2 (-2)) = 1 := C12_degree_of_position 2 (-2) (by norm_num) (by decide)

/-- **C12.** Field synthesis reads the coefficients at the same positions: in a full vector (`nmin = 1`,
no order limit) the cosine coefficient `g_n^m` is entry `gaussPos n m`, the sine coefficient `h_n^m` entry
`gaussPos n (-m)`. -/
theorem C12_synthesis_positions (c : ℕ → ℝ) (N n m : ℕ) (hn : 1 ≤ n) (hN : n ≤ N) :
    coefG c 1 N n m = c (gaussPos n m) ∧ (m ≠ 0 → coefH c 1 N n m = c (gaussPos n (-m))) := by
  have hs := coefStart_small 1 N n hn (by omega)
  have hsq : 1 ≤ n ^ 2 := Nat.one_le_pow _ _ hn
  have hs' : coefStart 1 N n = n ^ 2 - 1 := by zify [hsq]; rw [hs]; simp
  constructor
  · unfold coefG gaussPos
    rw [hs']
    congr 1
    rcases Nat.eq_zero_or_pos m with rfl | h
    · simp
    · rw [if_neg (by omega), if_neg (by omega), if_pos (by omega)]
      simp only [Int.natAbs_natCast]
      omega
  · intro h
    unfold coefH gaussPos
    rw [hs', if_neg h, if_neg (by omega), if_neg (by omega)]
    congr 1
    simp only [Int.natAbs_neg, Int.natAbs_natCast]
    omega

end ChaosMagPy.Index
