import Verif.Props.CoordArr
/-!
# C77: vector components at arrays of points
-/
namespace ChaosMagPy.CoordArr
open ChaosMagPy.Synth (Error)
open ChaosMagPy.NumPy
open ChaosMagPy.Coord (Vec)

/-- The array holds matrices in the last two axes. -/
def MatIs (L : List ℕ) (a : Arr Num) (m : List ℕ → Fin 3 → Fin 3 → Num) : Prop :=
  a.shape = L ++ [3, 3] ∧ ∀ (i : List ℕ) (j k : Fin 3), a.get (proj L i ++ [j.val, k.val]) = m i j k

theorem dl2 (l : List ℕ) (j k : ℕ) : (l ++ [j, k]).getLastD 0 = k ∧ (l ++ [j, k]).dropLast = l ++ [j] ∧ (l ++ [j]).getLastD 0 = j ∧ (l ++ [j]).dropLast = l := by
  have e : l ++ [j, k] = (l ++ [j]) ++ [k] := by simp
  refine ⟨by rw [e]; simp, by rw [e, List.dropLast_concat], by simp, by simp⟩

theorem stackLast_mat {L : List ℕ} {a b c : Arr Num} {u v w : List ℕ → Fin 3 → Num} (ha : VecIs L a u) (hb : VecIs L b v) (hc : VecIs L c w) :
    ∃ r, stackLast [a, b, c] = .ok r ∧ MatIs L r fun i j k => ![u i j, v i j, w i j] k := by
  refine ⟨⟨a.shape ++ [3], fun i => ([a, b, c][i.getLastD 0]?).bind fun b => b.get i.dropLast⟩, ?_, ?_, ?_⟩
  · show (if ∀ b' ∈ [a, b, c], b'.shape = a.shape then _ else _) = _
    rw [if_pos]
    · rfl
    · intro d hd
      simp only [List.mem_cons, List.not_mem_nil, or_false] at hd
      rcases hd with rfl | rfl | rfl
      · rfl
      · rw [hb.1, ha.1]
      · rw [hc.1, ha.1]
  · show a.shape ++ [3] = _
    rw [ha.1]
    simp
  · intro i j k
    obtain ⟨e1, e2, -, -⟩ := dl2 (proj L i) j.val k.val
    show ([a, b, c][(proj L i ++ [j.val, k.val]).getLastD 0]?).bind (fun b => b.get (proj L i ++ [j.val, k.val]).dropLast) = _
    rw [e1, e2]
    match k with
    | 0 => exact ha.2 i j
    | 1 => exact hb.2 i j
    | 2 => exact hc.2 i j

theorem stackBefore_mat {L : List ℕ} {a b c : Arr Num} {u v w : List ℕ → Fin 3 → Num} (ha : VecIs L a u) (hb : VecIs L b v) (hc : VecIs L c w) :
    ∃ r, stackBefore [a, b, c] = .ok r ∧ MatIs L r fun i j k => ![u i k, v i k, w i k] j := by
  refine ⟨⟨L ++ [3, 3], fun i => ([a, b, c][i.dropLast.getLastD 0]?).bind fun b => b.get (i.dropLast.dropLast ++ [i.getLastD 0])⟩, ?_, rfl, ?_⟩
  · unfold stackBefore
    simp only [ha.1, List.getLast?_append, List.getLast?_singleton, Option.some_or, List.dropLast_concat]
    rw [if_pos]
    · rfl
    · intro d hd
      simp only [List.mem_cons, List.not_mem_nil, or_false] at hd
      rcases hd with rfl | rfl | rfl
      · exact ha.1
      · exact hb.1
      · exact hc.1
  · intro i j k
    obtain ⟨e1, e2, e3, e4⟩ := dl2 (proj L i) j.val k.val
    show ([a, b, c][(proj L i ++ [j.val, k.val]).dropLast.getLastD 0]?).bind
      (fun b => b.get ((proj L i ++ [j.val, k.val]).dropLast.dropLast ++ [(proj L i ++ [j.val, k.val]).getLastD 0])) = _
    rw [e1, e2, e3, e4]
    match j with
    | 0 => exact ha.2 i k
    | 1 => exact hb.2 i k
    | 2 => exact hc.2 i k

theorem stackBefore_error {La Lb : List ℕ} {a b c : Arr Num} (ha : a.shape = La ++ [3]) (hb : b.shape = Lb ++ [3]) (h : Lb ≠ La) :
    stackBefore [a, b, c] = .error .valueError := by
  unfold stackBefore
  simp only [ha, List.getLast?_append, List.getLast?_singleton, Option.some_or]
  rw [if_neg]
  intro hh
  have := hh b (by simp)
  rw [hb] at this
  exact h (List.append_cancel_right this)

/-- Product of two matrices of numbers. -/
noncomputable def mulN (m n : Fin 3 → Fin 3 → Num) (j k : Fin 3) : Num :=
  nan2 (· + ·) (nan2 (· + ·) (nan2 (· + ·) (some 0) (nan2 (· * ·) (m j 0) (n 0 k))) (nan2 (· * ·) (m j 1) (n 1 k))) (nan2 (· * ·) (m j 2) (n 2 k))

theorem matmul_mat {La Lb L : List ℕ} {a b : Arr Num} {m n : List ℕ → Fin 3 → Fin 3 → Num} (ha : MatIs La a m) (hb : MatIs Lb b n) (hL : bcast La Lb = some L) :
    ∃ c, matmul a b = .ok c ∧ MatIs L c fun i => mulN (m i) (n i) := by
  obtain ⟨i1, i2⟩ := bcast_into hL
  refine ⟨⟨L ++ [3, 3], fun i => ((List.range 3).map fun x =>
            nan2 (· * ·) (a.get (proj La i.dropLast.dropLast ++ [i.dropLast.getLastD 0, x])) (b.get (proj Lb i.dropLast.dropLast ++ [x, i.getLastD 0]))).foldl
            (nan2 (· + ·)) (some 0)⟩, ?_, rfl, ?_⟩
  · unfold matmul
    rw [ha.1, hb.1]
    simp only [List.reverse_append, List.reverse_cons, List.reverse_nil, List.nil_append, List.cons_append, List.reverse_reverse, if_true]
    rw [hL]
  · intro i j k
    obtain ⟨e1, e2, e3, e4⟩ := dl2 (proj L i) j.val k.val
    simp only [e1, e2, e3, e4]
    have hA : ∀ x : Fin 3, a.get (proj La (proj L i) ++ [j.val, x.val]) = m i j x := fun x => by rw [proj_into i1, ha.2]
    have hB : ∀ x : Fin 3, b.get (proj Lb (proj L i) ++ [x.val, k.val]) = n i x k := fun x => by rw [proj_into i2, hb.2]
    have a0 : a.get (proj La (proj L i) ++ [j.val, 0]) = m i j 0 := hA 0
    have a1 : a.get (proj La (proj L i) ++ [j.val, 1]) = m i j 1 := hA 1
    have a2 : a.get (proj La (proj L i) ++ [j.val, 2]) = m i j 2 := hA 2
    have b0 : b.get (proj Lb (proj L i) ++ [0, k.val]) = n i 0 k := hB 0
    have b1 : b.get (proj Lb (proj L i) ++ [1, k.val]) = n i 1 k := hB 1
    have b2 : b.get (proj Lb (proj L i) ++ [2, k.val]) = n i 2 k := hB 2
    rw [show List.range 3 = [0, 1, 2] from rfl]
    simp only [List.map_cons, List.map_nil, List.foldl_cons, List.foldl_nil, a0, a1, a2, b0, b1, b2]
    rfl

theorem swapLast_mat {L : List ℕ} {a : Arr Num} {m : List ℕ → Fin 3 → Fin 3 → Num} (ha : MatIs L a m) :
    ∃ c, swapLast a = .ok c ∧ MatIs L c fun i j k => m i k j := by
  refine ⟨⟨L ++ [3, 3], fun i => a.get (i.dropLast.dropLast ++ [i.getLastD 0, i.dropLast.getLastD 0])⟩, ?_, rfl, ?_⟩
  · unfold swapLast
    rw [ha.1]
    simp only [List.reverse_append, List.reverse_cons, List.reverse_nil, List.nil_append, List.cons_append, List.reverse_reverse]
  · intro i j k
    obtain ⟨e1, e2, e3, e4⟩ := dl2 (proj L i) j.val k.val
    simp only [e1, e2, e3, e4]
    exact ha.2 i k j

theorem comp2_mat {L : List ℕ} {a : Arr Num} {m : List ℕ → Fin 3 → Fin 3 → Num} (ha : MatIs L a m) (j k : Fin 3) :
    Ex L (comp2 a j.val k.val) fun i => m i j k := by
  refine ⟨⟨L, fun i => a.get (i ++ [j.val, k.val])⟩, ?_, rfl, fun i => ha.2 i j k⟩
  unfold comp2
  rw [ha.1]
  simp only [List.reverse_append, List.reverse_cons, List.reverse_nil, List.nil_append, List.cons_append, List.reverse_reverse]
  rw [if_pos ⟨j.isLt, k.isLt⟩]

/-- Local base vectors of arrays of points. -/
theorem use_vec (theta phi : Arr Num) (s : List ℕ) (hs : bcast theta.shape phi.shape = some s) (hc : useCheck theta = true) :
    ∃ u v1 v2 v3, baseUse theta phi = .ok u ∧ VecIs s u.e1 v1 ∧ VecIs s u.e2 v2 ∧ VecIs s u.e3 v3 ∧
      ∀ i t p, theta.at i = some t → phi.at i = some p →
        v1 i = cpt (some (Coord.usePoint t p).e1) ∧ v2 i = cpt (some (Coord.usePoint t p).e2) ∧ v3 i = cpt (some (Coord.usePoint t p).e3) := by
  obtain ⟨i1, i2⟩ := bcast_into hs
  have T := (Is.arr (G := s) theta i1).app Coord.radians
  have P := (Is.arr (G := s) phi i2).app Coord.radians
  obtain ⟨a1, b1, c1, -, d1⟩ := (T.app Real.sin).mul (P.app Real.cos)
  obtain ⟨a2, b2, c2, -, d2⟩ := (T.app Real.sin).mul (P.app Real.sin)
  obtain ⟨a3, b3, c3, -, d3⟩ := T.app Real.cos
  obtain ⟨a4, b4, c4, -, d4⟩ := (T.app Real.cos).mul (P.app Real.cos)
  obtain ⟨a5, b5, c5, -, d5⟩ := (T.app Real.cos).mul (P.app Real.sin)
  obtain ⟨a6, b6, c6, -, d6⟩ := T.app (fun x => -Real.sin x)
  obtain ⟨a7, b7, c7, -, d7⟩ := P.app (fun x => -Real.sin x)
  obtain ⟨a8, b8, c8, -, d8⟩ := P.app Real.cos
  obtain ⟨u1, f1, g1⟩ := fill_ok (L := s) (a := empty (s ++ [3])) rfl c1 c2 c3 d1 d2 d3
  obtain ⟨u2, f2, g2⟩ := fill_ok (L := s) (a := empty (s ++ [3])) rfl c4 c5 c6 d4 d5 d6
  obtain ⟨u3, f3, g3⟩ := fill_ok (L := s) (a := empty (s ++ [3])) (z := scalar (some 0)) rfl c7 c8 (into_nil s) d7 d8 (fun _ => rfl)
  refine ⟨⟨u1, u2, u3⟩, _, _, _, ?_, g1, g2, g3, ?_⟩
  · unfold baseUse
    rw [hc, hs]
    simp only [Bool.not_true, Bool.false_eq_true, if_false]
    simp only [bind, Except.bind] at f1 f2 f3 ⊢
    rw [b1, b2, b3, b4, b5, b6, b7, b8]
    simp only
    rw [show ((ne (scalar (some 0))).run : Except Error (Arr Num)) = .ok (scalar (some 0)) from rfl]
    simp only
    rw [f1]
    simp only
    rw [f2]
    simp only
    rw [f3]
    rfl
  · intro i t p ht hp
    rw [ht, hp]
    refine ⟨?_, ?_, ?_⟩ <;> (funext k; match k with | 0 | 1 | 2 => rfl)

theorem mulN_some (A B : Matrix (Fin 3) (Fin 3) ℝ) (j k : Fin 3) :
    mulN (fun j k => some (A j k)) (fun j k => some (B j k)) j k = some ((A * B) j k) := by
  rw [Matrix.mul_apply, Fin.sum_univ_three]
  simp [mulN]

theorem mulN_nan (m n : Fin 3 → Fin 3 → Num) (j k : Fin 3) (h : n 1 k = none) : mulN m n j k = none := by
  simp [mulN, h]

theorem mulN_nan_row (m n : Fin 3 → Fin 3 → Num) (k : Fin 3) (h : ∀ x, m 1 x = none) : mulN m n 1 k = none := by
  simp [mulN, h]

theorem rows_some (b : Coord.Base) : (fun j k => ![cpt (some b.e1) k, cpt (some b.e2) k, cpt (some b.e3) k] j) = fun j k => some (Coord.rows b j k) := by
  funext j k
  match j with | 0 | 1 | 2 => rfl

theorem cols_some (b : Coord.Base) : (fun j k => ![cpt (some b.e1) j, cpt (some b.e2) j, cpt (some b.e3) j] k) = fun j k => some (Coord.columns b j k) := by
  funext j k
  match k with | 0 | 1 | 2 => rfl

/-- `matrix_geo_to_base` for arrays. -/
theorem matrix_is (theta phi : Arr ℝ) (b : Base) (ob : List ℕ → Option Coord.Base) (inverse : Bool) {M S : List ℕ} (hb : BaseIs M M M b ob)
    (hS : broadcast [theta.shape, phi.shape, M] = some S) (hc1 : useCheck (ofReal theta) = true)
    (hc2 : ∀ th ph, geoToBase (ofReal theta) (ofReal phi) b inverse = .ok (th, ph) → useCheck th = true) :
    ∃ th ph R m, matrixGeoToBase (ofReal theta) (ofReal phi) b inverse = .ok (th, ph, R) ∧ th.shape = S ∧ ph.shape = S ∧ MatIs S R m ∧
      ∀ i, th.at i = (ob i).map (fun b => (Coord.geoToBase (theta.at i) (phi.at i) b inverse).1) ∧
        ph.at i = (ob i).map (fun b => (Coord.geoToBase (theta.at i) (phi.at i) b inverse).2) ∧
        (∀ w, ob i = some w → ∀ j k, m i j k = some ((Coord.onePoint (theta.at i, phi.at i, w) inverse).2.2 j k)) ∧
        (ob i = none → ∀ j k, m i j k = none) := by
  obtain ⟨th, ph, g1, g2, g3, g4⟩ := geo_is theta phi b ob inverse hb (into_refl M) hS
  obtain ⟨w1, w2, w3, v1, v2, v3, hc⟩ := hb
  have hi := broadcast_into hS
  have it := hi theta.shape (by simp)
  have ip := hi phi.shape (by simp)
  have iM := hi M (by simp)
  obtain ⟨s1, hs1, is1⟩ := bcast_of_into it ip
  have hleast : ∀ T, Into s1 T → Into M T → Into S T := by
    intro T h1 h3
    obtain ⟨r, hr, hT⟩ := broadcast_of_into (l := [theta.shape, phi.shape, M]) (G := T) (by
      intro s hs
      simp only [List.mem_cons, List.not_mem_nil, or_false] at hs
      rcases hs with rfl | rfl | rfl
      · exact into_trans (bcast_into hs1).1 h1
      · exact into_trans (bcast_into hs1).2 h1
      · exact h3)
    rw [hS] at hr
    cases hr
    exact hT
  obtain ⟨rb, hrb, hrm⟩ := stackBefore_mat v1 v2 v3
  have hc2' := hc2 th ph g1
  obtain ⟨u, x1, x2, x3, hu, y1, y2, y3, hy⟩ := use_vec (ofReal theta) (ofReal phi) s1 hs1 hc1
  obtain ⟨u', x1', x2', x3', hu', y1', y2', y3', hy'⟩ := use_vec th ph S (by rw [g2, g3]; exact bcast_refl S) hc2'
  have hM : bcast M S = some S := by
    obtain ⟨r, hr, hi⟩ := bcast_of_into iM (into_refl S)
    rw [hr, into_antisymm hi (bcast_into hr).2]
  have hM1 : bcast M s1 = some S := by
    obtain ⟨r, hr, hi⟩ := bcast_of_into iM is1
    rw [hr, into_antisymm hi (hleast r (bcast_into hr).2 (bcast_into hr).1)]
  have hs1S : bcast s1 S = some S := by
    obtain ⟨r, hr, hi⟩ := bcast_of_into is1 (into_refl S)
    rw [hr, into_antisymm hi (bcast_into hr).2]
  cases inverse with
  | false =>
    obtain ⟨cu, hcu, hcm⟩ := stackLast_mat y1 y2 y3
    obtain ⟨A, hA, hAm⟩ := matmul_mat hrm hcm hM1
    obtain ⟨ru, hru, hrum⟩ := stackBefore_mat y1' y2' y3'
    obtain ⟨R, hR, hRm⟩ := matmul_mat hrum hAm (bcast_refl S)
    refine ⟨th, ph, R, _, ?_, g2, g3, hRm, fun i => ⟨(g4 i).1, (g4 i).2, ?_, ?_⟩⟩
    · unfold matrixGeoToBase
      simp only [bind, Except.bind, g1, Bool.false_eq_true, if_false, hu, hcu, hrb, hA, hu', hru, hR]
      rfl
    · intro w hw j k
      obtain ⟨e1, e2, e3⟩ := (hc i).1 w hw
      obtain ⟨f1, f2, f3⟩ := hy i (theta.at i) (phi.at i) rfl rfl
      obtain ⟨k1, k2, k3⟩ := hy' i (Coord.geoToBase (theta.at i) (phi.at i) w false).1 (Coord.geoToBase (theta.at i) (phi.at i) w false).2
        (by rw [(g4 i).1, hw]; rfl) (by rw [(g4 i).2, hw]; rfl)
      simp only [e1, e2, e3, f1, f2, f3, k1, k2, k3]
      rw [rows_some, rows_some, cols_some]
      rw [show mulN (fun j k => some (Coord.rows w j k)) (fun j k => some (Coord.columns (Coord.usePoint (theta.at i) (phi.at i)) j k)) =
        fun j k => some ((Coord.rows w * Coord.columns (Coord.usePoint (theta.at i) (phi.at i))) j k) from by funext j k; exact mulN_some _ _ j k]
      exact mulN_some _ _ j k
    · intro hw j k
      refine mulN_nan _ _ j k (mulN_nan_row _ _ k fun x => ?_)
      show w2 i x = none
      rw [(hc i).2 hw]
      rfl
  | true =>
    obtain ⟨cu, hcu, hcm⟩ := stackLast_mat y1' y2' y3'
    obtain ⟨A, hA, hAm⟩ := matmul_mat hrm hcm hM
    obtain ⟨ru, hru, hrum⟩ := stackBefore_mat y1 y2 y3
    obtain ⟨R, hR, hRm⟩ := matmul_mat hrum hAm hs1S
    obtain ⟨Q, hQ, hQm⟩ := swapLast_mat hRm
    refine ⟨th, ph, Q, _, ?_, g2, g3, hQm, fun i => ⟨(g4 i).1, (g4 i).2, ?_, ?_⟩⟩
    · unfold matrixGeoToBase
      simp only [bind, Except.bind, g1, if_true, hu, hcu, hrb, hA, hu', hru, hR, hQ]
      rfl
    · intro w hw j k
      obtain ⟨e1, e2, e3⟩ := (hc i).1 w hw
      obtain ⟨f1, f2, f3⟩ := hy i (theta.at i) (phi.at i) rfl rfl
      obtain ⟨k1, k2, k3⟩ := hy' i (Coord.geoToBase (theta.at i) (phi.at i) w true).1 (Coord.geoToBase (theta.at i) (phi.at i) w true).2
        (by rw [(g4 i).1, hw]; rfl) (by rw [(g4 i).2, hw]; rfl)
      simp only [e1, e2, e3, f1, f2, f3, k1, k2, k3]
      rw [rows_some, rows_some, cols_some]
      rw [show mulN (fun j k => some (Coord.rows w j k)) (fun j k => some (Coord.columns (Coord.usePoint (Coord.geoToBase (theta.at i) (phi.at i) w true).1
          (Coord.geoToBase (theta.at i) (phi.at i) w true).2) j k)) =
        fun j k => some ((Coord.rows w * Coord.columns (Coord.usePoint (Coord.geoToBase (theta.at i) (phi.at i) w true).1
          (Coord.geoToBase (theta.at i) (phi.at i) w true).2)) j k) from by funext j k; exact mulN_some _ _ j k]
      exact mulN_some _ _ k j
    · intro hw j k
      refine mulN_nan _ _ k j (mulN_nan_row _ _ j fun x => ?_)
      show w2 i x = none
      rw [(hc i).2 hw]
      rfl

theorem foldl_min_mem (x : ℝ) (l : List ℝ) : l.foldl min x ∈ x :: l := by
  induction l generalizing x with
  | nil => simp
  | cons y l ih =>
    rw [List.foldl_cons]
    rcases List.mem_cons.1 (ih (min x y)) with h | h
    · rw [h]
      rcases min_choice x y with h' | h' <;> rw [h'] <;> simp
    · simp [h]

theorem foldl_max_mem (x : ℝ) (l : List ℝ) : l.foldl max x ∈ x :: l := by
  induction l generalizing x with
  | nil => simp
  | cons y l ih =>
    rw [List.foldl_cons]
    rcases List.mem_cons.1 (ih (max x y)) with h | h
    · rw [h]
      rcases max_choice x y with h' | h' <;> rw [h'] <;> simp
    · simp [h]

theorem useCheck_radians (t : ℝ) : Coord.useCheck [t] = true ↔ Coord.radians t ≠ 0 ∧ Coord.radians t ≠ Real.pi := by
  have e : Coord.useCheck [t] = !(decide (Coord.radians t = 0) || decide (Coord.radians t = Real.pi)) := rfl
  rw [e]
  simp

theorem useCheck_single (t : ℝ) : Coord.useCheck [t] = true ↔ t ≠ 0 ∧ t ≠ 180 := by
  have hpi := Real.pi_pos
  rw [useCheck_radians]
  unfold Coord.radians
  constructor
  · rintro ⟨h1, h2⟩
    refine ⟨fun h => h1 (by rw [h]; ring), fun h => h2 (by rw [h]; ring)⟩
  · rintro ⟨h1, h2⟩
    refine ⟨fun h => ?_, fun h => h2 ?_⟩
    · rcases mul_eq_zero.1 h with h | h
      · exact h1 h
      · linarith [div_pos hpi (by norm_num : (0 : ℝ) < 180)]
    · field_simp at h
      linarith

theorem useCheck_all (l : List ℝ) (hne : l ≠ []) (h : ∀ t ∈ l, t ≠ 0 ∧ t ≠ 180) : Coord.useCheck l = true := by
  have hx : ∀ x ∈ l.map Coord.radians, x ≠ 0 ∧ x ≠ Real.pi := by
    intro x hx
    obtain ⟨t, ht, rfl⟩ := List.mem_map.1 hx
    exact (useCheck_radians t).1 ((useCheck_single t).2 (h t ht))
  unfold Coord.useCheck
  cases hl : l.map Coord.radians with
  | nil => exact absurd (List.map_eq_nil_iff.1 hl) hne
  | cons x xs =>
    rw [hl] at hx
    simp only [Bool.not_eq_true', Bool.or_eq_false_iff, decide_eq_false_iff_not]
    exact ⟨(hx _ (foldl_min_mem x xs)).1, (hx _ (foldl_max_mem x xs)).2⟩

theorem useCheck_arr (a : Arr Num) (h0 : 0 ∉ a.shape) (h : ∀ i, Valid a.shape i → ∀ t, a.get i = some t → t ≠ 0 ∧ t ≠ 180) : useCheck a = true := by
  unfold useCheck
  cases hm : a.data.mapM id with
  | none => rfl
  | some l =>
    have hl := Coord.mapM_id_some _ _ hm
    refine useCheck_all l ?_ ?_
    · intro hnil
      rw [hnil] at hl
      exact indices_ne_nil h0 (List.map_eq_nil_iff.1 hl)
    · intro t ht
      have : some t ∈ a.data := by rw [hl]; exact List.mem_map.2 ⟨t, ht, rfl⟩
      obtain ⟨i, hi, hit⟩ := List.mem_map.1 this
      exact h i (mem_indices.1 hi) t hit

theorem into_zero {s G : List ℕ} (h : Into s G) (h0 : 0 ∉ G) : 0 ∉ s := by
  have key : ∀ s G : List ℕ, IntoRev s G → 0 ∉ G → 0 ∉ s := by
    intro s
    induction s with
    | nil => intro G _ _; simp
    | cons m s ih =>
      intro G h h0
      cases G with
      | nil => exact h.elim
      | cons n G =>
        rw [List.mem_cons, not_or] at h0 ⊢
        refine ⟨?_, ih G h.2 h0.2⟩
        rcases h.1 with rfl | rfl
        · norm_num
        · exact h0.1
  intro hs
  exact key _ _ h (by simpa using h0) (by simpa using hs)

/-- The result of `transform_vectors` for one point. -/
noncomputable def pointResult (inverse : Bool) (t p bt bp : ℝ) (o : Option Coord.Base) : Except Coord.Error (Option (List ((ℝ × ℝ) × (ℝ × ℝ)))) :=
  match o with
  | none => .ok none
  | some w => if Coord.useCheck [t] = true ∧ Coord.useCheck [(Coord.geoToBase t p w inverse).1] = true then
      .ok (some [(((Coord.onePoint (t, p, w) inverse).1, (Coord.onePoint (t, p, w) inverse).2.1),
        ((Coord.onePoint (t, p, w) inverse).2.2 1 1 * bt + (Coord.onePoint (t, p, w) inverse).2.2 1 2 * bp,
          (Coord.onePoint (t, p, w) inverse).2.2 2 1 * bt + (Coord.onePoint (t, p, w) inverse).2.2 2 2 * bp))])
     else .error .valueError

/-- One point of `transform_vectors` on its own. -/
theorem point_vectors (config : ℝ × ℝ × ℝ) (reference : String) (d : Coord.Dipole) (inverse : Bool) (t p bt bp s : ℝ) (o : Option Coord.Base)
    (h : Coord.referenceBase config reference d [s] = .ok [o]) :
    Coord.transformVectors config reference d inverse [((t, p), (bt, bp), s)] = pointResult inverse t p bt bp o := by
  unfold Coord.transformVectors
  simp only [List.map_cons, List.map_nil]
  rw [h]
  cases o with
  | none => rfl
  | some w =>
    unfold pointResult
    simp only [bind, Except.bind]
    have : List.mapM id [some w] = some [w] := rfl
    rw [this]
    simp only [List.zipWith_cons_cons, List.zipWith_nil_right]
    rw [Coord.matrix_cases]
    simp only [List.map_cons, List.map_nil]
    by_cases hc : Coord.useCheck [t] = true ∧ Coord.useCheck [(Coord.geoToBase t p w inverse).1] = true
    · rw [if_pos hc, if_pos hc]; rfl
    · rw [if_neg hc, if_neg hc]

/-- **C77** (vectors). Points, times, dipoles and vector components of any shapes that fit together, where no point is a pole and no point
raises an exception on its own; for GSM the dipoles must fit into the shape of the times. Then the results have the broadcast shapes, and at
each index they are the coordinates and components that the call for this point alone gives (NaN where its base vectors are not defined). -/
theorem C77_vectors (config : ℝ × ℝ × ℝ) (theta phi Btheta Bphi time : Arr ℝ) (reference : String) (inverse : Bool) (d : Dipole) (L M S B : List ℕ)
    (hd : DipoleShape d L) (hM : RefShape reference L time.shape M) (hgsm : reference = "gsm" → M = time.shape)
    (hS : broadcast [theta.shape, phi.shape, M] = some S) (hB : broadcast [S, Btheta.shape, Bphi.shape] = some B) (h0 : 0 ∉ B)
    (ht : reference ≠ "mag" → ∀ i, Valid time.shape i → time.get i < 36159.75)
    (hpole : ∀ i, Valid theta.shape i → theta.get i ≠ 0 ∧ theta.get i ≠ 180)
    (r : List ℕ → Option (List ((ℝ × ℝ) × (ℝ × ℝ))))
    (hr : ∀ i, Valid B i → Coord.transformVectors config reference (d.at i) inverse
      [((theta.at i, phi.at i), (Btheta.at i, Bphi.at i), time.at i)] = .ok (r i)) :
    ∃ th ph bt bp, transformVectors config theta phi Btheta Bphi time reference inverse d = .ok (th, ph, bt, bp) ∧
      th.shape = S ∧ ph.shape = S ∧ bt.shape = B ∧ bp.shape = B ∧
      ∀ i, Valid B i →
        (∀ o, r i = some [o] → th.at i = some o.1.1 ∧ ph.at i = some o.1.2 ∧ bt.get i = some o.2.1 ∧ bp.get i = some o.2.2) ∧
        (r i = none → th.at i = none ∧ ph.at i = none ∧ bt.get i = none ∧ bp.get i = none) := by
  obtain ⟨b, ob, M1, h1, h2, h2a, h2b, h3, h4⟩ := reference_is config reference time d L M hd hM ht
  have hM1 : M1 = M := by
    by_cases hg : reference = "gsm"
    · rw [h2b hg, hgsm hg]
    · exact h2a hg
  subst hM1
  have hi := broadcast_into hB
  have iS := hi S (by simp)
  have ibt := hi Btheta.shape (by simp)
  have ibp := hi Bphi.shape (by simp)
  have hS0 := into_zero iS h0
  have it := broadcast_into hS theta.shape (by simp)
  have ht0 := into_zero it hS0
  have hob : ∀ i, Valid B i → Coord.referenceBase config reference (d.at i) [time.at i] = .ok [ob i] := by
    intro i hi
    refine h4 i (time_valid reference time L M1 B hM (into_trans (broadcast_into hS M1 (by simp)) iS) ht i hi)
  have hchk : ∀ th ph, geoToBase (ofReal theta) (ofReal phi) b inverse = .ok (th, ph) → useCheck th = true := by
    intro th ph hg
    obtain ⟨th', ph', g1, g2, g3, g4⟩ := geo_is theta phi b ob inverse h3 h2 hS
    rw [hg] at g1
    cases g1
    refine useCheck_arr th (by rw [g2]; exact hS0) ?_
    intro j hj t hjt
    rw [g2] at hj
    obtain ⟨i, hi, rfl⟩ := proj_surj iS h0 hj
    have e1 : th.at i = some t := by rw [← hjt, Arr.at, g2]
    rw [(g4 i).1] at e1
    cases ho : ob i with
    | none => rw [ho] at e1; cases e1
    | some w =>
      rw [ho] at e1
      have hp := point_vectors config reference (d.at i) inverse (theta.at i) (phi.at i) (Btheta.at i) (Bphi.at i) (time.at i) (some w) (by rw [hob i hi, ho])
      rw [hr i hi] at hp
      simp only [pointResult] at hp
      by_cases hcc : Coord.useCheck [theta.at i] = true ∧ Coord.useCheck [(Coord.geoToBase (theta.at i) (phi.at i) w inverse).1] = true
      · have := (useCheck_single _).1 hcc.2
        have e1' : (Coord.geoToBase (theta.at i) (phi.at i) w inverse).1 = t := Option.some.inj e1
        rw [e1'] at this
        exact this
      · rw [if_neg hcc] at hp
        cases hp
  obtain ⟨th, ph, R, m, hmat, sh1, sh2, hR, hval⟩ := matrix_is theta phi b ob inverse h3 hS
    (useCheck_arr (ofReal theta) ht0 (by intro i hi t hit; rw [← Option.some.inj hit]; exact hpole i hi)) hchk
  have hleast : ∀ T, Into S T → Into Btheta.shape T → Into Bphi.shape T → Into B T := by
    intro T h1 h2 h3
    obtain ⟨q, hq, hT⟩ := broadcast_of_into (l := [S, Btheta.shape, Bphi.shape]) (G := T) (by
      intro s hs
      simp only [List.mem_cons, List.not_mem_nil, or_false] at hs
      rcases hs with rfl | rfl | rfl <;> assumption)
    rw [hB] at hq
    cases hq
    exact hT
  have C := fun j k => (comp2_mat hR j k).is iS
  have P := Is.arr (G := B) (ofReal Btheta) ibt
  have Q := Is.arr (G := B) (ofReal Bphi) ibp
  obtain ⟨bt, b1, b2, b3⟩ := (((C 1 1).mul P).add ((C 1 2).mul Q)).ex
    (fun T hT => hleast T (hT S (by simp)) (hT Btheta.shape (by simp [ofReal, Arr.map])) (hT Bphi.shape (by simp [ofReal, Arr.map])))
  obtain ⟨bp, c1, c2, c3⟩ := (((C 2 1).mul P).add ((C 2 2).mul Q)).ex
    (fun T hT => hleast T (hT S (by simp)) (hT Btheta.shape (by simp [ofReal, Arr.map])) (hT Bphi.shape (by simp [ofReal, Arr.map])))
  refine ⟨th, ph, bt, bp, ?_, sh1, sh2, b2, c2, ?_⟩
  · unfold transformVectors
    rw [h1]
    simp only [bind, Except.bind]
    rw [hmat]
    simp only
    have b1' : (comp2 R 1 1 * ne (ofReal Btheta) + comp2 R 1 2 * ne (ofReal Bphi)).run = .ok bt := b1
    have c1' : (comp2 R 2 1 * ne (ofReal Btheta) + comp2 R 2 2 * ne (ofReal Bphi)).run = .ok bp := c1
    rw [b1', c1']
    rfl
  · intro i hi
    obtain ⟨v1, v2, v3, v4⟩ := hval i
    rw [← at_valid bt i (by rw [b2]; exact hi), ← at_valid bp i (by rw [c2]; exact hi), b3, c3]
    have hp := point_vectors config reference (d.at i) inverse (theta.at i) (phi.at i) (Btheta.at i) (Bphi.at i) (time.at i) (ob i) (hob i hi)
    rw [hr i hi] at hp
    cases ho : ob i with
    | none =>
      rw [ho] at hp
      simp only [pointResult, Except.ok.injEq] at hp
      refine ⟨fun o hro => absurd (hp.symm.trans hro) (by simp), fun _ => ?_⟩
      rw [v1, v2, ho]
      have n := v4 ho
      simp [n]
    | some w =>
      rw [ho] at hp
      simp only [pointResult] at hp
      by_cases hcc : Coord.useCheck [theta.at i] = true ∧ Coord.useCheck [(Coord.geoToBase (theta.at i) (phi.at i) w inverse).1] = true
      · rw [if_pos hcc, Except.ok.injEq] at hp
        refine ⟨fun o hro => ?_, fun hn => by rw [hp] at hn; cases hn⟩
        rw [hp] at hro
        cases hro
        have n := v3 w ho
        rw [v1, v2, ho]
        refine ⟨rfl, rfl, ?_, ?_⟩
        · simp only [n]; rfl
        · simp only [n]; rfl
      · rw [if_neg hcc] at hp
        cases hp

end ChaosMagPy.CoordArr
