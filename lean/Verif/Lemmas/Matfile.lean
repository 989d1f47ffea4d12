import Verif.Spec.Matfile
/-! Arrays of the MAT-file model. -/
namespace ChaosMagPy.Matfile

theorem grid_length (r c : ℕ) (g : ℕ → ℕ → ℝ) : ((List.range c).flatMap fun j => (List.range r).map fun i => g j i).length = c * r := by
  rw [List.length_flatMap]
  simp

theorem grid_get (r c : ℕ) (g : ℕ → ℕ → ℝ) {j i : ℕ} (hj : j < c) (hi : i < r) :
    ((List.range c).flatMap fun j => (List.range r).map fun i => g j i).getD (j * r + i) 0 = g j i := by
  induction c with
  | zero => omega
  | succ c ih =>
    rw [List.range_succ, List.flatMap_append, List.getD_eq_getElem?_getD]
    by_cases h : j < c
    · have hlt : j * r + i < ((List.range c).flatMap fun j => (List.range r).map fun i => g j i).length := by
        rw [grid_length]
        have : (j + 1) * r ≤ c * r := Nat.mul_le_mul_right r (by omega)
        rw [Nat.succ_mul] at this
        omega
      rw [List.getElem?_append_left hlt, ← List.getD_eq_getElem?_getD]
      exact ih h
    · have hj' : j = c := by omega
      subst hj'
      rw [List.getElem?_append_right (by rw [grid_length]; omega), grid_length]
      simp [List.getElem?_range, hi]

/-- Entries of the transposed matrix. -/
def transposeData (r c : ℕ) (l : List ℝ) : List ℝ := (List.range c).flatMap fun j => (List.range r).map fun i => l.getD (i * c + j) 0

theorem transposeData_length (r c : ℕ) (l : List ℝ) : (transposeData r c l).length = c * r := grid_length _ _ _

theorem list_eq_of_getD {l l' : List ℝ} (h : l.length = l'.length) (h2 : ∀ k, k < l.length → l.getD k 0 = l'.getD k 0) : l = l' := by
  apply List.ext_getElem h
  intro k h1 h3
  have := h2 k h1
  simpa [List.getD_eq_getElem?_getD, h1, h3] using this

theorem transposeData_twice (r c : ℕ) (l : List ℝ) (h : l.length = r * c) : transposeData c r (transposeData r c l) = l := by
  apply list_eq_of_getD
  · rw [transposeData_length, h]
  intro k hk
  rw [transposeData_length] at hk
  have hc : 0 < c := by
    rcases Nat.eq_zero_or_pos c with rfl | h; simp at hk; exact h
  have h1 : k / c < r := (Nat.div_lt_iff_lt_mul hc).2 hk
  have h2 : k % c < c := Nat.mod_lt _ hc
  have e : k = k / c * c + k % c := (Nat.div_add_mod' k c).symm
  rw [e]
  unfold transposeData
  rw [grid_get c r _ h1 h2, grid_get r c _ h2 h1]

theorem transposeData_one_row (c : ℕ) (l : List ℝ) (h : l.length = c) : transposeData 1 c l = l := by
  apply list_eq_of_getD
  · rw [transposeData_length, h]; omega
  intro k hk
  rw [transposeData_length] at hk
  have := grid_get 1 c (fun j i => l.getD (i * c + j) 0) (j := k) (i := 0) (by omega) (by omega)
  unfold transposeData
  simpa using this

theorem transposeData_one_col (r : ℕ) (l : List ℝ) (h : l.length = r) : transposeData r 1 l = l := by
  apply list_eq_of_getD
  · rw [transposeData_length, h]; omega
  intro k hk
  rw [transposeData_length] at hk
  have := grid_get r 1 (fun j i => l.getD (i * 1 + j) 0) (j := 0) (i := k) (by omega) (by omega)
  unfold transposeData
  simpa using this

theorem squeeze_pair (a b : ℕ) : squeezeShape [a, b] = if a = 1 then (if b = 1 then [] else [b]) else (if b = 1 then [a] else [a, b]) := by
  unfold squeezeShape
  by_cases h1 : a = 1 <;> by_cases h2 : b = 1 <;> simp [h1, h2]

/-- Writing and reading the transposed coefficients. -/
theorem transpose_roundtrip (r c : ℕ) (l : List ℝ) (h : l.length = r * c) :
    ∃ a, Arr.transpose ⟨squeezeShape [c, r], transposeData r c l⟩ = .ok a ∧ a.data = l := by
  rw [squeeze_pair]
  by_cases h1 : c = 1
  · subst h1
    have e := transposeData_one_col r l (by omega)
    rw [if_pos rfl, e]
    split_ifs
    · exact ⟨_, rfl, rfl⟩
    · exact ⟨_, rfl, rfl⟩
  · rw [if_neg h1]
    by_cases h2 : r = 1
    · subst h2
      rw [if_pos rfl, transposeData_one_row c l (by omega)]
      exact ⟨_, rfl, rfl⟩
    · rw [if_neg h2]
      exact ⟨_, rfl, transposeData_twice r c l h⟩

theorem traverse_num (a : Arr) : traverse (.num a) = .num a.squeeze := by rw [traverse]

theorem traverse_struct (f : Dict) : traverse (.struct f) = .struct (loadMatfile f) := by
  rw [traverse]; rfl

theorem traverse_cell_one (v : MVal) : traverse (.cell [1, 1] [v]) = traverse v := by
  rw [traverse]; simp

theorem traverse_cell (n : ℕ) (hn : n ≠ 1) (items : List MVal) : traverse (.cell [1, n] items) = .cell [n] items := by
  rw [traverse.eq_def]
  simp only
  rw [if_neg (by simpa using hn), squeeze_pair, if_pos rfl, if_neg hn]

theorem get_load (f : Dict) (k : String) : (loadMatfile f).get k = (Dict.get f k).map traverse := by
  induction f with
  | nil => rfl
  | cons kv f ih =>
    obtain ⟨k', v⟩ := kv
    unfold Dict.get loadMatfile at ih ⊢
    simp only [List.map_cons, List.lookup_cons]
    cases h : k == k'
    · exact ih
    · rfl

end ChaosMagPy.Matfile

namespace ChaosMagPy.Matfile

/-! ### Break points and splines -/

theorem squeeze_atLeast2d (a : Arr) : squeezeShape (atLeast2d a).shape = squeezeShape a.shape ∧ (atLeast2d a).data = a.data := by
  obtain ⟨s, d⟩ := a
  match s with
  | [] => exact ⟨rfl, rfl⟩
  | [n] => exact ⟨by simp [atLeast2d, squeezeShape, List.filter_cons], rfl⟩
  | _ :: _ :: _ => exact ⟨rfl, rfl⟩

theorem traverse_wnum (keep : Bool) (a : Arr) : traverse (wnum keep a) = .num a.squeeze := by
  unfold wnum
  rw [traverse_num]
  cases keep
  · simp only [Bool.false_eq_true, if_false]
    unfold Arr.squeeze
    rw [(squeeze_atLeast2d a).1, (squeeze_atLeast2d a).2]
  · simp

theorem traverse_null : traverse .null = .null := by rw [traverse]

theorem init_sized {b : BaseA} (h : Sized b) {o : ℕ} (ho : b.order ≤ o) (s : List ℕ) :
    BaseA.init b.name ⟨s, b.breaks⟩ o b.coeffs b.source b.prerotation = .ok b := by
  obtain ⟨h1, h2, h3, h4⟩ := h
  unfold BaseA.init
  rw [h3]
  simp only
  rw [min_eq_right ho, if_neg (by omega), if_neg (by omega), Nat.sub_self, Nat.zero_mul, List.drop_zero]
  have hc : b.coeffs = ⟨[b.order, b.pieces, b.dim], b.coeffs.data⟩ := by rw [← h3]
  rw [← hc]

/-- The fields of the written structure. -/
def ppFields (keep : Bool) (b : BaseA) : Dict :=
  [("order", wnum keep ⟨[], [(b.order : ℝ)]⟩), ("pieces", wnum keep ⟨[], [(b.pieces : ℝ)]⟩), ("dim", wnum keep ⟨[], [(b.dim : ℝ)]⟩),
    ("breaks", wnum keep ⟨[1, b.breaks.length], b.breaks⟩),
    ("coefs", wnum keep ⟨[b.coeffs.data.length / b.order, b.order], transposeData b.order (b.coeffs.data.length / b.order) b.coeffs.data⟩)]

theorem sized_length {b : BaseA} (h : Sized b) : b.coeffs.data.length = b.order * (b.pieces * b.dim) := by
  have := h.ok
  unfold Arr.Ok at this
  rw [this, h.shape]
  simp

theorem toPP_sized (keep : Bool) {b : BaseA} (h : Sized b) : toPP keep b = .ok (.struct (ppFields keep b)) := by
  have hl := sized_length h
  have h1 := h.order
  unfold toPP
  rw [if_neg]
  · rfl
  · rintro (h2 | h2)
    · omega
    · rw [hl, Nat.mul_mod_right] at h2
      exact h2 rfl

theorem dict_arr {d : Dict} {k : String} {a : Arr} (h : Dict.get d k = .ok (.num a)) : d.arr k = .ok a := by
  unfold Dict.arr
  rw [h]
  rfl

theorem toNat_cast (s : List ℕ) (n : ℕ) : Arr.toNat ⟨s, [(n : ℝ)]⟩ = .ok n := by
  unfold Arr.toNat
  simp only
  rw [if_neg (not_lt.2 (Nat.cast_nonneg n)), Nat.floor_natCast]

theorem div_order {b : BaseA} (h : Sized b) : b.coeffs.data.length / b.order = b.pieces * b.dim := by
  rw [sized_length h, Nat.mul_div_cancel_left _ (by have := h.order; omega)]

theorem pp_get (keep : Bool) (b : BaseA) :
    Dict.arr (loadMatfile (ppFields keep b)) "order" = .ok ⟨[], [(b.order : ℝ)]⟩ ∧ Dict.arr (loadMatfile (ppFields keep b)) "pieces" = .ok ⟨[], [(b.pieces : ℝ)]⟩ ∧
    Dict.arr (loadMatfile (ppFields keep b)) "dim" = .ok ⟨[], [(b.dim : ℝ)]⟩ ∧ Dict.arr (loadMatfile (ppFields keep b)) "breaks" = .ok ⟨squeezeShape [1, b.breaks.length], b.breaks⟩ ∧
    Dict.arr (loadMatfile (ppFields keep b)) "coefs" = .ok ⟨squeezeShape [b.coeffs.data.length / b.order, b.order],
      transposeData b.order (b.coeffs.data.length / b.order) b.coeffs.data⟩ := by
  refine ⟨dict_arr ?_, dict_arr ?_, dict_arr ?_, dict_arr ?_, dict_arr ?_⟩ <;>
  · rw [get_load]
    simp only [Dict.get, ppFields, List.lookup_cons, List.lookup_nil]
    simp only [Except.map, traverse_wnum, Arr.squeeze]
    simp [squeezeShape, traverse_wnum, Arr.squeeze]

theorem squeeze_breaks {n : ℕ} (h : 2 ≤ n) : squeezeShape [1, n] = [n] := by
  rw [squeeze_pair, if_pos rfl, if_neg (by omega)]

theorem loadTdep_sized {keep : Bool} {b : BaseA} (h : Sized b) {mat : Dict} (hm : Dict.get mat "pp" = .ok (.struct (loadMatfile (ppFields keep b)))) :
    loadTdep mat = .ok (⟨[b.breaks.length], b.breaks⟩, b.order, b.coeffs) := by
  obtain ⟨g1, g2, g3, g4, g5⟩ := pp_get keep b
  have hl := sized_length h
  have hd := div_order h
  obtain ⟨a, ha, had⟩ := transpose_roundtrip b.order (b.pieces * b.dim) b.coeffs.data hl
  unfold loadTdep
  rw [hm]
  simp only [MVal.dict, bind, Except.bind, pure, Except.pure]
  rw [g1, g2, g3, g4, g5]
  simp only [toNat_cast]
  rw [hd, ha]
  simp only [Arr.reshape]
  rw [if_pos (by rw [had, hl]; simp), squeeze_breaks h.breaks]
  simp only
  congr 3
  rw [had, ← h.shape]

/-! ### Static part, prerotation, calibration -/

theorem loadStatic_of {a : Arr} {mat : Dict} (hm : Dict.get mat "g" = .ok (.num a)) : loadStatic mat = .ok (some ⟨[1, 1, a.data.length], a.data⟩) := by
  unfold loadStatic
  rw [hm]
  rfl

theorem loadCal_sized {keep : Bool} {b : BaseA} (h : Sized b) (h1 : b.order = 1) (h9 : b.dim = 9) {mat : Dict}
    (hm : Dict.get mat "pp_CAL" = .ok (.struct (loadMatfile (ppFields keep b)))) :
    loadCal mat = .ok (some [("cryosat-2_1", (⟨[b.breaks.length], b.breaks⟩, b.coeffs))]) := by
  obtain ⟨_, _, _, g4, g5⟩ := pp_get keep b
  have hl := sized_length h
  rw [h1, h9, Nat.one_mul] at hl
  unfold loadCal
  rw [hm]
  simp only [MVal.dict, bind, Except.bind, pure, Except.pure]
  rw [g4, g5]
  simp only
  rw [h1, Nat.div_one, transposeData_one_row _ _ rfl]
  simp only [Arr.reshape]
  rw [hl, Nat.mul_div_cancel _ (by omega : 0 < 9), if_pos (by simp), squeeze_breaks h.breaks]
  simp only
  congr 5
  rw [show [1, b.pieces, 9] = b.coeffs.shape by rw [h.shape, h1, h9]]

end ChaosMagPy.Matfile

namespace ChaosMagPy.Matfile

/-! ### External field -/

theorem pair_get {a b : List ℝ} (h : a.length = b.length) :
    (List.range a.length).map (fun i => ((a.zip b).flatMap fun p => [p.1, p.2]).getD (i * 2 + 0) 0) = a ∧
    (List.range a.length).map (fun i => ((a.zip b).flatMap fun p => [p.1, p.2]).getD (i * 2 + 1) 0) = b := by
  induction a generalizing b with
  | nil => cases b with
    | nil => simp
    | cons _ _ => simp at h
  | cons x a ih =>
    cases b with
    | nil => simp at h
    | cons y b =>
      obtain ⟨h1, h2⟩ := ih (b := b) (by simpa using h)
      rw [List.length_cons, List.range_succ_eq_map]
      simp only [List.map_cons, List.map_map, List.zip_cons_cons, List.flatMap_cons]
      refine ⟨?_, ?_⟩
      · refine congrArg₂ List.cons rfl ?_
        rw [← h1, h1]
        conv_rhs => rw [← h1]
        apply List.map_congr_left
        intro i _
        simp only [Function.comp, Nat.succ_eq_add_one]
        rw [show (i + 1) * 2 + 0 = (i * 2 + 0) + 1 + 1 by ring]
        rfl
      · refine congrArg₂ List.cons rfl ?_
        conv_rhs => rw [← h2]
        apply List.map_congr_left
        intro i _
        simp only [Function.comp, Nat.succ_eq_add_one]
        rw [show (i + 1) * 2 + 1 = (i * 2 + 1) + 1 + 1 by ring]
        rfl

/-- The fields of the written structure. -/
noncomputable def extFields (keep : Bool) (d : DeltaA) (sm gsm : Arr) : Dict :=
  [("t_break_q10", wnum keep d.breaksQ10.column), ("q10", wnum keep d.q10.column), ("t_break_qs11", wnum keep d.breaksQ11.column),
    ("qs11", wnum keep ⟨[d.q11.data.length, 2], (d.q11.data.zip d.s11.data).flatMap fun p => [p.1, p.2]⟩),
    ("m_sm", wnum keep ⟨[sm.data.length, 1], [mean d.q10.data, mean d.q11.data, mean d.s11.data] ++ sm.data.drop 3⟩),
    ("m_gsm", wnum keep ⟨[2, 1], [gsm.data.getD 0 0, gsm.data.getD 3 0]⟩), ("m_Dst", wnum keep ⟨[3, 1], sm.data.take 3⟩)]

theorem saveExternal_ok (keep : Bool) (d : DeltaA) (sm gsm : Arr) (h : d.q11.data.length = d.s11.data.length) (hs : 3 ≤ sm.data.length) (hg : 4 ≤ gsm.data.length) :
    saveExternal keep d (some sm) (some gsm) = .ok (.struct (extFields keep d sm gsm)) := by
  unfold saveExternal stack2
  rw [if_pos h]
  simp only [bind, Except.bind, pure, Except.pure]
  rw [if_neg (by omega)]
  rw [if_neg (by omega)]
  rfl

theorem ext_get (keep : Bool) (d : DeltaA) (sm gsm : Arr) :
    Dict.arr (loadMatfile (extFields keep d sm gsm)) "m_sm" = .ok ⟨squeezeShape [sm.data.length, 1], [mean d.q10.data, mean d.q11.data, mean d.s11.data] ++ sm.data.drop 3⟩ ∧
    Dict.arr (loadMatfile (extFields keep d sm gsm)) "m_Dst" = .ok ⟨[3], sm.data.take 3⟩ ∧
    Dict.arr (loadMatfile (extFields keep d sm gsm)) "m_gsm" = .ok ⟨[2], [gsm.data.getD 0 0, gsm.data.getD 3 0]⟩ ∧
    Dict.arr (loadMatfile (extFields keep d sm gsm)) "t_break_q10" = .ok (flat d.breaksQ10) ∧
    Dict.arr (loadMatfile (extFields keep d sm gsm)) "t_break_qs11" = .ok (flat d.breaksQ11) ∧
    Dict.arr (loadMatfile (extFields keep d sm gsm)) "q10" = .ok (flat d.q10) ∧
    Dict.arr (loadMatfile (extFields keep d sm gsm)) "qs11" =
      .ok ⟨squeezeShape [d.q11.data.length, 2], (d.q11.data.zip d.s11.data).flatMap fun p => [p.1, p.2]⟩ := by
  refine ⟨dict_arr ?_, dict_arr ?_, dict_arr ?_, dict_arr ?_, dict_arr ?_, dict_arr ?_, dict_arr ?_⟩ <;>
  · rw [get_load]
    simp only [Dict.get, extFields, List.lookup_cons, List.lookup_nil]
    simp only [Except.map, traverse_wnum, Arr.squeeze, Arr.column, flat]
    simp [squeezeShape, traverse_wnum, Arr.squeeze]

theorem loadExternal_of {keep : Bool} (d : DeltaA) (sm gsm : Arr) (h : d.q11.data.length = d.s11.data.length) (h1 : d.q11.data.length ≠ 1)
    (hs : 3 ≤ sm.data.length) {mat : Dict} (hm : Dict.get mat "model_ext" = .ok (.struct (loadMatfile (extFields keep d sm gsm)))) :
    loadExternal mat = .ok (some (⟨[sm.data.length], sm.data⟩, zonal gsm,
      ⟨flat d.breaksQ10, flat d.breaksQ11, flat d.breaksQ11, d.q10.row, d.q11.row, d.s11.row⟩)) := by
  obtain ⟨g1, g2, g3, g4, g5, g6, g7⟩ := ext_get keep d sm gsm
  obtain ⟨p1, p2⟩ := pair_get h
  unfold loadExternal
  rw [hm]
  simp only [MVal.dict, bind, Except.bind, pure, Except.pure]
  rw [g1, g2, g3, g4, g5, g6, g7]
  simp only
  rw [squeeze_pair, if_neg (by omega), if_pos rfl, squeeze_pair, if_neg h1, if_neg (by omega)]
  have e1 : setFirst3 ⟨[sm.data.length], [mean d.q10.data, mean d.q11.data, mean d.s11.data] ++ sm.data.drop 3⟩ ⟨[3], sm.data.take 3⟩ =
      .ok ⟨[sm.data.length], sm.data⟩ := by
    unfold setFirst3
    simp only
    rw [if_neg (by simp; omega), if_pos (by rw [min_eq_right hs])]
    congr 2
    rw [List.drop_append_of_le_length (by simp)]
    simp
  have e2 : gsmOf ⟨[2], [gsm.data.getD 0 0, gsm.data.getD 3 0]⟩ = .ok (zonal gsm) := by
    unfold gsmOf zonal
    rw [if_neg (by simp), if_pos rfl]
    rfl
  rw [e1, e2]
  simp only [Arr.col]
  rw [if_pos (by omega), if_pos (by omega)]
  simp only [p1, p2]
  unfold flat Arr.row
  congr 7

/-! ### Euler angles -/

/-- Entries of the three columns. -/
def lineOf (b : BaseA) (j : ℕ) : List ℝ := (List.range b.pieces).map fun i => b.coeffs.data.getD (i * 3 + j) 0

open Classical in
/-- Break points as they are written. -/
noncomputable def brk (b : BaseA) : List ℝ := if PPoly.first b.breaks = PPoly.last b.breaks then [PPoly.first b.breaks] else b.breaks

theorem eulerCells_ok {b : BaseA} (h : EulerSized b) :
    eulerCells b = .ok (⟨[(brk b).length, 1], brk b⟩, ⟨[b.pieces, 1], lineOf b 0⟩, ⟨[b.pieces, 1], lineOf b 1⟩, ⟨[b.pieces, 1], lineOf b 2⟩) := by
  have h2 := h.sized.breaks
  have hl : ∀ j, j < 3 → b.coeffs.line j = .ok ⟨[b.pieces], lineOf b j⟩ := by
    intro j hj
    unfold Arr.line
    rw [h.sized.shape, h.order, h.dim]
    simp only
    rw [if_pos ⟨by omega, hj⟩]
    rfl
  unfold eulerCells
  rw [if_neg (by intro hc; rw [hc] at h2; simp at h2), hl 0 (by omega), hl 1 (by omega), hl 2 (by omega)]
  simp only [bind, Except.bind, pure, Except.pure, Arr.column]
  have e : ∀ j, (lineOf b j).length = b.pieces := by intro j; simp [lineOf]
  rw [e, e, e]
  rfl

theorem brk_doubled {b : BaseA} (h : EulerSized b) : (if (brk b).length = 1 then brk b ++ brk b else brk b) = b.breaks := by
  have h2 := h.sized.breaks
  unfold brk
  by_cases he : PPoly.first b.breaks = PPoly.last b.breaks
  · have hlen := h.ends he
    rw [if_pos he, if_pos (by simp)]
    match hb : b.breaks, hlen with
    | [x, y], _ =>
      rw [hb] at he
      simp [PPoly.first, PPoly.last] at he
      simp [PPoly.first, he]
  · rw [if_neg he, if_neg (by omega)]

theorem take_drop_one {l : List ℝ} {i : ℕ} (h : i < l.length) : (l.drop (i * 1)).take 1 = [l.getD i 0] := by
  rw [Nat.mul_one]
  rw [List.take_one]
  simp [List.getD_eq_getElem?_getD, h]

theorem concat_lines {b : BaseA} (h : EulerSized b) :
    concat3 ⟨[b.pieces, 1], lineOf b 0⟩ ⟨[b.pieces, 1], lineOf b 1⟩ ⟨[b.pieces, 1], lineOf b 2⟩ = .ok ⟨[b.pieces, 3], b.coeffs.data⟩ := by
  unfold concat3
  simp only
  rw [if_pos ⟨trivial, trivial⟩]
  congr 2
  have hl := sized_length h.sized
  rw [h.order, h.dim, Nat.one_mul] at hl
  have e : ∀ j, (lineOf b j).length = b.pieces := by intro j; simp [lineOf]
  have e2 : ∀ j i, i < b.pieces → (lineOf b j).getD i 0 = b.coeffs.data.getD (i * 3 + j) 0 := by
    intro j i hi
    simp [lineOf, List.getD_eq_getElem?_getD, hi]
  have e3 : ((List.range b.pieces).flatMap fun i => ((lineOf b 0).drop (i * 1)).take 1 ++ ((lineOf b 1).drop (i * 1)).take 1 ++ ((lineOf b 2).drop (i * 1)).take 1) =
      (List.range b.pieces).flatMap fun i => (List.range 3).map fun j => b.coeffs.data.getD (i * 3 + j) 0 := by
    rw [List.flatMap_def, List.flatMap_def]
    congr 1
    apply List.map_congr_left
    intro i hi
    rw [List.mem_range] at hi
    rw [take_drop_one (by rw [e]; exact hi), take_drop_one (by rw [e]; exact hi), take_drop_one (by rw [e]; exact hi), e2 _ _ hi, e2 _ _ hi, e2 _ _ hi]
    rfl
  rw [e3]
  apply list_eq_of_getD
  · rw [grid_length, hl]
  intro k hk
  rw [grid_length] at hk
  have h1 : k / 3 < b.pieces := (Nat.div_lt_iff_lt_mul (by omega)).2 hk
  have h2 : k % 3 < 3 := Nat.mod_lt _ (by omega)
  have ek : k = k / 3 * 3 + k % 3 := (Nat.div_add_mod' k 3).symm
  rw [ek, grid_get 3 b.pieces (fun i j => b.coeffs.data.getD (i * 3 + j) 0) h1 h2]

theorem init_euler {b : BaseA} (h : EulerSized b) (s : List ℕ) :
    BaseA.init b.name ⟨s, brk b⟩ 1 ⟨[1, b.pieces, 3], b.coeffs.data⟩ b.source b.prerotation = .ok b := by
  have := init_sized h.sized (o := 1) (by rw [h.order]) s
  rw [← this]
  unfold BaseA.init
  have hs := h.sized.shape
  rw [h.order, h.dim] at hs
  have h2 := h.sized.breaks
  rw [hs]
  simp only
  rw [brk_doubled h, if_neg (by omega : ¬ b.breaks.length = 1)]

theorem mapM_fst {α β γ : Type} (l : List (α × β)) (f : α → Except Error γ) (g : α × β → γ) (h : ∀ x ∈ l, f x.1 = .ok (g x)) :
    (l.map Prod.fst).mapM f = .ok (l.map g) := by
  induction l with
  | nil => rfl
  | cons x l ih =>
    rw [List.map_cons, List.mapM_cons, h x (by simp), ih (fun y hy => h y (by simp [hy]))]
    rfl

theorem lookup_nodup {β : Type} (l : List (String × β)) (h : (l.map Prod.fst).Nodup) (x : String × β) (hx : x ∈ l) : List.lookup x.1 l = some x.2 := by
  induction l with
  | nil => simp at hx
  | cons y l ih =>
    rw [List.map_cons, List.nodup_cons] at h
    obtain ⟨k, v⟩ := y
    rw [List.lookup_cons]
    rcases List.mem_cons.1 hx with rfl | hx'
    · simp
    · have hne : (x.1 == k) = false := by
        rw [beq_eq_false_iff_ne]
        intro hc
        exact h.1 (hc ▸ List.mem_map.2 ⟨x, hx', rfl⟩)
      rw [hne]
      exact ih h.2 hx'

/-- The cells of one satellite. -/
noncomputable def cellsOf (b : BaseA) : Arr × Arr × Arr × Arr :=
  (⟨[(brk b).length, 1], brk b⟩, ⟨[b.pieces, 1], lineOf b 0⟩, ⟨[b.pieces, 1], lineOf b 1⟩, ⟨[b.pieces, 1], lineOf b 2⟩)

/-- The fields of the written structure. -/
noncomputable def eulerFields (keep : Bool) (l : List (String × BaseA)) : Dict :=
  [("t_break_Euler", wcell keep (l.map fun x => (cellsOf x.2).1)), ("alpha", wcell keep (l.map fun x => (cellsOf x.2).2.1)),
      ("beta", wcell keep (l.map fun x => (cellsOf x.2).2.2.1)), ("gamma", wcell keep (l.map fun x => (cellsOf x.2).2.2.2))]

theorem saveEuler_ok (keep : Bool) (l : List (String × BaseA)) (md : Meta) (hn : (l.map Prod.fst).Nodup) (hs : md.satellites = l.map Prod.fst)
    (h : ∀ x ∈ l, EulerSized x.2) : saveEuler keep l (some md) = .ok (.struct (eulerFields keep l)) := by
  unfold saveEuler
  simp only
  rw [hs, mapM_fst l _ (fun x => cellsOf x.2)]
  · simp only [bind, Except.bind, pure, Except.pure, List.map_map]
    rfl
  · intro x hx
    rw [lookup_nodup l hn x hx]
    exact eulerCells_ok (h x hx)

theorem wcell_item (keep : Bool) (l : List Arr) (n : ℕ) (i : ℕ) (a : Arr) (hi : l[i]? = some a) (ha : 2 ≤ a.shape.length) :
    MVal.item (.cell [n] (l.map (wnum keep))) i = .ok a := by
  unfold MVal.item
  simp only
  rw [List.getElem?_map, hi]
  simp only [Option.map_some, MVal.arr, wnum, atLeast2d]
  obtain ⟨s, d⟩ := a
  match s with
  | _ :: _ :: _ => simp

theorem Varied.length {α : Type} {f : α → ℕ} {l : List α} (h : Varied f l) : l.length ≠ 1 := by
  obtain ⟨x, hx, y, hy, hne⟩ := h
  intro hl
  obtain ⟨a, rfl⟩ := List.length_eq_one_iff.1 hl
  simp only [List.mem_singleton] at hx hy
  rw [hx, hy] at hne
  exact hne rfl

theorem traverse_wcell (keep : Bool) {α : Type} (f : α → ℕ) (g : α → Arr) (l : List α) (hg : ∀ x ∈ l, (g x).shape = [f x, 1]) (h : Varied f l) :
    traverse (wcell keep (l.map g)) = .cell [l.length] ((l.map g).map (wnum keep)) := by
  have h1 := h.length
  have hw : wcell keep (l.map g) = .cell (cellShape keep l.length) ((l.map g).map (wnum keep)) := by
    obtain ⟨x, hx, y, hy, hne⟩ := h
    cases l with
    | nil => simp at hx
    | cons a r =>
      rw [List.map_cons, wcell, if_neg, ← List.map_cons, List.length_map]
      intro hc
      have key : ∀ z ∈ a :: r, f z = f a := by
        intro z hz
        rcases List.mem_cons.1 hz with rfl | hz'
        · rfl
        · have := hc (g z) (List.mem_map.2 ⟨z, hz', rfl⟩)
          rw [hg z hz, hg a (by simp)] at this
          simpa using this
      exact hne ((key x hx).trans (key y hy).symm)
  rw [hw, traverse.eq_def]
  cases keep
  · simp only [cellShape, Bool.false_eq_true, if_false]
    rw [if_neg (by simpa using h1), squeeze_pair, if_pos rfl, if_neg h1]
  · simp only [cellShape, if_true]
    rw [if_neg (by simp)]
    simp [squeezeShape, List.filter_cons, h1]

theorem euler_get (keep : Bool) (l : List (String × BaseA)) (h1 : Varied (fun x : String × BaseA => (brk x.2).length) l)
    (h2 : Varied (fun x : String × BaseA => x.2.pieces) l) :
    Dict.get (loadMatfile (eulerFields keep l)) "t_break_Euler" = .ok (.cell [l.length] ((l.map fun x => (cellsOf x.2).1).map (wnum keep))) ∧
    Dict.get (loadMatfile (eulerFields keep l)) "alpha" = .ok (.cell [l.length] ((l.map fun x => (cellsOf x.2).2.1).map (wnum keep))) ∧
    Dict.get (loadMatfile (eulerFields keep l)) "beta" = .ok (.cell [l.length] ((l.map fun x => (cellsOf x.2).2.2.1).map (wnum keep))) ∧
    Dict.get (loadMatfile (eulerFields keep l)) "gamma" = .ok (.cell [l.length] ((l.map fun x => (cellsOf x.2).2.2.2).map (wnum keep))) := by
  have e1 := traverse_wcell keep _ (fun x : String × BaseA => (cellsOf x.2).1) l (fun x _ => rfl) h1
  have e2 := traverse_wcell keep _ (fun x : String × BaseA => (cellsOf x.2).2.1) l (fun x _ => rfl) h2
  have e3 := traverse_wcell keep _ (fun x : String × BaseA => (cellsOf x.2).2.2.1) l (fun x _ => rfl) h2
  have e4 := traverse_wcell keep _ (fun x : String × BaseA => (cellsOf x.2).2.2.2) l (fun x _ => rfl) h2
  refine ⟨?_, ?_, ?_, ?_⟩
  · rw [get_load, ← e1]; rfl
  · rw [get_load, ← e2]; rfl
  · rw [get_load, ← e3]; rfl
  · rw [get_load, ← e4]; rfl

theorem eulerOf_ok (keep : Bool) (l : List (String × BaseA)) (h1 : Varied (fun x : String × BaseA => (brk x.2).length) l)
    (h2 : Varied (fun x : String × BaseA => x.2.pieces) l) (i : ℕ) (x : String × BaseA) (hi : l[i]? = some x) (h : EulerSized x.2) :
    eulerOf (loadMatfile (eulerFields keep l)) (.cell [l.length] ((l.map fun x => (cellsOf x.2).1).map (wnum keep))) i =
      .ok (⟨squeezeShape [(brk x.2).length, 1], brk x.2⟩, ⟨[1, x.2.pieces, 3], x.2.coeffs.data⟩) := by
  obtain ⟨_, g2, g3, g4⟩ := euler_get keep l h1 h2
  unfold eulerOf
  rw [g2, g3, g4]
  simp only [bind, Except.bind, pure, Except.pure]
  rw [wcell_item _ _ _ i (cellsOf x.2).1 (by simp [hi]) (by simp [cellsOf]), wcell_item _ _ _ i (cellsOf x.2).2.1 (by simp [hi]) (by simp [cellsOf]),
    wcell_item _ _ _ i (cellsOf x.2).2.2.1 (by simp [hi]) (by simp [cellsOf]), wcell_item _ _ _ i (cellsOf x.2).2.2.2 (by simp [hi]) (by simp [cellsOf])]
  beta_reduce
  dsimp only
  rw [if_neg (by simp [cellsOf])]
  simp only [cellsOf]
  rw [concat_lines h]
  rfl

theorem dictSet_new {α : Type} (d : List (String × α)) (k : String) (v : α) (h : k ∉ d.map Prod.fst) : dictSet d k v = d ++ [(k, v)] := by
  unfold dictSet
  rw [if_neg]
  simp only [List.any_eq_true, not_exists, not_and]
  intro p hp hc
  simp only [beq_iff_eq] at hc
  exact h (hc ▸ List.mem_map.2 ⟨p, hp, rfl⟩)

theorem foldlM_dict {α β : Type} (f : ℕ → Except Error α) (l : List (String × β)) (g : β → α) :
    ∀ (i0 : ℕ) (acc : List (String × α)), ((acc.map Prod.fst) ++ (l.map Prod.fst)).Nodup → (∀ i x, l[i]? = some x → f (i0 + i) = .ok (g x.2)) →
      ((l.map Prod.fst).zipIdx i0).foldlM (fun d x => do return dictSet d x.1 (← f x.2)) acc = .ok (acc ++ l.map fun x => (x.1, g x.2)) := by
  induction l with
  | nil => intro i0 acc _ _; simp; rfl
  | cons x l ih =>
    intro i0 acc hn hf
    rw [List.map_cons, List.zipIdx_cons, List.foldlM_cons]
    have h0 := hf 0 x rfl
    rw [Nat.add_zero] at h0
    simp only [h0, bind, Except.bind, pure, Except.pure]
    have hnot : x.1 ∉ acc.map Prod.fst := by
      intro hc
      rw [List.nodup_append] at hn
      exact hn.2.2 x.1 hc x.1 (by simp) rfl
    rw [dictSet_new _ _ _ hnot]
    have := ih (i0 + 1) (acc ++ [(x.1, g x.2)]) (by simpa using hn) (by
      intro i y hi
      have := hf (i + 1) y (by simpa using hi)
      rw [← this]; congr 1; omega)
    simp only [bind, Except.bind, pure, Except.pure] at this
    rw [this]
    simp

theorem loadEuler_of {keep : Bool} (l : List (String × BaseA)) (S : List String) (h1 : Varied (fun x : String × BaseA => (brk x.2).length) l)
    (h2 : Varied (fun x : String × BaseA => x.2.pieces) l) (hn : (l.map Prod.fst).Nodup)
    (hS : adjustNames S l.length = l.map Prod.fst) (h : ∀ x ∈ l, EulerSized x.2) {mat : Dict}
    (hm : Dict.get mat "model_Euler" = .ok (.struct (loadMatfile (eulerFields keep l)))) :
    loadEuler mat S = .ok (l.map Prod.fst, some (l.map fun x =>
      (x.1, (⟨squeezeShape [(brk x.2).length, 1], brk x.2⟩, ⟨[1, x.2.pieces, 3], x.2.coeffs.data⟩)))) := by
  obtain ⟨g1, _, _, _⟩ := euler_get keep l h1 h2
  unfold loadEuler
  rw [hm]
  simp only [MVal.dict, bind, Except.bind, pure, Except.pure]
  rw [g1]
  simp only [MVal.len, List.length_map]
  rw [hS]
  have := foldlM_dict (fun i => eulerOf (loadMatfile (eulerFields keep l)) (.cell [l.length] ((l.map fun x => (cellsOf x.2).1).map (wnum keep))) i) l
    (fun b => ((⟨squeezeShape [(brk b).length, 1], brk b⟩ : Arr), (⟨[1, b.pieces, 3], b.coeffs.data⟩ : Arr))) 0 [] (by simpa using hn) (by
      intro i x hi
      rw [Nat.zero_add]
      exact eulerOf_ok keep l h1 h2 i x hi (h x (List.mem_of_getElem? hi)))
  simp only [bind, Except.bind, pure, Except.pure] at this
  rw [this]
  rfl

end ChaosMagPy.Matfile
