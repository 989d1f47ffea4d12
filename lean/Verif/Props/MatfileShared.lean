import Verif.Model.MatfileShared
import Verif.Props.Matfile
/-!
# C85: a shared list of satellite names
-/
namespace ChaosMagPy.Spec

/-- The first `k` generic names after `m` given ones. -/
def genericNames (m k : ℕ) : List String := (List.range k).map fun i => s!"satellite_{m + 1 + i}"

end ChaosMagPy.Spec

namespace ChaosMagPy.Matfile
open ChaosMagPy.Spec

theorem foldl_append_names (ks : List ℕ) (l : List String) :
    ks.foldl (fun l counter => l ++ [s!"satellite_{counter}"]) l = l ++ ks.map fun k => s!"satellite_{k}" := by
  induction ks generalizing l with
  | nil => simp
  | cons k ks ih => rw [List.foldl_cons, ih]; simp

theorem range'_names (m k : ℕ) : ((List.range' (m + 1) k).map fun k => s!"satellite_{k}") = genericNames m k := by
  unfold genericNames
  rw [List.range'_eq_map_range, List.map_map]
  rfl

theorem genericNames_length (m k : ℕ) : (genericNames m k).length = k := by simp [genericNames]

theorem genericNames_append (m j k : ℕ) : genericNames m j ++ genericNames (m + j) k = genericNames m (j + k) := by
  unfold genericNames
  rw [List.range_add, List.map_append, List.map_map]
  congr 1
  apply List.map_congr_left
  intro i _
  show s!"satellite_{m + j + 1 + i}" = s!"satellite_{m + 1 + (j + i)}"
  rw [show m + j + 1 + i = m + 1 + (j + i) by omega]

theorem genericNames_take (m k n : ℕ) : (genericNames m k).take n = genericNames m (min n k) := by
  unfold genericNames
  rw [← List.map_take, List.take_range]

theorem adjustNames_eq (l : List String) (n : ℕ) : adjustNames l n = if n < l.length then l.take n else l ++ genericNames l.length (n - l.length) := by
  unfold adjustNames
  rw [range'_names]

/-- The names for a file do not depend on generic names that are already in the list. -/
theorem adjustNames_grown (l : List String) (j n : ℕ) : adjustNames (l ++ genericNames l.length j) n = adjustNames l n := by
  rw [adjustNames_eq, adjustNames_eq, List.length_append, genericNames_length]
  by_cases h1 : n < l.length
  · rw [if_pos h1, if_pos (by omega), List.take_append_of_le_length h1.le]
  · rw [if_neg h1]
    by_cases h2 : n < l.length + j
    · rw [if_pos h2, List.take_append, List.take_of_length_le (by omega), genericNames_take, min_eq_left (by omega)]
    · rw [if_neg h2, List.append_assoc, genericNames_append]
      congr 2
      omega

theorem listAfter_eq (l : List String) (file : Dict) : ∃ j, listAfter l file = l ++ genericNames l.length j := by
  unfold listAfter
  split
  · split_ifs
    · rw [foldl_append_names, range'_names]
      exact ⟨_, rfl⟩
    · exact ⟨0, by simp [genericNames]⟩
  · exact ⟨0, by simp [genericNames]⟩

theorem listAfter_grown (l : List String) (i : ℕ) (file : Dict) : ∃ j, i ≤ j ∧ listAfter (l ++ genericNames l.length i) file = l ++ genericNames l.length j := by
  obtain ⟨j, hj⟩ := listAfter_eq (l ++ genericNames l.length i) file
  refine ⟨i + j, by omega, ?_⟩
  rw [hj, List.length_append, genericNames_length, List.append_assoc, genericNames_append]

/-- With Euler angles in the file. -/
theorem load_grown (l : List String) (j : ℕ) (name : String) (file : Dict) (h : ∃ v, (loadMatfile file).get "model_Euler" = .ok v) :
    load name (some (l ++ genericNames l.length j)) file = load name (some l) file := by
  obtain ⟨v, hv⟩ := h
  have : loadEuler (loadMatfile file) (l ++ genericNames l.length j) = loadEuler (loadMatfile file) l := by
    unfold loadEuler
    rw [hv]
    simp only [adjustNames_grown]
  unfold load
  simp only [Option.getD_some, this]

/-- Without Euler angles the meta data are only stored. -/
theorem init_meta (name : String) (breaks : Arr) (order : ℕ) (tdep static sm gsm : Option Arr) (delta : Option DeltaA) (cal : Option (List (String × (Arr × Arr)))) (md : Option Meta) :
    Attr.init name breaks order tdep static sm gsm delta none cal md = (Attr.init name breaks order tdep static sm gsm delta none cal none).map fun m => { m with metaData := md } := by
  unfold Attr.init
  cases onSome tdep fun c => BaseA.init (name ++ "_tdep") breaks order c (some "internal") none with
  | error e => rfl
  | ok t =>
    cases onSome static fun c => do BaseA.init (name ++ "_static") (← ends breaks) 1 c (some "internal") none with
    | error e => rfl
    | ok s =>
      cases onSome cal initCal with
      | error e => rfl
      | ok c => rfl

/-- Without Euler angles in the file, only the names in the meta data differ. -/
theorem load_other (l l' : List String) (name : String) (file : Dict) (h : ∀ v, (loadMatfile file).get "model_Euler" ≠ .ok v) :
    (∃ e, load name (some l) file = .error e ∧ load name (some l') file = .error e) ∨
    ∃ (m : Attr) (pre : Option Arr), load name (some l) file = .ok { m with metaData := some ⟨pre, l⟩ } ∧ load name (some l') file = .ok { m with metaData := some ⟨pre, l'⟩ } := by
  have he : ∀ s, loadEuler (loadMatfile file) s = .ok (s, none) := by
    intro s
    unfold loadEuler
    cases hm : (loadMatfile file).get "model_Euler" with
    | error e => rfl
    | ok v => exact absurd hm (h v)
  unfold load
  simp only [Option.getD_some, he]
  cases loadTdep (loadMatfile file) with
  | error e => exact .inl ⟨e, rfl, rfl⟩
  | ok x =>
    obtain ⟨breaks, order, tdep⟩ := x
    cases loadStatic (loadMatfile file) with
    | error e => exact .inl ⟨e, rfl, rfl⟩
    | ok static =>
      cases loadExternal (loadMatfile file) with
      | error e => exact .inl ⟨e, rfl, rfl⟩
      | ok ext =>
        cases loadCal (loadMatfile file) with
        | error e => exact .inl ⟨e, rfl, rfl⟩
        | ok cal =>
          cases loadParams (loadMatfile file) with
          | error e => exact .inl ⟨e, rfl, rfl⟩
          | ok pre =>
            simp only [bind, Except.bind]
            rw [init_meta, init_meta (md := some ⟨pre, l'⟩)]
            cases Attr.init name breaks order (some tdep) static (ext.map (·.1)) (ext.map (·.2.1)) (ext.map (·.2.2)) none cal none with
            | error e => exact .inl ⟨e, rfl, rfl⟩
            | ok m => exact .inr ⟨m, pre, rfl, rfl⟩

/-- **C85.** Loads of any files, one after the other, with the same list of names: at the end the list is the given one followed by generic names (none removed,
none changed). -/
theorem C85_list (l : List String) (calls : List (String × Dict)) : ∃ j, (loadAll l calls).2 = l ++ genericNames l.length j := by
  have key : ∀ (calls : List (String × Dict)) (i : ℕ), ∃ j, (loadAll (l ++ genericNames l.length i) calls).2 = l ++ genericNames l.length j := by
    intro calls
    induction calls with
    | nil => exact fun i => ⟨i, rfl⟩
    | cons c calls ih =>
      intro i
      obtain ⟨name, file⟩ := c
      obtain ⟨j, -, hj⟩ := listAfter_grown l i file
      rw [loadAll, hj]
      exact ih j
  have := key calls 0
  simpa [genericNames] using this

/-- The list before each call. -/
theorem loadAll_results (l : List String) (calls : List (String × Dict)) (k : ℕ) (name : String) (file : Dict) (h : calls[k]? = some (name, file)) :
    ∃ j, (loadAll l calls).1[k]? = some (load name (some (l ++ genericNames l.length j)) file) ∧ (loadAll l (calls.take k)).2 = l ++ genericNames l.length j := by
  have key : ∀ (calls : List (String × Dict)) (k i : ℕ), calls[k]? = some (name, file) → ∃ j,
      (loadAll (l ++ genericNames l.length i) calls).1[k]? = some (load name (some (l ++ genericNames l.length j)) file) ∧
      (loadAll (l ++ genericNames l.length i) (calls.take k)).2 = l ++ genericNames l.length j := by
    intro calls
    induction calls with
    | nil => intro k i hk; simp at hk
    | cons c calls ih =>
      intro k i hk
      obtain ⟨n, f⟩ := c
      cases k with
      | zero =>
        simp only [List.getElem?_cons_zero, Option.some.injEq, Prod.mk.injEq] at hk
        obtain ⟨rfl, rfl⟩ := hk
        exact ⟨i, rfl, rfl⟩
      | succ k =>
        rw [List.getElem?_cons_succ] at hk
        obtain ⟨j, -, hj⟩ := listAfter_grown l i f
        rw [List.take_succ_cons, loadAll, loadAll, hj]
        exact ih k j hk
  have := key calls k 0 h
  simpa [genericNames] using this

/-- **C85.** In every history of loads with the same list, each file with Euler angles gives the result (a model or an exception) that it gives with a fresh copy
of the list. -/
theorem C85_history (l : List String) (calls : List (String × Dict)) (k : ℕ) (name : String) (file : Dict) (h : calls[k]? = some (name, file))
    (he : ∃ v, (loadMatfile file).get "model_Euler" = .ok v) : (loadAll l calls).1[k]? = some (load name (some l) file) := by
  obtain ⟨j, hj, -⟩ := loadAll_results l calls k name file h
  rw [hj, load_grown l j name file he]

/-- **C85** (a finding). A file without Euler angles gives the exception or the model that it gives with a fresh copy of the list, except that the names in the
meta data are those of the list as the calls before have left it. -/
theorem C85_no_euler (l : List String) (calls : List (String × Dict)) (k : ℕ) (name : String) (file : Dict) (h : calls[k]? = some (name, file))
    (he : ∀ v, (loadMatfile file).get "model_Euler" ≠ .ok v) :
    (∃ e, (loadAll l calls).1[k]? = some (.error e) ∧ load name (some l) file = .error e) ∨
    ∃ (m : Attr) (pre : Option Arr), (loadAll l calls).1[k]? = some (.ok { m with metaData := some ⟨pre, (loadAll l (calls.take k)).2⟩ }) ∧
      load name (some l) file = .ok { m with metaData := some ⟨pre, l⟩ } := by
  obtain ⟨j, hj, hl⟩ := loadAll_results l calls k name file h
  rw [hj, hl]
  rcases load_other l (l ++ genericNames l.length j) name file he with ⟨e, h1, h2⟩ | ⟨m, pre, h1, h2⟩
  · exact .inl ⟨e, by rw [h2], h1⟩
  · exact .inr ⟨m, pre, by rw [h2], h1⟩

/-- **C85** (failure). A file whose time-dependent, static or external part cannot be read raises an exception and leaves the list as it is. -/
theorem C85_early (l : List String) (name : String) (file : Dict)
    (h : (∃ e, loadTdep (loadMatfile file) = .error e) ∨ (∃ e, loadStatic (loadMatfile file) = .error e) ∨ ∃ e, loadExternal (loadMatfile file) = .error e) :
    listAfter l file = l ∧ ∃ e, load name (some l) file = .error e := by
  unfold listAfter eulerReached load
  simp only [bind, Except.bind]
  cases h1 : loadTdep (loadMatfile file) with
  | error e => exact ⟨by first | rfl | simp [h1] | simp [h1, h2] | simp [h1, h2, h3], e, by first | rfl | simp [h1] | simp [h1, h2] | simp [h1, h2, h3]⟩
  | ok x =>
    cases h2 : loadStatic (loadMatfile file) with
    | error e => exact ⟨by first | rfl | simp [h1] | simp [h1, h2] | simp [h1, h2, h3], e, by first | rfl | simp [h1] | simp [h1, h2] | simp [h1, h2, h3]⟩
    | ok static =>
      cases h3 : loadExternal (loadMatfile file) with
      | error e => exact ⟨by first | rfl | simp [h1] | simp [h1, h2] | simp [h1, h2, h3], e, by first | rfl | simp [h1] | simp [h1, h2] | simp [h1, h2, h3]⟩
      | ok ext =>
        exfalso
        rcases h with ⟨e, h⟩ | ⟨e, h⟩ | ⟨e, h⟩
        · rw [h1] at h; cases h
        · rw [h2] at h; cases h
        · rw [h3] at h; cases h

/-- **C85** (growth). A file that is loaded completely leaves the list with as many names as it has satellites, or unchanged if there are enough. -/
theorem C85_growth (l : List String) (name : String) (file : Dict) (m : Attr) (e : List (String × BaseA)) (md : Meta)
    (h : load name (some l) file = .ok m) (he : m.euler = some e) (hm : m.metaData = some md) :
    listAfter l file = l ++ genericNames l.length (md.satellites.length - l.length) ∧ md.satellites = (listAfter l file).take md.satellites.length := by
  unfold load at h
  simp only [Option.getD_some] at h
  obtain ⟨⟨breaks, order, tdep⟩, h1, h⟩ := bind_ok.1 h
  obtain ⟨static, h2, h⟩ := bind_ok.1 h
  obtain ⟨ext, h3, h⟩ := bind_ok.1 h
  obtain ⟨⟨names, euler⟩, h4, h⟩ := bind_ok.1 h
  obtain ⟨cal, -, h⟩ := bind_ok.1 h
  obtain ⟨pre, -, h⟩ := bind_ok.1 h
  have hinit : m.metaData = some ⟨pre, names⟩ ∧ (euler = none → m.euler = none) := by
    unfold Attr.init at h
    obtain ⟨t, -, h⟩ := bind_ok.1 h
    obtain ⟨s, -, h⟩ := bind_ok.1 h
    obtain ⟨e', h5, h⟩ := bind_ok.1 h
    obtain ⟨c, -, h⟩ := bind_ok.1 h
    simp only [pure, Except.pure, Except.ok.injEq] at h
    subst h
    refine ⟨rfl, ?_⟩
    rintro rfl
    simp only [onSome] at h5
    injection h5 with h5
    exact h5.symm
  rw [hinit.1] at hm
  injection hm with hm
  subst hm
  unfold loadEuler at h4
  cases hv : (loadMatfile file).get "model_Euler" with
  | error e' =>
    rw [hv] at h4
    injection h4 with h4
    injection h4 with _ h4
    rw [hinit.2 h4.symm] at he
    cases he
  | ok v =>
    rw [hv] at h4
    simp only at h4
    obtain ⟨d, g1, h4⟩ := bind_ok.1 h4
    obtain ⟨b, g2, h4⟩ := bind_ok.1 h4
    obtain ⟨n, g3, h4⟩ := bind_ok.1 h4
    obtain ⟨r, -, h4⟩ := bind_ok.1 h4
    simp only [pure, Except.pure, Except.ok.injEq, Prod.mk.injEq] at h4
    obtain ⟨rfl, -⟩ := h4
    have hr : eulerReached file = .ok (some n) := by
      unfold eulerReached
      simp only [h1, h2, h3, hv, g1, g2, g3, bind, Except.bind, pure, Except.pure]
    have hl : listAfter l file = l ++ genericNames l.length (n - l.length) := by
      unfold listAfter
      rw [hr]
      simp only
      split_ifs with hn
      · rw [foldl_append_names, range'_names]
      · rw [show n - l.length = 0 by omega]
        simp [genericNames]
    simp only [adjustNames_length]
    rw [hl]
    refine ⟨rfl, ?_⟩
    rw [adjustNames_eq]
    by_cases hn : n < l.length
    · rw [if_pos hn, List.take_append_of_le_length hn.le]
    · rw [if_neg hn, List.take_of_length_le]
      rw [List.length_append, genericNames_length]
      omega

end ChaosMagPy.Matfile
