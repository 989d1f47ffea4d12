import Verif.Props.Matfile
import Verif.Props.PPoly
/-!
# C58 and C59: files that cannot be loaded, and Euler angles
-/
namespace ChaosMagPy.Matfile

/-! ### What cannot be loaded -/

theorem load_ok {name : String} {sats : Option (List String)} {file : Dict} {m : Attr} (h : load name sats file = .ok m) :
    ∃ br o c st ext names eul cal pre, loadTdep (loadMatfile file) = .ok (br, o, c) ∧ loadStatic (loadMatfile file) = .ok st ∧
      loadExternal (loadMatfile file) = .ok ext ∧ loadEuler (loadMatfile file) (sats.getD defaultSatellites) = .ok (names, eul) ∧
      loadCal (loadMatfile file) = .ok cal ∧ loadParams (loadMatfile file) = .ok pre ∧ onSome eul (initEuler (some ⟨pre, names⟩)) = .ok m.euler ∧
      m.metaData = some ⟨pre, names⟩ ∧ (∃ t, m.tdep = some t) := by
  unfold load at h
  obtain ⟨⟨br, o, c⟩, h1, h⟩ := bind_ok.1 h
  obtain ⟨st, h2, h⟩ := bind_ok.1 h
  obtain ⟨ext, h3, h⟩ := bind_ok.1 h
  obtain ⟨⟨names, eul⟩, h4, h⟩ := bind_ok.1 h
  obtain ⟨cal, h5, h⟩ := bind_ok.1 h
  obtain ⟨pre, h6, h⟩ := bind_ok.1 h
  unfold Attr.init at h
  obtain ⟨mt, k1, h⟩ := bind_ok.1 h
  obtain ⟨ms, k2, h⟩ := bind_ok.1 h
  obtain ⟨me, k3, h⟩ := bind_ok.1 h
  obtain ⟨mc, k4, h⟩ := bind_ok.1 h
  simp only [pure, Except.pure, Except.ok.injEq] at h
  subst h
  obtain ⟨hbad, _⟩ | ⟨_, t, _, _, rfl⟩ := onSome_ok k1
  · cases hbad
  exact ⟨br, o, c, st, ext, names, eul, cal, pre, h1, h2, h3, h4, h5, h6, k3, rfl, t, rfl⟩

/-- The variables of a saved file. -/
theorem save_file {keep : Bool} {noneArr : Option Arr} {m : Attr} {file : Dict} (h : save keep noneArr m = .ok file) :
    ∃ a b c d e g, file = fileOf a b c d e g ∧ onSome m.tdep (toPP keep) = .ok a ∧ onSome m.delta (fun d => saveExternal keep d m.sm m.gsm) = .ok b ∧
      onSome (truthy m.euler) (fun e => saveEuler keep e m.metaData) = .ok c ∧ onSome (truthy m.cal) (saveCal keep) = .ok d ∧
      onSome m.static (fun s => .ok (wnum keep s.coeffs.column)) = .ok e ∧
      onSome m.metaData (fun d => (.ok (.struct [("Euler_prerotation", prerotationValue keep noneArr d)]) : Except Error MVal)) = .ok g := by
  have hw : ∀ {k : String} {v : Except Error (Option MVal)} {f : Dict}, writeIf k v = .ok f → ∃ o, v = .ok o ∧ f = part k o := by
    intro k v f hf
    cases v with
    | error e => cases hf
    | ok o => rw [writeIf_ok] at hf; cases hf; exact ⟨o, rfl, rfl⟩
  unfold save at h
  obtain ⟨f1, h1, h⟩ := bind_ok.1 h
  obtain ⟨f2, h2, h⟩ := bind_ok.1 h
  obtain ⟨f3, h3, h⟩ := bind_ok.1 h
  obtain ⟨f4, h4, h⟩ := bind_ok.1 h
  obtain ⟨f5, h5, h⟩ := bind_ok.1 h
  obtain ⟨f6, h6, h⟩ := bind_ok.1 h
  obtain ⟨a, a1, rfl⟩ := hw h1
  obtain ⟨b, b1, rfl⟩ := hw h2
  obtain ⟨c, c1, rfl⟩ := hw h3
  obtain ⟨d, d1, rfl⟩ := hw h4
  obtain ⟨e, e1, rfl⟩ := hw h5
  obtain ⟨g, g1, rfl⟩ := hw h6
  simp only [pure, Except.pure, Except.ok.injEq] at h
  exact ⟨a, b, c, d, e, g, h.symm, a1, b1, c1, d1, e1, g1⟩

theorem mapM_length {α β : Type} (f : α → Except Error β) : ∀ (l : List α) (r : List β), l.mapM f = .ok r → r.length = l.length := by
  intro l
  induction l with
  | nil => intro r h; cases h; rfl
  | cons x l ih =>
    intro r h
    rw [List.mapM_cons] at h
    obtain ⟨a, _, h⟩ := bind_ok.1 h
    obtain ⟨r', hr, h⟩ := bind_ok.1 h
    cases h
    simp [ih r' hr]

/-- **C58.** A file without the time-dependent part is refused with a KeyError; in particular a saved model without time-dependent part
cannot be loaded again. -/
theorem C58_needs_tdep (name : String) (sats : Option (List String)) :
    (∀ file : Dict, (∀ v, ("pp", v) ∉ file) → load name sats file = .error .keyError) ∧
    ∀ (keep : Bool) (noneArr : Option Arr) (m : Attr) (file : Dict), m.tdep = none → save keep noneArr m = .ok file → load name sats file = .error .keyError := by
  have key : ∀ file : Dict, List.lookup "pp" file = none → load name sats file = .error .keyError := by
    intro file h
    have h1 : loadTdep (loadMatfile file) = .error .keyError := by
      unfold loadTdep
      rw [get_load, get_eq, h]
      rfl
    unfold load
    simp only [bind, Except.bind]
    rw [h1]
  refine ⟨fun file h => key file ?_, fun keep noneArr m file ht hs => key file ?_⟩
  · rw [List.lookup_eq_none_iff]
    rintro ⟨k, v⟩ hm
    simp only [bne_iff_ne, ne_eq]
    rintro rfl
    exact h v hm
  · obtain ⟨a, b, c, d, e, g, rfl, h1, _⟩ := save_file hs
    rw [ht] at h1
    cases h1
    unfold fileOf
    simp only [List.lookup_append, part_lookup]
    simp

/-- **C58, finding.** Euler angles can only be loaded together with the prerotation angles, although a missing prerotation is provided for: without
them `None` is indexed (TypeError). -/
theorem C58_prerotation_required (name : String) (sats : Option (List String)) (file : Dict) (m : Attr) (l : List (String × BaseA))
    (h : load name sats file = .ok m) (hl : m.euler = some l) (hne : l ≠ []) :
    ∃ v f p, ("params", v) ∈ file ∧ traverse v = .struct f ∧ Dict.get f "Euler_prerotation" = .ok p ∧ p ≠ .null := by
  obtain ⟨br, o, c, st, ext, names, eul, cal, pre, _, _, _, _, _, h6, h7, _, _⟩ := load_ok h
  have hpre : ∃ p, pre = some p := by
    obtain ⟨_, hbad⟩ | ⟨l1, l2, _, hi, hb⟩ := onSome_ok h7
    · rw [hl] at hbad; cases hbad
    · rw [hl] at hb
      cases hb
      obtain ⟨x, hx⟩ := List.exists_mem_of_ne_nil l hne
      obtain ⟨i, hi'⟩ := List.getElem?_of_mem hx
      obtain ⟨_, _, p, _, hp, _⟩ := (initEuler_form hi).2 i x hi'
      exact ⟨p, hp⟩
  obtain ⟨p, rfl⟩ := hpre
  unfold loadParams at h6
  split at h6
  · cases h6
  · rename_i w hv
    obtain ⟨f, hf, h2⟩ := bind_ok.1 h6
    have hv2 : w = .struct f := by
      cases w <;> simp [MVal.dict] at hf
      rw [hf]
    subst hv2
    rw [get_load] at hv
    have hmem : ∃ v, Dict.get file "params" = .ok v ∧ traverse v = .struct f := by
      cases hg : Dict.get file "params" with
      | error e => rw [hg] at hv; cases hv
      | ok v => rw [hg] at hv; simp only [Except.map, Except.ok.injEq] at hv; exact ⟨v, rfl, hv⟩
    obtain ⟨v, hg, ht⟩ := hmem
    have hin : ("params", v) ∈ file := by
      rw [get_eq] at hg
      cases hlk : List.lookup "params" file with
      | none => rw [hlk] at hg; cases hg
      | some x =>
        rw [hlk] at hg
        cases hg
        obtain ⟨l1, l2, rfl, _⟩ := List.lookup_eq_some_iff.1 hlk
        simp
    split at h2
    · cases h2
    · cases h2
    · rename_i q hq hne2
      exact ⟨v, f, q, hin, ht, hne2, fun hc => hq hc⟩

/-- **C58, finding.** Calibration parameters of a saved model come back only if the model has exactly one calibrated satellite, and only if the shape
of the cell array is read as 1x1; otherwise the saved file cannot be loaded. -/
theorem C58_calibration (keep : Bool) (noneArr : Option Arr) (m : Attr) (file : Dict) (l : List (String × BaseA)) (hl : m.cal = some l) (hne : l ≠ [])
    (hbad : keep = true ∨ l.length ≠ 1) (hs : save keep noneArr m = .ok file) (name : String) (sats : Option (List String)) (m' : Attr) :
    load name sats file ≠ .ok m' := by
  intro h
  obtain ⟨br, o, c, st, ext, names, eul, cal, pre, _, _, _, _, h5, _⟩ := load_ok h
  obtain ⟨a, b, c, d, e, g, rfl, _, _, _, h4, _⟩ := save_file hs
  obtain ⟨_, _, _, g4, _⟩ := file_get a b c d e g
  have htr : truthy m.cal = some l := by
    rw [hl]
    cases l with
    | nil => exact absurd rfl hne
    | cons _ _ => rfl
  rw [htr] at h4
  obtain ⟨h, _⟩ | ⟨l', v, hl', hv, rfl⟩ := onSome_ok h4
  · cases h
  cases hl'
  unfold saveCal at hv
  obtain ⟨r, hr, hv⟩ := bind_ok.1 hv
  simp only [pure, Except.pure, Except.ok.injEq] at hv
  subst hv
  have hlen : r.length = l.length := mapM_length _ _ _ hr
  have ht : ∃ s, traverse (.cell (cellShape keep r.length) r) = .cell s r := by
    rw [traverse.eq_def]
    have hne1 : cellShape keep r.length ≠ [1, 1] := by
      unfold cellShape
      rcases hbad with rfl | hb
      · simp
      · cases keep
        · simpa [hlen] using hb
        · simp
    simp only
    rw [if_neg hne1]
    exact ⟨_, rfl⟩
  obtain ⟨s, ht⟩ := ht
  rw [Option.map_some, ht] at g4
  unfold loadCal at h5
  rw [g4] at h5
  cases h5

/-- **C58, finding.** A model whose offsets q11, s11 have a single interval can be saved, but the file cannot be loaded: the 1x2 array is squeezed to a
vector and then indexed with two indices. -/
theorem C58_single_interval (keep : Bool) (noneArr : Option Arr) (m : Attr) (file : Dict) (d : DeltaA) (hd : m.delta = some d)
    (h1 : d.q11.data.length = 1) (hs : save keep noneArr m = .ok file) (name : String) (sats : Option (List String)) (m' : Attr) :
    load name sats file ≠ .ok m' := by
  intro h
  obtain ⟨br, o, c, st, ext, names, eul, cal, pre, _, _, h3, _⟩ := load_ok h
  obtain ⟨a, b, c, d', e, g, rfl, _, h2, _⟩ := save_file hs
  obtain ⟨_, g2, _⟩ := file_get a b c d' e g
  rw [hd] at h2
  obtain ⟨hx, _⟩ | ⟨dd, v, hx, hv, rfl⟩ := onSome_ok h2
  · cases hx
  cases hx
  have hform : ∃ sm gsm, d.q11.data.length = d.s11.data.length ∧ v = .struct (extFields keep d sm gsm) := by
    by_cases hq : d.q11.data.length = d.s11.data.length
    · cases hsm : m.sm with
      | none => rw [hsm] at hv; unfold saveExternal stack2 at hv; rw [if_pos hq] at hv; cases hv
      | some sm =>
        cases hgsm : m.gsm with
        | none =>
          rw [hsm, hgsm] at hv; unfold saveExternal stack2 at hv; rw [if_pos hq] at hv
          simp only [bind, Except.bind] at hv
          split_ifs at hv <;> cases hv
        | some gsm =>
          rw [hsm, hgsm] at hv
          by_cases h3 : 3 ≤ sm.data.length
          · by_cases h4 : 4 ≤ gsm.data.length
            · rw [saveExternal_ok keep d sm gsm hq h3 h4] at hv
              cases hv
              exact ⟨sm, gsm, hq, rfl⟩
            · unfold saveExternal stack2 at hv; rw [if_pos hq] at hv
              simp only [bind, Except.bind] at hv
              rw [if_neg (by omega), if_pos (by omega)] at hv
              cases hv
          · unfold saveExternal stack2 at hv; rw [if_pos hq] at hv
            simp only [bind, Except.bind] at hv
            rw [if_pos (by omega)] at hv
            cases hv
    · unfold saveExternal stack2 at hv
      rw [if_neg hq] at hv
      cases hv
  obtain ⟨sm, gsm, hq, rfl⟩ := hform
  rw [Option.map_some, traverse_struct] at g2
  obtain ⟨q1, q2, q3, q4, q5, q6, q7⟩ := ext_get keep d sm gsm
  rw [h1] at q7
  unfold loadExternal at h3
  rw [g2] at h3
  simp only [orKey, MVal.dict] at h3
  obtain ⟨x0, e0, h3⟩ := bind_ok.1 h3
  cases e0
  obtain ⟨x1, _, h3⟩ := bind_ok.1 h3
  obtain ⟨x2, _, h3⟩ := bind_ok.1 h3
  obtain ⟨x3, _, h3⟩ := bind_ok.1 h3
  obtain ⟨x4, _, h3⟩ := bind_ok.1 h3
  obtain ⟨x5, _, h3⟩ := bind_ok.1 h3
  obtain ⟨x6, _, h3⟩ := bind_ok.1 h3
  obtain ⟨x7, _, h3⟩ := bind_ok.1 h3
  obtain ⟨x8, _, h3⟩ := bind_ok.1 h3
  obtain ⟨x9, e9, h3⟩ := bind_ok.1 h3
  obtain ⟨c0, e10, h3⟩ := bind_ok.1 h3
  rw [q7] at e9
  cases e9
  simp only [Arr.col, squeezeShape] at e10
  simp at e10

/-! ### Satellites with equally many intervals -/

theorem flatMap_block {α β : Type} (f : α → List β) (k : ℕ) : ∀ (l : List α) (i : ℕ) (x : α), (∀ y ∈ l, (f y).length = k) → l[i]? = some x →
    ((l.flatMap f).drop (i * k)).take k = f x := by
  intro l
  induction l with
  | nil => intro i x _ h; simp at h
  | cons a l ih =>
    intro i x hk h
    rw [List.flatMap_cons]
    have ha : (f a).length = k := hk a (by simp)
    cases i with
    | zero =>
      simp only [List.getElem?_cons_zero, Option.some.injEq] at h
      subst h
      simp [← ha]
    | succ i =>
      have e : (f a ++ l.flatMap f).drop ((i + 1) * k) = (l.flatMap f).drop (i * k) := by
        rw [show (i + 1) * k = (f a).length + i * k by rw [ha]; ring, ← List.drop_drop]
        simp
      rw [e]
      exact ih i x (fun y hy => hk y (by simp [hy])) (by simpa using h)

theorem scalar_wnum (keep : Bool) (x : ℝ) : MVal.scalar (wnum keep ⟨[], [x]⟩) = .ok x := by
  cases keep <;> rfl

theorem mapM_scalar (keep : Bool) (l : List ℝ) : (l.map fun x => wnum keep ⟨[], [x]⟩).mapM MVal.scalar = .ok l := by
  induction l with
  | nil => rfl
  | cons x l ih => rw [List.map_cons, List.mapM_cons, scalar_wnum, ih]; rfl

/-- Items of a cell array that was written for arrays of equal shape. -/
theorem wcell_equal_item (keep : Bool) {α : Type} (g : α → Arr) (l : List α) (k : ℕ) (h2 : 2 ≤ l.length) (hk : 2 ≤ k)
    (hg : ∀ x ∈ l, (g x).shape = [k, 1]) (hd : ∀ x ∈ l, (g x).data.length = k) :
    ∃ items, traverse (wcell keep (l.map g)) = .cell [l.length, k] items ∧ ∀ i x, l[i]? = some x → MVal.item (.cell [l.length, k] items) i = .ok ⟨[k], (g x).data⟩ := by
  cases l with
  | nil => simp at h2
  | cons a r =>
    have hw : wcell keep ((a :: r).map g) = .cell ((a :: r).length :: [k, 1]) (((a :: r).map g).flatMap fun b => b.data.map fun x => wnum keep ⟨[], [x]⟩) := by
      rw [List.map_cons, wcell, if_pos]
      · rw [hg a (by simp), ← List.map_cons, List.length_map]
      · intro b hb
        obtain ⟨x, hx, rfl⟩ := List.mem_map.1 hb
        rw [hg x (by simp [hx]), hg a (by simp)]
    refine ⟨((a :: r).map g).flatMap fun b => b.data.map fun x => wnum keep ⟨[], [x]⟩, ?_, ?_⟩
    · rw [hw, traverse.eq_def]
      simp only
      rw [if_neg (by simp)]
      have : squeezeShape ((a :: r).length :: [k, 1]) = [(a :: r).length, k] := by
        simp only [squeezeShape, List.filter_cons]
        have : (a :: r).length ≠ 1 := by omega
        have : k ≠ 1 := by omega
        simp_all
      rw [this]
    · intro i x hx
      have hi : i < (a :: r).length := (List.getElem?_eq_some_iff.1 hx).1
      unfold MVal.item
      simp only
      rw [if_pos hi]
      have hblk := flatMap_block (fun x => (g x).data.map fun y => wnum keep ⟨[], [y]⟩) k (a :: r) i x
        (fun y hy => by rw [List.length_map]; exact hd y hy) hx
      have hprod : [k].prod = k := by simp
      rw [hprod, List.flatMap_map, hblk, mapM_scalar]
      rfl

/-- **C58, finding.** If all satellites (at least two) have the same number of intervals (at least two), the file is written and read without an
error, but the loaded arrays of Euler angles have the shape `(1, 3k)` instead of `(1, k, 3)`. -/
theorem C58_equal_intervals (keep : Bool) (noneArr : Option Arr) (name : String) (t : BaseA) (ht : TdepFits name t) (l : List (String × BaseA)) (k : ℕ)
    (h2 : 2 ≤ l.length) (hk : 2 ≤ k) (hn : (l.map Prod.fst).Nodup)
    (hl : ∀ x ∈ l, EulerSized x.2 ∧ x.2.pieces = k ∧ PPoly.first x.2.breaks ≠ PPoly.last x.2.breaks)
    (pre : Arr) (hsq : pre.squeeze = pre) (hpre : ∀ i < l.length, ∃ row, pre.index i = .ok row) :
    ∃ file m' l', save keep noneArr ⟨name, some t, none, none, none, none, some l, none, some ⟨some pre, l.map Prod.fst⟩⟩ = .ok file ∧
      load name (some (l.map Prod.fst)) file = .ok m' ∧ m'.euler = some l' ∧ l'.map Prod.fst = l.map Prod.fst ∧
      ∀ x ∈ l', x.2.coeffs.shape = [1, 3 * k] := by
  have hsz : ∀ x ∈ l, EulerSized x.2 := fun x hx => (hl x hx).1
  have hbl : ∀ x ∈ l, (brk x.2).length = k + 1 := by
    intro x hx
    obtain ⟨h1, h3, h4⟩ := hl x hx
    unfold brk
    rw [if_neg h4]
    have := h1.sized.breaks
    unfold BaseA.pieces at h3
    omega
  have hline : ∀ (x : String × BaseA) (j : ℕ), x ∈ l → (lineOf x.2 j).length = k := by
    intro x j hx
    unfold lineOf
    rw [List.length_map, List.length_range]
    exact (hl x hx).2.1
  -- the file
  have e1 : onSome (some t) (toPP keep) = .ok (some (.struct (ppFields keep t))) := by
    unfold onSome; simp only; rw [toPP_sized keep ht.sized]; rfl
  have htr : truthy (some l) = some l := by
    cases l with
    | nil => simp at h2
    | cons _ _ => rfl
  have e3 : onSome (truthy (some l)) (fun e => saveEuler keep e (some ⟨some pre, l.map Prod.fst⟩)) = .ok (some (.struct (eulerFields keep l))) := by
    rw [htr]; unfold onSome; simp only; rw [saveEuler_ok keep l ⟨some pre, l.map Prod.fst⟩ hn rfl hsz]; rfl
  have hsave : save keep noneArr ⟨name, some t, none, none, none, none, some l, none, some ⟨some pre, l.map Prod.fst⟩⟩ =
      .ok (fileOf (some (.struct (ppFields keep t))) none (some (.struct (eulerFields keep l))) none none
        (some (.struct [("Euler_prerotation", prerotationValue keep noneArr ⟨some pre, l.map Prod.fst⟩)]))) := by
    unfold save
    simp only [e1, e3]
    simp only [onSome, truthy, writeIf_ok, bind, Except.bind, pure, Except.pure, Except.map]
    rfl
  obtain ⟨g1, g2, g3, g4, g5, g6⟩ := file_get (some (.struct (ppFields keep t))) none (some (.struct (eulerFields keep l))) none none
    (some (.struct [("Euler_prerotation", prerotationValue keep noneArr ⟨some pre, l.map Prod.fst⟩)]))
  rw [Option.map_some, traverse_struct] at g1 g3 g6
  -- Euler angles
  obtain ⟨i1, w1, v1⟩ := wcell_equal_item keep (fun x : String × BaseA => (cellsOf x.2).1) l (k + 1) h2 (by omega)
    (fun x hx => by simp only [cellsOf]; rw [hbl x hx]) (fun x hx => by simp only [cellsOf]; rw [hbl x hx])
  obtain ⟨i2, w2, v2⟩ := wcell_equal_item keep (fun x : String × BaseA => (cellsOf x.2).2.1) l k h2 hk
    (fun x hx => by simp only [cellsOf]; rw [(hl x hx).2.1]) (fun x hx => by simp only [cellsOf]; rw [hline x 0 hx])
  obtain ⟨i3, w3, v3⟩ := wcell_equal_item keep (fun x : String × BaseA => (cellsOf x.2).2.2.1) l k h2 hk
    (fun x hx => by simp only [cellsOf]; rw [(hl x hx).2.1]) (fun x hx => by simp only [cellsOf]; rw [hline x 1 hx])
  obtain ⟨i4, w4, v4⟩ := wcell_equal_item keep (fun x : String × BaseA => (cellsOf x.2).2.2.2) l k h2 hk
    (fun x hx => by simp only [cellsOf]; rw [(hl x hx).2.1]) (fun x hx => by simp only [cellsOf]; rw [hline x 2 hx])
  have x1 : Dict.get (loadMatfile (eulerFields keep l)) "t_break_Euler" = .ok (.cell [l.length, k + 1] i1) := by rw [get_load, ← w1]; rfl
  have x2 : Dict.get (loadMatfile (eulerFields keep l)) "alpha" = .ok (.cell [l.length, k] i2) := by rw [get_load, ← w2]; rfl
  have x3 : Dict.get (loadMatfile (eulerFields keep l)) "beta" = .ok (.cell [l.length, k] i3) := by rw [get_load, ← w3]; rfl
  have x4 : Dict.get (loadMatfile (eulerFields keep l)) "gamma" = .ok (.cell [l.length, k] i4) := by rw [get_load, ← w4]; rfl
  have hof : ∀ i x, l[i]? = some x → eulerOf (loadMatfile (eulerFields keep l)) (.cell [l.length, k + 1] i1) i =
      .ok ((⟨[k + 1], brk x.2⟩ : Arr), (⟨[1, (lineOf x.2 0).length + (lineOf x.2 1).length + (lineOf x.2 2).length], lineOf x.2 0 ++ lineOf x.2 1 ++ lineOf x.2 2⟩ : Arr)) := by
    intro i x hx
    have y1 := v1 i x hx
    have y2 := v2 i x hx
    have y3 := v3 i x hx
    have y4 := v4 i x hx
    unfold eulerOf
    rw [x2, x3, x4]
    simp only [bind, Except.bind, pure, Except.pure]
    rw [y1, y2, y3, y4]
    beta_reduce
    dsimp only
    rw [if_neg (by simp)]
    simp only [concat3, cellsOf, Arr.squeeze, squeezeShape]
    have : k + 1 ≠ 1 := by omega
    simp [this]
    omega
  have hE : loadEuler (loadMatfile (fileOf (some (.struct (ppFields keep t))) none (some (.struct (eulerFields keep l))) none none
      (some (.struct [("Euler_prerotation", prerotationValue keep noneArr ⟨some pre, l.map Prod.fst⟩)])))) (l.map Prod.fst) =
      .ok (l.map Prod.fst, some (l.map fun x => (x.1, ((⟨[k + 1], brk x.2⟩ : Arr),
        (⟨[1, (lineOf x.2 0).length + (lineOf x.2 1).length + (lineOf x.2 2).length], lineOf x.2 0 ++ lineOf x.2 1 ++ lineOf x.2 2⟩ : Arr))))) := by
    unfold loadEuler
    rw [g3]
    simp only [orKey, MVal.dict, bind, Except.bind, pure, Except.pure]
    rw [x1]
    simp only [MVal.len]
    have hadj : adjustNames (l.map Prod.fst) l.length = l.map Prod.fst := by
      have := adjustNames_self (l.map Prod.fst)
      rwa [List.length_map] at this
    rw [hadj]
    have := foldlM_dict (fun i => eulerOf (loadMatfile (eulerFields keep l)) (.cell [l.length, k + 1] i1) i) l
      (fun b => ((⟨[k + 1], brk b⟩ : Arr), (⟨[1, (lineOf b 0).length + (lineOf b 1).length + (lineOf b 2).length], lineOf b 0 ++ lineOf b 1 ++ lineOf b 2⟩ : Arr))) 0 []
      (by simpa using hn) (by intro i x hi; rw [Nat.zero_add]; exact hof i x hi)
    simp only [bind, Except.bind, pure, Except.pure] at this
    rw [this]
    rfl
  -- construction
  have hI : ∃ l', initEuler (some ⟨some pre, l.map Prod.fst⟩) (l.map fun x => (x.1, ((⟨[k + 1], brk x.2⟩ : Arr),
        (⟨[1, (lineOf x.2 0).length + (lineOf x.2 1).length + (lineOf x.2 2).length], lineOf x.2 0 ++ lineOf x.2 1 ++ lineOf x.2 2⟩ : Arr)))) = .ok l' ∧
      ∀ x ∈ l', x.2.coeffs.shape = [1, 3 * k] := by
    have hpre' : ∀ i : ℕ, ∃ row, i < l.length → pre.index i = .ok row := by
      intro i
      by_cases hi : i < l.length
      · obtain ⟨r, hr⟩ := hpre i hi; exact ⟨r, fun _ => hr⟩
      · exact ⟨⟨[], []⟩, fun h => absurd h hi⟩
    choose row hrow using hpre'
    unfold initEuler
    refine ⟨(l.zipIdx).map fun x => (x.1.1, ⟨x.1.1, brk x.1.2, 1, ⟨[1, 3 * k], lineOf x.1.2 0 ++ lineOf x.1.2 1 ++ lineOf x.1.2 2⟩, none, some (row x.2)⟩), ?_, ?_⟩
    · rw [List.zipIdx_map]
      have hmap : ∀ {α β : Type} (f : β → Except Error (String × BaseA)) (g : α → β) (l : List α), (l.map g).mapM f = l.mapM (f ∘ g) := by
        intro α β f g l; rw [List.mapM_map]
      rw [hmap]
      have hall : ∀ (q : List ((String × BaseA) × ℕ)) (F : (String × BaseA) × ℕ → Except Error (String × BaseA)) (G : (String × BaseA) × ℕ → String × BaseA),
          (∀ y ∈ q, F y = .ok (G y)) → q.mapM F = .ok (q.map G) := by
        intro q F G hq
        induction q with
        | nil => rfl
        | cons y q ih => rw [List.mapM_cons, hq y (by simp), ih (fun z hz => hq z (by simp [hz]))]; rfl
      apply hall
      rintro ⟨x, i⟩ hx
      have hx' : l[i]? = some x := by
        have := List.mem_zipIdx_iff_getElem?.1 hx
        simpa using this
      have hm : x ∈ l := List.mem_of_getElem? hx'
      have hi : i < l.length := (List.getElem?_eq_some_iff.1 hx').1
      simp only [Function.comp, Prod.map, id]
      simp only [prerotationRow, hrow i hi, bind, Except.bind, pure, Except.pure]
      unfold BaseA.init
      have e1 : ¬ (brk x.2).length = 1 := by rw [hbl x hm]; omega
      simp only [hline x 0 hm, hline x 1 hm, hline x 2 hm, hbl x hm]
      rw [if_neg (by omega)]
      simp only [min_self]
      simp
      omega
    · intro x hx
      obtain ⟨y, _, rfl⟩ := List.mem_map.1 hx
      rfl
  obtain ⟨l', hI1, hI2⟩ := hI
  have hPm : loadParams (loadMatfile (fileOf (some (.struct (ppFields keep t))) none (some (.struct (eulerFields keep l))) none none
      (some (.struct [("Euler_prerotation", prerotationValue keep noneArr ⟨some pre, l.map Prod.fst⟩)])))) = .ok (some pre) :=
    loadParams_of keep ⟨some pre, l.map Prod.fst⟩ (Or.inl ⟨pre, rfl, hsq⟩) g6
  have n2 : loadExternal (loadMatfile (fileOf (some (.struct (ppFields keep t))) none (some (.struct (eulerFields keep l))) none none
      (some (.struct [("Euler_prerotation", prerotationValue keep noneArr ⟨some pre, l.map Prod.fst⟩)])))) = .ok none := by
    unfold loadExternal; rw [g2]; rfl
  have n4 : loadCal (loadMatfile (fileOf (some (.struct (ppFields keep t))) none (some (.struct (eulerFields keep l))) none none
      (some (.struct [("Euler_prerotation", prerotationValue keep noneArr ⟨some pre, l.map Prod.fst⟩)])))) = .ok none := by
    unfold loadCal; rw [g4]; rfl
  have n5 : loadStatic (loadMatfile (fileOf (some (.struct (ppFields keep t))) none (some (.struct (eulerFields keep l))) none none
      (some (.struct [("Euler_prerotation", prerotationValue keep noneArr ⟨some pre, l.map Prod.fst⟩)])))) = .ok none := by
    unfold loadStatic; rw [g5]; rfl
  refine ⟨_, ⟨name, some t, none, none, none, none, some l', none, some ⟨some pre, l.map Prod.fst⟩⟩, l', hsave, ?_, rfl, ?_, hI2⟩
  · unfold load
    simp only [bind, Except.bind]
    rw [loadTdep_sized ht.sized g1, n5, n2, Option.getD_some, hE, n4, hPm]
    simp only
    unfold Attr.init
    have hti := init_sized ht.sized (o := t.order) le_rfl [t.breaks.length]
    rw [ht.name, ht.source, ht.prerotation] at hti
    have e7 : onSome (some t.coeffs) (fun c => BaseA.init (name ++ "_tdep") ⟨[t.breaks.length], t.breaks⟩ t.order c (some "internal") none) =
        .ok (some t) := by
      unfold onSome; simp only; rw [hti]; rfl
    rw [e7]
    simp only [onSome, bind, Except.bind, pure, Except.pure, Except.map, hI1, Option.map_none]
  · have := (initEuler_form hI1).1
    rw [this, List.map_map]
    rfl

/-! ### Euler angles -/

/-- **C59.** Unknown satellites are refused with a ValueError; a model without Euler angles raises a TypeError. -/
theorem C59_unknown (m : Attr) (times : List ℝ) (satellite : String) (dim deriv : Option ℕ) (e : Option PPoly.Extrap) :
    (m.euler = none → synthEuler m times satellite dim deriv e = .error .typeError) ∧
    (∀ l, m.euler = some l → satellite ∉ l.map Prod.fst → synthEuler m times satellite dim deriv e = .error .valueError) := by
  refine ⟨fun h => by unfold synthEuler; rw [h], fun l h hn => ?_⟩
  have : List.lookup satellite l = none := by
    rw [List.lookup_eq_none_iff]
    rintro ⟨k, b⟩ hk
    simp only [bne_iff_ne, ne_eq]
    intro hc
    exact hn (List.mem_map.2 ⟨(k, b), hk, hc.symm⟩)
  unfold synthEuler
  rw [h]
  simp only
  rw [this]

theorem euler_proper {b : BaseA} (h : EulerSized b) (hx : PPoly.Ascending b.breaks) : PPoly.Proper b.base (fun i j d =>
    b.coeffs.data.getD ((i * (b.coeffs.shape.getD 1 0) + j) * b.dim + d) 0) := by
  refine ⟨rfl, ?_, ?_, hx.sorted, hx.span⟩
  · show 0 < b.order; rw [h.order]; omega
  · show 0 < b.dim; rw [h.dim]; omega

theorem euler_piece {b : BaseA} (h : EulerSized b) (j d : ℕ) :
    PPoly.piece b.base (fun i j d => b.coeffs.data.getD ((i * (b.coeffs.shape.getD 1 0) + j) * b.dim + d) 0) j d =
      fun _ => b.coeffs.data.getD (3 * j + d) 0 := by
  funext t
  unfold PPoly.piece Spec.poly
  have : b.base.order = 1 := h.order
  rw [this, h.dim]
  simp [mul_comm]

/-- **C59.** The Euler angles of a satellite are constant on the intervals of its break points: at a time of the interval `j` (the last one closed)
the result is row `j` of the stored angles. -/
theorem C59_angles (m : Attr) (l : List (String × BaseA)) (satellite : String) (b : BaseA) (hl : m.euler = some l)
    (hnd : (l.map Prod.fst).Nodup) (hb : (satellite, b) ∈ l) (h : EulerSized b) (hx : PPoly.Ascending b.breaks) (times : List ℝ) (hne : times ≠ [])
    (e : Option PPoly.Extrap) (hk : PPoly.Known (PPoly.option e) ∨ ¬ PPoly.Outside b.base times) :
    ∃ rows, synthEuler m times satellite none none e = .ok (3, rows) ∧ rows.length = times.length ∧
      ∀ (i : ℕ) (t : ℝ) (j : ℕ), times[i]? = some t → PPoly.IsPiece b.breaks j t →
        ∃ v : ℕ → ℝ, rows[i]? = some (some v) ∧ ∀ d < 3, v d = b.coeffs.data.getD (3 * j + d) 0 := by
  have hp := euler_proper h hx
  obtain ⟨rows, h1, h2, h3⟩ := PPoly.C26_inside hp times none none e hne hk
  have hlk : List.lookup satellite l = some b := lookup_nodup l hnd (satellite, b) hb
  have hdim : PPoly.columns b.base none = 3 := h.dim
  rw [hdim] at h1
  refine ⟨rows, ?_, h2, fun i t j hi hj => ?_⟩
  · unfold synthEuler; rw [hl]; simp only; rw [hlk]; simp only; rw [h1]
  · by_cases ht : t < PPoly.last b.breaks
    · obtain ⟨v, hv, hd⟩ := h3 i t j hi hj ht
      refine ⟨v, hv, fun d _ => ?_⟩
      rw [hd d, euler_piece h]
      simp [PPoly.dOrder]
    · have hj2 : t = PPoly.last b.breaks ∧ j + 2 = b.breaks.length := by
        rcases hj.2 with hc | hc
        · exfalso
          have hlt : t < PPoly.last b.breaks := by
            have hle : b.breaks.getD (j + 1) 0 ≤ PPoly.last b.breaks := by
              rw [PPoly.last_eq b.breaks (by intro hc; rw [hc] at hj; simp [PPoly.IsPiece] at hj)]
              exact hx.sorted (j + 1) (b.breaks.length - 1) (by have := hj.1; omega) (by have := hj.1; omega)
            exact lt_of_lt_of_le hc.2 hle
          exact ht hlt
        · exact hc
      obtain ⟨rows', v, k1, k2, k3⟩ := PPoly.C26_end hp times none none e hk (Or.inl rfl) i (by show times[i]? = some (PPoly.last b.breaks); rw [← hj2.1]; exact hi)
      rw [hdim, h1] at k1
      cases k1
      refine ⟨v, k2, fun d _ => ?_⟩
      rw [k3 d, euler_piece h]
      have hjj : b.base.breaks.length - 2 = j := by show b.breaks.length - 2 = j; omega
      rw [hjj]
      simp [PPoly.dOrder]

/-- **C59.** Outside of the break points every option that extrapolates gives the angles of the first or last interval. -/
theorem C59_outside (m : Attr) (l : List (String × BaseA)) (satellite : String) (b : BaseA) (hl : m.euler = some l)
    (hnd : (l.map Prod.fst).Nodup) (hb : (satellite, b) ∈ l) (h : EulerSized b) (hx : PPoly.Ascending b.breaks) (times : List ℝ)
    (e : Option PPoly.Extrap) (hk : PPoly.Known (PPoly.option e)) (hpos : 0 < PPoly.documentedOrder 1 (PPoly.option e)) (i : ℕ) (t : ℝ)
    (hi : times[i]? = some t) (j : ℕ) (ht : (t < PPoly.first b.breaks ∧ j = 0) ∨ (PPoly.last b.breaks < t ∧ j + 2 = b.breaks.length)) :
    ∃ rows v, synthEuler m times satellite none none e = .ok (3, rows) ∧ rows[i]? = some (some v) ∧
      ∀ d < 3, v d = b.coeffs.data.getD (3 * j + d) 0 := by
  have hp := euler_proper h hx
  have hord : b.base.order = 1 := h.order
  have hlk : List.lookup satellite l = some b := lookup_nodup l hnd (satellite, b) hb
  have hdim : PPoly.columns b.base none = 3 := h.dim
  have hN : ∃ x, PPoly.NearEnd b.base t x j := by
    rcases ht with ⟨h1, rfl⟩ | ⟨h1, h2⟩
    · refine ⟨PPoly.first b.breaks, Or.inl ⟨h1, rfl, ?_⟩⟩
      have h2 := hx.1
      refine ⟨by show 0 + 1 < b.breaks.length; omega, Or.inl ⟨?_, ?_⟩⟩
      · rw [PPoly.first_eq]; exact le_rfl
      · rw [PPoly.first_eq]; exact hx.lt 0 1 (by omega) (by omega)
    · exact ⟨PPoly.last b.breaks, Or.inr ⟨h1, rfl, by show j = b.breaks.length - 2; omega⟩⟩
  obtain ⟨x, hN⟩ := hN
  have hK : PPoly.documentedOrder b.base.order (PPoly.option e) = 1 := by
    have := PPoly.documentedOrder_le 1 (PPoly.option e)
    rw [hord]
    omega
  obtain ⟨rows, v, h1, h2, h3⟩ := PPoly.outside_row hp times none none e hk (by rw [hK]; norm_num) i t x j hi hN
  rw [hdim] at h1
  refine ⟨rows, v, ?_, h2, fun d _ => ?_⟩
  · unfold synthEuler; rw [hl]; simp only; rw [hlk]; simp only; rw [h1]
  · rw [h3 d, hK, euler_piece h]
    simp [PPoly.dOrder]

/-- **C59** (rates and truncation). With `dim` only the first angles are returned; time derivatives vanish inside the model interval. -/
theorem C59_rates (m : Attr) (l : List (String × BaseA)) (satellite : String) (b : BaseA) (hl : m.euler = some l)
    (hnd : (l.map Prod.fst).Nodup) (hb : (satellite, b) ∈ l) (h : EulerSized b) (hx : PPoly.Ascending b.breaks) (times : List ℝ) (hne : times ≠ [])
    (dim deriv : Option ℕ) (e : Option PPoly.Extrap) (hk : PPoly.Known (PPoly.option e) ∨ ¬ PPoly.Outside b.base times) :
    ∃ rows, synthEuler m times satellite dim deriv e = .ok (min (dim.getD 3) 3, rows) ∧ rows.length = times.length ∧
      ∀ (i : ℕ) (t : ℝ) (j : ℕ), times[i]? = some t → PPoly.IsPiece b.breaks j t → t < PPoly.last b.breaks →
        ∃ v : ℕ → ℝ, rows[i]? = some (some v) ∧ ∀ d < 3, v d = if deriv.getD 0 = 0 then b.coeffs.data.getD (3 * j + d) 0 else 0 := by
  have hp := euler_proper h hx
  obtain ⟨rows, h1, h2, h3⟩ := PPoly.C26_inside hp times dim deriv e hne hk
  have hlk : List.lookup satellite l = some b := lookup_nodup l hnd (satellite, b) hb
  have hd3 : b.base.dim = 3 := h.dim
  have hdim : PPoly.columns b.base dim = min (dim.getD 3) 3 := by
    unfold PPoly.columns
    cases dim with
    | none => simp [hd3]
    | some n => simp only [hd3, Option.getD_some]; split_ifs <;> omega
  rw [hdim] at h1
  refine ⟨rows, ?_, h2, fun i t j hi hj ht => ?_⟩
  · unfold synthEuler; rw [hl]; simp only; rw [hlk]; simp only; rw [h1]
  · obtain ⟨v, hv, hd⟩ := h3 i t j hi hj ht
    refine ⟨v, hv, fun d _ => ?_⟩
    rw [hd d, euler_piece h]
    have : PPoly.dOrder deriv = deriv.getD 0 := rfl
    rw [this]
    by_cases h0 : deriv.getD 0 = 0
    · rw [if_pos h0, h0]; simp
    · rw [if_neg h0]
      obtain ⟨q, hq⟩ := Nat.exists_eq_succ_of_ne_zero h0
      rw [hq]
      simp [iteratedDeriv_const]

/-! ### Names of the satellites, optional parts -/

theorem adjustNames_get (S : List String) (n : ℕ) : (adjustNames S n).length = n ∧ ∀ i < n, (adjustNames S n)[i]? = some ((S[i]?).getD s!"satellite_{i + 1}") := by
  unfold adjustNames
  split_ifs with h
  · refine ⟨by simp; omega, fun i hi => ?_⟩
    rw [List.getElem?_take_of_lt hi, List.getElem?_eq_getElem (by omega : i < S.length)]
    rfl
  · refine ⟨by simp; omega, fun i hi => ?_⟩
    by_cases hi' : i < S.length
    · rw [List.getElem?_append_left hi', List.getElem?_eq_getElem hi']
      rfl
    · rw [List.getElem?_append_right (by omega), List.getElem?_map, List.getElem?_range' (by omega), List.getElem?_eq_none (by omega : S.length ≤ i)]
      simp only [Option.map_some, Option.getD_none, one_mul]
      rw [show S.length + 1 + (i - S.length) = i + 1 by omega]

/-- **C58** (names). The satellites of a loaded model are named by the given names in order (by default the documented list); if the file has
more satellites, number `i` is called `satellite_i`. -/
theorem C58_names (name : String) (sats : Option (List String)) (file : Dict) (m : Attr) (l : List (String × BaseA))
    (h : load name sats file = .ok m) (hl : m.euler = some l) :
    ∃ md e b, m.metaData = some md ∧ Dict.get (loadMatfile file) "model_Euler" = .ok (.struct e) ∧ Dict.get e "t_break_Euler" = .ok b ∧
      b.len = .ok md.satellites.length ∧ (md.satellites.Nodup → l.map Prod.fst = md.satellites) ∧
      ∀ i < md.satellites.length, md.satellites[i]? = some (((sats.getD defaultSatellites)[i]?).getD s!"satellite_{i + 1}") := by
  obtain ⟨br, o, c, st, ext, names, eul, cal, pre, _, _, _, h4, _, _, h7, h8, _⟩ := load_ok h
  obtain ⟨_, hbad⟩ | ⟨l1, l2, rfl, hi, hb⟩ := onSome_ok h7
  · rw [hl] at hbad; cases hbad
  rw [hl] at hb
  cases hb
  have hfst := (initEuler_form hi).1
  obtain ⟨hbad, _⟩ | ⟨l', hr, hnames, hnd⟩ := loadEuler_form h4
  · cases hbad
  cases hr
  unfold loadEuler at h4
  split at h4
  · cases h4
  · rename_i v hv
    obtain ⟨e, he, h4⟩ := bind_ok.1 h4
    obtain ⟨b, hb, h4⟩ := bind_ok.1 h4
    obtain ⟨n, hn, h4⟩ := bind_ok.1 h4
    obtain ⟨a, _, h4⟩ := bind_ok.1 h4
    simp only [pure, Except.pure, Except.ok.injEq, Prod.mk.injEq] at h4
    obtain ⟨h5, _⟩ := h4
    obtain ⟨hlen, hget⟩ := adjustNames_get (sats.getD defaultSatellites) n
    have hv' : v = .struct e := by
      cases v with
      | struct f => cases he; rfl
      | null => cases he
      | num a => cases he
      | cell s i => cases he
    rw [h5] at hlen hget
    refine ⟨⟨pre, names⟩, e, b, h8, by rw [hv, hv'], hb, by rw [hlen]; exact hn, ?_, ?_⟩
    · intro hd
      rw [hfst]
      exact hnd hd
    · intro i hi
      exact hget i (by rw [← hlen]; exact hi)

/-- **C58** (optional parts). A file with nothing but the time-dependent part, and one with parameters but no prerotation, is loaded; the other
parts of the model are then missing. -/
theorem C58_optional (keep : Bool) (noneArr : Option Arr) (name : String) (t : BaseA) (ht : TdepFits name t) (sats : Option (List String)) :
    ∃ file, save keep noneArr ⟨name, some t, none, none, none, none, none, none, none⟩ = .ok file ∧
      load name sats file = .ok ⟨name, some t, none, none, none, none, none, none, some ⟨none, sats.getD defaultSatellites⟩⟩ ∧
      ∀ p : Dict, (∀ v, ("Euler_prerotation", v) ∉ p) →
        load name sats (file ++ [("params", .struct p)]) = .ok ⟨name, some t, none, none, none, none, none, none, some ⟨none, sats.getD defaultSatellites⟩⟩ := by
  have e1 : onSome (some t) (toPP keep) = .ok (some (.struct (ppFields keep t))) := by
    unfold onSome; simp only; rw [toPP_sized keep ht.sized]; rfl
  have hsave : save keep noneArr ⟨name, some t, none, none, none, none, none, none, none⟩ =
      .ok (fileOf (some (.struct (ppFields keep t))) none none none none none) := by
    unfold save
    simp only [e1]
    simp only [onSome, truthy, writeIf_ok, bind, Except.bind, pure, Except.pure, Except.map]
    rfl
  have hload : ∀ g : Option MVal, loadParams (loadMatfile (fileOf (some (.struct (ppFields keep t))) none none none none g)) = .ok none →
      load name sats (fileOf (some (.struct (ppFields keep t))) none none none none g) =
        .ok ⟨name, some t, none, none, none, none, none, none, some ⟨none, sats.getD defaultSatellites⟩⟩ := by
    intro g hP
    obtain ⟨g1, g2, g3, g4, g5, g6⟩ := file_get (some (.struct (ppFields keep t))) none none none none g
    rw [Option.map_some, traverse_struct] at g1
    have n2 : loadExternal (loadMatfile (fileOf (some (.struct (ppFields keep t))) none none none none g)) = .ok none := by
      unfold loadExternal; rw [g2]; rfl
    have n3 : ∀ S, loadEuler (loadMatfile (fileOf (some (.struct (ppFields keep t))) none none none none g)) S = .ok (S, none) := by
      intro S; unfold loadEuler; rw [g3]; rfl
    have n4 : loadCal (loadMatfile (fileOf (some (.struct (ppFields keep t))) none none none none g)) = .ok none := by
      unfold loadCal; rw [g4]; rfl
    have n5 : loadStatic (loadMatfile (fileOf (some (.struct (ppFields keep t))) none none none none g)) = .ok none := by
      unfold loadStatic; rw [g5]; rfl
    unfold load
    simp only [bind, Except.bind]
    rw [loadTdep_sized ht.sized g1, n5, n2, n3, n4, hP]
    simp only
    unfold Attr.init
    have hti := init_sized ht.sized (o := t.order) le_rfl [t.breaks.length]
    rw [ht.name, ht.source, ht.prerotation] at hti
    have e7 : onSome (some t.coeffs) (fun c => BaseA.init (name ++ "_tdep") ⟨[t.breaks.length], t.breaks⟩ t.order c (some "internal") none) =
        .ok (some t) := by
      unfold onSome; simp only; rw [hti]; rfl
    simp only [bind, Except.bind, pure, Except.pure]
    rw [e7]
    rfl
  refine ⟨_, hsave, hload none ?_, fun p hp => ?_⟩
  · obtain ⟨g1, g2, g3, g4, g5, g6⟩ := file_get (some (.struct (ppFields keep t))) none none none none none
    unfold loadParams; rw [g6]; rfl
  · have : fileOf (some (.struct (ppFields keep t))) none none none none none ++ [("params", .struct p)] =
        fileOf (some (.struct (ppFields keep t))) none none none none (some (.struct p)) := by
      unfold fileOf part
      rfl
    rw [this]
    apply hload
    obtain ⟨g1, g2, g3, g4, g5, g6⟩ := file_get (some (.struct (ppFields keep t))) none none none none (some (.struct p))
    rw [Option.map_some, traverse_struct] at g6
    unfold loadParams
    rw [g6]
    simp only [orKey, MVal.dict, bind, Except.bind, pure, Except.pure]
    have hn : List.lookup "Euler_prerotation" p = none := by
      rw [List.lookup_eq_none_iff]
      rintro ⟨k, v⟩ hk
      simp only [bne_iff_ne, ne_eq]
      rintro rfl
      exact hp v hk
    rw [get_load, get_eq, hn]
    rfl

/-! ### A model that satisfies the hypotheses -/

/-- A time-dependent part: linear splines on two intervals, degree one. -/
def exTdep : BaseA := ⟨"M_tdep", [0, 1, 2], 2, ⟨[2, 2, 3], [1, 2, 3, 4, 5, 6, 7, 8, 9, 10, 11, 12]⟩, some "internal", none⟩

/-- A static part of degree one. -/
def exStatic : BaseA := ⟨"M_static", [0, 2], 1, ⟨[1, 1, 3], [7, 8, 9]⟩, some "internal", none⟩

/-- The offsets of the external field on two intervals. -/
def exDelta : DeltaA := ⟨⟨[3], [0, 1, 2]⟩, ⟨[3], [0, 1, 3]⟩, ⟨[3], [0, 1, 3]⟩, ⟨[1, 2], [1, 2]⟩, ⟨[1, 2], [3, 4]⟩, ⟨[1, 2], [5, 6]⟩⟩

/-- Euler angles of a satellite with one interval. -/
def exA : BaseA := ⟨"a", [0, 1], 1, ⟨[1, 1, 3], [1, 2, 3]⟩, none, some ⟨[3], [1, 0, 0]⟩⟩

/-- Euler angles of a satellite with two intervals. -/
def exB : BaseA := ⟨"b", [0, 1, 2], 1, ⟨[1, 2, 3], [1, 2, 3, 4, 5, 6]⟩, none, some ⟨[3], [0, 1, 0]⟩⟩

/-- Satellites and prerotation. -/
def exMeta : Meta := ⟨some ⟨[2, 3], [1, 0, 0, 0, 1, 0]⟩, ["a", "b"]⟩

/-- Calibration parameters on two intervals. -/
def exCal : BaseA := ⟨"cryosat-2_1", [0, 1, 2], 1, ⟨[1, 2, 9], List.replicate 18 1⟩, none, none⟩

/-- A model with all parts. -/
def exModel : Attr := ⟨"M", some exTdep, some exStatic, some ⟨[3], [1, 2, 3]⟩, some ⟨[8], [1, 0, 0, 2, 0, 0, 0, 0]⟩, some exDelta,
  some [("a", exA), ("b", exB)], some [("cryosat-2_1", exCal)], some exMeta⟩

theorem exA_sized : EulerSized exA :=
  ⟨⟨le_rfl, by simp [exA], rfl, rfl⟩, rfl, rfl, fun _ => rfl⟩

theorem exB_sized : EulerSized exB :=
  ⟨⟨le_rfl, by simp [exB], rfl, rfl⟩, rfl, rfl, by simp [exB, PPoly.first, PPoly.last]⟩

theorem ex_varied : Varied (fun x : String × BaseA => storedBreaks x.2) [("a", exA), ("b", exB)] ∧
    Varied (fun x : String × BaseA => x.2.pieces) [("a", exA), ("b", exB)] := by
  refine ⟨⟨("a", exA), by simp, ("b", exB), by simp, ?_⟩, ⟨("a", exA), by simp, ("b", exB), by simp, ?_⟩⟩
  · simp [storedBreaks, exA, exB, PPoly.first, PPoly.last]
  · simp [BaseA.pieces, exA, exB]

/-- The hypotheses of `C58_roundtrip` hold for a model with all parts. -/
theorem ex_storable : Storable false none exModel exMeta where
  metaData := rfl
  pre := Or.inl ⟨⟨[2, 3], [1, 0, 0, 0, 1, 0]⟩, rfl, rfl⟩
  tdep := ⟨exTdep, rfl, ⟨⟨by simp [exTdep], by simp [exTdep], rfl, rfl⟩, by simp [exTdep, exModel], rfl, rfl⟩⟩
  static := by
    intro s hs
    cases hs
    exact ⟨exTdep, rfl, ⟨by simp [exStatic, exTdep, PPoly.first, PPoly.last], rfl, rfl, by simp [exStatic, exModel], rfl, rfl⟩⟩
  external := Or.inr ⟨exDelta, _, _, rfl, rfl, rfl, rfl, by simp [exDelta], rfl, by simp, by simp⟩
  euler := by
    refine Or.inr ⟨[("a", exA), ("b", exB)], ⟨[2, 3], [1, 0, 0, 0, 1, 0]⟩, rfl, rfl, by simp [exMeta], rfl, rfl, ex_varied.1, ex_varied.2, ?_⟩
    intro i x hx
    match i, hx with
    | 0, hx => cases hx; exact ⟨exA_sized, rfl, rfl, ⟨[3], [1, 0, 0]⟩, rfl, rfl⟩
    | 1, hx => cases hx; exact ⟨exB_sized, rfl, rfl, ⟨[3], [0, 1, 0]⟩, rfl, rfl⟩
    | i + 2, hx => simp at hx
  cal := Or.inr ⟨exCal, rfl, rfl, ⟨le_rfl, by simp [exCal], rfl, rfl⟩, rfl, rfl, rfl, rfl, rfl⟩

theorem ex_plain : Plain exModel where
  gsm := by rintro g hg; cases hg; exact ⟨rfl, 1, 2, rfl⟩
  delta := by rintro d hd; cases hd; exact ⟨rfl, rfl, rfl, rfl, rfl, rfl⟩

/-- Saving and loading the model gives the same model. -/
example : ∃ file, save false none exModel = .ok file ∧ load "M" (some ["a", "b"]) file = .ok exModel :=
  C58_exact false none exModel exMeta ex_storable ex_plain

/-- The hypotheses of `C58_reload` hold for that file. -/
theorem ex_consistent : ∃ file m, load "M" (some ["a", "b"]) file = .ok m ∧ Consistent false none m := by
  obtain ⟨f, _, h⟩ := C58_exact false none exModel exMeta ex_storable ex_plain
  refine ⟨f, exModel, h, ?_, ?_, ?_, ?_, ?_, ?_⟩
  · intro b hb; cases hb; exact ⟨by simp [exTdep], by simp [exTdep], rfl, rfl⟩
  · intro a ha; cases ha; exact ⟨rfl, by simp⟩
  · intro d hd; cases hd; exact ⟨rfl, rfl, by simp [exDelta]⟩
  · intro l md hl hm
    cases hl
    cases hm
    refine ⟨by simp [exMeta], ?_, ex_varied⟩
    intro x hx
    rcases List.mem_cons.1 hx with rfl | hx
    · exact exA_sized
    · rcases List.mem_singleton.1 hx with rfl
      exact exB_sized
  · intro l hl; cases hl
    refine ⟨rfl, fun x hx => ?_⟩
    rcases List.mem_singleton.1 hx with rfl
    exact ⟨le_rfl, by simp [exCal], rfl, rfl⟩
  · intro md hm; cases hm; exact Or.inl (by simp [exMeta])

/-- The hypotheses of the theorems on Euler angles hold for the second satellite. -/
example : ∃ rows, synthEuler exModel [1 / 2] "b" none none none = .ok (3, rows) ∧
    ∃ v : ℕ → ℝ, rows[0]? = some (some v) ∧ v 0 = 1 ∧ v 1 = 2 ∧ v 2 = 3 := by
  have hasc : PPoly.Ascending exB.breaks := by
    refine ⟨by simp [exB], fun j hj => ?_⟩
    have : j = 0 ∨ j = 1 := by simp [exB] at hj; omega
    rcases this with rfl | rfl <;> simp [exB]
  obtain ⟨rows, h1, _, h3⟩ := C59_angles exModel _ "b" exB rfl (by simp) (by simp) exB_sized hasc [1 / 2] (by simp) none
    (Or.inr (by simp [PPoly.Outside, exB, BaseA.base, PPoly.first, PPoly.last]; norm_num))
  obtain ⟨v, h4, h5⟩ := h3 0 (1 / 2) 0 rfl (by simp [PPoly.IsPiece, exB]; norm_num)
  exact ⟨rows, h1, v, h4, by simpa [exB] using h5 0, by simpa [exB] using h5 1, by simpa [exB] using h5 2⟩

end ChaosMagPy.Matfile
