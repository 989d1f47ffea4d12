import Verif.Lemmas.Matfile
/-!
# C58: models in MAT-files
-/
namespace ChaosMagPy.Matfile

/-! ### Variables of the written file -/

/-- A variable of the file, if the part exists. -/
def part (key : String) (v : Option MVal) : Dict :=
  match v with
  | none => []
  | some v => [(key, v)]

theorem writeIf_ok (key : String) (v : Option MVal) : writeIf key (.ok v) = .ok (part key v) := by
  cases v <;> rfl

theorem part_lookup (key k : String) (v : Option MVal) : List.lookup k (part key v) = if k = key then v else none := by
  cases v with
  | none => simp [part]
  | some v =>
    by_cases h : k = key
    · simp [part, h]
    · have : (k == key) = false := by simpa using h
      simp [part, List.lookup_cons, h, this]

/-- The whole file. -/
def fileOf (a b c d e g : Option MVal) : Dict := part "pp" a ++ part "model_ext" b ++ part "model_Euler" c ++ part "pp_CAL" d ++ part "g" e ++ part "params" g

/-- A value or a missing key. -/
def orKey (v : Option MVal) : Except Error MVal :=
  match v with
  | some v => .ok v
  | none => .error .keyError

theorem get_eq (d : Dict) (k : String) : Dict.get d k = orKey (List.lookup k d) := by
  unfold Dict.get orKey
  cases List.lookup k d <;> rfl

theorem file_get (a b c d e g : Option MVal) :
    Dict.get (loadMatfile (fileOf a b c d e g)) "pp" = orKey (a.map traverse) ∧
    Dict.get (loadMatfile (fileOf a b c d e g)) "model_ext" = orKey (b.map traverse) ∧
    Dict.get (loadMatfile (fileOf a b c d e g)) "model_Euler" = orKey (c.map traverse) ∧
    Dict.get (loadMatfile (fileOf a b c d e g)) "pp_CAL" = orKey (d.map traverse) ∧
    Dict.get (loadMatfile (fileOf a b c d e g)) "g" = orKey (e.map traverse) ∧
    Dict.get (loadMatfile (fileOf a b c d e g)) "params" = orKey (g.map traverse) := by
  have key : ∀ o : Option MVal, (orKey o).map traverse = orKey (o.map traverse) := by intro o; cases o <;> rfl
  have ho : ∀ o : Option MVal, o.or none = o := by intro o; cases o <;> rfl
  have ho' : ∀ o : Option MVal, (none : Option MVal).or o = o := fun o => rfl
  refine ⟨?_, ?_, ?_, ?_, ?_, ?_⟩ <;>
  · rw [get_load, get_eq, key]
    unfold fileOf
    simp only [List.lookup_append, part_lookup]
    simp [ho, ho']

/-! ### The static part, prerotation and calibration -/

theorem ends_ok (n : ℕ) (l : List ℝ) (h : 2 ≤ l.length) : ends ⟨[n], l⟩ = .ok ⟨[2], [PPoly.first l, PPoly.last l]⟩ := by
  unfold ends
  rw [if_neg (by intro hc; simp only at hc; rw [hc] at h; simp at h)]

theorem init_static {name : String} {t b : BaseA} (h : StaticFits name t b) :
    BaseA.init (name ++ "_static") ⟨[2], [PPoly.first t.breaks, PPoly.last t.breaks]⟩ 1 b.coeffs (some "internal") none = .ok b := by
  obtain ⟨h1, h2, h3, h4, h5, h6⟩ := h
  obtain ⟨n, br, o, c, s, p⟩ := b
  simp only at h1 h2 h3 h4 h5 h6
  subst h1 h2 h4 h5 h6
  obtain ⟨sh, d⟩ := c
  simp only at h3
  subst h3
  unfold BaseA.init
  simp

theorem squeeze_squeeze (a : Arr) : a.squeeze.squeeze = a.squeeze := by
  unfold Arr.squeeze squeezeShape
  simp

theorem loadParams_of {mat : Dict} {noneArr : Option Arr} (keep : Bool) (md : Meta)
    (h : (∃ a, md.prerotation = some a ∧ a.squeeze = a) ∨ (md.prerotation = none ∧ noneArr = none))
    (hm : Dict.get mat "params" = .ok (.struct (loadMatfile [("Euler_prerotation", prerotationValue keep noneArr md)]))) :
    loadParams mat = .ok md.prerotation := by
  unfold loadParams
  rw [hm]
  simp only [MVal.dict, bind, Except.bind, pure, Except.pure]
  rw [get_load]
  have e : Dict.get [("Euler_prerotation", prerotationValue keep noneArr md)] "Euler_prerotation" = .ok (prerotationValue keep noneArr md) := rfl
  rw [e]
  simp only [Except.map]
  rcases h with ⟨a, ha, hs⟩ | ⟨ha, hn⟩
  · have e2 : prerotationValue keep noneArr md = wnum keep a := by unfold prerotationValue; rw [ha]
    rw [e2, traverse_wnum, hs, ha]
    rfl
  · have e2 : prerotationValue keep noneArr md = .null := by unfold prerotationValue; rw [ha, hn]
    rw [e2, traverse_null, ha]

theorem mapM_zipIdx {α β : Type} (f : α × ℕ → Except Error β) (l : List α) (g : α → β) :
    ∀ i0, (∀ i x, l[i]? = some x → f (x, i0 + i) = .ok (g x)) → (l.zipIdx i0).mapM f = .ok (l.map g) := by
  induction l with
  | nil => intro i0 _; rfl
  | cons x l ih =>
    intro i0 h
    have h0 := h 0 x rfl
    rw [Nat.add_zero] at h0
    rw [List.zipIdx_cons, List.mapM_cons, h0, ih (i0 + 1)]
    · rfl
    · intro i y hy
      have := h (i + 1) y (by simpa using hy)
      rw [← this]
      congr 2
      omega

theorem brk_length (b : BaseA) : (brk b).length = storedBreaks b := by
  unfold brk storedBreaks
  split_ifs <;> rfl

theorem initEuler_ok (md : Meta) (l : List (String × BaseA)) (pre : Arr) (hp : md.prerotation = some pre)
    (h : ∀ i x, l[i]? = some x → EulerSized x.2 ∧ x.2.name = x.1 ∧ x.2.source = none ∧ ∃ row, pre.index i = .ok row ∧ x.2.prerotation = some row) :
    initEuler (some md) (l.map fun x => (x.1, ((⟨squeezeShape [(brk x.2).length, 1], brk x.2⟩ : Arr), (⟨[1, x.2.pieces, 3], x.2.coeffs.data⟩ : Arr)))) =
      .ok l := by
  unfold initEuler
  rw [List.zipIdx_map]
  have hmap : ∀ {α β : Type} (f : β → Except Error (String × BaseA)) (g : α → β) (l : List α), (l.map g).mapM f = l.mapM (f ∘ g) := by
    intro α β f g l; rw [List.mapM_map]
  rw [hmap]
  rw [mapM_zipIdx _ l id 0]
  · simp
  intro i x hi
  obtain ⟨h1, h2, h3, row, h4, h5⟩ := h i x hi
  simp only [Function.comp, Prod.map, id, Nat.zero_add]
  unfold prerotationRow
  simp only [hp, h4, bind, Except.bind, pure, Except.pure]
  have := init_euler h1 (squeezeShape [(brk x.2).length, 1])
  rw [h2, h3, h5] at this
  rw [this]

theorem adjustNames_self (S : List String) : adjustNames S S.length = S := by
  unfold adjustNames
  simp

/-- Saving succeeds, and the file that is read back. -/
theorem roundtrip_gen (keep : Bool) (noneArr : Option Arr) (m : Attr) (md : Meta) (h : Storable keep noneArr m md) (sats : Option (List String))
    (h0 : m.euler = none → sats.getD defaultSatellites = md.satellites)
    (h1 : ∀ l, m.euler = some l → adjustNames (sats.getD defaultSatellites) l.length = md.satellites) :
    ∃ file, save keep noneArr m = .ok file ∧ load m.name sats file = .ok (asStored m) := by
  obtain ⟨hmd, hpre, ⟨t, ht, hfit⟩, hstatic, hext, heuler, hcal⟩ := h
  -- the parts of the file
  have e1 : onSome m.tdep (toPP keep) = .ok (some (.struct (ppFields keep t))) := by
    rw [ht]; unfold onSome; simp only; rw [toPP_sized keep hfit.sized]; rfl
  obtain ⟨fext, e2, l2⟩ : ∃ f : Option MVal, onSome m.delta (fun d => saveExternal keep d m.sm m.gsm) = .ok f ∧
      ∀ mat : Dict, Dict.get mat "model_ext" = orKey (f.map traverse) → ∃ r, loadExternal mat = .ok r ∧ r.map (·.1) = (asStored m).sm ∧
        r.map (·.2.1) = (asStored m).gsm ∧ r.map (·.2.2) = (asStored m).delta := by
    rcases hext with ⟨a, b, c⟩ | ⟨d, sm, gsm, a, b, c, q1, q2, q3, q4, q5⟩
    · refine ⟨none, by rw [a]; rfl, fun mat hm => ⟨none, ?_, ?_, ?_, ?_⟩⟩
      · unfold loadExternal; rw [hm]; rfl
      · simp [asStored, b]
      · simp [asStored, c]
      · simp [asStored, a]
    · refine ⟨some (.struct (extFields keep d sm gsm)), ?_, fun mat hm => ?_⟩
      · rw [a, b, c]; unfold onSome; simp only; rw [saveExternal_ok keep d sm gsm q1 q4 q5]; rfl
      · rw [Option.map_some, traverse_struct] at hm
        refine ⟨_, loadExternal_of d sm gsm q1 q2 q4 hm, ?_, ?_, ?_⟩
        · simp only [asStored, b, Option.map_some]; rw [← q3]
        · simp [asStored, c]
        · simp [asStored, a, DeltaA.stored]
  obtain ⟨feul, e3, l3⟩ : ∃ f : Option MVal, onSome (truthy m.euler) (fun e => saveEuler keep e m.metaData) = .ok f ∧
      ∀ mat : Dict, Dict.get mat "model_Euler" = orKey (f.map traverse) → ∃ r, loadEuler mat (sats.getD defaultSatellites) = .ok (md.satellites, r) ∧
        onSome r (initEuler (some md)) = .ok m.euler := by
    rcases heuler with a | ⟨l, pre, a, hk, hn, hp, hsq, v1, v2, hl⟩
    · refine ⟨none, by rw [a]; rfl, fun mat hm => ⟨none, ?_, ?_⟩⟩
      · unfold loadEuler; rw [hm, h0 a]; rfl
      · rw [a]; rfl
    · have htr : truthy m.euler = some l := by
        rw [a]
        obtain ⟨x, hx, _⟩ := v1
        cases l with
        | nil => simp at hx
        | cons _ _ => rfl
      have hsz : ∀ x ∈ l, EulerSized x.2 := by
        intro x hx
        obtain ⟨i, hi⟩ := List.getElem?_of_mem hx
        exact (hl i x hi).1
      have w1 : Varied (fun x : String × BaseA => (brk x.2).length) l := by simpa only [brk_length] using v1
      refine ⟨some (.struct (eulerFields keep l)), ?_, fun mat hm => ?_⟩
      · rw [htr, hmd]; unfold onSome; simp only; rw [saveEuler_ok keep l md (by rw [hk]; exact hn) hk.symm hsz]; rfl
      · rw [Option.map_some, traverse_struct] at hm
        refine ⟨some (l.map fun x => (x.1, ((⟨squeezeShape [(brk x.2).length, 1], brk x.2⟩ : Arr), (⟨[1, x.2.pieces, 3], x.2.coeffs.data⟩ : Arr)))), ?_, ?_⟩
        · rw [loadEuler_of l (sats.getD defaultSatellites) w1 v2 (by rw [hk]; exact hn) (by rw [h1 l a, hk]) hsz hm, hk]
        · unfold onSome; simp only; rw [initEuler_ok md l pre hp hl, a]; rfl
  obtain ⟨fcal, e4, l4⟩ : ∃ f : Option MVal, onSome (truthy m.cal) (saveCal keep) = .ok f ∧
      ∀ mat : Dict, Dict.get mat "pp_CAL" = orKey (f.map traverse) → ∃ r, loadCal mat = .ok r ∧ onSome r initCal = .ok m.cal := by
    rcases hcal with a | ⟨b, hkeep, a, hs, ho, hd, hn, hsrc, hpr⟩
    · refine ⟨none, by rw [a]; rfl, fun mat hm => ⟨none, ?_, ?_⟩⟩
      · unfold loadCal; rw [hm]; rfl
      · rw [a]; rfl
    · subst hkeep
      refine ⟨some (.cell [1, 1] [.struct (ppFields false b)]), ?_, fun mat hm => ?_⟩
      · rw [a]
        simp only [truthy, onSome, saveCal, List.mapM_cons, List.mapM_nil, toPP_sized false hs]
        rfl
      · rw [Option.map_some, traverse_cell_one, traverse_struct] at hm
        refine ⟨_, loadCal_sized hs ho hd hm, ?_⟩
        have := init_sized hs (o := 1) (by rw [ho]) [b.breaks.length]
        rw [hn, hsrc, hpr] at this
        simp only [onSome, initCal, List.mapM_cons, List.mapM_nil, this, a]
        rfl
  obtain ⟨fst, e5, l5⟩ : ∃ f : Option MVal, onSome m.static (fun s => .ok (wnum keep s.coeffs.column)) = .ok f ∧
      ∀ mat : Dict, Dict.get mat "g" = orKey (f.map traverse) → ∃ r, loadStatic mat = .ok r ∧
        onSome r (fun c => do BaseA.init (m.name ++ "_static") (← ends ⟨[t.breaks.length], t.breaks⟩) 1 c (some "internal") none) = .ok m.static := by
    cases hs : m.static with
    | none =>
      refine ⟨none, rfl, fun mat hm => ⟨none, ?_, rfl⟩⟩
      unfold loadStatic; rw [hm]; rfl
    | some s =>
      obtain ⟨t', ht', hf⟩ := hstatic s hs
      rw [ht] at ht'
      cases ht'
      refine ⟨some (wnum keep s.coeffs.column), rfl, fun mat hm => ?_⟩
      rw [Option.map_some, traverse_wnum] at hm
      refine ⟨_, loadStatic_of hm, ?_⟩
      have e : (⟨[1, 1, s.coeffs.column.squeeze.data.length], s.coeffs.column.squeeze.data⟩ : Arr) = s.coeffs := by
        have : s.coeffs.column.squeeze.data = s.coeffs.data := rfl
        rw [this, ← hf.shape]
      rw [e]
      simp only [onSome, bind, Except.bind]
      rw [ends_ok _ _ hfit.sized.breaks]
      simp only
      rw [init_static hf]
      rfl
  have e6 : onSome m.metaData (fun d => (.ok (.struct [("Euler_prerotation", prerotationValue keep noneArr d)]) : Except Error MVal)) =
      .ok (some (.struct [("Euler_prerotation", prerotationValue keep noneArr md)])) := by rw [hmd]; rfl
  refine ⟨fileOf (some (.struct (ppFields keep t))) fext feul fcal fst (some (.struct [("Euler_prerotation", prerotationValue keep noneArr md)])), ?_, ?_⟩
  · unfold save
    rw [e1, e2, e3, e4, e5, e6]
    simp only [writeIf_ok, bind, Except.bind, pure, Except.pure]
    rfl
  · obtain ⟨g1, g2, g3, g4, g5, g6⟩ := file_get (some (.struct (ppFields keep t))) fext feul fcal fst
      (some (.struct [("Euler_prerotation", prerotationValue keep noneArr md)]))
    obtain ⟨rx, x1, x2, x3, x4⟩ := l2 _ g2
    obtain ⟨re, y1, y2⟩ := l3 _ g3
    obtain ⟨rc, z1, z2⟩ := l4 _ g4
    obtain ⟨rs, s1, s2⟩ := l5 _ g5
    rw [Option.map_some, traverse_struct] at g1 g6
    unfold load
    simp only [bind, Except.bind]
    rw [loadTdep_sized hfit.sized g1, s1, x1, y1, z1, loadParams_of keep md hpre g6]
    simp only
    rw [x2, x3, x4]
    unfold Attr.init
    have hti := init_sized hfit.sized (o := t.order) le_rfl [t.breaks.length]
    rw [hfit.name, hfit.source, hfit.prerotation] at hti
    have e7 : onSome (some t.coeffs) (fun c => BaseA.init (m.name ++ "_tdep") ⟨[t.breaks.length], t.breaks⟩ t.order c (some "internal") none) =
        .ok (some t) := by
      unfold onSome; simp only; rw [hti]; rfl
    have emd : (⟨md.prerotation, md.satellites⟩ : Meta) = md := rfl
    simp only [bind, Except.bind, pure, Except.pure] at s2 ⊢
    rw [e7, s2, emd, y2, z2]
    simp only
    congr 1
    unfold asStored
    simp only
    rw [← hmd, ← ht]

/-- **C58.** Saving a model and loading the file: every part of the model comes back, with the same name, break points, order, coefficients,
sources, prerotation angles and satellites, except that only the zonal GSM coefficients of degrees one and two are stored and that q11 and
s11 get the break points of q11. -/
theorem C58_roundtrip (keep : Bool) (noneArr : Option Arr) (m : Attr) (md : Meta) (h : Storable keep noneArr m md) :
    ∃ file, save keep noneArr m = .ok file ∧ load m.name (some md.satellites) file = .ok (asStored m) := by
  refine roundtrip_gen keep noneArr m md h _ (fun _ => rfl) (fun l hl => ?_)
  obtain hn | ⟨l', pre, a, hk, _⟩ := h.euler
  · rw [hl] at hn; cases hn
  · rw [hl] at a
    cases a
    have : l.length = md.satellites.length := by rw [← hk, List.length_map]
    rw [this]
    exact adjustNames_self _

theorem asStored_plain {m : Attr} (h : Plain m) : asStored m = m := by
  obtain ⟨h1, h2⟩ := h
  obtain ⟨n, t, s, sm, gsm, d, e, c, md⟩ := m
  unfold asStored
  simp only at h1 h2 ⊢
  congr 1
  · cases gsm with
    | none => rfl
    | some g =>
      obtain ⟨hs, a, b, hd⟩ := h1 g rfl
      obtain ⟨sh, dd⟩ := g
      simp only at hs hd
      subst hs hd
      rfl
  · cases d with
    | none => rfl
    | some d =>
      obtain ⟨a1, a2, a3, a4, a5, a6⟩ := h2 d rfl
      rw [Option.map_some, DeltaA.stored, a2, a3, a4, a5, a6]
      congr 1
      conv_rhs => rw [show d = ⟨d.breaksQ10, d.breaksQ11, d.breaksS11, d.q10, d.q11, d.s11⟩ from rfl]
      rw [a1]

/-- **C58.** A model whose external part has the form of the format is the same after saving and loading. -/
theorem C58_exact (keep : Bool) (noneArr : Option Arr) (m : Attr) (md : Meta) (h : Storable keep noneArr m md) (hp : Plain m) :
    ∃ file, save keep noneArr m = .ok file ∧ load m.name (some md.satellites) file = .ok m := by
  obtain ⟨f, h1, h2⟩ := C58_roundtrip keep noneArr m md h
  rw [asStored_plain hp] at h2
  exact ⟨f, h1, h2⟩

/-! ### Loaded models -/

theorem bind_ok {α β : Type} {x : Except Error α} {f : α → Except Error β} {b : β} : (x >>= f) = .ok b ↔ ∃ a, x = .ok a ∧ f a = .ok b := by
  cases x with
  | error e => simp [bind, Except.bind]
  | ok a => simp [bind, Except.bind]

theorem onSome_ok {α β : Type} {x : Option α} {f : α → Except Error β} {r : Option β} (h : onSome x f = .ok r) :
    (x = none ∧ r = none) ∨ ∃ a b, x = some a ∧ f a = .ok b ∧ r = some b := by
  cases x with
  | none => left; simp only [onSome] at h; cases h; exact ⟨rfl, rfl⟩
  | some a =>
    right
    simp only [onSome] at h
    cases hf : f a with
    | error e => rw [hf] at h; cases h
    | ok b => rw [hf] at h; cases h; exact ⟨a, b, rfl, hf, rfl⟩

theorem init_fields {name : String} {br : Arr} {o : ℕ} {c : Arr} {src : Option String} {pre : Option Arr} {b : BaseA}
    (h : BaseA.init name br o c src pre = .ok b) : b.name = name ∧ b.source = src ∧ b.prerotation = pre ∧
      b.breaks = if br.data.length = 1 then br.data ++ br.data else br.data := by
  unfold BaseA.init at h
  split at h
  · cases h
  · cases h; exact ⟨rfl, rfl, rfl, rfl⟩

theorem traverse_squeezed : ∀ (v : MVal) (a : Arr), traverse v = .num a → a.squeeze = a := by
  intro v
  induction v using traverse.induct with
  | case1 => intro a h; rw [traverse_null] at h; cases h
  | case2 b =>
    intro a h
    rw [traverse_num] at h
    cases h
    exact squeeze_squeeze b
  | case3 v ih => intro a h; rw [traverse_cell_one] at h; exact ih a h
  | case4 => intro a h; rw [traverse.eq_def] at h; simp_all
  | case5 => intro a h; rw [traverse.eq_def] at h; simp_all
  | case6 => intro a h; rw [traverse_struct] at h; cases h

theorem get_num_squeezed {f : Dict} {k : String} {a : Arr} (h : Dict.get (loadMatfile f) k = .ok (.num a)) : a.squeeze = a := by
  rw [get_load] at h
  cases hg : Dict.get f k with
  | error e => rw [hg] at h; cases h
  | ok v =>
    rw [hg] at h
    simp only [Except.map, Except.ok.injEq] at h
    exact traverse_squeezed v a h

/-- Structures in a loaded file contain loaded values. -/
theorem traverse_dict : ∀ (v : MVal) (f : Dict), traverse v = .struct f → ∃ g : Dict, f = loadMatfile g := by
  intro v
  induction v using traverse.induct with
  | case1 => intro a h; rw [traverse_null] at h; cases h
  | case2 b => intro a h; rw [traverse_num] at h; cases h
  | case3 v ih => intro a h; rw [traverse_cell_one] at h; exact ih a h
  | case4 => intro a h; rw [traverse.eq_def] at h; simp_all
  | case5 => intro a h; rw [traverse.eq_def] at h; simp_all
  | case6 g => intro a h; rw [traverse_struct] at h; cases h; exact ⟨g, rfl⟩

theorem loadParams_squeezed {file : Dict} {r : Option Arr} (h : loadParams (loadMatfile file) = .ok r) : ∀ a, r = some a → a.squeeze = a := by
  unfold loadParams at h
  rintro a rfl
  split at h
  · cases h
  · rename_i v hv
    rw [get_load] at hv
    cases hg : Dict.get file "params" with
    | error e => rw [hg] at hv; cases hv
    | ok w =>
      rw [hg] at hv
      simp only [Except.map, Except.ok.injEq] at hv
      obtain ⟨f, hf, h2⟩ := bind_ok.1 h
      have hv2 : v = .struct f := by
        cases v <;> simp [MVal.dict] at hf
        rw [hf]
      rw [hv2] at hv
      obtain ⟨g, rfl⟩ := traverse_dict w f hv
      split at h2
      · cases h2
      · cases h2
      · rename_i p _ hp
        obtain ⟨b, hb, h3⟩ := bind_ok.1 h2
        cases h3
        have : p = .num a := by
          cases p <;> simp [MVal.arr] at hb
          rw [hb]
        rw [this] at hp
        exact get_num_squeezed hp

theorem loadExternal_form {mat : Dict} {sm gsm : Arr} {d : DeltaA} (h : loadExternal mat = .ok (some (sm, gsm, d))) :
    (gsm.shape = [8] ∧ ∃ a b : ℝ, gsm.data = [a, 0, 0, b, 0, 0, 0, 0]) ∧ d.breaksS11 = d.breaksQ11 ∧ d.q10.row = d.q10 ∧ d.q11.row = d.q11 ∧
      d.s11.row = d.s11 ∧ d.q11.data.length = d.s11.data.length := by
  unfold loadExternal at h
  split at h
  · cases h
  · rename_i v _
    obtain ⟨ext, _, h⟩ := bind_ok.1 h
    obtain ⟨x1, _, h⟩ := bind_ok.1 h
    obtain ⟨x2, _, h⟩ := bind_ok.1 h
    obtain ⟨x3, _, h⟩ := bind_ok.1 h
    obtain ⟨x4, _, h⟩ := bind_ok.1 h
    obtain ⟨x5, hg, h⟩ := bind_ok.1 h
    obtain ⟨x6, _, h⟩ := bind_ok.1 h
    obtain ⟨x7, _, h⟩ := bind_ok.1 h
    obtain ⟨x8, _, h⟩ := bind_ok.1 h
    obtain ⟨x9, _, h⟩ := bind_ok.1 h
    obtain ⟨c0, h0, h⟩ := bind_ok.1 h
    obtain ⟨c1, h1, h⟩ := bind_ok.1 h
    simp only [pure, Except.pure, Except.ok.injEq, Option.some.injEq, Prod.mk.injEq] at h
    obtain ⟨rfl, rfl, rfl⟩ := h
    have hl : c0.data.length = c1.data.length := by
      unfold Arr.col at h0 h1
      split at h0
      · rename_i r c hs
        rw [hs] at h1
        simp only at h1
        split_ifs at h0 h1
        cases h0
        cases h1
        simp
      · cases h0
    refine ⟨?_, rfl, rfl, rfl, rfl, hl⟩
    unfold gsmOf at hg
    split_ifs at hg
    · cases hg; exact ⟨rfl, _, _, rfl⟩
    · cases hg; exact ⟨rfl, _, _, rfl⟩

theorem adjustNames_length (S : List String) (n : ℕ) : (adjustNames S n).length = n := by
  unfold adjustNames
  split_ifs with h
  · simp; omega
  · simp; omega

theorem foldlM_keys {α : Type} (f : ℕ → Except Error α) : ∀ (names : List String) (i0 : ℕ) (acc r : List (String × α)),
    ((acc.map Prod.fst) ++ names).Nodup → (names.zipIdx i0).foldlM (fun d x => do return dictSet d x.1 (← f x.2)) acc = .ok r →
      r.map Prod.fst = acc.map Prod.fst ++ names := by
  intro names
  induction names with
  | nil => intro i0 acc r _ h; simp only [List.zipIdx_nil, List.foldlM_nil] at h; cases h; simp
  | cons x l ih =>
    intro i0 acc r hn h
    rw [List.zipIdx_cons, List.foldlM_cons] at h
    obtain ⟨d, hd, h⟩ := bind_ok.1 h
    obtain ⟨a, _, hd⟩ := bind_ok.1 hd
    simp only [pure, Except.pure, Except.ok.injEq] at hd
    subst hd
    have hnot : x ∉ acc.map Prod.fst := by
      intro hc
      rw [List.nodup_append] at hn
      exact hn.2.2 x hc x (by simp) rfl
    rw [dictSet_new _ _ _ hnot] at h
    have := ih (i0 + 1) (acc ++ [(x, a)]) r (by simpa using hn) h
    rw [this]
    simp

theorem loadEuler_form {mat : Dict} {S names : List String} {r : Option (List (String × (Arr × Arr)))} (h : loadEuler mat S = .ok (names, r)) :
    (r = none ∧ names = S) ∨ ∃ l, r = some l ∧ names = adjustNames S names.length ∧ (names.Nodup → l.map Prod.fst = names) := by
  unfold loadEuler at h
  split at h
  · cases h; exact Or.inl ⟨rfl, rfl⟩
  · right
    obtain ⟨e, _, h⟩ := bind_ok.1 h
    obtain ⟨b, _, h⟩ := bind_ok.1 h
    obtain ⟨n, _, h⟩ := bind_ok.1 h
    obtain ⟨l, hl, h⟩ := bind_ok.1 h
    simp only [pure, Except.pure, Except.ok.injEq, Prod.mk.injEq] at h
    obtain ⟨rfl, rfl⟩ := h
    refine ⟨l, rfl, by rw [adjustNames_length], fun hn => ?_⟩
    have := foldlM_keys (fun i => eulerOf e b i) (adjustNames S n) 0 [] l (by simpa using hn) hl
    simpa using this

theorem mapM_zipIdx_form {α β : Type} (f : α × ℕ → Except Error β) : ∀ (l : List α) (i0 : ℕ) (r : List β), (l.zipIdx i0).mapM f = .ok r →
    r.length = l.length ∧ ∀ i y, r[i]? = some y → ∃ x, l[i]? = some x ∧ f (x, i0 + i) = .ok y := by
  intro l
  induction l with
  | nil => intro i0 r h; simp only [List.zipIdx_nil, List.mapM_nil] at h; cases h; simp
  | cons x l ih =>
    intro i0 r h
    rw [List.zipIdx_cons, List.mapM_cons] at h
    obtain ⟨a, ha, h⟩ := bind_ok.1 h
    obtain ⟨r', hr, h⟩ := bind_ok.1 h
    simp only [pure, Except.pure, Except.ok.injEq] at h
    subst h
    obtain ⟨h1, h2⟩ := ih (i0 + 1) r' hr
    refine ⟨by simp [h1], fun i y hy => ?_⟩
    cases i with
    | zero => simp only [List.getElem?_cons_zero, Option.some.injEq] at hy; subst hy; exact ⟨x, rfl, ha⟩
    | succ i =>
      obtain ⟨x', hx, hf⟩ := h2 i y (by simpa using hy)
      refine ⟨x', by simpa using hx, ?_⟩
      rw [← hf]; congr 2; omega

theorem initEuler_form {pre : Option Arr} {names : List String} {l : List (String × (Arr × Arr))} {r : List (String × BaseA)}
    (h : initEuler (some ⟨pre, names⟩) l = .ok r) : r.map Prod.fst = l.map Prod.fst ∧
      ∀ i x, r[i]? = some x → x.2.name = x.1 ∧ x.2.source = none ∧ ∃ p row, pre = some p ∧ p.index i = .ok row ∧ x.2.prerotation = some row := by
  unfold initEuler at h
  obtain ⟨h1, h2⟩ := mapM_zipIdx_form _ l 0 r h
  have key : ∀ i y, r[i]? = some y → ∃ x, l[i]? = some x ∧ y.1 = x.1 ∧ y.2.name = y.1 ∧ y.2.source = none ∧
      ∃ p row, pre = some p ∧ p.index i = .ok row ∧ y.2.prerotation = some row := by
    intro i y hy
    obtain ⟨x, hx, hf⟩ := h2 i y hy
    simp only [Nat.zero_add] at hf
    obtain ⟨row, hr, hf⟩ := bind_ok.1 hf
    obtain ⟨b, hb, hf⟩ := bind_ok.1 hf
    simp only [pure, Except.pure, Except.ok.injEq] at hf
    subst hf
    obtain ⟨f1, f2, f3, _⟩ := init_fields hb
    refine ⟨x, hx, rfl, f1, f2, ?_⟩
    unfold prerotationRow at hr
    simp only at hr
    cases pre with
    | none => cases hr
    | some a => exact ⟨a, row, rfl, hr, f3⟩
  refine ⟨?_, fun i x hx => ?_⟩
  · apply List.ext_getElem?
    intro i
    rw [List.getElem?_map, List.getElem?_map]
    cases hr : r[i]? with
    | none =>
      have : l[i]? = none := by
        rw [List.getElem?_eq_none_iff] at hr ⊢
        omega
      rw [this]; rfl
    | some y =>
      obtain ⟨x, hx, he, _⟩ := key i y hr
      rw [hx, Option.map_some, Option.map_some, he]
  · obtain ⟨_, _, _, a, b, c⟩ := key i x hx
    exact ⟨a, b, c⟩

theorem loadCal_form {mat : Dict} {r : List (String × (Arr × Arr))} {l : List (String × BaseA)} (h : loadCal mat = .ok (some r))
    (hi : initCal r = .ok l) : ∃ b, l = [("cryosat-2_1", b)] ∧ b.order = 1 ∧ b.dim = 9 ∧ b.name = "cryosat-2_1" ∧ b.source = none ∧ b.prerotation = none := by
  unfold loadCal at h
  split at h
  · cases h
  · obtain ⟨cal, _, h⟩ := bind_ok.1 h
    obtain ⟨br, _, h⟩ := bind_ok.1 h
    obtain ⟨cf, _, h⟩ := bind_ok.1 h
    obtain ⟨c, hc, h⟩ := bind_ok.1 h
    simp only [pure, Except.pure, Except.ok.injEq, Option.some.injEq] at h
    subst h
    unfold initCal at hi
    rw [List.mapM_cons] at hi
    obtain ⟨x, hx, hi⟩ := bind_ok.1 hi
    obtain ⟨y, hy, hi⟩ := bind_ok.1 hi
    simp only [List.mapM_nil, pure, Except.pure, Except.ok.injEq] at hy hi
    subst hy
    subst hi
    obtain ⟨b, hb, hx⟩ := bind_ok.1 hx
    simp only [pure, Except.pure, Except.ok.injEq] at hx
    subst hx
    obtain ⟨f1, f2, f3, _⟩ := init_fields hb
    unfold Arr.reshape at hc
    split_ifs at hc
    cases hc
    simp only [BaseA.init, Except.ok.injEq] at hb
    refine ⟨b, rfl, ?_, ?_, f1, f2, f3⟩
    · rw [← hb]; simp
    · rw [← hb]; simp [BaseA.dim]

theorem static_form {name : String} {br : Arr} {g : Arr} {t s : BaseA} {o : ℕ} {c : Arr} {e : Arr} (he : ends br = .ok e)
    (hs : BaseA.init (name ++ "_static") e 1 ⟨[1, 1, g.data.length], g.data⟩ (some "internal") none = .ok s)
    (ht : BaseA.init (name ++ "_tdep") br o c (some "internal") none = .ok t) : StaticFits name t s := by
  obtain ⟨f1, f2, f3, f4⟩ := init_fields hs
  obtain ⟨_, _, _, k4⟩ := init_fields ht
  have hne : br.data ≠ [] ∧ e = ⟨[2], [PPoly.first br.data, PPoly.last br.data]⟩ := by
    unfold ends at he
    split at he
    · cases he
    · split_ifs at he with hc
      cases he
      exact ⟨hc, rfl⟩
  obtain ⟨hne, rfl⟩ := hne
  have hends : PPoly.first t.breaks = PPoly.first br.data ∧ PPoly.last t.breaks = PPoly.last br.data := by
    rw [k4]
    split_ifs with h1
    · obtain ⟨x, hx⟩ := List.length_eq_one_iff.1 h1
      rw [hx]
      exact ⟨rfl, rfl⟩
    · exact ⟨rfl, rfl⟩
  simp only [BaseA.init, Except.ok.injEq] at hs
  refine ⟨?_, ?_, ?_, f1, f2, f3⟩
  · rw [f4, hends.1, hends.2]; simp
  · rw [← hs]; simp
  · rw [← hs]; simp

/-- **C58.** A model that was loaded from a file, saved and loaded again with the same arguments, is the same model. -/
theorem C58_reload (keep : Bool) (noneArr : Option Arr) (name : String) (satellites : Option (List String)) (file : Dict) (m : Attr)
    (h : load name satellites file = .ok m) (hc : Consistent keep noneArr m) :
    ∃ file', save keep noneArr m = .ok file' ∧ load name satellites file' = .ok m := by
  unfold load at h
  obtain ⟨⟨br, o, c⟩, h1, h⟩ := bind_ok.1 h
  obtain ⟨st, h2, h⟩ := bind_ok.1 h
  obtain ⟨ext, h3, h⟩ := bind_ok.1 h
  obtain ⟨⟨names, eul⟩, h4, h⟩ := bind_ok.1 h
  obtain ⟨cal, h5, h⟩ := bind_ok.1 h
  obtain ⟨pre, h6, h⟩ := bind_ok.1 h
  unfold Attr.init at h
  obtain ⟨mt, k1, h⟩ := bind_ok.1 h
  obtain ⟨ms, k2, h⟩ := bind_ok.1 h
  obtain ⟨me, k3, h⟩ := bind_ok.1 h
  obtain ⟨mc, k4, h⟩ := bind_ok.1 h
  simp only [pure, Except.pure, Except.ok.injEq] at h
  subst h
  obtain ⟨c1, c2, c3, c4, c5, c6⟩ := hc
  simp only at c1 c2 c3 c4 c5 c6
  obtain ⟨hbad, _⟩ | ⟨_, t, ht0, ht, rfl⟩ := onSome_ok k1
  · cases hbad
  cases ht0
  obtain ⟨t1, t2, t3, _⟩ := init_fields ht
  have hplain : Plain { name := name, tdep := some t, static := ms, sm := ext.map (·.1), gsm := ext.map (·.2.1), delta := ext.map (·.2.2), euler := me, cal := mc, metaData := some ⟨pre, names⟩ } := by
    cases ext with
    | none => exact ⟨by simp, by simp⟩
    | some x =>
      obtain ⟨sm, gsm, d⟩ := x
      obtain ⟨q1, q2, q3, q4, q5, q6⟩ := loadExternal_form h3
      obtain ⟨r1, r2, r3⟩ := c3 d rfl
      refine ⟨?_, ?_⟩
      · rintro g hg
        simp only [Option.map_some, Option.some.injEq] at hg
        subst hg
        exact q1
      · rintro d' hd
        simp only [Option.map_some, Option.some.injEq] at hd
        subst hd
        exact ⟨q2, r1, r2, q3, q4, q5⟩
  have hst : Storable keep noneArr { name := name, tdep := some t, static := ms, sm := ext.map (·.1), gsm := ext.map (·.2.1), delta := ext.map (·.2.2), euler := me, cal := mc, metaData := some ⟨pre, names⟩ } ⟨pre, names⟩ := by
    refine ⟨rfl, ?_, ⟨t, rfl, c1 t rfl, t1, t2, t3⟩, ?_, ?_, ?_, ?_⟩
    · cases pre with
      | none =>
        right
        refine ⟨rfl, ?_⟩
        rcases c6 ⟨none, names⟩ rfl with h | h
        · exact absurd rfl h
        · exact h
      | some a => exact Or.inl ⟨a, rfl, loadParams_squeezed h6 a rfl⟩
    · intro s hs
      simp only at hs
      refine ⟨t, rfl, ?_⟩
      obtain ⟨_, hbad⟩ | ⟨g, s', hg, hs', hb⟩ := onSome_ok k2
      · rw [hbad] at hs; cases hs
      · rw [hb] at hs
        cases hs
        obtain ⟨e, he, hs'⟩ := bind_ok.1 hs'
        have hgf : ∃ a : Arr, g = ⟨[1, 1, a.data.length], a.data⟩ := by
          unfold loadStatic at h2
          split at h2
          · cases h2; cases hg
          · obtain ⟨a, _, h2⟩ := bind_ok.1 h2
            cases h2
            cases hg
            exact ⟨a, rfl⟩
        obtain ⟨a, rfl⟩ := hgf
        exact static_form he hs' ht
    · cases ext with
      | none => exact Or.inl ⟨rfl, rfl, rfl⟩
      | some x =>
        obtain ⟨sm, gsm, d⟩ := x
        obtain ⟨⟨_, a, b, hd⟩, q2, q3, q4, q5, q6⟩ := loadExternal_form h3
        obtain ⟨r1, r2, r3⟩ := c3 d rfl
        obtain ⟨s1, s2⟩ := c2 sm rfl
        exact Or.inr ⟨d, sm, gsm, rfl, rfl, rfl, q6, r3, s1, s2, by rw [hd]; simp⟩
    · obtain ⟨_, hbad⟩ | ⟨l, l', hl, hi, hb⟩ := onSome_ok k3
      · exact Or.inl hbad
      · subst hb
        right
        obtain ⟨i1, i2⟩ := initEuler_form hi
        obtain ⟨n1, n2, n3, n4⟩ := c4 l' ⟨pre, names⟩ rfl rfl
        obtain ⟨hbad, _⟩ | ⟨l2, hl2, _, hk⟩ := loadEuler_form h4
        · rw [hbad] at hl; cases hl
        · rw [hl] at hl2
          cases hl2
          have hkeys : l'.map Prod.fst = names := i1.trans (hk n1)
          have hpre : ∃ p, pre = some p := by
            obtain ⟨x, hx, _⟩ := n3
            obtain ⟨i, hi⟩ := List.getElem?_of_mem hx
            obtain ⟨_, _, p, _, hp, _⟩ := i2 i x hi
            exact ⟨p, hp⟩
          obtain ⟨p, rfl⟩ := hpre
          refine ⟨l', p, rfl, hkeys, n1, rfl, loadParams_squeezed h6 p rfl, n3, n4, fun i x hx => ?_⟩
          obtain ⟨x1, x2, p', row, hp', hr, hx3⟩ := i2 i x hx
          cases hp'
          exact ⟨n2 x (List.mem_of_getElem? hx), x1, x2, row, hr, hx3⟩
    · obtain ⟨_, hbad⟩ | ⟨l, l', hl, hi, hb⟩ := onSome_ok k4
      · exact Or.inl hbad
      · subst hb
        right
        subst hl
        obtain ⟨b, rfl, b1, b2, b3, b4, b5⟩ := loadCal_form h5 hi
        obtain ⟨d1, d2⟩ := c5 _ rfl
        exact ⟨b, d1, rfl, d2 _ (List.mem_singleton.2 rfl), b1, b2, b3, b4, b5⟩
  obtain ⟨f, e1, e2⟩ := roundtrip_gen keep noneArr _ ⟨pre, names⟩ hst satellites (by
      intro hn
      simp only at hn ⊢
      obtain ⟨hn1, _⟩ | ⟨l, l', _, _, hb⟩ := onSome_ok k3
      · obtain ⟨_, hS⟩ | ⟨l, hl, _⟩ := loadEuler_form h4
        · exact hS.symm
        · rw [hl] at hn1; cases hn1
      · rw [hb] at hn; cases hn)
    (by
      intro l' hl'
      simp only at hl' ⊢
      obtain ⟨_, hbad⟩ | ⟨l, l2, hl, hi, hb⟩ := onSome_ok k3
      · rw [hbad] at hl'; cases hl'
      · have hll : l2 = l' := by rw [hb] at hl'; exact Option.some.inj hl'
        subst hll
        obtain ⟨i1, _⟩ := initEuler_form hi
        obtain ⟨n1, _⟩ := c4 l2 ⟨pre, names⟩ hb rfl
        obtain ⟨hbad, _⟩ | ⟨l3, hl3, hn, hk⟩ := loadEuler_form h4
        · rw [hbad] at hl; cases hl
        · rw [hl] at hl3
          cases hl3
          have hkeys : l2.map Prod.fst = names := i1.trans (hk n1)
          have : l2.length = names.length := by rw [← hkeys, List.length_map]
          rw [this, ← hn])
  rw [asStored_plain hplain] at e2
  exact ⟨f, e1, e2⟩

end ChaosMagPy.Matfile
