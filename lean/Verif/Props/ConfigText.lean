import Verif.Lemmas.ConfigTextTrip
/-!
# C04 at the level of characters, C73 for configuration files

`config_utils.py:218-259` with the JSON text that `json.dump` writes and `json.load` reads.
-/
namespace ChaosMagPy.ConfigText
open ChaosMagPy.Config ChaosMagPy.Config.Spec
open ChaosMagPy.Shc (natVal isDigit intStr natStr)

/-- **C04, characters.**  Reading the text of a saved configuration gives exactly the entries of the configuration, sorted by key. -/
theorem C04_text (ft : FloatText) (c : Ctx) (s : State) (d : Dict) (hn : (d.map Prod.fst).Nodup) (hd : ∀ kv ∈ d, Printable ft kv.2) :
    loadText ft c s (saveText ft d) = load c s (save d) := by
  have hsn := sorted_nodup d hn
  unfold loadText
  rw [parseText_saved ft d hd]
  simp only
  rw [dictOf_nodup _ (by rw [List.map_map]; exact hsn), List.map_map]
  congr 1
  unfold save
  refine List.map_congr_left fun kv hkv => ?_
  simp only [Function.comp_apply]
  rw [toVal_toJson ft kv.2 (hd kv ((sorted_mem d kv).1 hkv))]

/-- The floats in an assigned value are numbers that the conversion handles. -/
def FloatsIn (ft : FloatText) : Val → Prop
  | .sc s => PrintableSc ft s
  | .list xs => ∀ s, some s ∈ xs → PrintableSc ft s
  | .arr xs => ∀ s ∈ xs, PrintableSc ft s
  | .other _ => True

/-- What `float(...)` returns are floats. -/
structure PyFloats (ft : FloatText) (py : Py) : Prop where
  zero : ft.isFloat 0
  one : ft.isFloat 1
  ofInt : ∀ i q, py.floatOfInt i = some (.fin q) → ft.isFloat q
  ofStr : ∀ s q, py.parseFloat s = some (.fin q) → ft.isFloat q

theorem floatsIn_of_printable {ft : FloatText} {v : Val} (h : Printable ft v) : FloatsIn ft v := by
  cases v with
  | sc s => exact h
  | list xs =>
    intro s hs
    obtain ⟨t, ht, h'⟩ := h _ hs
    injection ht with ht
    rw [ht]; exact h'
  | arr xs => exact h
  | other k => trivial

theorem pyFloatSc_printable {ft : FloatText} {py : Py} (hpy : PyFloats ft py) {s : Sc} {f : Flt} (hs : PrintableSc ft s) (h : pyFloatSc py s = .ok f) :
    PrintableSc ft (.flt f) := by
  cases f with
  | nan => trivial
  | inf b => trivial
  | fin q =>
    match s, hs, h with
    | .bool b, _, h =>
      simp only [pyFloatSc, Except.ok.injEq, Flt.fin.injEq] at h
      change ft.isFloat q
      rw [← h]
      cases b
      · exact hpy.zero
      · exact hpy.one
    | .int i, _, h =>
      simp only [pyFloatSc] at h
      cases hi : py.floatOfInt i with
      | none => rw [hi] at h; cases h
      | some g =>
        rw [hi] at h
        simp only [Except.ok.injEq] at h
        subst h
        exact hpy.ofInt i q hi
    | .flt g, hs, h =>
      simp only [pyFloatSc, Except.ok.injEq] at h
      subst h
      exact hs
    | .str t, _, h =>
      simp only [pyFloatSc] at h
      cases hi : py.parseFloat t with
      | none => rw [hi] at h; cases h
      | some g =>
        rw [hi] at h
        simp only [Except.ok.injEq] at h
        subst h
        exact hpy.ofStr t q hi
    | .none, _, h => cases h

theorem toFltElt_printable {ft : FloatText} {py : Py} (hpy : PyFloats ft py) {s t : Sc} (hs : PrintableSc ft s) (h : toFltElt py s = some t) : PrintableSc ft t := by
  match s, hs, h with
  | .bool b, _, h =>
    simp only [toFltElt, Option.some.injEq] at h
    subst h
    cases b
    · exact hpy.zero
    · exact hpy.one
  | .int i, _, h =>
    simp only [toFltElt] at h
    cases hi : py.floatOfInt i with
    | none => rw [hi] at h; cases h
    | some g =>
      rw [hi] at h
      simp only [Option.map_some, Option.some.injEq] at h
      subst h
      cases g with
      | nan => trivial
      | inf b => trivial
      | fin q => exact hpy.ofInt i q hi
  | .flt g, hs, h =>
    simp only [toFltElt, Option.some.injEq] at h
    subst h
    exact hs
  | .str t, _, h => cases h
  | .none, _, h => cases h

theorem mapM_toFlt_printable {ft : FloatText} {py : Py} (hpy : PyFloats ft py) : ∀ {xs ys : List Sc}, (∀ s ∈ xs, PrintableSc ft s) →
    xs.mapM (toFltElt py) = some ys → ∀ y ∈ ys, PrintableSc ft y
  | [], ys, _, h => by simp at h; subst h; simp
  | x :: xs, ys, hx, h => by
    simp only [List.mapM_cons, Option.bind_eq_bind, Option.bind_eq_some_iff, Option.pure_def, Option.some.injEq] at h
    obtain ⟨a, ha, as, has, rfl⟩ := h
    intro y hy
    rcases List.mem_cons.1 hy with rfl | hy
    · exact toFltElt_printable hpy (hx x List.mem_cons_self) ha
    · exact mapM_toFlt_printable hpy (fun s hs => hx s (List.mem_cons_of_mem _ hs)) has y hy

theorem npUnify_printable {ft : FloatText} {py : Py} (hpy : PyFloats ft py) {xs : List Sc} (hx : ∀ s ∈ xs, PrintableSc ft s) : ∀ s ∈ npUnify py xs, PrintableSc ft s := by
  unfold npUnify
  split_ifs
  · exact hx
  · intro s hs
    obtain ⟨t, _, rfl⟩ := List.mem_map.1 hs
    trivial
  · cases hm : xs.mapM (toFltElt py) with
    | none => exact hx
    | some ys => exact mapM_toFlt_printable hpy hx hm
  · intro s hs
    obtain ⟨t, ht, rfl⟩ := List.mem_map.1 hs
    cases t with
    | bool b => trivial
    | none => trivial
    | int i => trivial
    | flt f => exact hx _ ht
    | str t => trivial
  · exact hx

/-- What a validator returns can be printed if the floats of its argument can. -/
theorem run_printable {ft : FloatText} {py : Py} (hpy : PyFloats ft py) {fs : FS} {chk : Validator} {v w : Val} (hv : FloatsIn ft v)
    (hr : chk.run py fs v = .ok w) : Printable ft w := by
  cases chk with
  | float =>
    simp only [Validator.run] at hr
    unfold checkFloat at hr
    have key : ∀ s, PrintableSc ft s → (pyFloatSc py s).map (fun f => Val.sc (.flt f)) = .ok w → Printable ft w := by
      intro s hs h
      cases hf : pyFloatSc py s with
      | error e => rw [hf] at h; cases h
      | ok f =>
        rw [hf] at h
        simp only [Except.map, Except.ok.injEq] at h
        subst h
        exact pyFloatSc_printable hpy hs hf
    split at hr
    · exact key _ hv hr
    · exact key _ (hv _ List.mem_cons_self) hr
    · cases hr
  | int => obtain ⟨f, rfl⟩ := pyInt_shape hr; trivial
  | version => obtain ⟨f, rfl, _⟩ := version_shape hr; trivial
  | path =>
    obtain ⟨h, _⟩ := path_shape hr
    rcases h with rfl | ⟨s, rfl⟩ | ⟨i, rfl⟩ | ⟨b, rfl⟩ <;> trivial
  | vector n =>
    simp only [Validator.run, checkVector] at hr
    split at hr
    · cases hr
    · rename_i xs hx
      split_ifs at hr
      cases hr
      unfold npArray1 at hx
      split at hx
      · cases hx
      · rename_i l
        simp only [Option.map_eq_some_iff] at hx
        obtain ⟨ys, hy, rfl⟩ := hx
        refine npUnify_printable hpy ?_
        intro s hs
        refine hv s ?_
        rename_i hlen
        clear hv hlen
        induction l generalizing ys with
        | nil => simp at hy; subst hy; simp at hs
        | cons a l ih =>
          simp only [List.mapM_cons, Option.bind_eq_bind, Option.bind_eq_some_iff, Option.pure_def, Option.some.injEq, id] at hy
          obtain ⟨b, hb, bs, hbs, rfl⟩ := hy
          rcases List.mem_cons.1 hs with rfl | hs
          · rw [hb]; exact List.mem_cons_self
          · exact List.mem_cons_of_mem _ (ih bs hbs hs)
      · cases hx; exact hv
      · cases hx

/-- The floats of the built-in defaults can be printed. -/
def DefaultFloats (ft : FloatText) : Prop :=
  ∀ q ∈ ([6371.2, 3485, -29442, -1501, 4797.1, 6378.137, 6356.752, 6.3] : List ℚ), ft.isFloat q

theorem default_printable {ft : FloatText} (hd : DefaultFloats ft) {c : Ctx} {k : String} {d : Val} {chk : Validator} (he : defEntry c k = some (d, chk)) :
    Printable ft d := by
  have h := defEntry_cases he
  simp only [defaults, List.mem_cons, List.not_mem_nil, or_false, Prod.mk.injEq] at h
  rcases h with ⟨rfl, rfl, rfl⟩ | ⟨rfl, rfl, rfl⟩ | ⟨rfl, rfl, rfl⟩ | ⟨rfl, rfl, rfl⟩ |
    ⟨rfl, rfl, rfl⟩ | ⟨rfl, rfl, rfl⟩ | ⟨rfl, rfl, rfl⟩ | ⟨rfl, rfl, rfl⟩ | ⟨rfl, rfl, rfl⟩ |
    ⟨rfl, rfl, rfl⟩ | ⟨rfl, rfl, rfl⟩ | ⟨rfl, rfl, rfl⟩
  · exact hd _ (by simp)
  · exact hd _ (by simp)
  · intro s hs
    simp only [List.mem_cons, List.not_mem_nil, or_false] at hs
    rcases hs with rfl | rfl | rfl <;> exact hd _ (by simp)
  · intro s hs
    simp only [List.mem_cons, List.not_mem_nil, or_false] at hs
    rcases hs with rfl | rfl <;> exact hd _ (by simp)
  all_goals first
    | trivial
    | exact hd _ (by simp)

/-- Every value of a reachable configuration can be printed. -/
theorem reachable_printable (ft : FloatText) (c : Ctx) (fs : FS) (p : Prog) (hpy : PyFloats ft c.py) (hdef : DefaultFloats ft) (hlit : AllLits (FloatsIn ft) p) :
    let s0 := (exec c p (init c fs)).1
    (s0.cfg.map Prod.fst).Nodup ∧ ∀ kv ∈ s0.cfg, Printable ft kv.2 := by
  intro s0
  have hI : Inv (fun _ _ v => Printable ft v) s0 :=
    Inv.exec (c := c) (Q := FloatsIn ft) (fun _ _ _ _ _ _ _ hQ hr => run_printable hpy hQ hr)
      (fun _ _ _ _ he => ⟨default_printable hdef he, floatsIn_of_printable (default_printable hdef he)⟩)
      (fun _ _ _ h => floatsIn_of_printable h) (fun _ _ _ _ _ h => h) True (fun _ _ _ _ _ _ h => h)
      p _ (Or.inl trivial) hlit (Inv.init (fun _ _ _ _ he => default_printable hdef he) fs)
  have hn : (s0.cfg.map Prod.fst).Nodup := by rw [hI.1]; exact keys_nodup
  exact ⟨hn, fun kv hkv => hI.2 kv.1 kv.2 ((Dict.get_eq_some_iff_mem _ hn _ _).2 hkv)⟩

/-- **C04, reachable configurations, characters.**  Saving any reachable configuration as text and loading this text into any configuration reached
afterwards succeeds and restores the saved one. -/
theorem C04_text_reachable (ft : FloatText) (c : Ctx) (fs : FS) (p q : Prog)
    (hall : ∀ k d chk, defEntry c k = some (d, chk) → k ∈ fileKeys → chk.run c.py fs d = .ok d)
    (hp : NoDelete p) (hq : NoDelete q) (hstab : StableProg c.py p)
    (hpy : PyFloats ft c.py) (hdef : DefaultFloats ft) (hlit : AllLits (FloatsIn ft) p) :
    let s0 := (exec c p (init c fs)).1
    let s := (exec c q s0).1
    ∃ s', loadText ft c s (saveText ft s0.cfg) = (s', none) ∧ s'.cfg = s0.cfg := by
  intro s0 s
  obtain ⟨hn, hd⟩ := reachable_printable ft c fs p hpy hdef hlit
  rw [C04_text ft c s s0.cfg hn hd]
  exact C04_reachable c fs p q hall hp hq hstab

/-- A text with a strictly shorter beginning of a saved configuration is no JSON text. -/
theorem parseText_cut (ft : FloatText) (d : Dict) (hd : ∀ kv ∈ d, Printable ft kv.2) (t u : List Char) (hu : u ≠ []) (h : saveText ft d = t ++ u) :
    parseText ft t = none := by
  by_contra hne
  unfold parseText at hne
  cases t with
  | nil => exact hne rfl
  | cons c t =>
    obtain ⟨w, hw⟩ := saveText_head ft d
    have hc : c = '{' := by
      rw [hw, List.cons_append] at h
      injection h with h1 h2
      exact h1.symm
    subst hc
    rw [skipWs_cons (by decide)] at hne
    cases hv : parseValue ft (('{' :: t).length + 1) ('{' :: t) with
    | none => rw [hv] at hne; exact hne rfl
    | some p =>
      obtain ⟨v, r⟩ := p
      rw [hv] at hne
      simp only at hne
      have hr : skipWs r = [] := by
        by_contra hr
        rw [if_neg hr] at hne
        exact hne rfl
      -- the same object would be found at the beginning of the whole file
      have hmem : ∀ n (y : List Char) (v : Json) (r : List Char), parseValue ft (n + 1) ('{' :: t) = some (v, r) →
          parseValue ft (n + 1) ('{' :: (t ++ y)) = some (v, r ++ y) := by
        intro n y v r hp
        simp only [parseValue] at hp ⊢
        rw [if_neg (by decide), if_neg (by decide), if_pos trivial] at hp ⊢
        by_cases h5 : (skipWs t).head? = some '}'
        · rw [if_pos h5] at hp
          rw [if_pos (skip_head h5 y).1, (skip_head h5 y).2]
          simp only [Option.some.injEq, Prod.mk.injEq] at hp ⊢
          exact ⟨hp.1, by rw [hp.2]⟩
        · rw [if_neg h5] at hp
          cases hq : parseMembers ft n (skipWs t) with
          | none => rw [hq] at hp; cases hp
          | some q =>
            obtain ⟨z, r1⟩ := q
            rw [hq] at hp
            have hM0 : parseMembers ft n [] = none := by
              cases n <;> simp [parseMembers]
            have hne' : skipWs t ≠ [] := by
              intro hn
              rw [hn, hM0] at hq
              cases hq
            have hsk : skipWs (t ++ y) = skipWs t ++ y := skipWs_append t y hne'
            have h5' : ¬ (skipWs (t ++ y)).head? = some '}' := by
              rw [hsk]
              cases hq : skipWs t with
              | nil => exact absurd hq hne'
              | cons a b => rw [hq] at h5; exact h5
            rw [if_neg h5', hsk, (parse_append ft n).2.2 n _ _ _ y le_rfl hq]
            simp only [Option.map_some, Option.some.injEq, Prod.mk.injEq] at hp ⊢
            exact ⟨hp.1, by rw [hp.2]⟩
      -- with enough fuel
      have hbig : ∀ n m, n ≤ m → ∀ (v : Json) (r : List Char), parseValue ft (n + 1) ('{' :: t) = some (v, r) → parseValue ft (m + 1) ('{' :: t) = some (v, r) := by
        intro n m hm v r hp
        simp only [parseValue] at hp ⊢
        rw [if_neg (by decide), if_neg (by decide), if_pos trivial] at hp ⊢
        by_cases h5 : (skipWs t).head? = some '}'
        · rw [if_pos h5] at hp ⊢
          exact hp
        · rw [if_neg h5] at hp ⊢
          cases hq : parseMembers ft n (skipWs t) with
          | none => rw [hq] at hp; cases hp
          | some q =>
            obtain ⟨z, r1⟩ := q
            rw [hq] at hp
            have := (parse_append ft n).2.2 m _ _ _ [] hm hq
            rw [List.append_nil, List.append_nil] at this
            rw [this]
            exact hp
      have h1 := hmem _ u v r (hbig _ (max (('{' :: t).length) (saveText ft d).length) (le_max_left _ _) v r hv)
      rw [← List.cons_append, ← h] at h1
      have h2 := parseValue_saved ft d hd (max (('{' :: t).length) (saveText ft d).length + 1) (by
        have := le_max_right (('{' :: t).length) (saveText ft d).length
        omega) []
      rw [List.append_nil, h1] at h2
      simp only [Option.some.injEq, Prod.mk.injEq, List.append_eq_nil_iff] at h2
      exact hu h2.2.2

/-- **C73, configuration files.**  Loading a configuration file that was cut short at any place - a crash while it was written - raises an exception
and changes nothing: a file is restored completely or not at all. -/
theorem C73_config (ft : FloatText) (c c' : Ctx) (fs : FS) (p : Prog) (s : State)
    (hpy : PyFloats ft c.py) (hdef : DefaultFloats ft) (hlit : AllLits (FloatsIn ft) p) (t u : List Char) (hu : u ≠ [])
    (h : saveText ft (exec c p (init c fs)).1.cfg = t ++ u) :
    loadText ft c' s t = (s, some .valueError) := by
  obtain ⟨-, hd⟩ := reachable_printable ft c fs p hpy hdef hlit
  unfold loadText
  rw [parseText_cut ft _ hd t u hu h]

/-! ### A conversion of numbers that meets the requirements -/

theorem roundEven_int (z : ℤ) : Shc.roundEven (z : ℚ) = z := by
  unfold Shc.roundEven
  rw [Int.fract_intCast, if_pos (by norm_num), Int.floor_intCast]

theorem r8_decimal (z : ℤ) : Shc.r8 ((z : ℚ) / 10 ^ 8) = (z : ℚ) / 10 ^ 8 := by
  unfold Shc.r8
  have h1 : |(z : ℚ) / 10 ^ 8| * 10 ^ 8 = ((|z| : ℤ) : ℚ) := by
    rw [abs_div, abs_of_pos (by norm_num : (0 : ℚ) < 10 ^ 8), div_mul_cancel₀ _ (by norm_num), Int.cast_abs]
  rw [h1, roundEven_int]
  have h2 : ((|z|.toNat : ℕ) : ℚ) = |(z : ℚ)| := by
    rw [← Int.cast_natCast, Int.toNat_of_nonneg (abs_nonneg z), Int.cast_abs]
  rw [h2]
  have h3 : (z : ℚ) / 10 ^ 8 < 0 ↔ (z : ℚ) < 0 := by
    constructor
    · intro h
      by_contra hh
      exact absurd h (not_lt.2 (div_nonneg (not_lt.1 hh) (by norm_num)))
    · exact fun h => div_neg_of_neg_of_pos h (by norm_num)
  by_cases hz : (z : ℚ) < 0
  · rw [if_pos (h3.2 hz), abs_of_neg hz]
    ring
  · rw [if_neg (fun hh => hz (h3.1 hh)), abs_of_nonneg (not_lt.1 hz)]
    ring

/-- Numbers with eight decimals, printed with all of them. -/
def decimals8 : FloatText where
  repr q := Shc.fixed8 q
  ofText w := match Shc.parseNum (K := ℚ) w with
    | some q => .fin q
    | none => .nan
  isFloat q := ∃ z : ℤ, q = (z : ℚ) / 10 ^ 8
  back := by
    rintro q ⟨z, rfl⟩
    rw [Shc.parseNum_fixed8, r8_decimal]
  shape := by
    rintro q -
    unfold Shc.fixed8
    simp only
    generalize (Shc.roundEven (|q| * 10 ^ 8)).toNat = r
    obtain ⟨-, n2, n3⟩ := Shc.natStr_spec (r / 10 ^ 8)
    obtain ⟨-, p2, p3⟩ := Shc.padDigits_spec 8 (r % 10 ^ 8)
    have hne : Shc.padDigits 8 (r % 10 ^ 8) ≠ [] := by
      intro hh
      rw [hh] at p2
      cases p2
    refine ⟨if q < 0 then ['-'] else [], natStr (r / 10 ^ 8), '.' :: Shc.padDigits 8 (r % 10 ^ 8), [], ?_, ?_, n2, n3, natStr_zero_head _,
      .inr ⟨_, rfl, hne, p3⟩, .inl rfl, .inl (by simp)⟩
    · rw [List.append_nil]
      split_ifs <;> rfl
    · split_ifs <;> simp

/-- The requirements are met: by this conversion, the demo program and its surroundings. -/
theorem demo_floats : PyFloats decimals8 demoCtx.py ∧ DefaultFloats decimals8 ∧ AllLits (FloatsIn decimals8) demoProg := by
  refine ⟨⟨⟨0, by norm_num⟩, ⟨10 ^ 8, by norm_num⟩, ?_, ?_⟩, ?_, ?_⟩
  · intro i q h
    simp only [demoCtx, demoPy, Option.some.injEq, Flt.fin.injEq] at h
    exact ⟨i * 10 ^ 8, by rw [← h]; push_cast; field_simp; norm_num⟩
  · intro s q h
    simp [demoCtx, demoPy] at h
  · intro q hq
    simp only [List.mem_cons, List.not_mem_nil, or_false] at hq
    rcases hq with rfl | rfl | rfl | rfl | rfl | rfl | rfl | rfl
    · exact ⟨637120000000, by norm_num⟩
    · exact ⟨348500000000, by norm_num⟩
    · exact ⟨-2944200000000, by norm_num⟩
    · exact ⟨-150100000000, by norm_num⟩
    · exact ⟨479710000000, by norm_num⟩
    · exact ⟨637813700000, by norm_num⟩
    · exact ⟨635675200000, by norm_num⟩
    · exact ⟨630000000, by norm_num⟩
  · refine ⟨⟨trivial, ?_, trivial⟩, ?_⟩
    · intro s hs
      simp only [List.mem_cons, Option.some.injEq, List.not_mem_nil, or_false] at hs
      rcases hs with rfl | rfl | rfl <;> trivial
    · intro e he
      simp only [List.mem_cons, List.not_mem_nil, or_false] at he
      rcases he with rfl | rfl
      · exact ⟨350000000, by norm_num⟩
      · trivial

/-- A saved file, character by character, with an escaped quotation mark and a character beyond the basic plane. -/
example : saveText decimals8 [("b", .list [some (.int (-7)), some (.str "x\"\\😀")]), ("a", .sc (.bool true))] =
    "{\n    \"a\": true,\n    \"b\": [\n        -7,\n        \"x\\\"\\\\\\ud83d\\ude00\"\n    ]\n}".toList := by decide +kernel

end ChaosMagPy.ConfigText
