import Verif.Lemmas.ConfigMore
/-!
# Properties C01-C06: the configuration object (`chaosmagpy/config_utils.py`)
-/
namespace ChaosMagPy.Config
open Spec

/-! ## C01 -/

/-- **C01 (all histories).**  Whatever program is run on the freshly created configuration - any
nesting of assignments, resets, loads, contexts, exceptions and file creation/deletion - the keys are
exactly the documented ones (each once) and every stored value has its documented type. -/
theorem C01_keys_and_types (c : Ctx) (fs : FS) (p : Prog) :
    let s := (exec c p (init c fs)).1
    (∀ k, (s.cfg.get k).isSome ↔ k ∈ documentedKeys) ∧ (s.cfg.map Prod.fst).Nodup ∧
      ∀ k v, s.cfg.get k = some v → HasDocumentedType c.py k v := by
  intro s
  have h : Inv (fun _ k v => HasDocumentedType c.py k v) s :=
    Inv.exec (c := c) (Q := fun _ => True)
      (fun _ _ _ _ _ _ he _ hr => run_shape he hr)
      (fun _ _ _ _ he => ⟨default_shape he, trivial⟩)
      (fun _ _ _ _ => trivial) (fun _ _ _ _ _ h => h) True (fun _ _ _ _ _ _ h => h)
      p _ (Or.inl trivial) (allLits_true p) (Inv.init (fun _ _ _ _ he => default_shape he) fs)
  refine ⟨fun k => ?_, ?_, h.2⟩
  · rw [Dict.get_isSome_iff, h.1]
  · rw [h.1]; exact keys_nodup

/-- **C01 (re-acceptance).**  If no file is deleted, every stored value is accepted again, unchanged,
by the validator of its key; the only exception is a `file.*` default that was never there (full
resets and the initial configuration do not check them). -/
theorem C01_values_reaccepted (c : Ctx) (fs : FS) (p : Prog) (hp : NoDelete p)
    (k : String) (v d : Val) (chk : Validator) :
    let s := (exec c p (init c fs)).1
    s.cfg.get k = some v → defEntry c k = some (d, chk) →
      chk.run c.py s.fs v = .ok v ∨ (k ∈ fileKeys ∧ v = d) := by
  intro s hv he
  have h : Inv (fun fs k v => ∀ d chk, defEntry c k = some (d, chk) →
      chk.run c.py fs v = .ok v ∨ (k ∈ fileKeys ∧ v = d)) s := by
    refine Inv.exec (c := c) (Q := fun _ => True) ?_ ?_ (fun _ _ _ _ => trivial) ?_ False
      (fun h => h.elim) p _ (Or.inr hp) (allLits_true p) ?_
    · intro fs k d chk v w he _ hr d' chk' he'
      rw [he] at he'
      cases he'
      exact Or.inl (run_idem _ _ _ _ _ _ (fun _ h => h) rfl hr)
    · intro fs k d chk he
      refine ⟨?_, trivial⟩
      intro d' chk' he'
      rw [he] at he'
      cases he'
      rcases default_reaccepted (fs := fs) he with h | h
      · exact Or.inl h
      · exact Or.inr ⟨h, rfl⟩
    · intro fs fs' k v hle h d chk he
      rcases h d chk he with h | h
      · exact Or.inl (run_idem _ _ _ _ _ _ hle.1 hle.2 h)
      · exact Or.inr h
    · refine Inv.init ?_ fs
      intro fs k d chk he d' chk' he'
      rw [he] at he'
      cases he'
      rcases default_reaccepted (fs := fs) he with h | h
      · exact Or.inl h
      · exact Or.inr ⟨h, rfl⟩
  exact h.2 k v hv d chk he

/-- A concrete program (nested contexts, an exception in the inner body, a load that stops half way)
meeting the hypotheses of C01. -/
def demoProg : Prog :=
  .seq (.tryExcept (.ctx "params.r_surf" (.sc (.int 10))
      (.ctx "params.dipole" (.list [some (.int 1), some (.int 2), some (.int 3)]) .raise)))
    (.tryExcept (.load [("params.cdf_to_mjd", .sc (.flt (.fin (7/2)))), ("typo", .sc .none)]))

example : NoDelete demoProg ∧
    ((exec demoCtx demoProg (init demoCtx demoFS)).1.cfg.get "params.r_surf"
      = some (.sc (.flt (.fin 10)))) ∧
    ((exec demoCtx demoProg (init demoCtx demoFS)).1.cfg.get "params.cdf_to_mjd"
      = some (.sc (.int 3))) := by
  refine ⟨by simp [demoProg, NoDelete], by decide +kernel, by decide +kernel⟩

/-- Boundary of C01: the inherited `dict.update` bypasses validation, so a history that uses it breaks
the invariant (a value of the wrong type under a documented key, and an undocumented key). -/
theorem C01_dict_update_bypasses (c : Ctx) (fs : FS) :
    let s := init c fs
    let d := s.cfg.update [("params.r_surf", .sc (.str "wrong")), ("typo", .sc .none)]
    d.get "params.r_surf" = some (.sc (.str "wrong")) ∧ d.get "typo" = some (.sc .none) ∧
      ¬ HasDocumentedType c.py "params.r_surf" (.sc (.str "wrong")) ∧
      "typo" ∉ documentedKeys := by
  intro s d
  refine ⟨rfl, rfl, ?_, by decide⟩
  intro h
  obtain ⟨f, hf⟩ := h.float (by simp)
  cases hf

/-! ## C02 -/

/-- **C02.**  Assignment: an unknown key is a `KeyError` and nothing changes; a known key whose
validator raises propagates that error and nothing changes; otherwise exactly the assigned key
changes, to the validator's result, and the order of the keys stays. -/
theorem C02_assignment (c : Ctx) (s : State) (k : String) (v : Val)
    (hk : s.cfg.map Prod.fst = documentedKeys) :
    (k ∉ documentedKeys → exec c (.set k v) s = (s, some .keyError)) ∧
    (∀ d chk, defEntry c k = some (d, chk) →
      (∀ e, chk.run c.py s.fs v = .error e → exec c (.set k v) s = (s, some e)) ∧
      (∀ w, chk.run c.py s.fs v = .ok w → ∃ s', exec c (.set k v) s = (s', none) ∧
        s'.fs = s.fs ∧ s'.cfg.get k = some w ∧ (∀ j, j ≠ k → s'.cfg.get j = s.cfg.get j) ∧
        s'.cfg.map Prod.fst = documentedKeys)) := by
  refine ⟨fun hn => ?_, fun d chk he => ⟨fun e hr => ?_, fun w hr => ?_⟩⟩
  · have : defEntry c k = none := by
      rw [← Option.not_isSome_iff_eq_none, defEntry_isSome]; exact hn
    simp [exec, setItem, this]
  · simp [exec, setItem, he, hr]
  · refine ⟨{ s with cfg := s.cfg.set k w }, by simp [exec, setItem, he, hr], rfl, ?_, ?_, ?_⟩
    · simp [Dict.get_set]
    · intro j hj; simp [Dict.get_set, hj]
    · have : k ∈ s.cfg.map Prod.fst := by
        rw [hk, ← defEntry_isSome c, he]; rfl
      simpa [Dict.keys_set_of_mem _ _ _ this] using hk

/-- **C02, error classes.**  The exceptions each kind of validator can raise: a vector or version
parameter only `ValueError`, a file parameter only `FileNotFoundError` or `TypeError` (`ValueError` for arrays of two or more elements), a number never
`KeyError` or `FileNotFoundError`. -/
theorem C02_error_classes (py : Py) (fs : FS) (v : Val) (e : Err) :
    (∀ n, (Validator.vector n).run py fs v = .error e → e = .valueError) ∧
    (Validator.version.run py fs v = .error e → e = .valueError) ∧
    (Validator.path.run py fs v = .error e →
      (e = .fileNotFound ∨ e = .typeError ∨ e = .valueError) ∧ (e = .valueError ↔ ∃ x y xs, v = .arr (x :: y :: xs))) ∧
    (Validator.float.run py fs v = .error e → e = .valueError ∨ e = .typeError ∨ e = .overflowError) ∧
    (Validator.int.run py fs v = .error e → e = .valueError ∨ e = .typeError ∨ e = .overflowError) := by
  refine ⟨fun n h => ?_, fun h => ?_, fun h => ?_, fun h => ?_, fun h => ?_⟩
  · simp only [Validator.run, checkVector] at h
    split at h
    · cases h; rfl
    · split_ifs at h; cases h; rfl
  · simp only [Validator.run, checkVersion] at h
    split_ifs at h; cases h; rfl
  · simp only [Validator.run] at h
    unfold checkPath at h
    split at h
    · cases h
    · split_ifs at h; cases h; exact ⟨Or.inl rfl, by simp⟩
    · split_ifs at h; cases h; exact ⟨Or.inl rfl, by simp⟩
    · rename_i b
      generalize fs.fdExists (if b = true then 1 else 0) = x at h
      cases x <;> simp at h
      subst h
      exact ⟨Or.inl rfl, by simp⟩
    · rename_i xs
      split_ifs at h with h1 h2
      · cases h
        refine ⟨Or.inr (Or.inl rfl), by simp, ?_⟩
        rintro ⟨x, y, xs, hx⟩
        cases hx
        simp at h1
      · cases h
        rcases xs with _ | ⟨x, _ | ⟨y, xs⟩⟩
        · simp at h1
        · simp at h1
        · exact ⟨Or.inr (Or.inr rfl), fun _ => ⟨x, y, xs, rfl⟩, fun _ => rfl⟩
    · rename_i hv
      cases h
      refine ⟨Or.inr (Or.inl rfl), by simp, ?_⟩
      rintro ⟨x, y, xs, rfl⟩
      exact absurd rfl (hv _)
  · have key : ∀ s : Sc, ∀ g : Flt → Val, Except.map g (pyFloatSc py s) = .error e →
        e = .valueError ∨ e = .typeError ∨ e = .overflowError := by
      intro s g h
      cases hs : pyFloatSc py s with
      | ok f => simp [hs, Except.map] at h
      | error e' =>
        simp [hs, Except.map] at h
        subst h
        unfold pyFloatSc at hs
        split at hs
        · cases hs; simp
        · cases hs
        · split at hs <;> cases hs; simp
        · cases hs
        · split at hs <;> cases hs; simp
    simp only [Validator.run] at h
    unfold checkFloat at h
    split at h
    · exact key _ _ h
    · exact key _ _ h
    · cases h; simp
  · have key : ∀ s : Sc, ∀ g : Int → Val, Except.map g (pyIntSc py s) = .error e →
        e = .valueError ∨ e = .typeError ∨ e = .overflowError := by
      intro s g h
      cases hs : pyIntSc py s with
      | ok f => simp [hs, Except.map] at h
      | error e' =>
        simp [hs, Except.map] at h
        subst h
        unfold pyIntSc at hs
        split at hs
        · cases hs; simp
        · cases hs
        · cases hs
        · cases hs
        · cases hs; simp
        · cases hs; simp
        · split at hs <;> cases hs; simp
    simp only [Validator.run] at h
    unfold checkInt at h
    split at h
    · exact key _ _ h
    · exact key _ _ h
    · cases h; simp

/-- **C02, what is accepted.**  Vectors: exactly arrays/lists of scalars of the required length - the
entries need not be numbers.  Files: `None`, the string `"None"` (stored as `None`), existing paths. -/
theorem C02_accepted (py : Py) (fs : FS) :
    (∀ n (xs : List Sc), (∃ ys, (Validator.vector n).run py fs (.list (xs.map some)) = .ok (.arr ys))
      ↔ xs.length = n) ∧
    (∀ n (xs : List (Option Sc)), none ∈ xs →
      (Validator.vector n).run py fs (.list xs) = .error .valueError) ∧
    (∀ s, s ≠ "None" → ((∃ w, Validator.path.run py fs (.sc (.str s)) = .ok w) ↔
      fs.pathExists s = true)) ∧
    Validator.path.run py fs (.sc (.str "None")) = .ok (.sc .none) ∧
    Validator.path.run py fs (.sc .none) = .ok (.sc .none) := by
  have hlen : ∀ xs : List Sc, (npUnify py xs).length = xs.length := by
    intro xs
    unfold npUnify
    split_ifs
    · rfl
    · simp
    · cases hm : xs.mapM (toFltElt py) with
      | none => rfl
      | some ys =>
        simp only [Option.getD_some]
        have : ∀ (xs ys : List Sc), xs.mapM (toFltElt py) = some ys → ys.length = xs.length := by
          intro xs
          induction xs with
          | nil => intro ys h; simp at h; subst h; rfl
          | cons x xs ih =>
            intro ys h
            simp only [List.mapM_cons, Option.bind_eq_bind, Option.bind_eq_some_iff,
              Option.pure_def, Option.some.injEq] at h
            obtain ⟨a, _, as, has, rfl⟩ := h
            simp [ih _ has]
        exact this _ _ hm
    · simp
    · rfl
  have hm : ∀ xs : List Sc, (xs.map some).mapM id = some xs := by
    intro xs
    induction xs with
    | nil => rfl
    | cons x xs ih => simp [ih]
  refine ⟨fun n xs => ?_, fun n xs h => ?_, fun s hs => ?_, rfl, rfl⟩
  · have e : npArray1 py (.list (xs.map some)) = some (npUnify py xs) := by
      simp only [npArray1, hm, Option.map_some]
    simp only [Validator.run, checkVector, e, hlen]
    by_cases h : xs.length = n <;> simp [h]
  · have : xs.mapM id = (none : Option (List Sc)) := by
      induction xs with
      | nil => simp at h
      | cons x xs ih =>
        cases x with
        | none => simp
        | some x =>
          have hm : none ∈ xs := by simpa using h
          simp [ih hm]
    simp [Validator.run, checkVector, npArray1, this]
  · by_cases h : fs.pathExists s = true <;> simp [Validator.run, checkPath, hs, h]

/-- C02 hypotheses are met by the initial state; a good, a refused and an unknown assignment. -/
example : (init demoCtx demoFS).cfg.map Prod.fst = documentedKeys ∧
    exec demoCtx (.set "params.ellipsoid" (.list [some (.int 1)])) (init demoCtx demoFS)
      = (init demoCtx demoFS, some .valueError) := ⟨rfl, rfl⟩

/-! ## C03 -/

/-- **C03.**  Loading a file: either all entries are accepted, one after the other, or the entries
split as `pre ++ bad :: post` where `pre` is accepted completely, `bad` is the first refused entry
(refused in the state after `pre`), the error is that of `bad`, and the reached state is the one after
`pre`: nothing of `post` is applied and nothing of `pre` is undone. -/
theorem C03_load_applies_prefix (c : Ctx) (es : List (String × Val)) (s : State) :
    (∃ s', load c s es = (s', none) ∧ es.foldlM (fun s e => setItem c s e.1 e.2) s = .ok s') ∨
    (∃ pre k v post s' e, es = pre ++ (k, v) :: post ∧
      pre.foldlM (fun s e => setItem c s e.1 e.2) s = .ok s' ∧
      setItem c s' k v = .error e ∧ load c s es = (s', some e)) := by
  induction es generalizing s with
  | nil => exact Or.inl ⟨s, rfl, rfl⟩
  | cons a es ih =>
    obtain ⟨k, v⟩ := a
    cases hs : setItem c s k v with
    | error e => exact Or.inr ⟨[], k, v, es, s, e, rfl, rfl, hs, by simp [load, hs]⟩
    | ok s1 =>
      have hb : ∀ l : List (String × Val),
          ((k, v) :: l).foldlM (fun s e => setItem c s e.1 e.2) s =
            l.foldlM (fun s e => setItem c s e.1 e.2) s1 := by
        intro l
        simp only [List.foldlM_cons, hs]; rfl
      rcases ih s1 with ⟨s', h1, h2⟩ | ⟨pre, k', v', post, s', e, h1, h2, h3, h4⟩
      · exact Or.inl ⟨s', by simp [load, hs, h1], by rw [hb, h2]⟩
      · exact Or.inr ⟨(k, v) :: pre, k', v', post, s', e, by simp [h1], by rw [hb, h2], h3,
          by simp [load, hs, h4]⟩

/-- C03, non-atomicity witness: the first entry stays although the file as a whole is refused. -/
example : ∃ s', load demoCtx (init demoCtx demoFS)
      [("params.r_surf", .sc (.int 1)), ("typo", .sc .none), ("params.r_cmb", .sc (.int 2))]
        = (s', some .keyError) ∧ s'.cfg.get "params.r_surf" = some (.sc (.flt (.fin 1))) ∧
      s'.cfg.get "params.r_cmb" = some (.sc (.flt (.fin 3485))) :=
  ⟨_, rfl, by decide +kernel, by decide +kernel⟩

/-! ## C04 -/

/-- **C04.**  Take any configuration `s0` with the documented keys whose values are accepted by their
validators (in the file system present at loading time) and whose arrays have a common dtype.  Loading
the file written by `save s0` into any configuration `s` succeeds and makes the dictionary equal to
that of `s0`. -/
theorem C04_save_load (c : Ctx) (s0 s : State)
    (h0 : s0.cfg.map Prod.fst = documentedKeys) (h1 : s.cfg.map Prod.fst = documentedKeys)
    (hacc : ∀ k v, s0.cfg.get k = some v → ∃ d chk, defEntry c k = some (d, chk) ∧
      chk.run c.py s.fs v = .ok v)
    (hst : ∀ k v, s0.cfg.get k = some v → StableVal c.py v) :
    ∃ s', load c s (save s0.cfg) = (s', none) ∧ s'.cfg = s0.cfg ∧ s'.fs = s.fs := by
  have hn0 : (s0.cfg.map Prod.fst).Nodup := by rw [h0]; exact keys_nodup
  let es : List (String × Val × Val) :=
    (s0.cfg.foldr insertSorted []).map fun kv => (kv.1, jsonTrip kv.2, kv.2)
  have e1 : save s0.cfg = es.map fun e => (e.1, e.2.1) := by simp [es, save]
  have hsn := sorted_nodup s0.cfg hn0
  have hen : (es.map Prod.fst).Nodup := by
    have : es.map Prod.fst = (s0.cfg.foldr insertSorted []).map Prod.fst := by simp [es]
    rw [this]; exact hsn
  have hmem : ∀ e ∈ es, s0.cfg.get e.1 = some e.2.2 ∧ e.2.1 = jsonTrip e.2.2 := by
    intro e he
    obtain ⟨x, hx, rfl⟩ := List.mem_map.1 he
    exact ⟨(Dict.get_eq_some_iff_mem _ hn0 _ _).2 ((sorted_mem _ _).1 hx), rfl⟩
  obtain ⟨s', hl, hfs, hcfg⟩ := load_all c es s hen (by
    intro e he
    obtain ⟨hg, hj⟩ := hmem e he
    obtain ⟨d, chk, hd, hr⟩ := hacc _ _ hg
    exact ⟨d, chk, hd, by rw [hj]; exact run_jsonTrip hr (hst _ _ hg)⟩)
  refine ⟨s', by rw [e1]; exact hl, ?_, hfs⟩
  have hk' : s'.cfg.map Prod.fst = documentedKeys := by
    rw [hcfg, foldl_set_keys, h1]
    intro e he
    rw [h1, ← h0, ← Dict.get_isSome_iff, (hmem e he).1]; rfl
  refine Dict.ext_of_keys _ _ (hk'.trans h0.symm) (by rw [hk']; exact keys_nodup) fun k => ?_
  rw [hcfg, foldl_set_get _ _ _ hen]
  have e2 : (es.map fun e => (e.1, e.2.2)) = s0.cfg.foldr insertSorted [] := by
    simp [es, Function.comp_def]
  rw [e2]
  cases hg : s0.cfg.get k with
  | some v =>
    have : Dict.get (s0.cfg.foldr insertSorted []) k = some v := by
      rw [Dict.get_eq_some_iff_mem _ hsn, sorted_mem, ← Dict.get_eq_some_iff_mem _ hn0]
      exact hg
    simp [this]
  | none =>
    have a : Dict.get (s0.cfg.foldr insertSorted []) k = none := by
      by_contra hne
      obtain ⟨v, hv⟩ := Option.ne_none_iff_exists'.1 hne
      rw [Dict.get_eq_some_iff_mem _ hsn, sorted_mem, ← Dict.get_eq_some_iff_mem _ hn0, hg] at hv
      cases hv
    have b : Dict.get s.cfg k = none := by
      rw [← Option.not_isSome_iff_eq_none, Dict.get_isSome_iff, h1, ← h0, ← Dict.get_isSome_iff, hg]
      simp
    rw [a, b]; rfl

/-- **C04 for reachable configurations.**  If all default files exist, any configuration reached by a
program that deletes no file and assigns no mixed-type object array is restored by `save` + `load` from
any other reachable configuration (reached by any program `q` run afterwards without deletions). -/
theorem C04_reachable (c : Ctx) (fs : FS) (p q : Prog)
    (hall : ∀ k d chk, defEntry c k = some (d, chk) → k ∈ fileKeys → chk.run c.py fs d = .ok d)
    (hp : NoDelete p) (hq : NoDelete q) (hstab : StableProg c.py p) :
    let s0 := (exec c p (init c fs)).1
    let s := (exec c q s0).1
    ∃ s', load c s (save s0.cfg) = (s', none) ∧ s'.cfg = s0.cfg := by
  intro s0 s
  let P : FS → String → Val → Prop := fun g k v => FSle fs g ∧
      ∀ d chk, defEntry c k = some (d, chk) → chk.run c.py g v = .ok v
  -- file systems only grow along a program without deletions
  have grow : ∀ (p : Prog) (s : State), NoDelete p → FSle s.fs (exec c p s).1.fs := by
    have hset : ∀ (s s' : State) k v, setItem c s k v = .ok s' → s'.fs = s.fs := by
      intro s s' k v h
      obtain ⟨_, _, _, _, _, rfl⟩ := setItem_ok c s s' k v h; rfl
    have trans : ∀ {a b d : FS}, FSle a b → FSle b d → FSle a d := fun h1 h2 =>
      ⟨fun p hp => h2.1 p (h1.1 p hp), h2.2.trans h1.2⟩
    have hload : ∀ (es : List (String × Val)) (s : State), (load c s es).1.fs = s.fs := by
      intro es
      induction es with
      | nil => intro s; rfl
      | cons a es ih =>
        intro s
        obtain ⟨k, v⟩ := a
        simp only [load]
        split
        · rfl
        · rename_i s1 h1
          rw [ih]; exact hset _ _ _ _ h1
    intro p
    induction p with
    | skip => intro s _; exact FSle.refl _
    | set k v =>
      intro s _; simp only [exec]; split
      · rename_i h; rw [hset _ _ _ _ h]; exact FSle.refl _
      · exact FSle.refl _
    | reset k =>
      intro s _; simp only [exec]; split
      · rename_i h
        unfold reset at h; split at h
        · cases h
        · rw [hset _ _ _ _ h]; exact FSle.refl _
      · exact FSle.refl _
    | fullreset => intro s _; exact FSle.refl _
    | load es => intro s _; simp only [exec, hload]; exact FSle.refl _
    | ctx k v body ih =>
      intro s hn; simp only [exec]; split
      · exact FSle.refl _
      · split
        · exact FSle.refl _
        · rename_i s1 h1
          have a := ih s1 hn
          rw [hset _ _ _ _ h1] at a
          split
          · rename_i s2 e h2; rw [h2] at a; exact a
          · rename_i s2 h2
            rw [h2] at a
            split
            · exact a
            · rename_i s3 h3; rw [hset _ _ _ _ h3]; exact a
    | seq p q ihp ihq =>
      intro s hn; simp only [exec]
      have a := ihp s hn.1
      split
      · rename_i s1 e h1; rw [h1] at a; exact a
      · rename_i s1 h1; rw [h1] at a; exact trans a (ihq s1 hn.2)
    | tryExcept p ih => intro s hn; exact ih s hn
    | raise => intro s _; exact FSle.refl _
    | createFile path =>
      intro s _
      refine ⟨fun p hp => ?_, rfl⟩
      show (if p = path then true else s.fs.pathExists p) = true
      split_ifs
      · rfl
      · exact hp
    | deleteFile path => intro s hn; exact hn.elim
  have keysOf : ∀ (p : Prog), ((exec c p (init c fs)).1.cfg).map Prod.fst = documentedKeys := by
    intro p
    exact (Inv.exec (c := c) (P := fun _ _ _ => True) (Q := fun _ => True)
      (fun _ _ _ _ _ _ _ _ _ => trivial) (fun _ _ _ _ _ => ⟨trivial, trivial⟩)
      (fun _ _ _ _ => trivial) (fun _ _ _ _ _ h => h) True (fun _ _ _ _ _ _ h => h)
      p _ (Or.inl trivial) (allLits_true p) (Inv.init (fun _ _ _ _ _ => trivial) fs)).1
  have keys_s : s.cfg.map Prod.fst = documentedKeys := by
    exact (Inv.exec (c := c) (P := fun _ _ _ => True) (Q := fun _ => True)
      (fun _ _ _ _ _ _ _ _ _ => trivial) (fun _ _ _ _ _ => ⟨trivial, trivial⟩)
      (fun _ _ _ _ => trivial) (fun _ _ _ _ _ h => h) True (fun _ _ _ _ _ _ h => h)
      q s0 (Or.inl trivial) (allLits_true q) ⟨keysOf p, fun _ _ _ => trivial⟩).1
  have stab : Inv (fun _ _ v => StableVal c.py v) s0 := by
    have lits : ∀ p : Prog, StableProg c.py p → AllLits (StableVal c.py) p := by
      intro p
      induction p with
      | set k v => exact fun h => h
      | load es => exact fun h => h
      | ctx k v p ih => exact fun h => ⟨h.1, ih h.2⟩
      | seq p q ihp ihq => exact fun h => ⟨ihp h.1, ihq h.2⟩
      | tryExcept p ih => exact fun h => ih h
      | _ => exact fun _ => trivial
    exact Inv.exec (c := c) (Q := StableVal c.py)
      (fun _ _ _ _ _ _ _ hQ hr => run_stable hQ hr)
      (fun _ _ _ _ he => ⟨default_stable he, default_stable he⟩)
      (fun _ _ _ h => h) (fun _ _ _ _ _ h => h) True (fun _ _ _ _ _ _ h => h)
      p _ (Or.inl trivial) (lits p hstab) (Inv.init (fun _ _ _ _ he => default_stable he) fs)
  obtain ⟨s', h1, h2, _⟩ := C04_save_load c s0 s (keysOf p) keys_s (by
    intro k v hv
    have hk : (defEntry c k).isSome := by
      rw [defEntry_isSome, ← keysOf p, ← Dict.get_isSome_iff, hv]; rfl
    obtain ⟨⟨d, chk⟩, he⟩ := Option.isSome_iff_exists.1 hk
    refine ⟨d, chk, he, ?_⟩
    have g0 := grow p (init c fs) hp
    have g1 := grow q s0 hq
    rcases C01_values_reaccepted c fs p hp k v d chk hv he with h | ⟨hf, rfl⟩
    · exact run_idem _ _ _ _ _ _ g1.1 g1.2 h
    · have := hall k v chk he hf
      have a : chk.run c.py s0.fs v = .ok v := run_idem _ _ _ _ _ _ g0.1 g0.2 this
      exact run_idem _ _ _ _ _ _ g1.1 g1.2 a) stab.2
  exact ⟨s', h1, h2⟩

/-- The hypotheses of C04 are met by the demo program. -/
theorem demo_stable : NoDelete demoProg ∧ StableProg demoCtx.py demoProg ∧
    (∀ k d chk, defEntry demoCtx k = some (d, chk) → k ∈ fileKeys →
      chk.run demoCtx.py demoFS d = .ok d) := by
  refine ⟨by simp [demoProg, NoDelete], by simp [demoProg, StableProg, StableVal], ?_⟩
  intro k d chk he hk
  have h := defEntry_cases he
  simp only [defaults, List.mem_cons, List.not_mem_nil, or_false, Prod.mk.injEq] at h
  rcases h with ⟨rfl, rfl, rfl⟩ | ⟨rfl, rfl, rfl⟩ | ⟨rfl, rfl, rfl⟩ | ⟨rfl, rfl, rfl⟩ |
    ⟨rfl, rfl, rfl⟩ | ⟨rfl, rfl, rfl⟩ | ⟨rfl, rfl, rfl⟩ | ⟨rfl, rfl, rfl⟩ | ⟨rfl, rfl, rfl⟩ |
    ⟨rfl, rfl, rfl⟩ | ⟨rfl, rfl, rfl⟩ | ⟨rfl, rfl, rfl⟩ <;> first | rfl | (simp [fileKeys] at hk)

/-! ## C05 -/

/-- **C05, normal exit.**  If a context block over key `k` ends without exception, the body ran from
the state in which `k` was overridden, the block leaves every other key as the body left it, and `k`
has the value its validator makes of the old one - the old value itself whenever that is accepted
unchanged (C01: every value that was ever stored, except a missing default file). -/
theorem C05_context_restores (c : Ctx) (s s' : State) (k : String) (v : Val) (body : Prog)
    (h : exec c (.ctx k v body) s = (s', none)) :
    ∃ old s1 s2 d chk w, s.cfg.get k = some old ∧ setItem c s k v = .ok s1 ∧
      exec c body s1 = (s2, none) ∧ defEntry c k = some (d, chk) ∧
      chk.run c.py s2.fs old = .ok w ∧ s'.cfg.get k = some w ∧
      (∀ j, j ≠ k → s'.cfg.get j = s2.cfg.get j) ∧ s'.fs = s2.fs ∧
      (chk.run c.py s2.fs old = .ok old → s'.cfg.get k = s.cfg.get k) := by
  simp only [exec] at h
  split at h
  · cases h
  · rename_i old hold
    split at h
    · cases h
    · rename_i s1 h1
      split at h
      · cases h
      · rename_i s2 h2
        split at h
        · cases h
        · rename_i s3 h3
          obtain ⟨d, chk, w, he, hr, rfl⟩ := setItem_ok c s2 s3 k old h3
          cases h
          refine ⟨old, s1, s2, d, chk, w, hold, h1, h2, he, hr, by simp [Dict.get_set],
            fun j hj => by simp [Dict.get_set, hj], rfl, fun ho => ?_⟩
          rw [hr] at ho
          cases ho
          simp [Dict.get_set, hold]

/-- **C05, exceptional exit.**  If the body raises, the block raises the same exception and leaves the
configuration exactly as it was when the exception was raised: the override is not undone. -/
theorem C05_exception_leaks (c : Ctx) (s s1 s2 : State) (k : String) (v old : Val) (body : Prog)
    (e : Err) (hold : s.cfg.get k = some old) (h1 : setItem c s k v = .ok s1)
    (h2 : exec c body s1 = (s2, some e)) : exec c (.ctx k v body) s = (s2, some e) := by
  simp [exec, hold, h1, h2]

/-- Nested context blocks around a body. -/
def nest : List (String × Val) → Prog → Prog
  | [], p => p
  | (k, v) :: l, p => .ctx k v (nest l p)

/-- **C05, nesting.**  Any number of nested context blocks (repeated keys allowed) whose entries are
accepted, around a body that changes nothing, run without exception and leave the state as it was, if
the values stored before are accepted by their validators. -/
theorem C05_nested_contexts_restore (c : Ctx) (l : List (String × Val)) (s : State)
    (hacc : ∀ k v, s.cfg.get k = some v → ∃ d chk, defEntry c k = some (d, chk) ∧
      chk.run c.py s.fs v = .ok v)
    (hl : ∀ e ∈ l, e.1 ∈ s.cfg.map Prod.fst ∧ ∃ d chk w, defEntry c e.1 = some (d, chk) ∧
      chk.run c.py s.fs e.2 = .ok w) :
    exec c (nest l .skip) s = (s, none) := by
  induction l generalizing s with
  | nil => rfl
  | cons a l ih =>
    obtain ⟨k, v⟩ := a
    obtain ⟨hk, d, chk, w, he, hr⟩ := hl (k, v) (by simp)
    simp only at hk he hr
    obtain ⟨old, hold⟩ := Option.isSome_iff_exists.1 ((Dict.get_isSome_iff _ _).2 hk)
    have h1 : setItem c s k v = .ok { s with cfg := s.cfg.set k w } := by simp [setItem, he, hr]
    have h2 := ih { s with cfg := s.cfg.set k w }
      (by
        intro j u hu
        simp only [Dict.get_set] at hu
        split_ifs at hu with hj
        · cases hu; subst hj
          exact ⟨d, chk, he, run_idem _ _ _ _ _ _ (fun _ h => h) rfl hr⟩
        · exact hacc j u hu)
      (by
        intro e hm
        obtain ⟨ha, hb⟩ := hl e (by simp [hm])
        refine ⟨?_, hb⟩
        simp only [Dict.keys_set_of_mem _ _ _ hk]
        exact ha)
    obtain ⟨d', chk', he', hr'⟩ := hacc k old hold
    rw [he] at he'
    cases he'
    have h3 : setItem c { s with cfg := s.cfg.set k w } k old = .ok s := by
      simp only [setItem, he, hr', Dict.set_set, Dict.set_get_self _ _ _ hold]
    simp [nest, exec, hold, h1, h2, h3]

/-- The hypotheses of C05 are met, and the leak is real: a context around a raising body leaves the
override in place. -/
example : exec demoCtx (nest [("params.r_surf", .sc (.int 1)), ("params.r_surf", .sc (.int 2))] .skip)
      (init demoCtx demoFS) = (init demoCtx demoFS, none) ∧
    (exec demoCtx (.ctx "params.r_surf" (.sc (.int 1)) .raise)
      (init demoCtx demoFS)).1.cfg.get "params.r_surf" = some (.sc (.flt (.fin 1))) := by
  constructor
  · rfl
  · decide +kernel

/-! ## C06 -/

/-- **C06.**  The version validator accepts a string exactly if it contains a digit, a dot and a digit
next to each other, and then returns the string unchanged; otherwise it raises `ValueError`. -/
theorem C06_version (py : Py) (fs : FS) (s : String) :
    (ContainsVersion py s → Validator.version.run py fs (.sc (.str s)) = .ok (.sc (.str s))) ∧
    (¬ ContainsVersion py s → Validator.version.run py fs (.sc (.str s)) = .error .valueError) := by
  have h : ContainsVersion py s ↔ reSearch py.isDigit s.toList = true := by
    rw [reSearch_iff _ py.dot_not_digit]
    constructor
    · rintro ⟨pre, a, b, post, ha, hb, he⟩
      exact ⟨pre, a, b, post, ha, hb, by simp [he]⟩
    · rintro ⟨pre, a, b, post, ha, hb, he⟩
      exact ⟨pre, a, b, post, ha, hb, by simp [he]⟩
  rw [h]
  constructor
  · intro h; simp [Validator.run, checkVersion, pyStr, h]
  · intro h; simp [Validator.run, checkVersion, pyStr, h]

/-- The accepted language is larger than `x.x`. -/
example : ContainsVersion demoPy "v7.18-beta" ∧ ¬ ContainsVersion demoPy "7." := by
  refine ⟨⟨['v'], '7', '1', ['8', '-', 'b', 'e', 't', 'a'], rfl, rfl, rfl⟩, ?_⟩
  rintro ⟨pre, a, b, post, _, _, h⟩
  have := congrArg List.length h
  simp at this
  omega

end ChaosMagPy.Config
