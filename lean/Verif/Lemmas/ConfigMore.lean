import Verif.Lemmas.ConfigInv
/-! Further helper lemmas for C01-C05. -/
namespace ChaosMagPy.Config
open Spec

theorem pyFloat_shape {py : Py} {v w : Val} (h : checkFloat py v = .ok w) :
    ∃ f, w = .sc (.flt f) := by
  unfold checkFloat at h
  split at h
  · rename_i s
    cases hs : pyFloatSc py s with
    | error e => simp [hs, Except.map] at h
    | ok f => simp [hs, Except.map] at h; exact ⟨f, h.symm⟩
  · rename_i s
    cases hs : pyFloatSc py s with
    | error e => simp [hs, Except.map] at h
    | ok f => simp [hs, Except.map] at h; exact ⟨f, h.symm⟩
  · cases h

theorem pyInt_shape {py : Py} {v w : Val} (h : checkInt py v = .ok w) :
    ∃ i, w = .sc (.int i) := by
  unfold checkInt at h
  split at h
  · rename_i s
    cases hs : pyIntSc py s with
    | error e => simp [hs, Except.map] at h
    | ok f => simp [hs, Except.map] at h; exact ⟨f, h.symm⟩
  · rename_i s
    cases hs : pyIntSc py s with
    | error e => simp [hs, Except.map] at h
    | ok f => simp [hs, Except.map] at h; exact ⟨f, h.symm⟩
  · cases h

theorem vector_shape {py : Py} {n : Nat} {v w : Val} (h : checkVector py n v = .ok w) :
    ∃ xs, w = .arr xs ∧ xs.length = n := by
  unfold checkVector at h
  split at h
  · cases h
  · rename_i xs _
    split_ifs at h with hl
    simp at hl
    exact ⟨xs, (Except.ok.inj h).symm, hl⟩

theorem version_shape {py : Py} {v w : Val} (h : checkVersion py v = .ok w) :
    ∃ s, w = .sc (.str s) ∧ ContainsVersion py s := by
  unfold checkVersion at h
  split_ifs at h with hs
  refine ⟨pyStr py v, (Except.ok.inj h).symm, ?_⟩
  obtain ⟨pre, a, b, post, ha, hb, he⟩ := (reSearch_iff _ py.dot_not_digit _).1 hs
  exact ⟨pre, a, b, post, ha, hb, by simp [he]⟩

theorem path_shape {fs : FS} {v w : Val} (h : checkPath fs v = .ok w) :
    (w = .sc .none ∨ (∃ s, w = .sc (.str s)) ∨ (∃ i, w = .sc (.int i)) ∨ (∃ b, w = .sc (.bool b)))
    ∧ FileThere fs w := by
  unfold checkPath at h
  split at h
  · cases h; simp [FileThere]
  · rename_i s
    split_ifs at h with h1 h2
    · cases h; simp [FileThere]
    · cases h; simp [FileThere, h2]
  · split_ifs at h with h1
    cases h; simp [FileThere, h1]
  · rename_i b
    cases b
    · cases h1 : fs.fdExists 0
      · simp [h1] at h
      · simp [h1] at h; subst h; simp [FileThere, h1]
    · cases h1 : fs.fdExists 1
      · simp [h1] at h
      · simp [h1] at h; subst h; simp [FileThere, h1]
  · split_ifs at h
    cases h; simp [FileThere]
  · cases h

/-- What a validator returns has the documented type. -/
theorem run_shape {c : Ctx} {fs : FS} {k : String} {d : Val} {chk : Validator} {v w : Val}
    (he : defEntry c k = some (d, chk)) (hr : chk.run c.py fs v = .ok w) :
    HasDocumentedType c.py k w := by
  have h := defEntry_cases he
  simp only [defaults, List.mem_cons, List.not_mem_nil, or_false, Prod.mk.injEq] at h
  rcases h with ⟨rfl, rfl, rfl⟩ | ⟨rfl, rfl, rfl⟩ | ⟨rfl, rfl, rfl⟩ | ⟨rfl, rfl, rfl⟩ |
    ⟨rfl, rfl, rfl⟩ | ⟨rfl, rfl, rfl⟩ | ⟨rfl, rfl, rfl⟩ | ⟨rfl, rfl, rfl⟩ | ⟨rfl, rfl, rfl⟩ |
    ⟨rfl, rfl, rfl⟩ | ⟨rfl, rfl, rfl⟩ | ⟨rfl, rfl, rfl⟩
  · exact ⟨fun _ => pyFloat_shape hr, by simp, by simp, by simp, by simp, by simp [fileKeys]⟩
  · exact ⟨fun _ => pyFloat_shape hr, by simp, by simp, by simp, by simp, by simp [fileKeys]⟩
  · exact ⟨by simp, by simp, fun _ => vector_shape hr, by simp, by simp, by simp [fileKeys]⟩
  · exact ⟨by simp, by simp, by simp, fun _ => vector_shape hr, by simp, by simp [fileKeys]⟩
  · exact ⟨by simp, by simp, by simp, by simp, fun _ => version_shape hr, by simp [fileKeys]⟩
  · exact ⟨by simp, fun _ => pyInt_shape hr, by simp, by simp, by simp, by simp [fileKeys]⟩
  · exact ⟨by simp, by simp, by simp, by simp, by simp, fun _ => (path_shape hr).1⟩
  · exact ⟨by simp, by simp, by simp, by simp, by simp, fun _ => (path_shape hr).1⟩
  · exact ⟨by simp, by simp, by simp, by simp, by simp, fun _ => (path_shape hr).1⟩
  · exact ⟨by simp, by simp, by simp, by simp, by simp, fun _ => (path_shape hr).1⟩
  · exact ⟨by simp, by simp, by simp, by simp, by simp, fun _ => (path_shape hr).1⟩
  · exact ⟨fun _ => pyFloat_shape hr, by simp, by simp, by simp, by simp, by simp [fileKeys]⟩

/-- Non-file defaults are accepted by their own validator, unchanged. -/
theorem default_reaccepted {c : Ctx} {fs : FS} {k : String} {d : Val} {chk : Validator}
    (he : defEntry c k = some (d, chk)) : chk.run c.py fs d = .ok d ∨ k ∈ fileKeys := by
  have h := defEntry_cases he
  simp only [defaults, List.mem_cons, List.not_mem_nil, or_false, Prod.mk.injEq] at h
  rcases h with ⟨rfl, rfl, rfl⟩ | ⟨rfl, rfl, rfl⟩ | ⟨rfl, rfl, rfl⟩ | ⟨rfl, rfl, rfl⟩ |
    ⟨rfl, rfl, rfl⟩ | ⟨rfl, rfl, rfl⟩ | ⟨rfl, rfl, rfl⟩ | ⟨rfl, rfl, rfl⟩ | ⟨rfl, rfl, rfl⟩ |
    ⟨rfl, rfl, rfl⟩ | ⟨rfl, rfl, rfl⟩ | ⟨rfl, rfl, rfl⟩
  · left; rfl
  · left; rfl
  · left; rfl
  · left; rfl
  · left
    have : reSearch c.py.isDigit "7.18".toList = true := by
      rw [reSearch_iff _ c.py.dot_not_digit]
      exact ⟨[], '7', '1', ['8'], c.py.ascii_digit _ (by decide), c.py.ascii_digit _ (by decide),
        by decide⟩
    simp only [Validator.run, checkVersion, pyStr, this, if_true]
  · left; rfl
  all_goals first
    | (right; simp [fileKeys]; done)
    | (left; rfl)

theorem default_shape {c : Ctx} {k : String} {d : Val} {chk : Validator}
    (he : defEntry c k = some (d, chk)) : HasDocumentedType c.py k d := by
  have h := defEntry_cases he
  rcases default_reaccepted (fs := ⟨fun _ => true, fun _ => true⟩) he with h' | h'
  · exact run_shape he h'
  · simp only [defaults, List.mem_cons, List.not_mem_nil, or_false, Prod.mk.injEq] at h
    rcases h with ⟨rfl, rfl, rfl⟩ | ⟨rfl, rfl, rfl⟩ | ⟨rfl, rfl, rfl⟩ | ⟨rfl, rfl, rfl⟩ |
      ⟨rfl, rfl, rfl⟩ | ⟨rfl, rfl, rfl⟩ | ⟨rfl, rfl, rfl⟩ | ⟨rfl, rfl, rfl⟩ | ⟨rfl, rfl, rfl⟩ |
      ⟨rfl, rfl, rfl⟩ | ⟨rfl, rfl, rfl⟩ | ⟨rfl, rfl, rfl⟩
    all_goals first
      | (exfalso; revert h'; simp [fileKeys]; done)
      | exact ⟨by simp, by simp, by simp, by simp, by simp, fun _ => Or.inr (Or.inl ⟨_, rfl⟩)⟩

/-! ### `np.array` is idempotent -/

theorem mapM_toFlt_all {py : Py} : ∀ {xs ys : List Sc}, xs.mapM (toFltElt py) = some ys →
    ∀ y ∈ ys, ∃ f, y = .flt f
  | [], ys, h => by simp at h; subst h; simp
  | x :: xs, ys, h => by
    simp only [List.mapM_cons, Option.bind_eq_bind, Option.bind_eq_some_iff, Option.pure_def,
      Option.some.injEq] at h
    obtain ⟨a, ha, as, has, rfl⟩ := h
    intro y hy
    rcases List.mem_cons.1 hy with rfl | hy
    · unfold toFltElt at ha
      split at ha
      · cases ha; exact ⟨_, rfl⟩
      · simp only [Option.map_eq_some_iff] at ha
        obtain ⟨f, _, hf⟩ := ha
        exact ⟨f, hf.symm⟩
      · cases ha; exact ⟨_, rfl⟩
      · cases ha
    · exact mapM_toFlt_all has y hy

theorem mapM_toFlt_of_all {py : Py} : ∀ {ys : List Sc}, (∀ y ∈ ys, ∃ f, y = .flt f) →
    ys.mapM (toFltElt py) = some ys
  | [], _ => by simp
  | y :: ys, h => by
    obtain ⟨f, rfl⟩ := h y (by simp)
    simp [toFltElt, mapM_toFlt_of_all (py := py) (ys := ys) (fun z hz => h z (by simp [hz]))]

theorem npUnify_idem (py : Py) (xs : List Sc) : npUnify py (npUnify py xs) = npUnify py xs := by
  unfold npUnify
  by_cases h1 : xs.any Sc.isNone = true
  · simp [h1]
  by_cases h2 : xs.any Sc.isStr = true
  · simp only [if_neg h1, if_pos h2]
    have a : (xs.map fun s => Sc.str (pyStr py (.sc s))).any Sc.isNone = false := by
      simp [Sc.isNone]
    have b : (xs.map fun s => Sc.str (pyStr py (.sc s))).any Sc.isStr = true := by
      obtain ⟨x, hx, _⟩ := List.any_eq_true.1 h2
      exact List.any_eq_true.2 ⟨_, List.mem_map_of_mem hx, rfl⟩
    simp only [a, b, if_true]
    simp [pyStr]
  by_cases h3 : xs.any Sc.isFlt = true
  · simp only [if_neg h1, if_neg h2, if_pos h3]
    cases hm : xs.mapM (toFltElt py) with
    | none => simp [h1, h2, h3, hm]
    | some ys =>
      have hall := mapM_toFlt_all hm
      simp only [Option.getD_some]
      have a : ys.any Sc.isNone = false := by
        rw [List.any_eq_false]; intro y hy; obtain ⟨f, rfl⟩ := hall y hy; simp [Sc.isNone]
      have b : ys.any Sc.isStr = false := by
        rw [List.any_eq_false]; intro y hy; obtain ⟨f, rfl⟩ := hall y hy; simp [Sc.isStr]
      have d : ys.any Sc.isInt = false := by
        rw [List.any_eq_false]; intro y hy; obtain ⟨f, rfl⟩ := hall y hy; simp [Sc.isInt]
      simp [a, b, d, mapM_toFlt_of_all (py := py) hall]
  by_cases h4 : xs.any Sc.isInt = true
  · simp only [if_neg h1, if_neg h2, if_neg h3, if_pos h4]
    have key : ∀ (f : Sc → Bool), (∀ b, f (.bool b) = false) → (∀ i, f (.int i) = false) →
        ¬ xs.any f = true → (xs.map toIntElt).any f = false := by
      intro f hb hi hn
      rw [List.any_eq_false]
      intro y hy
      obtain ⟨x, hx, rfl⟩ := List.mem_map.1 hy
      cases x with
      | bool b => simp [toIntElt, hi]
      | _ => exact fun hf => hn (List.any_eq_true.2 ⟨_, hx, hf⟩)
    have a := key Sc.isNone (fun _ => rfl) (fun _ => rfl) h1
    have b := key Sc.isStr (fun _ => rfl) (fun _ => rfl) h2
    have d := key Sc.isFlt (fun _ => rfl) (fun _ => rfl) h3
    simp only [a, b, d, Bool.false_eq_true, if_false]
    split_ifs
    · rw [List.map_map]
      apply List.map_congr_left
      intro x _
      cases x <;> rfl
    · rfl
  · simp [h1, h2, h3, h4]

/-- What a validator returns is stable if its input was. -/
theorem run_stable {py : Py} {fs : FS} {chk : Validator} {v w : Val} (hv : StableVal py v)
    (hr : chk.run py fs v = .ok w) : StableVal py w := by
  cases chk with
  | float => obtain ⟨f, rfl⟩ := pyFloat_shape hr; trivial
  | int => obtain ⟨f, rfl⟩ := pyInt_shape hr; trivial
  | version => obtain ⟨f, rfl, _⟩ := version_shape hr; trivial
  | path =>
    obtain ⟨h, _⟩ := path_shape hr
    rcases h with rfl | ⟨s, rfl⟩ | ⟨i, rfl⟩ | ⟨b, rfl⟩ <;> trivial
  | vector n =>
    simp only [Validator.run, checkVector] at hr
    split at hr
    · cases hr
    · rename_i xs hx
      split_ifs at hr
      cases hr
      unfold npArray1 at hx
      split at hx
      · cases hx
      · rename_i l
        simp only [Option.map_eq_some_iff] at hx
        obtain ⟨ys, _, rfl⟩ := hx
        exact npUnify_idem py ys
      · cases hx; exact hv
      · cases hx

theorem default_stable {c : Ctx} {k : String} {d : Val} {chk : Validator}
    (he : defEntry c k = some (d, chk)) : StableVal c.py d := by
  have h := defEntry_cases he
  simp only [defaults, List.mem_cons, List.not_mem_nil, or_false, Prod.mk.injEq] at h
  rcases h with ⟨rfl, rfl, rfl⟩ | ⟨rfl, rfl, rfl⟩ | ⟨rfl, rfl, rfl⟩ | ⟨rfl, rfl, rfl⟩ |
    ⟨rfl, rfl, rfl⟩ | ⟨rfl, rfl, rfl⟩ | ⟨rfl, rfl, rfl⟩ | ⟨rfl, rfl, rfl⟩ | ⟨rfl, rfl, rfl⟩ |
    ⟨rfl, rfl, rfl⟩ | ⟨rfl, rfl, rfl⟩ | ⟨rfl, rfl, rfl⟩ <;> trivial

/-- The JSON trip of an accepted stable value is accepted and gives the value back. -/
theorem run_jsonTrip {py : Py} {fs : FS} {chk : Validator} {w : Val}
    (hr : chk.run py fs w = .ok w) (hs : StableVal py w) : chk.run py fs (jsonTrip w) = .ok w := by
  cases chk with
  | float => obtain ⟨f, rfl⟩ := pyFloat_shape hr; exact hr
  | int => obtain ⟨f, rfl⟩ := pyInt_shape hr; exact hr
  | version => obtain ⟨f, rfl, _⟩ := version_shape hr; exact hr
  | path =>
    obtain ⟨h, _⟩ := path_shape hr
    rcases h with rfl | ⟨s, rfl⟩ | ⟨i, rfl⟩ | ⟨b, rfl⟩ <;> exact hr
  | vector n =>
    obtain ⟨xs, rfl, hl⟩ := vector_shape hr
    have : npArray1 py (.list (xs.map some)) = some xs := by
      have hm : (xs.map some).mapM id = some xs := by
        clear hr hs hl
        induction xs with
        | nil => rfl
        | cons x xs ih => simp [ih]
      simp only [npArray1, hm, Option.map_some]
      rw [hs]
    simp only [Validator.run, checkVector, jsonTrip, this, hl, ne_eq, not_true, if_false]

/-! ### `save` lists every entry once -/

theorem insertSorted_mem (e x : String × Val) (l : List (String × Val)) :
    x ∈ insertSorted e l ↔ x = e ∨ x ∈ l := by
  induction l with
  | nil => simp [insertSorted]
  | cons f l ih =>
    simp only [insertSorted]
    split_ifs
    · simp
    · simp only [List.mem_cons, ih]; tauto

theorem insertSorted_nodup (e : String × Val) (l : List (String × Val))
    (h : e.1 ∉ l.map Prod.fst) (hl : (l.map Prod.fst).Nodup) :
    ((insertSorted e l).map Prod.fst).Nodup := by
  induction l with
  | nil => simp [insertSorted]
  | cons f l ih =>
    simp only [List.map_cons, List.mem_cons, not_or, List.nodup_cons] at h hl
    simp only [insertSorted]
    split_ifs
    · simp only [List.map_cons, List.nodup_cons, List.mem_cons, not_or]
      exact ⟨h, hl⟩
    · simp only [List.map_cons, List.nodup_cons]
      refine ⟨?_, ih h.2 hl.2⟩
      intro hm
      obtain ⟨x, hx, hx'⟩ := List.mem_map.1 hm
      rcases (insertSorted_mem e x l).1 hx with rfl | hx
      · exact h.1 hx'
      · exact hl.1 (List.mem_map.2 ⟨x, hx, hx'⟩)

theorem sorted_mem (d : Dict) (x : String × Val) : x ∈ d.foldr insertSorted [] ↔ x ∈ d := by
  induction d with
  | nil => simp
  | cons e d ih => simp [insertSorted_mem, ih]

theorem sorted_nodup (d : Dict) (h : (d.map Prod.fst).Nodup) :
    ((d.foldr insertSorted []).map Prod.fst).Nodup := by
  induction d with
  | nil => simp
  | cons e d ih =>
    simp only [List.map_cons, List.nodup_cons] at h
    refine insertSorted_nodup _ _ ?_ (ih h.2)
    intro hm
    obtain ⟨x, hx, hx'⟩ := List.mem_map.1 hm
    exact h.1 (List.mem_map.2 ⟨x, (sorted_mem d x).1 hx, hx'⟩)

theorem Dict.get_eq_some_iff_mem (d : Dict) (h : (d.map Prod.fst).Nodup) (k : String) (v : Val) :
    d.get k = some v ↔ (k, v) ∈ d := by
  induction d with
  | nil => simp [Dict.get]
  | cons e d ih =>
    obtain ⟨k', v'⟩ := e
    simp only [List.map_cons, List.nodup_cons] at h
    rw [Dict.get_cons]
    by_cases hk : k = k'
    · subst hk
      simp only [if_true, Option.some.injEq, List.mem_cons, Prod.mk.injEq, true_and]
      constructor
      · intro h; exact Or.inl h.symm
      · rintro (h' | h')
        · exact h'.symm
        · exact absurd (List.mem_map.2 ⟨_, h', rfl⟩) h.1
    · simp [hk, ih h.2]

/-- Loading entries with distinct keys that are all accepted. -/
theorem load_all (c : Ctx) : ∀ (es : List (String × Val × Val)) (s : State),
    (es.map Prod.fst).Nodup →
    (∀ e ∈ es, ∃ d chk, defEntry c e.1 = some (d, chk) ∧ chk.run c.py s.fs e.2.1 = .ok e.2.2) →
    ∃ s', Config.load c s (es.map fun e => (e.1, e.2.1)) = (s', none) ∧ s'.fs = s.fs ∧
      s'.cfg = es.foldl (fun acc e => acc.set e.1 e.2.2) s.cfg
  | [], s, _, _ => ⟨s, rfl, rfl, rfl⟩
  | (k, v, w) :: es, s, hn, h => by
    simp only [List.map_cons, List.nodup_cons] at hn
    obtain ⟨d, chk, he, hr⟩ := h (k, v, w) (by simp)
    have hs : setItem c s k v = .ok { s with cfg := s.cfg.set k w } := by
      simp only at hr
      simp only at he
      simp [setItem, he, hr]
    obtain ⟨s', h1, h2, h3⟩ := load_all c es { s with cfg := s.cfg.set k w } hn.2
      (fun e he => h e (by simp [he]))
    refine ⟨s', ?_, h2, ?_⟩
    · simp only [List.map_cons, Config.load, hs]; exact h1
    · rw [h3]; rfl

theorem foldl_set_get : ∀ (es : List (String × Val × Val)) (d : Dict) (k : String),
    (es.map Prod.fst).Nodup →
    Dict.get (es.foldl (fun acc e => Dict.set acc e.1 e.2.2) d) k =
      (Dict.get (es.map fun e => (e.1, e.2.2)) k).or (d.get k)
  | [], d, k, _ => by simp [Dict.get]
  | (k', v, w) :: es, d, k, hn => by
    simp only [List.map_cons, List.nodup_cons] at hn
    simp only [List.foldl_cons, List.map_cons]
    rw [foldl_set_get es _ k hn.2, Dict.get_set, Dict.get_cons]
    by_cases h : k = k'
    · subst h
      have : Dict.get (es.map fun e => (e.1, e.2.2)) k = none := by
        rw [← Option.not_isSome_iff_eq_none, Dict.get_isSome_iff]
        simpa using hn.1
      simp [this]
    · simp [h]

theorem foldl_set_keys : ∀ (es : List (String × Val × Val)) (d : Dict),
    (∀ e ∈ es, e.1 ∈ d.map Prod.fst) →
    (es.foldl (fun acc e => Dict.set acc e.1 e.2.2) d).map Prod.fst = d.map Prod.fst
  | [], _, _ => rfl
  | (k, v, w) :: es, d, h => by
    have hk : k ∈ d.map Prod.fst := h _ (List.mem_cons_self)
    simp only [List.foldl_cons]
    rw [foldl_set_keys es _ (fun e he => ?_), Dict.keys_set_of_mem _ _ _ hk]
    rw [Dict.keys_set_of_mem _ _ _ hk]
    exact h e (List.mem_cons_of_mem _ he)

end ChaosMagPy.Config
