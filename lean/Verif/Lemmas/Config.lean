import Verif.Model.Config
import Mathlib.Tactic.SplitIfs
import Mathlib.Tactic.Tauto
/-! Helper lemmas about the configuration model (no property statements here). -/
namespace ChaosMagPy.Config

theorem Dict.get_nil (k : String) : Dict.get [] k = none := rfl

theorem Dict.get_cons (k' : String) (v' : Val) (d : Dict) (k : String) :
    Dict.get ((k', v') :: d) k = if k = k' then some v' else Dict.get d k := by
  unfold Dict.get
  by_cases h : k = k'
  · subst h; simp [List.lookup]
  · have : (k == k') = false := by simpa using h
    simp [List.lookup, this, h]

theorem Dict.get_set (d : Dict) (k : String) (v : Val) (j : String) :
    (d.set k v).get j = if j = k then some v else d.get j := by
  induction d with
  | nil => simp [Dict.set, Dict.get_cons, Dict.get_nil]
  | cons e d ih =>
    obtain ⟨k', v'⟩ := e
    by_cases h : k' = k
    · subst h
      simp only [Dict.set, if_true, Dict.get_cons]
      split_ifs <;> rfl
    · simp only [Dict.set, if_neg h, Dict.get_cons, ih]
      by_cases hj : j = k'
      · subst hj; simp [h]
      · simp [hj]

theorem Dict.keys_set_of_mem (d : Dict) (k : String) (v : Val) (h : k ∈ d.map Prod.fst) :
    (d.set k v).map Prod.fst = d.map Prod.fst := by
  induction d with
  | nil => simp at h
  | cons e d ih =>
    obtain ⟨k', v'⟩ := e
    by_cases hk : k' = k
    · subst hk; simp [Dict.set]
    · have : k ∈ d.map Prod.fst := by
        rcases List.mem_cons.1 h with h | h
        · exact absurd h.symm hk
        · exact h
      simp only [Dict.set, if_neg hk, List.map_cons, ih this]

theorem Dict.get_isSome_iff (d : Dict) (k : String) :
    (d.get k).isSome ↔ k ∈ d.map Prod.fst := by
  induction d with
  | nil => simp [Dict.get]
  | cons e d ih =>
    obtain ⟨k', v'⟩ := e
    rw [Dict.get_cons]
    by_cases h : k = k' <;> simp [h, ih]

theorem Dict.set_get_self (d : Dict) (k : String) (v : Val) (h : d.get k = some v) :
    d.set k v = d := by
  induction d with
  | nil => simp [Dict.get] at h
  | cons e d ih =>
    obtain ⟨k', v'⟩ := e
    rw [Dict.get_cons] at h
    by_cases hk : k' = k
    · subst hk; simp at h; subst h; simp [Dict.set]
    · have : k ≠ k' := fun h' => hk h'.symm
      rw [if_neg this] at h
      simp [Dict.set, hk, ih h]

theorem Dict.set_set (d : Dict) (k : String) (v w : Val) : (d.set k v).set k w = d.set k w := by
  induction d with
  | nil => simp [Dict.set]
  | cons e d ih =>
    obtain ⟨k', v'⟩ := e
    by_cases hk : k' = k
    · simp [Dict.set, hk]
    · simp [Dict.set, hk, ih]

/-- Two dictionaries with the same key list (no duplicates) and equal lookups are equal. -/
theorem Dict.ext_of_keys : ∀ (d e : Dict), d.map Prod.fst = e.map Prod.fst →
    (d.map Prod.fst).Nodup → (∀ k, d.get k = e.get k) → d = e
  | [], [], _, _, _ => rfl
  | [], _ :: _, h, _, _ => by simp at h
  | _ :: _, [], h, _, _ => by simp at h
  | (k, v) :: d, (k', w) :: e, h, hn, hg => by
    simp only [List.map_cons, List.cons.injEq] at h
    obtain ⟨rfl, h⟩ := h
    have h1 := hg k
    simp only [Dict.get_cons, if_true, Option.some.injEq] at h1
    subst h1
    simp only [List.map_cons, List.nodup_cons] at hn
    congr 1
    refine Dict.ext_of_keys d e h hn.2 fun j => ?_
    by_cases hj : j = k
    · subst hj
      have a : Dict.get d j = none := by
        rw [← Option.not_isSome_iff_eq_none, Dict.get_isSome_iff]; exact hn.1
      have b : Dict.get e j = none := by
        rw [← Option.not_isSome_iff_eq_none, Dict.get_isSome_iff, ← h]; exact hn.1
      rw [a, b]
    · have := hg j
      simpa [Dict.get_cons, hj] using this

theorem setItem_ok (c : Ctx) (s s' : State) (k : String) (v : Val)
    (h : setItem c s k v = .ok s') :
    ∃ d chk cval, defEntry c k = some (d, chk) ∧ chk.run c.py s.fs v = .ok cval ∧
      s' = { s with cfg := s.cfg.set k cval } := by
  unfold setItem at h
  split at h
  · cases h
  · rename_i d chk he
    split at h
    · cases h
    · rename_i cval hc
      exact ⟨d, chk, cval, he, hc, (Except.ok.inj h).symm⟩

theorem matchHere_iff (isDigit : Char → Bool) (hd : isDigit '.' = false) (cs : List Char) :
    matchHere isDigit cs = true ↔
      ∃ ds e post, ds ≠ [] ∧ (∀ x ∈ ds, isDigit x = true) ∧ isDigit e = true ∧
        cs = ds ++ '.' :: e :: post := by
  constructor
  · intro h
    cases cs with
    | nil => simp [matchHere] at h
    | cons c rest =>
      simp only [matchHere, Bool.and_eq_true] at h
      obtain ⟨hc, h⟩ := h
      split at h
      · rename_i d post heq
        refine ⟨c :: rest.takeWhile isDigit, d, post, by simp, ?_, h, ?_⟩
        · intro x hx
          rcases List.mem_cons.1 hx with rfl | hx
          · exact hc
          · have := List.all_takeWhile (p := isDigit) (l := rest)
            exact List.all_eq_true.1 this x hx
        · rw [List.cons_append, ← heq, List.takeWhile_append_dropWhile]
      · cases h
  · rintro ⟨ds, e, post, hne, hds, he, rfl⟩
    cases ds with
    | nil => exact absurd rfl hne
    | cons c ds =>
      have h1 : isDigit c = true := hds c (by simp)
      have h2 : ∀ x ∈ ds, isDigit x = true := fun x hx => hds x (by simp [hx])
      have h3 : (ds ++ '.' :: e :: post).dropWhile isDigit = '.' :: e :: post := by
        rw [List.dropWhile_append_of_pos h2]
        simp [hd]
      simp [matchHere, h1, h3, he]

theorem reSearch_iff (isDigit : Char → Bool) (hd : isDigit '.' = false) (cs : List Char) :
    reSearch isDigit cs = true ↔
      ∃ pre a b post, isDigit a = true ∧ isDigit b = true ∧ cs = pre ++ a :: '.' :: b :: post := by
  induction cs with
  | nil => simp [reSearch]
  | cons c rest ih =>
    simp only [reSearch, Bool.or_eq_true, ih, matchHere_iff isDigit hd]
    constructor
    · rintro (⟨ds, e, post, hne, hds, he, h⟩ | ⟨pre, a, b, post, ha, hb, h⟩)
      · refine ⟨ds.dropLast, ds.getLast hne, e, post, hds _ (List.getLast_mem hne), he, ?_⟩
        rw [h]
        conv_lhs => rw [← List.dropLast_append_getLast hne]
        simp
      · exact ⟨c :: pre, a, b, post, ha, hb, by simp [h]⟩
    · rintro ⟨pre, a, b, post, ha, hb, h⟩
      cases pre with
      | nil =>
        left
        exact ⟨[a], b, post, by simp, by simpa using ha, hb, by simpa using h⟩
      | cons p pre =>
        right
        simp only [List.cons_append, List.cons.injEq] at h
        exact ⟨pre, a, b, post, ha, hb, h.2⟩

/-- A value returned by a validator is accepted again, unchanged, in every file system in which the
previously existing files exist. -/
theorem run_idem (py : Py) (fs fs' : FS) (chk : Validator) (v w : Val)
    (hp : ∀ p, fs.pathExists p = true → fs'.pathExists p = true)
    (hfd : fs'.fdExists = fs.fdExists)
    (h : chk.run py fs v = .ok w) : chk.run py fs' w = .ok w := by
  cases chk with
  | float =>
    simp only [Validator.run] at h ⊢
    unfold checkFloat at h
    split at h
    · rename_i s
      cases hs : pyFloatSc py s with
      | error e => simp [hs, Except.map] at h
      | ok f => simp [hs, Except.map] at h; subst h; simp [checkFloat, pyFloatSc, Except.map]
    · rename_i s
      cases hs : pyFloatSc py s with
      | error e => simp [hs, Except.map] at h
      | ok f => simp [hs, Except.map] at h; subst h; simp [checkFloat, pyFloatSc, Except.map]
    · cases h
  | int =>
    simp only [Validator.run] at h ⊢
    unfold checkInt at h
    split at h
    · rename_i s
      cases hs : pyIntSc py s with
      | error e => simp [hs, Except.map] at h
      | ok f => simp [hs, Except.map] at h; subst h; simp [checkInt, pyIntSc, Except.map]
    · rename_i s
      cases hs : pyIntSc py s with
      | error e => simp [hs, Except.map] at h
      | ok f => simp [hs, Except.map] at h; subst h; simp [checkInt, pyIntSc, Except.map]
    · cases h
  | vector len =>
    simp only [Validator.run, checkVector] at h ⊢
    split at h
    · cases h
    · split_ifs at h with hl
      cases h
      simp at hl
      simp [npArray1, hl]
  | version =>
    simp only [Validator.run, checkVersion] at h ⊢
    split_ifs at h with hs
    cases h
    have e : pyStr py (.sc (.str (pyStr py v))) = pyStr py v := rfl
    simp only [e, if_pos hs]
  | path =>
    simp only [Validator.run] at h ⊢
    unfold checkPath at h
    split at h
    · cases h; rfl
    · rename_i s
      split_ifs at h with h1 h2
      · cases h; rfl
      · cases h; simp [checkPath, h1, hp s h2]
    · split_ifs at h with h1
      cases h; simp [checkPath, hfd, h1]
    · rename_i b
      cases b
      · cases h1 : fs.fdExists 0
        · simp [h1] at h
        · simp [h1] at h; subst h; simp [checkPath, hfd, h1]
      · cases h1 : fs.fdExists 1
        · simp [h1] at h
        · simp [h1] at h; subst h; simp [checkPath, hfd, h1]
    · split_ifs at h
      cases h; rfl
    · cases h

end ChaosMagPy.Config
