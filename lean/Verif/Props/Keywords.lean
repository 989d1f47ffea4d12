import Verif.Model.Keywords
/-!
# C52: keyword defaults
-/
namespace ChaosMagPy.Keywords
variable {V : Type}

/-- `d.get(key)` distinguishing an absent key (`none`) from the value None (`some none`). -/
abbrev get (d : Dict V) (k : String) : Option (Option V) := List.lookup k d

theorem get_cons (k' : String) (v' : Option V) (d : Dict V) (k : String) :
    get ((k', v') :: d) k = if k = k' then some v' else get d k := by
  unfold get
  rw [List.lookup_cons]
  by_cases h : k = k'
  · simp [h]
  · rw [if_neg h, beq_eq_false_iff_ne.2 h]

theorem get_append (d : Dict V) (k : String) (v : Option V) (j : String) :
    get (d ++ [(k, v)]) j = (get d j).or (if j = k then some v else none) := by
  induction d with
  | nil => simp only [List.nil_append, get_cons]; simp [get]
  | cons e d ih =>
    obtain ⟨k', v'⟩ := e
    simp only [List.cons_append, get_cons, ih]
    by_cases h : j = k' <;> simp [h]

theorem get_set (d : Dict V) (k : String) (v : Option V) (j : String) :
    get (d.set k v) j = if j = k then some v else get d j := by
  induction d with
  | nil => simp only [Dict.set, get_cons]
  | cons e d ih =>
    obtain ⟨k', v'⟩ := e
    by_cases h : k' = k
    · subst h
      simp only [Dict.set, if_true, get_cons]
      by_cases hj : j = k' <;> simp [hj]
    · simp only [Dict.set, if_neg h, get_cons, ih]
      by_cases hj : j = k'
      · subst hj; simp [h]
      · simp [hj]

theorem get_isSome_iff (d : Dict V) (k : String) : (get d k).isSome ↔ k ∈ d.map Prod.fst := by
  induction d with
  | nil => simp [get]
  | cons e d ih =>
    obtain ⟨k', v'⟩ := e
    rw [get_cons]
    by_cases h : k = k' <;> simp [h, ih]

theorem keys_set (d : Dict V) (k : String) (v : Option V) (h : k ∈ d.map Prod.fst) :
    (d.set k v).map Prod.fst = d.map Prod.fst := by
  induction d with
  | nil => simp at h
  | cons e d ih =>
    obtain ⟨k', v'⟩ := e
    by_cases hk : k' = k
    · subst hk; simp [Dict.set]
    · have : k ∈ d.map Prod.fst := by
        rcases List.mem_cons.1 h with h | h
        · exact absurd h.symm hk
        · exact h
      simp only [Dict.set, if_neg hk, List.map_cons, ih this]

/-- Value of a key after one pass of the loop. -/
theorem get_step (d : Dict V) (k : String) (v : Option V) (j : String) :
    get (step d (k, v)) j = if j = k then (match get d k with | some (some w) => some (some w) | _ => some v) else get d j := by
  unfold step Dict.setdefault
  cases hk : List.lookup k d with
  | none =>
    have hk' : get d k = none := hk
    simp only [hk']
    cases v with
    | none =>
      simp only [Option.isNone_none, if_true]
      rw [get_set, get_append]
      by_cases hj : j = k <;> simp [hj]
    | some w =>
      simp only [Option.isNone_some, Bool.false_eq_true, if_false]
      rw [get_append]
      by_cases hj : j = k
      · subst hj; simp [hk']
      · simp [hj]
  | some w =>
    have hk' : get d k = some w := hk
    simp only [hk']
    cases w with
    | none =>
      simp only [Option.isNone_none, if_true]
      rw [get_set]
    | some w =>
      simp only [Option.isNone_some, Bool.false_eq_true, if_false]
      by_cases hj : j = k
      · subst hj; simp [hk']
      · simp [hj]

theorem keys_step (d : Dict V) (k : String) (v : Option V) :
    (step d (k, v)).map Prod.fst = d.map Prod.fst ++ (if k ∈ d.map Prod.fst then [] else [k]) := by
  unfold step Dict.setdefault
  cases hk : List.lookup k d with
  | none =>
    have hm : k ∉ d.map Prod.fst := by
      rw [← get_isSome_iff]
      show ¬ (List.lookup k d).isSome
      rw [hk]; simp
    rw [if_neg hm]
    cases v with
    | none =>
      simp only [Option.isNone_none, if_true]
      rw [keys_set _ _ _ (by simp)]
      simp
    | some w => simp
  | some w =>
    have hm : k ∈ d.map Prod.fst := by
      rw [← get_isSome_iff]
      show (List.lookup k d).isSome
      rw [hk]; simp
    rw [if_pos hm]
    cases w with
    | none =>
      simp only [Option.isNone_none, if_true]
      rw [keys_set _ _ _ hm]; simp
    | some w => simp

/-- C52: the value of every key. `j` is looked up in the result: a user value that is not None is kept; a
missing or None value of a key that has a default becomes the default (which may be None); all other
keys are as the user gave them (present with None included). -/
theorem C52_values (defaults keywords : Dict V) (hd : (defaults.map Prod.fst).Nodup) (j : String) :
    (∀ w, get keywords j = some (some w) → get (defaultkeys defaults keywords) j = some (some w)) ∧
    (∀ v, get defaults j = some v → (get keywords j = none ∨ get keywords j = some none) →
      get (defaultkeys defaults keywords) j = some v) ∧
    (get defaults j = none → get (defaultkeys defaults keywords) j = get keywords j) := by
  unfold defaultkeys
  induction defaults generalizing keywords with
  | nil => simp [get]
  | cons e ds ih =>
    obtain ⟨k, v⟩ := e
    rw [List.map_cons, List.nodup_cons] at hd
    have hk : get ds k = none := by
      rw [← Option.not_isSome_iff_eq_none, get_isSome_iff]; exact hd.1
    obtain ⟨h1, h2, h3⟩ := ih (step keywords (k, v)) hd.2
    rw [List.foldl_cons]
    have hs := get_step keywords k v j
    refine ⟨fun w hw => h1 w ?_, fun u hu hn => ?_, fun hn => ?_⟩
    · rw [hs]
      by_cases hj : j = k
      · subst hj; rw [if_pos rfl, hw]
      · rw [if_neg hj, hw]
    · rw [get_cons] at hu
      by_cases hj : j = k
      · subst hj
        rw [if_pos rfl] at hu hs
        rw [h3 hk, hs, ← hu]
        rcases hn with hn | hn <;> rw [hn]
      · rw [if_neg hj] at hu hs
        exact h2 u hu (by rw [hs]; exact hn)
    · rw [get_cons] at hn
      by_cases hj : j = k
      · rw [if_pos hj] at hn; cases hn
      · rw [if_neg hj] at hn hs
        rw [h3 hn, hs]

/-- C52: no key is lost, none is invented, and the order is the user's keys followed by the defaults that
were missing, in the order of the defaults. -/
theorem C52_keys (defaults keywords : Dict V) (hd : (defaults.map Prod.fst).Nodup) :
    (defaultkeys defaults keywords).map Prod.fst =
      keywords.map Prod.fst ++ (defaults.map Prod.fst).filter (fun k => k ∉ keywords.map Prod.fst) := by
  unfold defaultkeys
  induction defaults generalizing keywords with
  | nil => simp
  | cons e ds ih =>
    obtain ⟨k, v⟩ := e
    rw [List.map_cons, List.nodup_cons] at hd
    rw [List.foldl_cons, ih _ hd.2, keys_step, List.map_cons, List.filter_cons]
    have hf : (ds.map Prod.fst).filter (fun x => decide (x ∉ keywords.map Prod.fst ++ if k ∈ keywords.map Prod.fst then [] else [k])) =
        (ds.map Prod.fst).filter (fun x => decide (x ∉ keywords.map Prod.fst)) := by
      apply List.filter_congr
      intro x hx
      have hxk : x ≠ k := fun h => hd.1 (h ▸ hx)
      by_cases hm : k ∈ keywords.map Prod.fst
      · rw [if_pos hm, List.append_nil]
      · rw [if_neg hm]; simp [hxk]
    rw [hf]
    by_cases hm : k ∈ keywords.map Prod.fst
    · rw [if_pos hm, List.append_nil, if_neg (by simpa using hm)]
    · rw [if_neg hm, if_pos (by simpa using hm), List.append_assoc, List.singleton_append]

/-- C52: applying the same defaults twice changes nothing more (the plotting functions share the
dictionary they pass on, which is changed in place). -/
theorem C52_idempotent (defaults keywords : Dict V) (hd : (defaults.map Prod.fst).Nodup) (j : String) :
    get (defaultkeys defaults (defaultkeys defaults keywords)) j = get (defaultkeys defaults keywords) j := by
  obtain ⟨a1, a2, a3⟩ := C52_values defaults (defaultkeys defaults keywords) hd j
  cases hj : get defaults j with
  | none => exact a3 hj
  | some v =>
    cases hr : get (defaultkeys defaults keywords) j with
    | none => 
      obtain ⟨b1, b2, b3⟩ := C52_values defaults keywords hd j
      cases hk : get keywords j with
      | none => rw [b2 v hj (Or.inl hk)] at hr; cases hr
      | some w => cases w with
        | none => rw [b2 v hj (Or.inr hk)] at hr; cases hr
        | some w => rw [b1 w hk] at hr; cases hr
    | some w => cases w with
      | some w => exact a1 w hr
      | none =>
        rw [a2 v hj (Or.inr hr), ← hr]
        obtain ⟨b1, b2, b3⟩ := C52_values defaults keywords hd j
        cases hk : get keywords j with
        | none => rw [b2 v hj (Or.inl hk)]
        | some w => cases w with
          | none => rw [b2 v hj (Or.inr hk)]
          | some w => rw [b1 w hk] at hr; cases hr

/-- The defaults of a figure, a user dictionary that overrides one, passes None for another and has a key of
its own. -/
example : defaultkeys [("figsize", some 5), ("cmap", some 7), ("titles", none)] [("dpi", some 1), ("cmap", none), ("figsize", some 9)]
    = [("dpi", some 1), ("cmap", some 7), ("figsize", some 9), ("titles", none)] := by
  rfl

example : ([("figsize", some 5), ("cmap", some 7), ("titles", none)] : Dict ℕ).map Prod.fst |>.Nodup := by decide

end ChaosMagPy.Keywords
