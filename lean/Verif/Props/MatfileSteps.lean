import Verif.Model.MatfileSteps
import Verif.Spec.MatfileSteps
import Verif.Props.MatfileMore
/-!
# C76: MAT-files that exist already, and crashes while they are saved
-/
namespace ChaosMagPy.Matfile

/-! ### Lookups -/

theorem lookup_dictSet {α : Type} (d : List (String × α)) (k k' : String) (v : α) :
    List.lookup k (dictSet d k' v) = if k = k' then some v else List.lookup k d := by
  unfold dictSet
  split
  · rename_i h
    induction d with
    | nil => simp at h
    | cons x d ih =>
      obtain ⟨a, b⟩ := x
      by_cases ha : a = k'
      · subst ha
        by_cases hk : k = a
        · subst hk; simp [List.lookup_cons]
        · have hb : (k == a) = false := by simpa using hk
          simp only [List.map_cons, if_true, List.lookup_cons, hb, if_neg hk]
          -- the rest may or may not contain the key again
          clear ih h
          induction d with
          | nil => rfl
          | cons y d ih =>
            obtain ⟨c, e⟩ := y
            by_cases hc : c = a
            · subst hc
              simp only [List.map_cons, if_true, List.lookup_cons, hb]
              exact ih
            · simp only [List.map_cons, if_neg hc, List.lookup_cons]
              rw [ih]
      · have h' : d.any (fun p => p.1 == k') = true := by simpa [ha] using h
        simp only [List.map_cons, if_neg ha, List.lookup_cons]
        rw [ih h']
        by_cases hk : k = k'
        · subst hk
          have : (k == a) = false := by simpa using fun h : k = a => ha h.symm
          simp [this]
        · simp [hk]
  · rename_i h
    rw [List.lookup_append]
    by_cases hk : k = k'
    · subst hk
      have : List.lookup k d = none := by
        rw [List.lookup_eq_none_iff]
        rintro ⟨a, b⟩ hm
        simp only [List.any_eq_true, not_exists, not_and] at h
        have := h _ hm
        simp only [beq_iff_eq] at this
        simpa using fun e : k = a => this e.symm
      simp [this]
    · have : (k == k') = false := by simpa using hk
      simp [hk, List.lookup_cons, this]

theorem lookup_var (d : Dict) (k k' : String) (v : MVal) :
    List.lookup k ((Write.var k' v).apply d) = if k = k' then some v else List.lookup k d := lookup_dictSet d k k' v

theorem lookup_field (d : Dict) (k g n : String) (v : MVal) :
    List.lookup k ((Write.field g n v).apply d) = if k = g then some (.struct (dictSet (fieldsOf d g) n v)) else List.lookup k d := by
  unfold Write.apply fieldsOf
  simp only
  rcases h : List.lookup g d with _ | v'
  · simp only; rw [lookup_dictSet]; rfl
  · cases v' <;> simp only <;> rw [lookup_dictSet] <;> rfl

/-- The variables among the writes. -/
def varsOf (ws : List Write) : Dict :=
  ws.filterMap fun w => match w with
    | .var k v => some (k, v)
    | .field _ _ _ => none

/-- The fields of `model_Euler` among the writes. -/
def fldsOf (ws : List Write) : Dict :=
  ws.filterMap fun w => match w with
    | .var _ _ => none
    | .field _ n v => some (n, v)

/-- Every variable and field is written at most once; the only structure that is written by fields is `model_Euler`. -/
structure Once (ws : List Write) : Prop where
  vars : ((varsOf ws).map Prod.fst).Nodup
  flds : ((fldsOf ws).map Prod.fst).Nodup
  euler : "model_Euler" ∉ (varsOf ws).map Prod.fst
  group : ∀ g n v, Write.field g n v ∈ ws → g = "model_Euler"

theorem lookup_none_of_not_mem {d : Dict} {k : String} (h : k ∉ d.map Prod.fst) : List.lookup k d = none := by
  rw [List.lookup_eq_none_iff]
  rintro ⟨a, b⟩ hm
  simp only [bne_iff_ne, ne_eq, beq_eq_false_iff_ne]
  rintro rfl
  exact h (List.mem_map.mpr ⟨_, hm, rfl⟩)

/-- The variables and the Euler fields of a file after the writes. -/
theorem lookups_after : ∀ (ws : List Write) (d : Dict), Once ws →
    (∀ k, k ≠ "model_Euler" → List.lookup k (ws.foldl Write.apply d) = (List.lookup k (varsOf ws)).or (List.lookup k d)) ∧
    (fldsOf ws = [] → List.lookup "model_Euler" (ws.foldl Write.apply d) = List.lookup "model_Euler" d) ∧
    (fldsOf ws ≠ [] → ∃ F : Dict, List.lookup "model_Euler" (ws.foldl Write.apply d) = some (.struct F) ∧
      ∀ n, List.lookup n F = (List.lookup n (fldsOf ws)).or (List.lookup n (fieldsOf d "model_Euler"))) := by
  intro ws
  induction ws with
  | nil =>
    intro d _
    exact ⟨fun k _ => by simp [varsOf], fun _ => rfl, fun h => absurd rfl h⟩
  | cons w ws ih =>
    intro d hp
    cases w with
    | var k' v =>
      have ev : varsOf (.var k' v :: ws) = (k', v) :: varsOf ws := rfl
      have ef : fldsOf (.var k' v :: ws) = fldsOf ws := rfl
      obtain ⟨h1, h2, h3, h4⟩ := hp
      rw [ev] at h1 h3
      rw [ef] at h2
      simp only [List.map_cons, List.nodup_cons] at h1
      simp only [List.map_cons, List.mem_cons, not_or] at h3
      obtain ⟨i1, i2, i3⟩ := ih ((Write.var k' v).apply d) ⟨h1.2, h2, h3.2, fun g n v' h => h4 g n v' (List.mem_cons_of_mem _ h)⟩
      have hE : List.lookup "model_Euler" ((Write.var k' v).apply d) = List.lookup "model_Euler" d := by
        rw [lookup_var, if_neg h3.1]
      rw [List.foldl_cons, ev, ef]
      refine ⟨fun k hk => ?_, fun h => ?_, fun h => ?_⟩
      · rw [i1 k hk, lookup_var, List.lookup_cons]
        by_cases hkk : k = k'
        · subst hkk
          rw [lookup_none_of_not_mem h1.1]
          simp
        · have : (k == k') = false := by simpa using hkk
          rw [if_neg hkk, this]
      · rw [i2 h, hE]
      · obtain ⟨F, hF, hl⟩ := i3 h
        refine ⟨F, hF, fun n => ?_⟩
        rw [hl n]
        unfold fieldsOf
        rw [hE]
    | field g n v =>
      have ev : varsOf (.field g n v :: ws) = varsOf ws := rfl
      have ef : fldsOf (.field g n v :: ws) = (n, v) :: fldsOf ws := rfl
      obtain ⟨h1, h2, h3, h4⟩ := hp
      have hg := h4 g n v (List.mem_cons_self ..)
      subst hg
      rw [ev] at h1 h3
      rw [ef] at h2
      simp only [List.map_cons, List.nodup_cons] at h2
      obtain ⟨i1, i2, i3⟩ := ih ((Write.field "model_Euler" n v).apply d) ⟨h1, h2.2, h3, fun g n v' h => h4 g n v' (List.mem_cons_of_mem _ h)⟩
      have hE : List.lookup "model_Euler" ((Write.field "model_Euler" n v).apply d) = some (.struct (dictSet (fieldsOf d "model_Euler") n v)) := by
        rw [lookup_field, if_pos rfl]
      rw [List.foldl_cons, ev, ef]
      refine ⟨fun k hk => ?_, fun h => absurd h (List.cons_ne_nil _ _), fun _ => ?_⟩
      · rw [i1 k hk, lookup_field, if_neg hk]
      · have key : ∀ n', List.lookup n' (dictSet (fieldsOf d "model_Euler") n v) =
            (List.lookup n' [(n, v)]).or (List.lookup n' (fieldsOf d "model_Euler")) := by
          intro n'
          rw [lookup_dictSet, List.lookup_cons]
          by_cases hn : n' = n
          · simp [hn]
          · have : (n' == n) = false := by simpa using hn
            rw [if_neg hn, this]; rfl
        by_cases hf : fldsOf ws = []
        · refine ⟨_, by rw [i2 hf, hE], fun n' => ?_⟩
          rw [key, hf]
        · obtain ⟨F, hF, hl⟩ := i3 hf
          refine ⟨F, hF, fun n' => ?_⟩
          have : fieldsOf ((Write.field "model_Euler" n v).apply d) "model_Euler" = dictSet (fieldsOf d "model_Euler") n v := by
            unfold fieldsOf
            rw [hE]
            rfl
          rw [hl n', this, key, List.lookup_cons, List.lookup_cons]
          by_cases hn : n' = n
          · subst hn
            rw [lookup_none_of_not_mem h2.1]
            simp
          · have : (n' == n) = false := by simpa using hn
            rw [this]
            simp

/-! ### The writes of a model -/

/-- A variable that is written or not. -/
def wvar (key : String) (v : Option MVal) : List Write :=
  match v with
  | none => []
  | some v => [.var key v]

/-- The writes with given values. -/
def wsOf (a b : Option MVal) (E : Dict) (d e g : Option MVal) : List Write :=
  wvar "pp" a ++ (wvar "model_ext" b ++ (E.map (fun x => Write.field "model_Euler" x.1 x.2) ++ (wvar "pp_CAL" d ++ (wvar "g" e ++ wvar "params" g))))

theorem varsOf_append (u v : List Write) : varsOf (u ++ v) = varsOf u ++ varsOf v := List.filterMap_append

theorem fldsOf_append (u v : List Write) : fldsOf (u ++ v) = fldsOf u ++ fldsOf v := List.filterMap_append

theorem varsOf_wvar (k : String) (v : Option MVal) : varsOf (wvar k v) = part k v := by cases v <;> rfl

theorem fldsOf_wvar (k : String) (v : Option MVal) : fldsOf (wvar k v) = [] := by cases v <;> rfl

theorem varsOf_fields (E : Dict) : varsOf (E.map (fun x => Write.field "model_Euler" x.1 x.2)) = [] := by
  induction E with
  | nil => rfl
  | cons x E ih => exact ih

theorem fldsOf_fields (E : Dict) : fldsOf (E.map (fun x => Write.field "model_Euler" x.1 x.2)) = E := by
  induction E with
  | nil => rfl
  | cons x E ih => exact congrArg (List.cons x) ih

theorem varsOf_wsOf (a b : Option MVal) (E : Dict) (d e g : Option MVal) :
    varsOf (wsOf a b E d e g) = part "pp" a ++ (part "model_ext" b ++ (part "pp_CAL" d ++ (part "g" e ++ part "params" g))) := by
  unfold wsOf
  simp only [varsOf_append, varsOf_wvar, varsOf_fields, List.nil_append]

theorem fldsOf_wsOf (a b : Option MVal) (E : Dict) (d e g : Option MVal) : fldsOf (wsOf a b E d e g) = E := by
  unfold wsOf
  simp only [fldsOf_append, fldsOf_wvar, fldsOf_fields, List.nil_append, List.append_nil]

theorem part_keys (k : String) (v : Option MVal) : ((part k v).map Prod.fst).Sublist [k] := by
  cases v with
  | none => exact List.nil_sublist _
  | some v => exact List.Sublist.refl _

theorem once_wsOf (a b : Option MVal) (E : Dict) (d e g : Option MVal) (hE : (E.map Prod.fst).Nodup) : Once (wsOf a b E d e g) := by
  have hs : ((varsOf (wsOf a b E d e g)).map Prod.fst).Sublist ["pp", "model_ext", "pp_CAL", "g", "params"] := by
    rw [varsOf_wsOf]
    simp only [List.map_append]
    exact (part_keys _ a).append ((part_keys _ b).append ((part_keys _ d).append ((part_keys _ e).append (part_keys _ g))))
  refine ⟨hs.nodup (by decide), by rw [fldsOf_wsOf]; exact hE, fun h => absurd (hs.subset h) (by decide), ?_⟩
  intro g' n v h
  unfold wsOf at h
  have hv : ∀ (k : String) (o : Option MVal), Write.field g' n v ∉ wvar k o := by
    intro k o ho
    cases o with
    | none => cases ho
    | some x => simp [wvar] at ho
  simp only [List.mem_append, hv, false_or, or_false, List.mem_map] at h
  obtain ⟨x, _, hx⟩ := h
  cases hx
  rfl

/-- The file after the writes of given values. -/
theorem lookups_wsOf (a b : Option MVal) (E : Dict) (d e g : Option MVal) (hE : (E.map Prod.fst).Nodup) (old : Dict) :
    let f := (wsOf a b E d e g).foldl Write.apply old
    List.lookup "pp" f = a.or (List.lookup "pp" old) ∧ List.lookup "model_ext" f = b.or (List.lookup "model_ext" old) ∧
    List.lookup "pp_CAL" f = d.or (List.lookup "pp_CAL" old) ∧ List.lookup "g" f = e.or (List.lookup "g" old) ∧
    List.lookup "params" f = g.or (List.lookup "params" old) ∧
    (E = [] → List.lookup "model_Euler" f = List.lookup "model_Euler" old) ∧
    (E ≠ [] → ∃ F : Dict, List.lookup "model_Euler" f = some (.struct F) ∧
      ∀ n, List.lookup n F = (List.lookup n E).or (List.lookup n (fieldsOf old "model_Euler"))) ∧
    ∀ k, k ∉ ["pp", "model_ext", "model_Euler", "pp_CAL", "g", "params"] → List.lookup k f = List.lookup k old := by
  intro f
  obtain ⟨h1, h2, h3⟩ := lookups_after _ old (once_wsOf a b E d e g hE)
  rw [fldsOf_wsOf] at h2 h3
  rw [varsOf_wsOf] at h1
  simp only [List.lookup_append, part_lookup] at h1
  refine ⟨?_, ?_, ?_, ?_, ?_, h2, h3, ?_⟩
  · rw [h1 _ (by decide)]; simp
  · rw [h1 _ (by decide)]; simp
  · rw [h1 _ (by decide)]; simp
  · rw [h1 _ (by decide)]; simp
  · rw [h1 _ (by decide)]; simp
  · intro k hk
    simp only [List.mem_cons, List.not_mem_nil, or_false, not_or] at hk
    obtain ⟨k1, k2, k3, k4, k5, k6⟩ := hk
    rw [h1 k k3, if_neg k1, if_neg k2, if_neg k4, if_neg k5, if_neg k6]
    rfl

theorem take_wvar (k : String) (v : Option MVal) (n : ℕ) : (wvar k v).take n = wvar k v ∨ ((wvar k v).take n = [] ∧ n < (wvar k v).length) := by
  cases v with
  | none => left; simp [wvar]
  | some v =>
    cases n with
    | zero => right; simp [wvar]
    | succ n => left; simp [wvar]

/-- The first writes: whole parts, and some of the fields of the Euler angles. -/
theorem take_wsOf (a b : Option MVal) (E : Dict) (d e g : Option MVal) (n : ℕ) :
    (wsOf a b E d e g).take n = wsOf none none [] none none none ∨
    (wsOf a b E d e g).take n = wsOf a none [] none none none ∨
    (∃ j, (wsOf a b E d e g).take n = wsOf a b (E.take j) none none none) ∨
    (wsOf a b E d e g).take n = wsOf a b E d none none ∨
    (wsOf a b E d e g).take n = wsOf a b E d e none ∨
    (wsOf a b E d e g).take n = wsOf a b E d e g := by
  have short : ∀ {l : List Write} {n : ℕ}, n < l.length → n - l.length = 0 := by intros; omega
  unfold wsOf
  rw [List.take_append]
  rcases take_wvar "pp" a n with h1 | ⟨h1, l1⟩
  swap
  · left; rw [h1, short l1, List.take_zero]; rfl
  rw [h1]
  generalize n - (wvar "pp" a).length = n
  right
  rw [List.take_append]
  rcases take_wvar "model_ext" b n with h2 | ⟨h2, l2⟩
  swap
  · left; rw [h2, short l2, List.take_zero]; rfl
  rw [h2]
  generalize n - (wvar "model_ext" b).length = n
  right
  rw [List.take_append]
  by_cases hn : n < E.length
  · left
    refine ⟨n, ?_⟩
    rw [List.length_map, Nat.sub_eq_zero_of_le hn.le, List.take_zero, List.map_take]
    rfl
  rw [List.take_of_length_le (l := E.map _) (by rw [List.length_map]; omega)]
  generalize n - (E.map (fun x => Write.field "model_Euler" x.1 x.2)).length = n
  rw [List.take_append]
  rcases take_wvar "pp_CAL" d n with h3 | ⟨h3, l3⟩
  swap
  · left; refine ⟨E.length, ?_⟩; rw [h3, short l3, List.take_zero, List.take_length]; rfl
  rw [h3]
  generalize n - (wvar "pp_CAL" d).length = n
  right
  rw [List.take_append]
  rcases take_wvar "g" e n with h4 | ⟨h4, l4⟩
  swap
  · left; rw [h4, short l4, List.take_zero]; rfl
  rw [h4]
  generalize n - (wvar "g" e).length = n
  right
  rcases take_wvar "params" g n with h5 | ⟨h5, l5⟩
  · right; rw [h5]
  · left; rw [h5]; rfl

/-- The names of the fields of the Euler angles. -/
def eulerKeys : List String := ["t_break_Euler", "alpha", "beta", "gamma"]

theorem saveEuler_fields {keep : Bool} {l : List (String × BaseA)} {md : Option Meta} {v : MVal} (h : saveEuler keep l md = .ok v) :
    ∃ E : Dict, v = .struct E ∧ E.map Prod.fst = eulerKeys := by
  unfold saveEuler at h
  cases md with
  | none => cases h
  | some md =>
    obtain ⟨c, _, h⟩ := bind_ok.1 h
    cases h
    exact ⟨_, rfl, rfl⟩

/-- The structure of the Euler angles, if there are any fields. -/
def eulerPart (E : Dict) : Option MVal := if E.map Prod.fst = [] then none else some (.struct E)

/-- What a model writes and what `save` says. -/
theorem performed_shape (keep : Bool) (noneArr : Option Arr) (m : Attr) :
    ∃ a b E d e g, (performed (plan keep noneArr m)).1 = wsOf a b E d e g ∧ (E = [] ∨ E.map Prod.fst = eulerKeys) ∧
      ((performed (plan keep noneArr m)).2 = none → save keep noneArr m = .ok (fileOf a b (eulerPart E) d e g)) ∧
      (∀ x, (performed (plan keep noneArr m)).2 = some x → save keep noneArr m = .error x) ∧
      (∀ v, onSome m.tdep (toPP keep) = .ok (some v) → a = some v) := by
  have w0 : ∀ k, wvar k none = [] := fun _ => rfl
  unfold plan save
  generalize onSome m.tdep (toPP keep) = v1
  generalize (onSome m.delta fun d => saveExternal keep d m.sm m.gsm) = v2
  have hE : ∀ v, (onSome (truthy m.euler) fun e => saveEuler keep e m.metaData) = .ok v → v = none ∨ ∃ E : Dict, v = some (.struct E) ∧ E.map Prod.fst = eulerKeys := by
    intro v hv
    obtain ⟨_, rfl⟩ | ⟨_, _, _, h, rfl⟩ := onSome_ok hv
    · exact Or.inl rfl
    · obtain ⟨E, rfl, hE⟩ := saveEuler_fields h
      exact Or.inr ⟨E, rfl, hE⟩
  revert hE
  generalize (onSome (truthy m.euler) fun e => saveEuler keep e m.metaData) = v3
  intro hE
  generalize onSome (truthy m.cal) (saveCal keep) = v4
  generalize (onSome m.static fun s => (.ok (wnum keep s.coeffs.column) : Except Error MVal)) = v5
  generalize (onSome m.metaData fun d => (.ok (.struct [("Euler_prerotation", prerotationValue keep noneArr d)]) : Except Error MVal)) = v6
  have hpv : ∀ k (o : Option MVal), planVar k (.ok o) = .ok (wvar k o) := by intro k o; cases o <;> rfl
  cases v1 with
  | error x =>
    refine ⟨none, none, [], none, none, none, rfl, Or.inl rfl, ?_, ?_, ?_⟩
    · intro h; cases h
    · intro y h; cases h; rfl
    · intro v h; cases h
  | ok a =>
  have ha : ∀ v, (Except.ok a : Except Error (Option MVal)) = .ok (some v) → a = some v := by intro v h; cases h; rfl
  cases v2 with
  | error x =>
    refine ⟨a, none, [], none, none, none, ?_, Or.inl rfl, ?_, ?_, ha⟩
    · rw [hpv]; rfl
    · intro h; rw [hpv] at h; cases h
    · intro y h; rw [hpv] at h; rw [writeIf_ok]; cases h; rfl
  | ok b =>
  cases v3 with
  | error x =>
    refine ⟨a, b, [], none, none, none, ?_, Or.inl rfl, ?_, ?_, ha⟩
    · rw [hpv, hpv]; rfl
    · intro h; rw [hpv, hpv] at h; cases h
    · intro y h; rw [hpv, hpv] at h; rw [writeIf_ok, writeIf_ok]; cases h; rfl
  | ok c =>
  have hc : ∃ E : Dict, (E = [] ∨ E.map Prod.fst = eulerKeys) ∧ c = eulerPart E ∧
      planFields "model_Euler" (.ok c) = .ok (E.map fun x => Write.field "model_Euler" x.1 x.2) := by
    obtain rfl | ⟨E, rfl, hk⟩ := hE c rfl
    · exact ⟨[], Or.inl rfl, rfl, rfl⟩
    · refine ⟨E, Or.inr hk, ?_, rfl⟩
      unfold eulerPart
      rw [hk, if_neg (by decide)]
  obtain ⟨E, hk, rfl, hpf⟩ := hc
  cases v4 with
  | error x =>
    refine ⟨a, b, E, none, none, none, ?_, hk, fun h => ?_, ?_, ha⟩
    · rw [hpv, hpv, hpf]; rfl
    · rw [hpv, hpv, hpf] at h; cases h
    · intro y h; rw [hpv, hpv, hpf] at h; rw [writeIf_ok, writeIf_ok, writeIf_ok]; cases h; rfl
  | ok d =>
  cases v5 with
  | error x =>
    refine ⟨a, b, E, d, none, none, ?_, hk, fun h => ?_, ?_, ha⟩
    · rw [hpv, hpv, hpf, hpv]; rfl
    · rw [hpv, hpv, hpf, hpv] at h; cases h
    · intro y h; rw [hpv, hpv, hpf, hpv] at h; rw [writeIf_ok, writeIf_ok, writeIf_ok, writeIf_ok]; cases h; rfl
  | ok e =>
  cases v6 with
  | error x =>
    refine ⟨a, b, E, d, e, none, ?_, hk, fun h => ?_, ?_, ha⟩
    · rw [hpv, hpv, hpf, hpv, hpv]; rfl
    · rw [hpv, hpv, hpf, hpv, hpv] at h; cases h
    · intro y h; rw [hpv, hpv, hpf, hpv, hpv] at h; rw [writeIf_ok, writeIf_ok, writeIf_ok, writeIf_ok, writeIf_ok]; cases h; rfl
  | ok g =>
    refine ⟨a, b, E, d, e, g, ?_, hk, fun h => ?_, ?_, ha⟩
    · rw [hpv, hpv, hpf, hpv, hpv, hpv]
      simp only [performed, List.append_nil]
      rfl
    · simp only [writeIf_ok]; rfl
    · intro y h; rw [hpv, hpv, hpf, hpv, hpv, hpv] at h; cases h

/-! ### What loading looks at -/

/-- Two files with the same parts. -/
theorem load_parts {f f' : Dict} (h1 : loadTdep (loadMatfile f) = loadTdep (loadMatfile f')) (h2 : loadStatic (loadMatfile f) = loadStatic (loadMatfile f'))
    (h3 : loadExternal (loadMatfile f) = loadExternal (loadMatfile f')) (h4 : ∀ S, loadEuler (loadMatfile f) S = loadEuler (loadMatfile f') S)
    (h5 : loadCal (loadMatfile f) = loadCal (loadMatfile f')) (h6 : loadParams (loadMatfile f) = loadParams (loadMatfile f'))
    (name : String) (sats : Option (List String)) : load name sats f = load name sats f' := by
  unfold load
  simp only [h1, h2, h3, h4, h5, h6]

theorem get_of_lookup {f f' : Dict} {k : String} (h : List.lookup k f = List.lookup k f') : Dict.get (loadMatfile f) k = Dict.get (loadMatfile f') k := by
  rw [get_load, get_load, get_eq, get_eq, h]

theorem loadTdep_congr {f f' : Dict} (h : List.lookup "pp" f = List.lookup "pp" f') : loadTdep (loadMatfile f) = loadTdep (loadMatfile f') := by
  unfold loadTdep; rw [get_of_lookup h]

theorem loadStatic_congr {f f' : Dict} (h : List.lookup "g" f = List.lookup "g" f') : loadStatic (loadMatfile f) = loadStatic (loadMatfile f') := by
  unfold loadStatic; rw [get_of_lookup h]

theorem loadExternal_congr {f f' : Dict} (h : List.lookup "model_ext" f = List.lookup "model_ext" f') :
    loadExternal (loadMatfile f) = loadExternal (loadMatfile f') := by
  unfold loadExternal; rw [get_of_lookup h]

theorem loadCal_congr {f f' : Dict} (h : List.lookup "pp_CAL" f = List.lookup "pp_CAL" f') : loadCal (loadMatfile f) = loadCal (loadMatfile f') := by
  unfold loadCal; rw [get_of_lookup h]

theorem loadParams_congr {f f' : Dict} (h : List.lookup "params" f = List.lookup "params" f') : loadParams (loadMatfile f) = loadParams (loadMatfile f') := by
  unfold loadParams; rw [get_of_lookup h]

theorem loadEuler_congr {f f' : Dict} (S : List String) (h : List.lookup "model_Euler" f = List.lookup "model_Euler" f' ∨
      ∃ F F' : Dict, List.lookup "model_Euler" f = some (.struct F) ∧ List.lookup "model_Euler" f' = some (.struct F') ∧
        ∀ n, n ∈ eulerKeys → List.lookup n F = List.lookup n F') : loadEuler (loadMatfile f) S = loadEuler (loadMatfile f') S := by
  rcases h with h | ⟨F, F', h1, h2, h3⟩
  · unfold loadEuler; rw [get_of_lookup h]
  · have g1 : Dict.get (loadMatfile f) "model_Euler" = .ok (.struct (loadMatfile F)) := by
      rw [get_load, get_eq, h1]; simp only [orKey, Except.map, traverse_struct]
    have g2 : Dict.get (loadMatfile f') "model_Euler" = .ok (.struct (loadMatfile F')) := by
      rw [get_load, get_eq, h2]; simp only [orKey, Except.map, traverse_struct]
    unfold loadEuler eulerOf
    rw [g1, g2]
    simp only [MVal.dict, get_of_lookup (h3 "t_break_Euler" (by decide)), get_of_lookup (h3 "alpha" (by decide)), get_of_lookup (h3 "beta" (by decide)),
      get_of_lookup (h3 "gamma" (by decide)), bind, Except.bind]

theorem load_congr {f f' : Dict} (h : ∀ k ∈ ["pp", "model_ext", "pp_CAL", "g", "params"], List.lookup k f = List.lookup k f')
    (hE : List.lookup "model_Euler" f = List.lookup "model_Euler" f' ∨
      ∃ F F' : Dict, List.lookup "model_Euler" f = some (.struct F) ∧ List.lookup "model_Euler" f' = some (.struct F') ∧
        ∀ n, n ∈ eulerKeys → List.lookup n F = List.lookup n F') (name : String) (sats : Option (List String)) : load name sats f = load name sats f' :=
  load_parts (loadTdep_congr (h _ (by decide))) (loadStatic_congr (h _ (by decide))) (loadExternal_congr (h _ (by decide)))
    (fun S => loadEuler_congr S hE) (loadCal_congr (h _ (by decide))) (loadParams_congr (h _ (by decide))) name sats

/-! ### Saving over a file -/

theorem keys_nodup {E : Dict} (h : E = [] ∨ E.map Prod.fst = eulerKeys) : (E.map Prod.fst).Nodup := by
  rcases h with rfl | h
  · simp
  · rw [h]; decide

theorem lookup_some_of_mem {d : Dict} {k : String} (h : k ∈ d.map Prod.fst) : ∃ v, List.lookup k d = some v := by
  rcases hl : List.lookup k d with _ | v
  · rw [List.lookup_eq_none_iff] at hl
    obtain ⟨p, hp, rfl⟩ := List.mem_map.mp h
    simpa using hl p hp
  · exact ⟨v, rfl⟩

theorem fileAfter_some {old : Option Dict} {ws : List Write} {f : Dict} (h : fileAfter old ws = some f) : f = ws.foldl Write.apply (old.getD []) := by
  unfold fileAfter at h
  split at h
  · rename_i hw
    subst hw
    subst h
    rfl
  · cases h; rfl

theorem lookup_fileOf (a b c d e g : Option MVal) :
    List.lookup "pp" (fileOf a b c d e g) = a ∧ List.lookup "model_ext" (fileOf a b c d e g) = b ∧ List.lookup "model_Euler" (fileOf a b c d e g) = c ∧
    List.lookup "pp_CAL" (fileOf a b c d e g) = d ∧ List.lookup "g" (fileOf a b c d e g) = e ∧ List.lookup "params" (fileOf a b c d e g) = g ∧
    ∀ k, k ∉ ["pp", "model_ext", "model_Euler", "pp_CAL", "g", "params"] → List.lookup k (fileOf a b c d e g) = none := by
  have ho : ∀ o : Option MVal, o.or none = o := by intro o; cases o <;> rfl
  unfold fileOf
  simp only [List.lookup_append, part_lookup]
  refine ⟨by simp [ho], by simp [ho], by simp [ho], by simp [ho], by simp [ho], by simp, ?_⟩
  intro k hk
  simp only [List.mem_cons, List.not_mem_nil, or_false, not_or] at hk
  obtain ⟨k1, k2, k3, k4, k5, k6⟩ := hk
  simp [k1, k2, k3, k4, k5, k6]

/-- The writes over a file are loaded like the values in front of it. -/
theorem load_wsOf (a b : Option MVal) (E : Dict) (d e g : Option MVal) (hE : (E.map Prod.fst).Nodup) (old : Dict) (name : String) (sats : Option (List String)) :
    load name sats ((wsOf a b E d e g).foldl Write.apply old) =
      load name sats (fileOf a b (if E = [] then none else some (.struct (E ++ fieldsOf old "model_Euler"))) d e g ++ old) := by
  obtain ⟨h1, h2, h3, h4, h5, h6, h7, _⟩ := lookups_wsOf a b E d e g hE old
  obtain ⟨l1, l2, l3, l4, l5, l6, _⟩ := lookup_fileOf a b (if E = [] then none else some (.struct (E ++ fieldsOf old "model_Euler"))) d e g
  refine load_congr ?_ ?_ name sats
  · intro k hk
    simp only [List.mem_cons, List.not_mem_nil, or_false] at hk
    rw [List.lookup_append]
    rcases hk with rfl | rfl | rfl | rfl | rfl
    · rw [h1, l1]
    · rw [h2, l2]
    · rw [h3, l4]
    · rw [h4, l5]
    · rw [h5, l6]
  · rw [List.lookup_append, l3]
    by_cases hE0 : E = []
    · left; rw [if_pos hE0, h6 hE0]; rfl
    · right
      obtain ⟨F, hF, hl⟩ := h7 hE0
      refine ⟨F, _, hF, by rw [if_neg hE0]; rfl, fun n _ => ?_⟩
      rw [hl n, List.lookup_append]

theorem load_overwrite (a b : Option MVal) (E : Dict) (d e g : Option MVal) (hE : E = [] ∨ E.map Prod.fst = eulerKeys) (old : Dict)
    (name : String) (sats : Option (List String)) :
    load name sats ((wsOf a b E d e g).foldl Write.apply old) = load name sats (fileOf a b (eulerPart E) d e g ++ old) := by
  rw [load_wsOf a b E d e g (keys_nodup hE) old]
  rcases hE with rfl | hE
  · rfl
  · have hne : E ≠ [] := by rintro rfl; cases hE
    have hp : eulerPart E = some (.struct E) := by unfold eulerPart; rw [hE, if_neg (by decide)]
    rw [if_neg hne, hp]
    obtain ⟨l1, l2, l3, l4, l5, l6, _⟩ := lookup_fileOf a b (some (.struct (E ++ fieldsOf old "model_Euler"))) d e g
    obtain ⟨k1, k2, k3, k4, k5, k6, _⟩ := lookup_fileOf a b (some (.struct E)) d e g
    refine load_congr ?_ (Or.inr ⟨_, _, by rw [List.lookup_append, l3]; rfl, by rw [List.lookup_append, k3]; rfl, fun n hn => ?_⟩) name sats
    · intro k hk
      simp only [List.mem_cons, List.not_mem_nil, or_false] at hk
      rw [List.lookup_append, List.lookup_append]
      rcases hk with rfl | rfl | rfl | rfl | rfl
      · rw [l1, k1]
      · rw [l2, k2]
      · rw [l4, k4]
      · rw [l5, k5]
      · rw [l6, k6]
    · obtain ⟨v, hv⟩ := lookup_some_of_mem (d := E) (k := n) (by rw [hE]; exact hn)
      rw [List.lookup_append, hv]
      rfl

/-- **C76** (exceptions). Saving raises exactly the exceptions of C58's `save`, whatever is in the file already. -/
theorem C76_errors (keep : Bool) (noneArr : Option Arr) (m : Attr) (old : Option Dict) :
    ((saved keep noneArr m old).2 = none ↔ ∃ file, save keep noneArr m = .ok file) ∧
    ∀ e, (saved keep noneArr m old).2 = some e ↔ save keep noneArr m = .error e := by
  obtain ⟨a, b, E, d, e, g, _, _, h1, h2, _⟩ := performed_shape keep noneArr m
  have hs : (saved keep noneArr m old).2 = (performed (plan keep noneArr m)).2 := rfl
  rw [hs]
  rcases hp : (performed (plan keep noneArr m)).2 with _ | x
  · have := h1 hp
    refine ⟨⟨fun _ => ⟨_, this⟩, fun _ => rfl⟩, fun e => ⟨(fun h => nomatch h), fun h => ?_⟩⟩
    rw [this] at h
    cases h
  · have := h2 x hp
    refine ⟨⟨(fun h => nomatch h), fun ⟨f, h⟩ => ?_⟩, fun e => ⟨fun h => ?_, fun h => ?_⟩⟩
    · rw [this] at h; cases h
    · cases h; exact this
    · rw [this] at h; cases h; rfl

theorem saved_shape {keep : Bool} {noneArr : Option Arr} {m : Attr} {file : Dict} (h : save keep noneArr m = .ok file) :
    ∃ a b E d e g, (performed (plan keep noneArr m)).1 = wsOf a b E d e g ∧ (performed (plan keep noneArr m)).2 = none ∧
      (E = [] ∨ E.map Prod.fst = eulerKeys) ∧ file = fileOf a b (eulerPart E) d e g := by
  obtain ⟨a, b, E, d, e, g, hw, hE, h1, h2, _⟩ := performed_shape keep noneArr m
  rcases hp : (performed (plan keep noneArr m)).2 with _ | x
  · have := h1 hp
    rw [h] at this
    cases this
    exact ⟨a, b, E, d, e, g, hw, rfl, hE, rfl⟩
  · rw [h2 x hp] at h; cases h

/-- **C76** (existing files). A model that is saved into an existing file is laid over it: the file is loaded like one with the variables of the model
in front of the old ones; variables that are no part of a model are kept. -/
theorem C76_overwrite (keep : Bool) (noneArr : Option Arr) (m : Attr) (file : Dict) (h : save keep noneArr m = .ok file) (old : Option Dict) (f : Dict)
    (hf : (saved keep noneArr m old).1 = some f) (name : String) (sats : Option (List String)) :
    load name sats f = load name sats (file ++ old.getD []) ∧
    ∀ k, k ∉ ["pp", "model_ext", "model_Euler", "pp_CAL", "g", "params"] → List.lookup k f = List.lookup k (old.getD []) := by
  obtain ⟨a, b, E, d, e, g, hw, _, hE, rfl⟩ := saved_shape h
  have hf' := fileAfter_some hf
  rw [hw] at hf'
  subst hf'
  exact ⟨load_overwrite a b E d e g hE _ name sats, (lookups_wsOf a b E d e g (keys_nodup hE) _).2.2.2.2.2.2.2⟩

theorem performed_ne (keep : Bool) (noneArr : Option Arr) (m : Attr) (b : BaseA) (ht : m.tdep = some b) (hb : TdepFits m.name b) :
    (performed (plan keep noneArr m)).1 ≠ [] := by
  obtain ⟨a, b', E, d, e, g, hw, _, _, _, h3⟩ := performed_shape keep noneArr m
  have : a = some (.struct (ppFields keep b)) := h3 _ (by rw [ht]; unfold onSome; simp only; rw [toPP_sized keep hb.sized]; rfl)
  rw [hw, this]
  simp [wsOf, wvar]

/-- **C76** (existing files). A model with all parts that is saved over any file comes back as in a new file. -/
theorem C76_full (keep : Bool) (noneArr : Option Arr) (m : Attr) (md : Meta) (h : Storable keep noneArr m md) (hs : m.static ≠ none) (hd : m.delta ≠ none)
    (he : m.euler ≠ none) (hc : m.cal ≠ none) (old : Option Dict) :
    ∃ f, saved keep noneArr m old = (some f, none) ∧ load m.name (some md.satellites) f = .ok (asStored m) := by
  obtain ⟨file, hsv, hl⟩ := C58_roundtrip keep noneArr m md h
  obtain ⟨b, ht, hb⟩ := h.tdep
  have hne := performed_ne keep noneArr m b ht hb
  have hx : saved keep noneArr m old = (some ((performed (plan keep noneArr m)).1.foldl Write.apply (old.getD [])), none) := by
    obtain ⟨_, _, _, _, _, _, _, h2, _⟩ := saved_shape hsv
    unfold saved fileAfter
    rw [h2, if_neg hne]
  refine ⟨_, hx, ?_⟩
  rw [(C76_overwrite keep noneArr m file hsv old _ (by rw [hx]) _ _).1, ← hl]
  obtain ⟨a, b', c, d, e, g, rfl, h1, h2, h3, h4, h5, h6⟩ := save_file hsv
  have some_of : ∀ {α : Type} {x : Option α} {F : α → Except Error MVal} {r : Option MVal}, onSome x F = .ok r → x ≠ none → ∃ v, r = some v := by
    intro α x F r hx hne
    obtain ⟨hb, _⟩ | ⟨_, v, _, _, rfl⟩ := onSome_ok hx
    · exact absurd hb hne
    · exact ⟨v, rfl⟩
  have he' : truthy m.euler ≠ none := by
    obtain hn | ⟨l, _, hl, _, _, _, _, ⟨x, hx, _⟩, _⟩ := h.euler
    · exact absurd hn he
    · rw [hl]
      cases l with
      | nil => cases hx
      | cons y l => simp [truthy]
  have hc' : truthy m.cal ≠ none := by
    obtain hn | ⟨b, _, hl, _⟩ := h.cal
    · exact absurd hn hc
    · rw [hl]; simp [truthy]
  obtain ⟨va, rfl⟩ := some_of h1 (by rw [ht]; simp)
  obtain ⟨vb, rfl⟩ := some_of h2 hd
  obtain ⟨vc, rfl⟩ := some_of h3 he'
  obtain ⟨vd, rfl⟩ := some_of h4 hc'
  obtain ⟨ve, rfl⟩ := some_of h5 hs
  obtain ⟨vg, rfl⟩ := some_of h6 (by rw [h.metaData]; simp)
  obtain ⟨l1, l2, l3, l4, l5, l6, _⟩ := lookup_fileOf (some va) (some vb) (some vc) (some vd) (some ve) (some vg)
  refine load_congr ?_ (Or.inl (by rw [List.lookup_append, l3]; rfl)) _ _
  intro k hk
  simp only [List.mem_cons, List.not_mem_nil, or_false] at hk
  rw [List.lookup_append]
  rcases hk with rfl | rfl | rfl | rfl | rfl
  · rw [l1]; rfl
  · rw [l2]; rfl
  · rw [l4]; rfl
  · rw [l5]; rfl
  · rw [l6]; rfl

/-- **C76, finding.** Parts that the model does not have are taken from what is in the file already: a model without static part that is saved over a
file with one gets the old static coefficients, between the ends of its own break points. -/
theorem C76_stale (keep : Bool) (noneArr : Option Arr) (m : Attr) (md : Meta) (h : Storable keep noneArr m md) (hs : m.static = none) (old : Dict) (A : Arr)
    (hg : List.lookup "g" old = some (.num A)) (hold : ∀ k ∈ ["model_ext", "model_Euler", "pp_CAL"], List.lookup k old = none) :
    ∃ f s, saved keep noneArr m (some old) = (some f, none) ∧ s.coeffs.data = A.data ∧
      load m.name (some md.satellites) f = .ok { asStored m with static := some s } := by
  obtain ⟨file, hsv, _⟩ := C58_roundtrip keep noneArr m md h
  obtain ⟨b, ht, hb⟩ := h.tdep
  have hne := performed_ne keep noneArr m b ht hb
  have hx : saved keep noneArr m (some old) = (some ((performed (plan keep noneArr m)).1.foldl Write.apply old), none) := by
    obtain ⟨_, _, _, _, _, _, _, h2, _⟩ := saved_shape hsv
    unfold saved fileAfter
    rw [h2, if_neg hne]
    rfl
  let s : BaseA := ⟨m.name ++ "_static", [PPoly.first b.breaks, PPoly.last b.breaks], 1, ⟨[1, 1, A.data.length], A.data⟩, some "internal", none⟩
  have hfit : StaticFits m.name b s := ⟨rfl, rfl, rfl, rfl, rfl, rfl⟩
  have h2 : Storable keep noneArr { m with static := some s } md :=
    ⟨h.metaData, h.pre, h.tdep, fun s' hs' => by cases hs'; exact ⟨b, ht, hfit⟩, h.external, h.euler, h.cal⟩
  obtain ⟨file2, hsv2, hl2⟩ := C58_roundtrip keep noneArr _ md h2
  refine ⟨_, s, hx, rfl, ?_⟩
  rw [(C76_overwrite keep noneArr m file hsv (some old) _ (by rw [hx]) _ _).1]
  refine Eq.trans ?_ hl2
  obtain ⟨a1, b1, c1, d1, e1, g1, rfl, p1, p2, p3, p4, p5, p6⟩ := save_file hsv
  obtain ⟨a2, b2, c2, d2, e2, g2, rfl, q1, q2, q3, q4, q5, q6⟩ := save_file hsv2
  have inj : ∀ {x y : Option MVal} {z : Except Error (Option MVal)}, z = .ok x → z = .ok y → y = x := by
    intro x y z hx hy
    rw [hx] at hy
    cases hy
    rfl
  obtain rfl := inj p1 q1
  obtain rfl := inj p2 q2
  obtain rfl := inj p3 q3
  obtain rfl := inj p4 q4
  obtain rfl := inj p6 q6
  rw [hs] at p5
  cases p5
  cases q5
  obtain ⟨u1, u2, u3, u4, u5, u6, _⟩ := lookup_fileOf a2 b2 c2 d2 none g2
  obtain ⟨v1, v2, v3, v4, v5, v6, _⟩ := lookup_fileOf a2 b2 c2 d2 (some (wnum keep s.coeffs.column)) g2
  have hor : ∀ o : Option MVal, o.or none = o := by intro o; cases o <;> rfl
  obtain ⟨va, rfl⟩ : ∃ v, a2 = some v := by
    obtain ⟨hbad, _⟩ | ⟨_, v, _, _, rfl⟩ := onSome_ok p1
    · rw [ht] at hbad; cases hbad
    · exact ⟨v, rfl⟩
  obtain ⟨vg, rfl⟩ : ∃ v, g2 = some v := by
    obtain ⟨hbad, _⟩ | ⟨_, v, _, _, rfl⟩ := onSome_ok p6
    · rw [h.metaData] at hbad; cases hbad
    · exact ⟨v, rfl⟩
  refine load_parts (loadTdep_congr ?_) ?_ (loadExternal_congr ?_) (fun S => loadEuler_congr S (Or.inl ?_)) (loadCal_congr ?_) (loadParams_congr ?_) _ _
  · rw [List.lookup_append, u1, v1]; rfl
  · unfold loadStatic
    rw [get_load, get_load, get_eq, get_eq, List.lookup_append, u5, v5]
    simp only [Option.getD_some, Option.none_or, hg, orKey, Except.map, traverse_num, traverse_wnum, MVal.arr, bind, Except.bind, pure, Except.pure]
    rfl
  · rw [List.lookup_append, u2, v2, Option.getD_some, hold _ (by decide), hor]
  · rw [List.lookup_append, u3, v3, Option.getD_some, hold _ (by decide), hor]
  · rw [List.lookup_append, u4, v4, Option.getD_some, hold _ (by decide), hor]
  · rw [List.lookup_append, u6, v6]; rfl

/-! ### Crashes -/

/-- **C76** (crashes). If the process ends while a model is saved over a file, then the file is loaded like one in which the first variables of the model are
laid over the old ones; in the middle of the Euler angles, the first new fields are laid over the old fields. So a crash can
leave a file that mixes two models. -/
theorem C76_crash_over (keep : Bool) (noneArr : Option Arr) (m : Attr) (file : Dict) (h : save keep noneArr m = .ok file) (old : Option Dict) (n : ℕ) (f : Dict)
    (hf : crashed keep noneArr m old n = some f) :
    ∃ k, (∀ name sats, load name sats f = load name sats (file.take k ++ old.getD [])) ∨
      ∃ E j, file[k]? = some ("model_Euler", .struct E) ∧ 0 < j ∧ j < E.length ∧
        ∀ name sats, load name sats f = load name sats (file.take k ++ ("model_Euler", .struct (E.take j ++ fieldsOf (old.getD []) "model_Euler")) :: old.getD []) := by
  obtain ⟨a, b, E, d, e, g, hw, _, hE, rfl⟩ := saved_shape h
  have hf' := fileAfter_some hf
  rw [hw] at hf'
  have tk : ∀ (u x y z w : Dict), (u ++ x ++ y ++ z ++ w).take u.length = u := fun u x y z w => by simp [List.append_assoc]
  rcases take_wsOf a b E d e g n with hn | hn | ⟨j, hn⟩ | hn | hn | hn <;> rw [hn] at hf' <;> subst hf'
  · exact ⟨0, Or.inl fun name sats => by rw [load_overwrite none none [] none none none (Or.inl rfl)]; rfl⟩
  · refine ⟨(part "pp" a).length, Or.inl fun name sats => ?_⟩
    rw [load_overwrite a none [] none none none (Or.inl rfl)]
    unfold fileOf
    simp [part, eulerPart]
  · by_cases hj : 0 < j ∧ j < E.length
    · refine ⟨(part "pp" a ++ part "model_ext" b).length, Or.inr ⟨E, j, ?_, hj.1, hj.2, fun name sats => ?_⟩⟩
      · have hp : eulerPart E = some (.struct E) := by
          unfold eulerPart
          rcases hE with rfl | hE
          · simp at hj
          · rw [hE, if_neg (by decide)]
        rw [hp]
        unfold fileOf
        rw [List.append_assoc, List.append_assoc, List.append_assoc, List.getElem?_append_right le_rfl]
        simp [part]
      · rw [load_wsOf a b (E.take j) none none none (by rw [List.map_take]; exact (keys_nodup hE).sublist (List.take_sublist _ _)),
          if_neg (by rw [List.take_eq_nil_iff]; rintro (h | rfl); · omega
                     · simp at hj)]
        unfold fileOf
        rw [tk]
        simp [part]
    · by_cases hj0 : j = 0
      · subst hj0
        refine ⟨(part "pp" a ++ part "model_ext" b).length, Or.inl fun name sats => ?_⟩
        rw [List.take_zero, load_overwrite a b [] none none none (Or.inl rfl)]
        unfold fileOf
        rw [tk]
        simp [part, eulerPart]
      · rw [List.take_of_length_le (by omega)]
        refine ⟨(part "pp" a ++ part "model_ext" b ++ part "model_Euler" (eulerPart E)).length, Or.inl fun name sats => ?_⟩
        rw [load_overwrite a b E none none none hE]
        unfold fileOf
        rw [List.append_assoc, List.append_assoc (_ ++ _) (part "pp_CAL" d) _, List.append_assoc (_ ++ _) (_ ++ _) _, List.take_left']
        · simp [part]
        · rfl
  · refine ⟨(part "pp" a ++ part "model_ext" b ++ part "model_Euler" (eulerPart E) ++ part "pp_CAL" d).length, Or.inl fun name sats => ?_⟩
    rw [load_overwrite a b E d none none hE]
    unfold fileOf
    rw [List.append_assoc _ (part "g" e) _, List.take_left' rfl]
    simp [part]
  · refine ⟨(part "pp" a ++ part "model_ext" b ++ part "model_Euler" (eulerPart E) ++ part "pp_CAL" d ++ part "g" e).length, Or.inl fun name sats => ?_⟩
    rw [load_overwrite a b E d e none hE]
    unfold fileOf
    rw [List.take_left' rfl]
    simp [part]
  · refine ⟨(fileOf a b (eulerPart E) d e g).length, Or.inl fun name sats => ?_⟩
    rw [load_overwrite a b E d e g hE, List.take_length]

/-- All parts of a loaded model. -/
theorem load_all {name : String} {sats : Option (List String)} {file : Dict} {m : Attr} (h : load name sats file = .ok m) :
    ∃ br o c st ext names eul cal pre, loadTdep (loadMatfile file) = .ok (br, o, c) ∧ loadStatic (loadMatfile file) = .ok st ∧
      loadExternal (loadMatfile file) = .ok ext ∧ loadEuler (loadMatfile file) (sats.getD defaultSatellites) = .ok (names, eul) ∧
      loadCal (loadMatfile file) = .ok cal ∧ loadParams (loadMatfile file) = .ok pre ∧
      onSome (some c) (fun c => BaseA.init (name ++ "_tdep") br o c (some "internal") none) = .ok m.tdep ∧
      onSome st (fun c => ends br >>= fun e => BaseA.init (name ++ "_static") e 1 c (some "internal") none) = .ok m.static ∧
      onSome eul (initEuler (some ⟨pre, names⟩)) = .ok m.euler ∧ onSome cal initCal = .ok m.cal ∧ m.name = name ∧
      m.sm = ext.map (·.1) ∧ m.gsm = ext.map (·.2.1) ∧ m.delta = ext.map (·.2.2) ∧ m.metaData = some ⟨pre, names⟩ := by
  unfold load at h
  obtain ⟨⟨br, o, c⟩, h1, h⟩ := bind_ok.1 h
  obtain ⟨st, h2, h⟩ := bind_ok.1 h
  obtain ⟨ext, h3, h⟩ := bind_ok.1 h
  obtain ⟨⟨names, eul⟩, h4, h⟩ := bind_ok.1 h
  obtain ⟨cal, h5, h⟩ := bind_ok.1 h
  obtain ⟨pre, h6, h⟩ := bind_ok.1 h
  unfold Attr.init at h
  obtain ⟨mt, k1, h⟩ := bind_ok.1 h
  obtain ⟨ms, k2, h⟩ := bind_ok.1 h
  obtain ⟨me, k3, h⟩ := bind_ok.1 h
  obtain ⟨mc, k4, h⟩ := bind_ok.1 h
  simp only [pure, Except.pure, Except.ok.injEq] at h
  subst h
  exact ⟨br, o, c, st, ext, names, eul, cal, pre, h1, h2, h3, h4, h5, h6, k1, k2, k3, k4, rfl, rfl, rfl, rfl, rfl⟩

theorem foldlM_mono {α β : Type} (f g : β → α → Except Error β) (h : ∀ b x r, f b x = .ok r → g b x = .ok r) :
    ∀ (l : List α) (b r : β), l.foldlM f b = .ok r → l.foldlM g b = .ok r := by
  intro l
  induction l with
  | nil => intro b r hr; exact hr
  | cons x l ih =>
    intro b r hr
    rw [List.foldlM_cons] at hr ⊢
    obtain ⟨b', h1, h2⟩ := bind_ok.1 hr
    exact bind_ok.2 ⟨b', h _ _ _ h1, ih _ _ h2⟩

/-- Euler angles from some of the fields. -/
theorem loadEuler_mono {f f' F F' : Dict} (h : List.lookup "model_Euler" f = some (.struct F)) (h' : List.lookup "model_Euler" f' = some (.struct F'))
    (hs : ∀ n, List.lookup n F = none ∨ List.lookup n F = List.lookup n F') (S : List String) (r : List String × Option (List (String × (Arr × Arr))))
    (hr : loadEuler (loadMatfile f) S = .ok r) : loadEuler (loadMatfile f') S = .ok r := by
  have g1 : Dict.get (loadMatfile f) "model_Euler" = .ok (.struct (loadMatfile F)) := by
    rw [get_load, get_eq, h]; simp only [orKey, Except.map, traverse_struct]
  have g2 : Dict.get (loadMatfile f') "model_Euler" = .ok (.struct (loadMatfile F')) := by
    rw [get_load, get_eq, h']; simp only [orKey, Except.map, traverse_struct]
  have hget : ∀ n v, Dict.get (loadMatfile F) n = .ok v → Dict.get (loadMatfile F') n = .ok v := by
    intro n v hv
    rcases hs n with hn | hn
    · rw [get_load, get_eq, hn] at hv; cases hv
    · rw [← get_of_lookup hn]; exact hv
  unfold loadEuler at hr ⊢
  rw [g1] at hr
  rw [g2]
  simp only [MVal.dict] at hr ⊢
  obtain ⟨e, he, hr⟩ := bind_ok.1 hr
  cases he
  obtain ⟨bk, hbk, hr⟩ := bind_ok.1 hr
  obtain ⟨n, hn, hr⟩ := bind_ok.1 hr
  obtain ⟨l, hl, hr⟩ := bind_ok.1 hr
  refine bind_ok.2 ⟨_, rfl, bind_ok.2 ⟨bk, hget _ _ hbk, bind_ok.2 ⟨n, hn, bind_ok.2 ⟨l, ?_, hr⟩⟩⟩⟩
  refine foldlM_mono _ _ ?_ _ _ _ hl
  intro b x r hx
  obtain ⟨y, hy, hx⟩ := bind_ok.1 hx
  refine bind_ok.2 ⟨y, ?_, hx⟩
  unfold eulerOf at hy ⊢
  obtain ⟨b1, hb1, hy⟩ := bind_ok.1 hy
  refine bind_ok.2 ⟨b1, hb1, ?_⟩
  have rest : ∀ {z : Arr × Arr}, (do
        let a1 ← (← Dict.get (loadMatfile F) "alpha").item x.2
        let a2 ← (← Dict.get (loadMatfile F) "beta").item x.2
        let a3 ← (← Dict.get (loadMatfile F) "gamma").item x.2
        let c ← concat3 a1 a2 a3
        return (b1.squeeze, { c with shape := 1 :: c.shape }) : Except Error (Arr × Arr)) = .ok z → (do
        let a1 ← (← Dict.get (loadMatfile F') "alpha").item x.2
        let a2 ← (← Dict.get (loadMatfile F') "beta").item x.2
        let a3 ← (← Dict.get (loadMatfile F') "gamma").item x.2
        let c ← concat3 a1 a2 a3
        return (b1.squeeze, { c with shape := 1 :: c.shape }) : Except Error (Arr × Arr)) = .ok z := by
    intro z hz
    obtain ⟨v1, k1, hz⟩ := bind_ok.1 hz
    obtain ⟨a1, k2, hz⟩ := bind_ok.1 hz
    obtain ⟨v2, k3, hz⟩ := bind_ok.1 hz
    obtain ⟨a2, k4, hz⟩ := bind_ok.1 hz
    obtain ⟨v3, k5, hz⟩ := bind_ok.1 hz
    exact bind_ok.2 ⟨v1, hget _ _ k1, bind_ok.2 ⟨a1, k2, bind_ok.2 ⟨v2, hget _ _ k3, bind_ok.2 ⟨a2, k4, bind_ok.2 ⟨v3, hget _ _ k5, hz⟩⟩⟩⟩⟩
  by_cases hc : bk.isCell ∧ b1.shape = []
  · rw [if_pos hc] at hy
    cases hy
  · rw [if_neg hc] at hy ⊢
    exact rest hy

theorem lookup_take {d : Dict} (j : ℕ) (n : String) : List.lookup n (d.take j) = none ∨ List.lookup n (d.take j) = List.lookup n d := by
  have : List.lookup n d = (List.lookup n (d.take j)).or (List.lookup n (d.drop j)) := by
    rw [← List.lookup_append, List.take_append_drop]
  rcases h : List.lookup n (d.take j) with _ | v
  · exact Or.inl rfl
  · right; rw [this, h]; rfl

/-- A file in which some of the variables are missing. -/
theorem load_some_parts {f f' : Dict} (h : ∀ k ∈ ["pp", "model_ext", "pp_CAL", "g", "params"], List.lookup k f = none ∨ List.lookup k f = List.lookup k f')
    (hE : List.lookup "model_Euler" f = none ∨ ∃ F F' : Dict, List.lookup "model_Euler" f = some (.struct F) ∧
      List.lookup "model_Euler" f' = some (.struct F') ∧ ∀ n, List.lookup n F = none ∨ List.lookup n F = List.lookup n F')
    {name : String} {sats : Option (List String)} {m M : Attr} (hm : load name sats f = .ok m) (hM : load name sats f' = .ok M) : PartsOf m M := by
  obtain ⟨br, o, c, st, ext, names, eul, cal, pre, h1, h2, h3, h4, h5, h6, k1, k2, k3, k4, e1, e2, e3, e4, e5⟩ := load_all hm
  obtain ⟨Br, O, C, St, Ext, Names, Eul, Cal, Pre, H1, H2, H3, H4, H5, H6, K1, K2, K3, K4, E1, E2, E3, E4, E5⟩ := load_all hM
  -- the time-dependent part
  have hpp : List.lookup "pp" f = List.lookup "pp" f' := by
    rcases h "pp" (by decide) with hn | he
    · rw [loadTdep, get_load, get_eq, hn] at h1; cases h1
    · exact he
  rw [loadTdep_congr hpp, H1] at h1
  cases h1
  have ht : m.tdep = M.tdep := by
    exact Except.ok.inj (k1.symm.trans K1)
  -- the prerotation
  have hpre : pre = none ∨ pre = Pre := by
    rcases h "params" (by decide) with hn | he
    · left; rw [loadParams, get_load, get_eq, hn] at h6; cases h6; rfl
    · right; rw [loadParams_congr he, H6] at h6; cases h6; rfl
  refine ⟨by rw [e1, E1], ht, ?_, ?_, ?_, ?_, ?_⟩
  · rcases h "g" (by decide) with hn | he
    · left
      rw [loadStatic, get_load, get_eq, hn] at h2
      cases h2
      exact (Except.ok.inj k2).symm
    · right
      rw [loadStatic_congr he, H2] at h2
      cases h2
      exact Except.ok.inj (k2.symm.trans K2)
  · rcases h "model_ext" (by decide) with hn | he
    · left
      rw [loadExternal, get_load, get_eq, hn] at h3
      cases h3
      exact ⟨e2, e3, e4⟩
    · right
      rw [loadExternal_congr he, H3] at h3
      cases h3
      exact ⟨by rw [e2, E2], by rw [e3, E3], by rw [e4, E4]⟩
  · rcases hE with hn | ⟨F, F', hF, hF', hs⟩
    · left
      rw [loadEuler, get_load, get_eq, hn] at h4
      cases h4
      exact (Except.ok.inj k3).symm
    · right
      have := loadEuler_mono hF hF' hs _ _ h4
      rw [H4] at this
      cases this
      rcases hpre with hp | hp
      · subst hp
        obtain ⟨hb, hb'⟩ | ⟨l, r, hl, hi, hr⟩ := onSome_ok k3
        · rw [hb'] ; rw [hb] at K3; exact Except.ok.inj K3
        · cases l with
          | cons x l =>
            exfalso
            unfold initEuler at hi
            rw [List.zipIdx_cons, List.mapM_cons] at hi
            obtain ⟨_, hi, _⟩ := bind_ok.1 hi
            obtain ⟨_, hi, _⟩ := bind_ok.1 hi
            cases hi
          | nil =>
            rw [hl] at K3
            rw [hr]
            cases hi
            exact Except.ok.inj K3
      · subst hp
        exact Except.ok.inj (k3.symm.trans K3)
  · rcases h "pp_CAL" (by decide) with hn | he
    · left
      rw [loadCal, get_load, get_eq, hn] at h5
      cases h5
      exact (Except.ok.inj k4).symm
    · right
      rw [loadCal_congr he, H5] at h5
      cases h5
      exact Except.ok.inj (k4.symm.trans K4)
  · intro md MD hmd hMD
    rw [e5] at hmd
    rw [E5] at hMD
    cases hmd
    cases hMD
    exact hpre

/-- **C76** (crashes). If the process ends while a model is saved to a new file, at any point, and the file can be loaded, then what is loaded is the model
(as the complete file gives it) with some of its optional parts missing. -/
theorem C76_crash (keep : Bool) (noneArr : Option Arr) (m : Attr) (n : ℕ) (f f' : Dict) (hf : crashed keep noneArr m none n = some f)
    (hf' : (saved keep noneArr m none).1 = some f') (name : String) (sats : Option (List String)) (m' M : Attr) (h : load name sats f = .ok m')
    (h' : load name sats f' = .ok M) : PartsOf m' M := by
  obtain ⟨a, b, E, d, e, g, hw, hE, _⟩ := performed_shape keep noneArr m
  have e1 := fileAfter_some hf
  have e2 := fileAfter_some hf'
  rw [hw] at e1 e2
  simp only [Option.getD_none] at e1 e2
  have hor : ∀ o : Option MVal, o.or none = o := by intro o; cases o <;> rfl
  obtain ⟨A, B, E', D, Ee, G, ht, hA, hB, hE', hD, he, hG⟩ : ∃ A B E' D Ee G, (wsOf a b E d e g).take n = wsOf A B E' D Ee G ∧ (A = none ∨ A = a) ∧ (B = none ∨ B = b) ∧
      (∃ j, E' = E.take j) ∧ (D = none ∨ D = d) ∧ (Ee = none ∨ Ee = e) ∧ (G = none ∨ G = g) := by
    have hfull : ∃ j, E = E.take j := ⟨E.length, by rw [List.take_length]⟩
    have hnil : ∃ j, ([] : Dict) = E.take j := ⟨0, rfl⟩
    rcases take_wsOf a b E d e g n with hn | hn | ⟨j, hn⟩ | hn | hn | hn
    · exact ⟨_, _, _, _, _, _, hn, Or.inl rfl, Or.inl rfl, hnil, Or.inl rfl, Or.inl rfl, Or.inl rfl⟩
    · exact ⟨_, _, _, _, _, _, hn, Or.inr rfl, Or.inl rfl, hnil, Or.inl rfl, Or.inl rfl, Or.inl rfl⟩
    · exact ⟨_, _, _, _, _, _, hn, Or.inr rfl, Or.inr rfl, ⟨j, rfl⟩, Or.inl rfl, Or.inl rfl, Or.inl rfl⟩
    · exact ⟨_, _, _, _, _, _, hn, Or.inr rfl, Or.inr rfl, hfull, Or.inr rfl, Or.inl rfl, Or.inl rfl⟩
    · exact ⟨_, _, _, _, _, _, hn, Or.inr rfl, Or.inr rfl, hfull, Or.inr rfl, Or.inr rfl, Or.inl rfl⟩
    · exact ⟨_, _, _, _, _, _, hn, Or.inr rfl, Or.inr rfl, hfull, Or.inr rfl, Or.inr rfl, Or.inr rfl⟩
  obtain ⟨j, rfl⟩ := hE'
  rw [ht] at e1
  have hnd := keys_nodup hE
  have hnd' : ((E.take j).map Prod.fst).Nodup := by rw [List.map_take]; exact hnd.sublist (List.take_sublist _ _)
  obtain ⟨p1, p2, p3, p4, p5, p6, p7, _⟩ := lookups_wsOf A B (E.take j) D Ee G hnd' []
  obtain ⟨q1, q2, q3, q4, q5, q6, q7, _⟩ := lookups_wsOf a b E d e g hnd []
  rw [← e1] at p1 p2 p3 p4 p5 p6 p7
  rw [← e2] at q1 q2 q3 q4 q5 q6 q7
  simp only [List.lookup_nil, hor] at p1 p2 p3 p4 p5 p6 p7 q1 q2 q3 q4 q5 q6 q7
  refine load_some_parts (f := f) (f' := f') ?_ ?_ h h'
  · intro k hk
    simp only [List.mem_cons, List.not_mem_nil, or_false] at hk
    rcases hk with rfl | rfl | rfl | rfl | rfl
    · rw [p1, q1]; exact hA
    · rw [p2, q2]; exact hB
    · rw [p3, q3]; exact hD
    · rw [p4, q4]; exact he
    · rw [p5, q5]; exact hG
  · by_cases hj : E.take j = []
    · left; exact p6 hj
    · right
      obtain ⟨F, hF, hl⟩ := p7 hj
      obtain ⟨F', hF', hl'⟩ := q7 (fun hn => hj (by rw [hn]; simp))
      refine ⟨F, F', hF, hF', fun n => ?_⟩
      have hfo : fieldsOf [] "model_Euler" = [] := rfl
      rw [hl, hl', hfo, List.lookup_nil, hor, hor]
      exact lookup_take j n

/-- **C76** (crashes). The same for a model that can be saved and loaded: at every point of a crash the file cannot be loaded, or it gives the model with some
of its optional parts missing; if the model has Euler angles and the process ends after the first of their writes and before the last write of all, then
the file cannot be loaded. -/
theorem C76_crash_model (keep : Bool) (noneArr : Option Arr) (m : Attr) (md : Meta) (h : Storable keep noneArr m md) (n : ℕ) (f : Dict)
    (hf : crashed keep noneArr m none n = some f) (m' : Attr) (hl : load m.name (some md.satellites) f = .ok m') :
    PartsOf m' (asStored m) ∧ (m.euler ≠ none → List.lookup "model_Euler" f ≠ none → List.lookup "params" f ≠ none) := by
  obtain ⟨file, hsv, hld⟩ := C58_roundtrip keep noneArr m md h
  obtain ⟨b, ht, hb⟩ := h.tdep
  have hne := performed_ne keep noneArr m b ht hb
  have hx : (saved keep noneArr m none).1 = some ((performed (plan keep noneArr m)).1.foldl Write.apply []) := by
    unfold saved fileAfter
    rw [if_neg hne]
    rfl
  have hM := (C76_overwrite keep noneArr m file hsv none _ hx m.name (some md.satellites)).1
  rw [Option.getD_none, List.append_nil, hld] at hM
  have hp := C76_crash keep noneArr m n f _ hf hx _ _ m' _ hl hM
  refine ⟨hp, fun he hE hpar => ?_⟩
  have hme : m'.euler ≠ none := by
    obtain ⟨_, _, _, _, _, names, eul, _, pre, _, _, _, h4, _, _, _, _, k3, _⟩ := load_all hl
    intro hc
    rw [hc] at k3
    obtain ⟨hn, _⟩ | ⟨_, _, _, _, hbad⟩ := onSome_ok k3
    · subst hn
      rcases hv : List.lookup "model_Euler" f with _ | v
      · exact hE hv
      · have hg : Dict.get (loadMatfile f) "model_Euler" = .ok (traverse v) := by rw [get_load, get_eq, hv]; rfl
        unfold loadEuler at h4
        rw [hg] at h4
        obtain ⟨_, _, h4⟩ := bind_ok.1 h4
        obtain ⟨_, _, h4⟩ := bind_ok.1 h4
        obtain ⟨_, _, h4⟩ := bind_ok.1 h4
        obtain ⟨_, _, h4⟩ := bind_ok.1 h4
        cases h4
    · cases hbad
  obtain hn | ⟨l, pre, hml, _, _, _, _, ⟨x, hx1, _⟩, _⟩ := h.euler
  · exact he hn
  rcases hp.euler with h1 | h1
  · exact hme h1
  · have h2 : m'.euler = some l := by rw [h1]; exact hml
    obtain ⟨v, _, _, hv, _⟩ := C58_prerotation_required _ _ f m' l hl h2 (List.ne_nil_of_mem hx1)
    have := lookup_some_of_mem (d := f) (k := "params") (List.mem_map.mpr ⟨_, hv, rfl⟩)
    obtain ⟨w, hw⟩ := this
    rw [hpar] at hw
    cases hw

/-- A file with the time-dependent part only. -/
theorem load_first (keep : Bool) (name : String) (t : BaseA) (hf : TdepFits name t) (sats : Option (List String)) :
    load name sats ([(Write.var "pp" (.struct (ppFields keep t)))].foldl Write.apply []) =
      .ok ⟨name, some t, none, none, none, none, none, none, some ⟨none, sats.getD defaultSatellites⟩⟩ := by
  obtain ⟨file, hs, hl, _⟩ := C58_optional keep none name t hf sats
  rw [← hl]
  refine Eq.trans (load_overwrite (some (.struct (ppFields keep t))) none [] none none none (Or.inl rfl) [] name sats) ?_
  obtain ⟨a, b, c, d, e, g, rfl, h1, h2, h3, h4, h5, h6⟩ := save_file hs
  have e1 : onSome (some t) (toPP keep) = .ok (some (.struct (ppFields keep t))) := by
    unfold onSome; simp only; rw [toPP_sized keep hf.sized]; rfl
  rw [e1] at h1
  cases h1; cases h2; cases h3; cases h4; cases h5; cases h6
  rw [List.append_nil]
  rfl

/-- **C76, finding.** An exception leaves a file: a model with offsets of the external field but without SM coefficients raises a TypeError, and what
was written before can be loaded as a model without the other parts. -/
theorem C76_exception (keep : Bool) (noneArr : Option Arr) (m : Attr) (t : BaseA) (ht : m.tdep = some t) (hf : TdepFits m.name t) (d : DeltaA)
    (hd : m.delta = some d) (hlen : d.q11.data.length = d.s11.data.length) (hsm : m.sm = none) (sats : Option (List String)) :
    ∃ f, saved keep noneArr m none = (some f, some .typeError) ∧
      load m.name sats f = .ok ⟨m.name, some t, none, none, none, none, none, none, some ⟨none, sats.getD defaultSatellites⟩⟩ := by
  have e1 : onSome m.tdep (toPP keep) = .ok (some (.struct (ppFields keep t))) := by
    rw [ht]; unfold onSome; simp only; rw [toPP_sized keep hf.sized]; rfl
  have e2 : (onSome m.delta fun d => saveExternal keep d m.sm m.gsm) = .error .typeError := by
    rw [hd, hsm]
    unfold onSome saveExternal stack2
    simp only
    rw [if_pos hlen]
    rfl
  have hp : performed (plan keep noneArr m) = (wsOf (some (.struct (ppFields keep t))) none [] none none none, some .typeError) := by
    unfold plan
    rw [e1, e2]
    rfl
  refine ⟨[(Write.var "pp" (.struct (ppFields keep t)))].foldl Write.apply [], ?_, ?_⟩
  · unfold saved fileAfter
    rw [hp]
    rfl
  · exact load_first keep m.name t hf sats

/-! ### Examples -/

/-- The model with all parts, over a file with other variables of the same names. -/
example : ∃ f, saved false none exModel (some [("g", .null), ("model_Euler", .null), ("extra", .null)]) = (some f, none) ∧
    load "M" (some ["a", "b"]) f = .ok (asStored exModel) ∧ List.lookup "extra" f = some .null := by
  obtain ⟨f, h1, h2⟩ := C76_full false none exModel exMeta ex_storable (by simp [exModel]) (by simp [exModel]) (by simp [exModel]) (by simp [exModel])
    (some [("g", .null), ("model_Euler", .null), ("extra", .null)])
  obtain ⟨file, hs, _⟩ := C58_roundtrip false none exModel exMeta ex_storable
  refine ⟨f, h1, h2, ?_⟩
  rw [(C76_overwrite false none exModel file hs _ f (by rw [h1]) "M" none).2 "extra" (by decide)]
  rfl

/-- The model without static part satisfies the hypotheses of `C76_stale`. -/
example : ∃ f s, saved false none { exModel with static := none } (some [("g", .num ⟨[3, 1], [1, 2, 3]⟩)]) = (some f, none) ∧ s.coeffs.data = [1, 2, 3] ∧
    load "M" (some ["a", "b"]) f = .ok { asStored exModel with static := some s } := by
  have hS : Storable false none { exModel with static := none } exMeta :=
    ⟨ex_storable.metaData, ex_storable.pre, ex_storable.tdep, (fun s hs => nomatch hs), ex_storable.external, ex_storable.euler, ex_storable.cal⟩
  obtain ⟨f, s, h1, h2, h3⟩ := C76_stale false none _ exMeta hS rfl [("g", .num ⟨[3, 1], [1, 2, 3]⟩)] ⟨[3, 1], [1, 2, 3]⟩ rfl (by decide)
  exact ⟨f, s, h1, h2, h3⟩

/-- A crash after the first write of the model with all parts leaves a file that can be loaded. -/
theorem ex_crashed : ∃ f, crashed false none exModel none 1 = some f ∧
    load "M" none f = .ok ⟨"M", some exTdep, none, none, none, none, none, none, some ⟨none, defaultSatellites⟩⟩ := by
  obtain ⟨t, ht, hf⟩ := ex_storable.tdep
  cases ht
  refine ⟨_, ?_, load_first false "M" exTdep hf none⟩
  obtain ⟨a, b, E, d, e, g, hw, _, _, _, ha⟩ := performed_shape false none exModel
  have hv := ha (.struct (ppFields false exTdep)) (by
    change onSome (some exTdep) (toPP false) = _
    unfold onSome; simp only; rw [toPP_sized false hf.sized]; rfl)
  unfold crashed fileAfter
  rw [hw, hv]
  rfl

/-- The model without SM coefficients satisfies the hypotheses of `C76_exception`. -/
example : ∃ f, saved false none { exModel with sm := none } none = (some f, some .typeError) := by
  obtain ⟨t, ht, hf⟩ := ex_storable.tdep
  cases ht
  obtain ⟨f, h, _⟩ := C76_exception false none { exModel with sm := none } exTdep rfl hf exDelta rfl rfl rfl none
  exact ⟨f, h⟩

end ChaosMagPy.Matfile
