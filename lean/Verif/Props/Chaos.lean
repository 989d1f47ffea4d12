import Verif.Props.Index
import Verif.Model.Chaos
import Mathlib.Data.List.GetD
import Verif.Spec.Chaos
import Verif.Props.PPoly
import Verif.Props.SynthArgs
/-!
# C32-C35: the CHAOS model
-/
namespace ChaosMagPy.Chaos
open ChaosMagPy.Spec
open ChaosMagPy.Index (nmaxOfDim)

/-! ### Lengths and NaN -/

theorem synthValues_length (rsurf : ℝ) (dim : ℕ) (pts : List Synth.Point) (a b c : Option ℤ) (s : Option String)
    (l : List (ℝ × ℝ × ℝ)) (h : Synth.synthValues rsurf dim pts a b c s = .ok l) : l.length = pts.length := by
  unfold Synth.synthValues at h
  simp only [bind, Except.bind] at h
  split at h
  · cases h
  · split at h
    · cases h
    · split at h
      · cases h
      · exact ((Synth.mapM_ok _ _ _).1 h).length_eq.symm

theorem ofSynth_ok {α : Type} (x : Except Synth.Error α) (a : α) : ofSynth x = .ok a ↔ x = .ok a := by
  rcases x with e | b
  · cases e <;> simp [ofSynth]
  · simp [ofSynth]

theorem ofPPoly_ok {α : Type} (x : Except PPoly.Error α) (a : α) : ofPPoly x = .ok a ↔ x = .ok a := by
  rcases x with e | b
  · cases e; simp [ofPPoly]
  · simp [ofPPoly]

/-- The points handed to `synth_values`. -/
noncomputable def withRows (pts : List Pt) (rows : List (Option (ℕ → ℝ))) : List Synth.Point :=
  List.zipWith (fun (p : Pt) (r : Option (ℕ → ℝ)) => (⟨p.radius, p.theta, p.phi, r.getD fun _ => 0⟩ : Synth.Point)) pts rows

theorem fieldOfRows_ok (rSurf : ℝ) (dim : ℕ) (rows : List (Option (ℕ → ℝ))) (pts : List Pt) (nmax : Option ℕ) (source : String)
    (B : List Val) : fieldOfRows rSurf dim rows pts nmax source = .ok B ↔
      ∃ l, Synth.synthValues rSurf dim (withRows pts rows) none (nmax.map fun n => (n : ℤ)) none (some source) = .ok l ∧
        B = List.zipWith (fun (r : Option (ℕ → ℝ)) b => r.map fun _ => b) rows l := by
  unfold fieldOfRows
  simp only
  change (match ofSynth (Synth.synthValues rSurf dim (withRows pts rows) none (nmax.map fun n => (n : ℤ)) none (some source)) with
    | .error e => Except.error e
    | .ok l => .ok (List.zipWith (fun (r : Option (ℕ → ℝ)) b => r.map fun _ => b) rows l)) = .ok B ↔ _
  cases hs : Synth.synthValues rSurf dim (withRows pts rows) none (nmax.map fun n => (n : ℤ)) none (some source) with
  | error e => cases e <;> simp [ofSynth]
  | ok l => simp [ofSynth, eq_comm]

theorem fieldOfRows_length (rSurf : ℝ) (dim : ℕ) (rows : List (Option (ℕ → ℝ))) (pts : List Pt) (nmax : Option ℕ) (source : String)
    (B : List Val) (h : fieldOfRows rSurf dim rows pts nmax source = .ok B) (hl : rows.length = pts.length) : B.length = pts.length := by
  obtain ⟨l, h1, rfl⟩ := (fieldOfRows_ok _ _ _ _ _ _ _).1 h
  have := synthValues_length _ _ _ _ _ _ _ _ h1
  simp only [List.length_zipWith, withRows] at this ⊢
  omega

theorem rows_length (b : PPoly.Base) (times : List ℝ) (nmax deriv : Option ℕ) (e : Option PPoly.Extrap) (r : ℕ × List (Option (ℕ → ℝ)))
    (h : PPoly.modelSynthCoeffs b times nmax deriv e = .ok r) : r.2.length = times.length := by
  unfold PPoly.modelSynthCoeffs PPoly.Base.synthCoeffs at h
  split at h
  · cases h
  · split_ifs at h
    simp only [bind, Except.bind, pure, Except.pure] at h
    split at h
    · cases h
    · injection h with h
      rw [← h]
      simp

theorem Model.synthValues_length (rSurf : ℝ) (m : Model) (pts : List Pt) (nmax deriv : Option ℕ) (e : Option PPoly.Extrap) (B : List Val)
    (h : m.synthValues rSurf pts nmax deriv e = .ok B) : B.length = pts.length := by
  unfold Model.synthValues at h
  simp only [bind, Except.bind] at h
  split at h
  · cases h
  · rename_i r hr
    exact fieldOfRows_length _ _ _ _ _ _ _ h (by rw [rows_length _ _ _ _ _ _ ((ofPPoly_ok _ _).1 hr)]; simp)

/-- The names and what a call computes for them. -/
noncomputable def sourceField (env : Env) (m : Chaos) (pts : List Pt) (rcE rcI : Option (List ℝ)) (nmaxStatic : Option ℕ) (s : String) :
    Except Error (List Val) :=
  if s = "tdep" then synthValuesTdep env m pts none none none
  else if s = "static" then synthValuesStatic env m pts (some (nmaxStatic.getD 85)) none none
  else if s = "gsm" then synthValuesGsm env m pts none none
  else synthValuesSm env m pts rcE rcI none none

theorem gsm_all (env : Env) (m : Chaos) (pts : List Pt) (nmax : Option ℕ) :
    synthValuesGsm env m pts nmax (some "all") = synthValuesGsm env m pts nmax none := rfl

theorem sm_all (env : Env) (m : Chaos) (pts : List Pt) (rcE rcI : Option (List ℝ)) (nmax : Option ℕ) :
    synthValuesSm env m pts rcE rcI nmax (some "all") = synthValuesSm env m pts rcE rcI nmax none := rfl

/-- One source of the call. -/
noncomputable def stepSource (names : List String) (f : String → Except Error (List Val)) (B : List Val) (s : String) : Except Error (List Val) :=
  addIf (names.contains s) B (f s)

theorem call_eq (env : Env) (m : Chaos) (pts : List Pt) (rcE rcI : Option (List ℝ)) (sources : Sources) (nms : Option ℕ) :
    call env m pts rcE rcI sources nms =
      sourceNames.foldlM (stepSource sources.names (sourceField env m pts rcE rcI nms)) (pts.map fun _ => some (0, 0, 0)) := by
  have e1 : sourceField env m pts rcE rcI nms "tdep" = synthValuesTdep env m pts none none none := rfl
  have e2 : sourceField env m pts rcE rcI nms "static" = synthValuesStatic env m pts (some (nms.getD 85)) none none := by
    unfold sourceField
    rw [if_neg (by decide), if_pos rfl]
  have e3 : sourceField env m pts rcE rcI nms "gsm" = synthValuesGsm env m pts none none := by
    unfold sourceField
    rw [if_neg (by decide), if_neg (by decide), if_pos rfl]
  have e4 : sourceField env m pts rcE rcI nms "sm" = synthValuesSm env m pts rcE rcI none none := by
    unfold sourceField
    rw [if_neg (by decide), if_neg (by decide), if_neg (by decide)]
  unfold call sourceNames
  simp only [List.foldlM_cons, List.foldlM_nil, stepSource, e1, e2, e3, e4, gsm_all, sm_all, bind_pure]

theorem addFields_getD (a b : List Val) (i n : ℕ) (ha : a.length = n) (hb : b.length = n) (hi : i < n) :
    (addFields a b).getD i none = Val.add (a.getD i none) (b.getD i none) := by
  unfold addFields
  rw [List.getD_eq_getElem _ _ (by simp; omega), List.getD_eq_getElem _ _ (by omega), List.getD_eq_getElem _ _ (by omega),
    List.getElem_zipWith]

theorem add_total (a v : Val) (l : List Val) : Val.add (Val.add a v) (total l) = Val.add a (total (v :: l)) := by
  rcases a with _ | a <;> rcases v with _ | v <;> simp only [Val.add, total]
  rcases total l with _ | w <;> simp [Val.add, add_assoc]

theorem fold_sum (names : List String) (f : String → Except Error (List Val)) (F : String → List Val) (n : ℕ) (ks : List String)
    (h : ∀ s ∈ ks, s ∈ names → f s = .ok (F s) ∧ (F s).length = n) :
    ∀ B0 : List Val, B0.length = n → ∃ B, ks.foldlM (stepSource names f) B0 = .ok B ∧ B.length = n ∧
      ∀ i < n, B.getD i none = Val.add (B0.getD i none) (total ((ks.filter (fun s => s ∈ names)).map fun s => (F s).getD i none)) := by
  induction ks with
  | nil =>
    intro B0 h0
    refine ⟨B0, rfl, h0, fun i _ => ?_⟩
    rcases B0.getD i none with _ | v <;> simp [total, Val.add]
  | cons s ks ih =>
    intro B0 h0
    have ih := ih fun x hx => h x (List.mem_cons_of_mem _ hx)
    simp only [List.foldlM_cons, bind, Except.bind]
    by_cases hs : s ∈ names
    · obtain ⟨h1, h2⟩ := h s List.mem_cons_self hs
      have hstep : stepSource names f B0 s = .ok (addFields B0 (F s)) := by
        unfold stepSource addIf
        rw [if_pos (by simpa using hs), h1]
      rw [hstep]
      obtain ⟨B, hB1, hB2, hB3⟩ := ih (addFields B0 (F s)) (by simp [addFields, h0, h2])
      refine ⟨B, hB1, hB2, fun i hi => ?_⟩
      rw [hB3 i hi, addFields_getD _ _ i n h0 h2 hi, List.filter_cons_of_pos (by simpa using hs), List.map_cons, add_total]
    · have hstep : stepSource names f B0 s = .ok B0 := by
        unfold stepSource addIf
        rw [if_neg (by simpa using hs)]
      rw [hstep]
      obtain ⟨B, hB1, hB2, hB3⟩ := ih B0 h0
      refine ⟨B, hB1, hB2, fun i hi => ?_⟩
      rw [hB3 i hi, List.filter_cons_of_neg (by simpa using hs)]

theorem fold_error (names : List String) (f : String → Except Error (List Val)) (e : Error) (ks : List String) :
    ∀ B0 : List Val, ks.foldlM (stepSource names f) B0 = .error e ↔
      ∃ k : ℕ, ∃ s : String, ks[k]? = some s ∧ s ∈ names ∧ f s = .error e ∧ ∀ j < k, ∀ s', ks[j]? = some s' → s' ∈ names → ∃ F, f s' = .ok F := by
  induction ks with
  | nil => intro B0; simp [pure, Except.pure]
  | cons s ks ih =>
    intro B0
    simp only [List.foldlM_cons, bind, Except.bind]
    constructor
    · intro h
      by_cases hs : s ∈ names
      · cases hf : f s with
        | error e' =>
          have hstep : stepSource names f B0 s = .error e' := by
            unfold stepSource addIf
            rw [if_pos (by simpa using hs), hf]
          rw [hstep] at h
          injection h with h
          subst h
          exact ⟨0, s, rfl, hs, hf, fun j hj => absurd hj (by omega)⟩
        | ok F =>
          have hstep : stepSource names f B0 s = .ok (addFields B0 F) := by
            unfold stepSource addIf
            rw [if_pos (by simpa using hs), hf]
          rw [hstep] at h
          obtain ⟨k, s', h1, h2, h3, h4⟩ := (ih _).1 h
          refine ⟨k + 1, s', by simpa using h1, h2, h3, ?_⟩
          intro j hj s'' hs'' hn
          rcases j with _ | j
          · simp only [List.getElem?_cons_zero, Option.some.injEq] at hs''
            subst hs''
            exact ⟨F, hf⟩
          · exact h4 j (by omega) s'' (by simpa using hs'') hn
      · have hstep : stepSource names f B0 s = .ok B0 := by
          unfold stepSource addIf
          rw [if_neg (by simpa using hs)]
        rw [hstep] at h
        obtain ⟨k, s', h1, h2, h3, h4⟩ := (ih _).1 h
        refine ⟨k + 1, s', by simpa using h1, h2, h3, ?_⟩
        intro j hj s'' hs'' hn
        rcases j with _ | j
        · simp only [List.getElem?_cons_zero, Option.some.injEq] at hs''
          subst hs''
          exact absurd hn hs
        · exact h4 j (by omega) s'' (by simpa using hs'') hn
    · rintro ⟨k, s', h1, h2, h3, h4⟩
      rcases k with _ | k
      · simp only [List.getElem?_cons_zero, Option.some.injEq] at h1
        subst h1
        have hstep : stepSource names f B0 s = .error e := by
          unfold stepSource addIf
          rw [if_pos (by simpa using h2), h3]
        rw [hstep]
      · have hrest : ∃ k : ℕ, ∃ s : String, ks[k]? = some s ∧ s ∈ names ∧ f s = .error e ∧
            ∀ j < k, ∀ s', ks[j]? = some s' → s' ∈ names → ∃ F, f s' = .ok F :=
          ⟨k, s', by simpa using h1, h2, h3, fun j hj s'' hs'' hn => h4 (j + 1) (by omega) s'' (by simpa using hs'') hn⟩
        by_cases hs : s ∈ names
        · obtain ⟨F, hF⟩ := h4 0 (by omega) s rfl hs
          have hstep : stepSource names f B0 s = .ok (addFields B0 F) := by
            unfold stepSource addIf
            rw [if_pos (by simpa using hs), hF]
          rw [hstep]
          exact (ih _).2 hrest
        · have hstep : stepSource names f B0 s = .ok B0 := by
            unfold stepSource addIf
            rw [if_neg (by simpa using hs)]
          rw [hstep]
          exact (ih _).2 hrest

theorem coeffsGsm_length (env : Env) (m : Chaos) (times : List ℝ) (nmax : Option ℕ) (source : Option String) (r : ℕ × List (ℕ → ℝ))
    (h : synthCoeffsGsm env m times nmax source = .ok r) : r.2.length = times.length := by
  unfold synthCoeffsGsm at h
  split at h
  · cases h
  · simp only at h
    split at h
    · cases h
    · simp only [bind, Except.bind, pure, Except.pure, throw, throwThe, MonadExceptOf.throw] at h
      split at h
      · cases h
      · split at h
        · cases h
        · split_ifs at h <;> first | (injection h with h; rw [← h]; simp) | cases h

theorem rcValues_length (f : RcFile) (source : String) (times : List ℝ) (rc : Option (List ℝ)) (l : List ℝ)
    (h : rcValues f source times rc = .ok l) : l.length = times.length := by
  unfold rcValues at h
  split at h
  · unfold rcFromFile at h
    simp only [bind, Except.bind, pure, Except.pure, throw, throwThe, MonadExceptOf.throw] at h
    split at h
    · cases h
    · split_ifs at h
      injection h with h
      rw [← h]
      simp
  · split_ifs at h with hl
    injection h with h
    rw [← h]
    exact hl

theorem coeffsSm_length (env : Env) (m : Chaos) (times : List ℝ) (nmax : Option ℕ) (source : Option String) (rc : Option (List ℝ))
    (r : ℕ × List (ℕ → ℝ)) (h : synthCoeffsSm env m times nmax source rc = .ok r) : r.2.length = times.length := by
  unfold synthCoeffsSm at h
  split at h
  · cases h
  · simp only at h
    split at h
    · cases h
    · simp only [bind, Except.bind, pure, Except.pure, throw, throwThe, MonadExceptOf.throw] at h
      split at h
      · cases h
      · split at h
        · cases h
        · split at h
          · cases h
          · rename_i l hl
            have := rcValues_length _ _ _ _ _ hl
            split_ifs at h <;> first | (injection h with h; rw [← h]; simp [this]) | cases h

theorem fieldOf_ok (rSurf : ℝ) (pts : List Pt) (source : String) (c : ℕ × List (ℕ → ℝ)) (hc : c.2.length = pts.length) (B : List Val)
    (h : fieldOf rSurf pts source c = .ok B) : ∃ l : List (ℝ × ℝ × ℝ), l.length = pts.length ∧ B = l.map some := by
  obtain ⟨l, h1, rfl⟩ := (fieldOfRows_ok _ _ _ _ _ _ _).1 h
  have hlen := synthValues_length _ _ _ _ _ _ _ _ h1
  simp only [withRows, List.length_zipWith, List.length_map] at hlen
  refine ⟨l, by omega, ?_⟩
  apply List.ext_getElem
  · simp; omega
  · intro i h1 h2
    simp

/-! ### C35: 'all' is external plus internal -/

theorem all_split {C : Type} (cE cI : Except Error C) (f g : C → Except Error (List Val)) (B : List Val) :
    (do let ce ← cE; let ci ← cI; let be ← f ce; let bi ← g ci; return addFields be bi) = .ok B ↔
      ∃ be bi, (cE >>= f) = .ok be ∧ (cI >>= g) = .ok bi ∧ B = addFields be bi := by
  rcases cE with e | ce
  · simp [bind, Except.bind]
  rcases cI with e | ci
  · simp [bind, Except.bind]
  simp only [bind, Except.bind, pure, Except.pure]
  rcases f ce with e | be
  · simp
  rcases g ci with e | bi
  · simp
  simp [eq_comm]

theorem gsm_source (env : Env) (m : Chaos) (pts : List Pt) (nmax : Option ℕ) (s : String) (hs : s = "external" ∨ s = "internal") :
    synthValuesGsm env m pts nmax (some s) = (synthCoeffsGsm env m (pts.map Pt.time) nmax (some s) >>= fieldOf env.rSurf pts s) := by
  unfold synthValuesGsm
  simp only [Option.getD_some]
  rw [if_neg (by rcases hs with rfl | rfl <;> decide), if_pos hs]

theorem sm_source (env : Env) (m : Chaos) (pts : List Pt) (rcE rcI : Option (List ℝ)) (nmax : Option ℕ) (s : String)
    (hs : s = "external" ∨ s = "internal") :
    synthValuesSm env m pts rcE rcI nmax (some s) =
      (synthCoeffsSm env m (pts.map Pt.time) nmax (some s) (if s = "external" then rcE else rcI) >>= fieldOf env.rSurf pts s) := by
  unfold synthValuesSm
  simp only [Option.getD_some]
  rw [if_neg (by rcases hs with rfl | rfl <;> decide), if_pos hs]

theorem gsm_split (env : Env) (m : Chaos) (pts : List Pt) (nmax : Option ℕ) (B : List Val) :
    synthValuesGsm env m pts nmax none = .ok B ↔ ∃ be bi, synthValuesGsm env m pts nmax (some "external") = .ok be ∧
      synthValuesGsm env m pts nmax (some "internal") = .ok bi ∧ B = addFields be bi := by
  rw [gsm_source env m pts nmax "external" (Or.inl rfl), gsm_source env m pts nmax "internal" (Or.inr rfl), ← all_split]
  rfl

theorem sm_split (env : Env) (m : Chaos) (pts : List Pt) (rcE rcI : Option (List ℝ)) (nmax : Option ℕ) (B : List Val) :
    synthValuesSm env m pts rcE rcI nmax none = .ok B ↔ ∃ be bi, synthValuesSm env m pts rcE rcI nmax (some "external") = .ok be ∧
      synthValuesSm env m pts rcE rcI nmax (some "internal") = .ok bi ∧ B = addFields be bi := by
  rw [sm_source env m pts rcE rcI nmax "external" (Or.inl rfl), sm_source env m pts rcE rcI nmax "internal" (Or.inr rfl), ← all_split]
  rfl

theorem gsm_values (env : Env) (m : Chaos) (pts : List Pt) (nmax : Option ℕ) (s : String) (hs : s = "external" ∨ s = "internal")
    (B : List Val) (h : synthValuesGsm env m pts nmax (some s) = .ok B) :
    ∃ l : List (ℝ × ℝ × ℝ), l.length = pts.length ∧ B = l.map some := by
  rw [gsm_source env m pts nmax s hs] at h
  simp only [bind, Except.bind] at h
  split at h
  · cases h
  · rename_i c hc
    exact fieldOf_ok _ _ _ _ (by rw [coeffsGsm_length _ _ _ _ _ _ hc]; simp) _ h

theorem sm_values (env : Env) (m : Chaos) (pts : List Pt) (rcE rcI : Option (List ℝ)) (nmax : Option ℕ) (s : String)
    (hs : s = "external" ∨ s = "internal") (B : List Val) (h : synthValuesSm env m pts rcE rcI nmax (some s) = .ok B) :
    ∃ l : List (ℝ × ℝ × ℝ), l.length = pts.length ∧ B = l.map some := by
  rw [sm_source env m pts rcE rcI nmax s hs] at h
  simp only [bind, Except.bind] at h
  split at h
  · cases h
  · rename_i c hc
    exact fieldOf_ok _ _ _ _ (by rw [coeffsSm_length _ _ _ _ _ _ _ hc]; simp) _ h

theorem addFields_map (l l' : List (ℝ × ℝ × ℝ)) :
    addFields (l.map some) (l'.map some) = (List.zipWith (fun a b => (a.1 + b.1, a.2.1 + b.2.1, a.2.2 + b.2.2)) l l').map some := by
  unfold addFields
  rw [List.zipWith_map, List.map_zipWith]
  rfl

/-- Sum of two arrays of vectors. -/
def vecAdd (l l' : List (ℝ × ℝ × ℝ)) : List (ℝ × ℝ × ℝ) := List.zipWith (fun a b => (a.1 + b.1, a.2.1 + b.2.1, a.2.2 + b.2.2)) l l'

/-- **C35** (GSM). Without `source`, or with `source='all'`, the call succeeds exactly if the calls for the external and the internal part
do, and returns their sum (no NaN), point by point; the other two names are 'external' and 'internal', all others raise
ValueError. -/
theorem C35_gsm (env : Env) (m : Chaos) (pts : List Pt) (nmax : Option ℕ) :
    synthValuesGsm env m pts nmax (some "all") = synthValuesGsm env m pts nmax none ∧
    (∀ B, synthValuesGsm env m pts nmax none = .ok B ↔ ∃ be bi : List (ℝ × ℝ × ℝ),
      synthValuesGsm env m pts nmax (some "external") = .ok (be.map some) ∧
      synthValuesGsm env m pts nmax (some "internal") = .ok (bi.map some) ∧
      be.length = pts.length ∧ bi.length = pts.length ∧ B = (vecAdd be bi).map some) ∧
    (∀ s, s ≠ "all" → s ≠ "external" → s ≠ "internal" → synthValuesGsm env m pts nmax (some s) = .error .valueError) := by
  refine ⟨rfl, fun B => ?_, fun s h1 h2 h3 => ?_⟩
  · rw [gsm_split]
    constructor
    · rintro ⟨be, bi, h1, h2, rfl⟩
      obtain ⟨l, hl, rfl⟩ := gsm_values env m pts nmax _ (Or.inl rfl) _ h1
      obtain ⟨l', hl', rfl⟩ := gsm_values env m pts nmax _ (Or.inr rfl) _ h2
      exact ⟨l, l', h1, h2, hl, hl', addFields_map l l'⟩
    · rintro ⟨l, l', h1, h2, _, _, rfl⟩
      exact ⟨_, _, h1, h2, (addFields_map l l').symm⟩
  · unfold synthValuesGsm
    simp only [Option.getD_some]
    rw [if_neg h1, if_neg (by tauto)]
    rfl

/-- **C35** (SM). The same for the near magnetosphere: the external part uses `rc_e`, the internal part `rc_i`. -/
theorem C35_sm (env : Env) (m : Chaos) (pts : List Pt) (rcE rcI : Option (List ℝ)) (nmax : Option ℕ) :
    synthValuesSm env m pts rcE rcI nmax (some "all") = synthValuesSm env m pts rcE rcI nmax none ∧
    (∀ B, synthValuesSm env m pts rcE rcI nmax none = .ok B ↔ ∃ be bi : List (ℝ × ℝ × ℝ),
      (∀ rc, synthValuesSm env m pts rcE rc nmax (some "external") = .ok (be.map some)) ∧
      (∀ rc, synthValuesSm env m pts rc rcI nmax (some "internal") = .ok (bi.map some)) ∧
      be.length = pts.length ∧ bi.length = pts.length ∧ B = (vecAdd be bi).map some) ∧
    (∀ s, s ≠ "all" → s ≠ "external" → s ≠ "internal" → synthValuesSm env m pts rcE rcI nmax (some s) = .error .valueError) := by
  have key1 : ∀ rc, synthValuesSm env m pts rcE rc nmax (some "external") = synthValuesSm env m pts rcE rcI nmax (some "external") := by
    intro rc
    rw [sm_source _ _ _ _ _ _ _ (Or.inl rfl), sm_source _ _ _ _ _ _ _ (Or.inl rfl), if_pos rfl, if_pos rfl]
  have key2 : ∀ rc, synthValuesSm env m pts rc rcI nmax (some "internal") = synthValuesSm env m pts rcE rcI nmax (some "internal") := by
    intro rc
    rw [sm_source _ _ _ _ _ _ _ (Or.inr rfl), sm_source _ _ _ _ _ _ _ (Or.inr rfl), if_neg (by decide), if_neg (by decide)]
  refine ⟨rfl, fun B => ?_, fun s h1 h2 h3 => ?_⟩
  · rw [sm_split]
    constructor
    · rintro ⟨be, bi, h1, h2, rfl⟩
      obtain ⟨l, hl, rfl⟩ := sm_values env m pts rcE rcI nmax _ (Or.inl rfl) _ h1
      obtain ⟨l', hl', rfl⟩ := sm_values env m pts rcE rcI nmax _ (Or.inr rfl) _ h2
      exact ⟨l, l', fun rc => (key1 rc).trans h1, fun rc => (key2 rc).trans h2, hl, hl', addFields_map l l'⟩
    · rintro ⟨l, l', h1, h2, _, _, rfl⟩
      exact ⟨_, _, h1 rcI, h2 rcE, (addFields_map l l').symm⟩
  · unfold synthValuesSm
    simp only [Option.getD_some]
    rw [if_neg h1, if_neg (by tauto)]
    rfl

/-! ### C32: the call -/

theorem sourceField_length (env : Env) (m : Chaos) (pts : List Pt) (rcE rcI : Option (List ℝ)) (nms : Option ℕ) (s : String) (B : List Val)
    (h : sourceField env m pts rcE rcI nms s = .ok B) : B.length = pts.length := by
  unfold sourceField at h
  split_ifs at h
  · unfold synthValuesTdep at h
    split at h
    · cases h
    · exact Model.synthValues_length _ _ _ _ _ _ _ h
  · unfold synthValuesStatic at h
    split at h
    · cases h
    · have := Model.synthValues_length _ _ _ _ _ _ _ h
      simpa using this
  · obtain ⟨be, bi, _, _, h1, h2, rfl⟩ := ((C35_gsm env m pts none).2.1 B).1 h
    simp [vecAdd, h1, h2]
  · obtain ⟨be, bi, _, _, h1, h2, rfl⟩ := ((C35_sm env m pts rcE rcI none).2.1 B).1 h
    simp [vecAdd, h1, h2]

/-- **C32.** If the methods of all selected sources succeed, then the call succeeds and its value at every point is the sum of their values,
each source counted once, whatever the order of the list, repetitions and unknown names in it. -/
theorem C32_sum (env : Env) (m : Chaos) (pts : List Pt) (rcE rcI : Option (List ℝ)) (sources : Sources) (nmaxStatic : Option ℕ)
    (F : String → List Val)
    (h1 : "tdep" ∈ sources.names → synthValuesTdep env m pts none none none = .ok (F "tdep"))
    (h2 : "static" ∈ sources.names → synthValuesStatic env m pts (some (nmaxStatic.getD 85)) none none = .ok (F "static"))
    (h3 : "gsm" ∈ sources.names → synthValuesGsm env m pts none none = .ok (F "gsm"))
    (h4 : "sm" ∈ sources.names → synthValuesSm env m pts rcE rcI none none = .ok (F "sm")) :
    ∃ B, call env m pts rcE rcI sources nmaxStatic = .ok B ∧ B.length = pts.length ∧ ∀ i < pts.length,
      B.getD i none = total ((sourceNames.filter (fun s => s ∈ sources.names)).map fun s => (F s).getD i none) := by
  have hF : ∀ s ∈ sourceNames, s ∈ sources.names → sourceField env m pts rcE rcI nmaxStatic s = .ok (F s) := by
    intro s hs hn
    simp only [sourceNames, List.mem_cons, List.not_mem_nil, or_false] at hs
    unfold sourceField
    rcases hs with rfl | rfl | rfl | rfl
    · exact h1 hn
    · rw [if_neg (by decide), if_pos rfl]; exact h2 hn
    · rw [if_neg (by decide), if_neg (by decide), if_pos rfl]; exact h3 hn
    · rw [if_neg (by decide), if_neg (by decide), if_neg (by decide)]; exact h4 hn
  obtain ⟨B, hB1, hB2, hB3⟩ := fold_sum sources.names (sourceField env m pts rcE rcI nmaxStatic) F pts.length sourceNames
    (fun s hs hn => ⟨hF s hs hn, sourceField_length _ _ _ _ _ _ _ _ (hF s hs hn)⟩) (pts.map fun _ => some (0, 0, 0)) (by simp)
  refine ⟨B, (call_eq _ _ _ _ _ _ _).trans hB1, hB2, fun i hi => ?_⟩
  rw [hB3 i hi]
  have : (pts.map fun _ => (some (0, 0, 0) : Val)).getD i none = some (0, 0, 0) := by
    rw [List.getD_eq_getElem _ _ (by simpa using hi)]
    simp
  rw [this]
  rcases total _ with _ | w <;> simp [Val.add]

/-- **C32.** Only the set of known names in the list matters: two lists with the same known names give the same result or the same exception. -/
theorem C32_order (env : Env) (m : Chaos) (pts : List Pt) (rcE rcI : Option (List ℝ)) (s s' : Sources) (nmaxStatic : Option ℕ)
    (h : ∀ x ∈ sourceNames, x ∈ s.names ↔ x ∈ s'.names) :
    call env m pts rcE rcI s nmaxStatic = call env m pts rcE rcI s' nmaxStatic := by
  have hc : ∀ x ∈ sourceNames, s.names.contains x = s'.names.contains x := by
    intro x hx
    rw [Bool.eq_iff_iff]
    simpa using h x hx
  unfold call
  simp only [hc "tdep" (by decide), hc "static" (by decide), hc "gsm" (by decide), hc "sm" (by decide)]

/-- **C32.** The names 'internal' and 'external', a missing list, and a single name. -/
theorem C32_aliases (env : Env) (m : Chaos) (pts : List Pt) (rcE rcI : Option (List ℝ)) (nmaxStatic : Option ℕ) :
    call env m pts rcE rcI .none nmaxStatic = call env m pts rcE rcI (.list ["tdep", "static", "gsm", "sm"]) nmaxStatic ∧
    call env m pts rcE rcI (.str "internal") nmaxStatic = call env m pts rcE rcI (.list ["tdep", "static"]) nmaxStatic ∧
    call env m pts rcE rcI (.str "external") nmaxStatic = call env m pts rcE rcI (.list ["gsm", "sm"]) nmaxStatic ∧
    (∀ s, s ≠ "internal" → s ≠ "external" → call env m pts rcE rcI (.str s) nmaxStatic = call env m pts rcE rcI (.list [s]) nmaxStatic) ∧
    call env m pts rcE rcI .none none = call env m pts rcE rcI .none (some 85) := by
  refine ⟨rfl, rfl, rfl, fun s h1 h2 => ?_, rfl⟩
  unfold call Sources.names
  simp only [if_neg h1, if_neg h2]

/-- **C32.** The full field is the internal plus the external field. -/
theorem C32_all (env : Env) (m : Chaos) (pts : List Pt) (rcE rcI : Option (List ℝ)) (nmaxStatic : Option ℕ) (BI BE : List Val)
    (hI : call env m pts rcE rcI (.str "internal") nmaxStatic = .ok BI) (hE : call env m pts rcE rcI (.str "external") nmaxStatic = .ok BE) :
    ∃ B, call env m pts rcE rcI .none nmaxStatic = .ok B ∧ B.length = pts.length ∧ ∀ i < pts.length,
      B.getD i none = total [BI.getD i none, BE.getD i none] := by
  have get : ∀ (sources : Sources) (B : List Val), call env m pts rcE rcI sources nmaxStatic = .ok B → ∀ s ∈ sourceNames, s ∈ sources.names →
      ∃ F, sourceField env m pts rcE rcI nmaxStatic s = .ok F := by
    intro sources B hB s hs hn
    by_contra hcon
    rw [call_eq] at hB
    -- the first failing source
    have hex : ∃ k : ℕ, ∃ x e, sourceNames[k]? = some x ∧ x ∈ sources.names ∧ sourceField env m pts rcE rcI nmaxStatic x = .error e := by
      obtain ⟨k, hk⟩ := List.getElem?_of_mem hs
      cases hf : sourceField env m pts rcE rcI nmaxStatic s with
      | ok F => exact absurd ⟨F, hf⟩ hcon
      | error e => exact ⟨k, s, e, hk, hn, hf⟩
    classical
    obtain ⟨x, e, h1, h2, h3⟩ := Nat.find_spec hex
    have := (fold_error sources.names (sourceField env m pts rcE rcI nmaxStatic) e sourceNames (pts.map fun _ => some (0, 0, 0))).2
      ⟨Nat.find hex, x, h1, h2, h3, by
        intro j hj s' hs' hn'
        cases hf : sourceField env m pts rcE rcI nmaxStatic s' with
        | ok F => exact ⟨F, rfl⟩
        | error e' => exact absurd ⟨s', e', hs', hn', hf⟩ (Nat.find_min hex hj)⟩
    rw [hB] at this
    cases this
  obtain ⟨F1, f1⟩ := get _ _ hI "tdep" (by decide) (by decide)
  obtain ⟨F2, f2⟩ := get _ _ hI "static" (by decide) (by decide)
  obtain ⟨F3, f3⟩ := get _ _ hE "gsm" (by decide) (by decide)
  obtain ⟨F4, f4⟩ := get _ _ hE "sm" (by decide) (by decide)
  set F : String → List Val := fun s => if s = "tdep" then F1 else if s = "static" then F2 else if s = "gsm" then F3 else F4 with hFdef
  have e1 : synthValuesTdep env m pts none none none = .ok (F "tdep") := f1
  have e2 : synthValuesStatic env m pts (some (nmaxStatic.getD 85)) none none = .ok (F "static") := f2
  have e3 : synthValuesGsm env m pts none none = .ok (F "gsm") := f3
  have e4 : synthValuesSm env m pts rcE rcI none none = .ok (F "sm") := f4
  obtain ⟨B, b1, b2, b3⟩ := C32_sum env m pts rcE rcI .none nmaxStatic F (fun _ => e1) (fun _ => e2) (fun _ => e3) (fun _ => e4)
  obtain ⟨B', b1', b2', b3'⟩ := C32_sum env m pts rcE rcI (.str "internal") nmaxStatic F (fun _ => e1) (fun _ => e2) (fun _ => e3) (fun _ => e4)
  obtain ⟨B'', b1'', b2'', b3''⟩ := C32_sum env m pts rcE rcI (.str "external") nmaxStatic F (fun _ => e1) (fun _ => e2) (fun _ => e3) (fun _ => e4)
  rw [hI] at b1'
  rw [hE] at b1''
  cases b1'
  cases b1''
  refine ⟨B, b1, b2, fun i hi => ?_⟩
  rw [b3 i hi, b3' i hi, b3'' i hi]
  have s1 : (sourceNames.filter fun s => decide (s ∈ Sources.none.names)) = ["tdep", "static", "gsm", "sm"] := by decide
  have s2 : (sourceNames.filter fun s => decide (s ∈ (Sources.str "internal").names)) = ["tdep", "static"] := by decide
  have s3 : (sourceNames.filter fun s => decide (s ∈ (Sources.str "external").names)) = ["gsm", "sm"] := by decide
  rw [s1, s2, s3]
  simp only [List.map_cons, List.map_nil]
  generalize (F "tdep").getD i none = a
  generalize (F "static").getD i none = b
  generalize (F "gsm").getD i none = c
  generalize (F "sm").getD i none = d
  rcases a with _ | a <;> rcases b with _ | b <;> rcases c with _ | c <;> rcases d with _ | d <;> simp [total, add_assoc]

/-- **C32.** The call fails exactly if a selected source fails; the exception is that of the first one in the order time-dependent, static,
GSM, SM. -/
theorem C32_error (env : Env) (m : Chaos) (pts : List Pt) (rcE rcI : Option (List ℝ)) (sources : Sources) (nmaxStatic : Option ℕ) (e : Error) :
    call env m pts rcE rcI sources nmaxStatic = .error e ↔
      ∃ k : ℕ, ∃ s : String, sourceNames[k]? = some s ∧ s ∈ sources.names ∧ sourceField env m pts rcE rcI nmaxStatic s = .error e ∧
        ∀ j < k, ∀ s', sourceNames[j]? = some s' → s' ∈ sources.names → ∃ F, sourceField env m pts rcE rcI nmaxStatic s' = .ok F := by
  rw [call_eq, fold_error]

/-- **C32, finding.** Unknown names are not refused: a misspelt source gives a field of zeros, for every model and all points (even with
colatitudes that every source refuses). -/
theorem C32_unknown_silent (env : Env) (m : Chaos) (pts : List Pt) (rcE rcI : Option (List ℝ)) (l : List String) (nmaxStatic : Option ℕ)
    (h : ∀ s ∈ l, s ∉ sourceNames) :
    call env m pts rcE rcI (.list l) nmaxStatic = .ok (pts.map fun _ => some (0, 0, 0)) := by
  have hc : ∀ x ∈ sourceNames, l.contains x = false := by
    intro x hx
    rw [Bool.eq_false_iff]
    intro hcon
    exact h x (by simpa using hcon) hx
  unfold call Sources.names addIf
  simp only [hc "tdep" (by decide), hc "static" (by decide), hc "gsm" (by decide), hc "sm" (by decide), bind, Except.bind]
  rfl

/-- **C32.** The static part of a constructed model does not change with time: whatever order is given for the model and however many rows the
static array has, the static coefficients are the numbers in the last row of that array at every time of the model, and their derivatives are
zero. -/
theorem C32_static_constant (breaks : List ℝ) (hx : PPoly.Ascending breaks) (order : Option ℕ) (tdep : Option Coefs) (x : Coefs) (hrows : 0 < x.rows)
    (hdim : 0 < x.dim) (sm gsm : Option Gauss) (delta : Option Delta) (times : List ℝ) (hne : times ≠ [])
    (ht : ∀ t ∈ times, PPoly.first breaks ≤ t ∧ t < PPoly.last breaks) (deriv : Option ℕ) (e : Option PPoly.Extrap) :
    ∃ M vals, (Chaos.init breaks order tdep (some x) sm gsm delta).static = some M ∧ M.source = "internal" ∧
      M.base.synthCoeffs times none deriv e = .ok (x.dim, vals) ∧ vals.length = times.length ∧
      ∀ i < times.length, ∃ v : ℕ → ℝ, vals[i]? = some (some v) ∧ ∀ d, v d = if PPoly.dOrder deriv = 0 then x.c (x.rows - 1) 0 d else 0 := by
  have hx2 : PPoly.Ascending [PPoly.first breaks, PPoly.last breaks] := by
    refine ⟨by simp, fun j hj => ?_⟩
    have : j = 0 := by simp at hj; omega
    subst this
    exact hx.span
  obtain ⟨vals, h1, h2, h3⟩ := PPoly.C26_constructed [PPoly.first breaks, PPoly.last breaks] hx2 (some 1) (by simp) x.rows x.dim hrows hdim x.c times
    deriv e hne (Or.inr fun t h => ⟨(ht t h).1, (ht t h).2.le⟩)
  refine ⟨_, vals, rfl, rfl, h1, h2, fun i hi => ?_⟩
  have hm : times[i] ∈ times := List.getElem_mem hi
  obtain ⟨v, hv, hd⟩ := h3 i times[i] 0 (by simp [hi]) ⟨by simp, Or.inl (ht _ hm)⟩ (ht _ hm).2
  refine ⟨v, hv, fun d => ?_⟩
  rw [hd]
  have : min ((some 1 : Option ℕ).getD x.rows) x.rows = 1 := by simp; omega
  rw [this]
  simp only [Finset.sum_range_one, pow_zero, mul_one, Nat.sub_zero]
  rw [iteratedDeriv_const]
  split_ifs with h
  · rw [h]; simp
  · simp

example : ∀ t ∈ ([0, 4] : List ℝ), PPoly.first [0, 5, 10] ≤ t ∧ t < PPoly.last [0, 5, 10] := by
  intro t h
  simp only [List.mem_cons, List.not_mem_nil, or_false] at h
  have h1 : PPoly.first [0, 5, 10] = 0 := rfl
  have h2 : PPoly.last [0, 5, 10] = 10 := rfl
  rw [h1, h2]
  rcases h with rfl | rfl <;> norm_num

/-! ### C33: GSM coefficients -/

/-- The element of the rotation matrix that belongs to a source, as a Fourier series in time. -/
noncomputable def SpectrumFile.series (f : SpectrumFile) (internal : Bool) (t : ℝ) (i j : ℕ) : ℝ :=
  if internal then fourierSeries f.kInd (fun q => f.frequencyInd q i j) (fun q => f.spectrumInd q i j) t
  else fourierSeries f.k (fun q => f.frequency q i j) (fun q => f.spectrum q i j) t

theorem synthRotate_series (k : ℕ) (fr : ℕ → ℕ → ℕ → ℝ) (sp : ℕ → ℕ → ℕ → ℂ) (b : Bool) (t : ℝ) (i j : ℕ) :
    Fourier.synthRotate k fr sp (.array b) t i j = fourierSeries k (fun q => fr q i j) (fun q => sp q i j) t := by
  unfold Fourier.synthRotate fourierSeries
  congr 1
  refine Finset.sum_congr rfl fun q _ => ?_
  congr 1
  unfold Fourier.harmonic
  rw [if_neg (by simp [Fourier.Scaled.isFalse])]
  have : (2 * Real.pi * Complex.I * ((fr q i j : ℂ) * (t : ℂ)) : ℂ) = ((2 * Real.pi * fr q i j * t : ℝ) : ℂ) * Complex.I := by
    push_cast
    ring
  rw [this]
  generalize 2 * Real.pi * fr q i j * t = x
  rw [Complex.exp_mul_I]
  apply Complex.ext <;> simp [Complex.cos_ofReal_re, Complex.sin_ofReal_re]

theorem rot_series (f : SpectrumFile) (t : ℝ) (i j : ℕ) : f.rot t i j = f.series false t i j := synthRotate_series _ _ _ _ _ _ _

theorem rotInd_series (f : SpectrumFile) (t : ℝ) (i j : ℕ) : f.rotInd t i j = f.series true t i j := synthRotate_series _ _ _ _ _ _ _

theorem dipoleAssert_ok (a b : ℝ × ℝ × ℝ) (u : Unit) : dipoleAssert a b = .ok u ↔ a = b := by
  unfold dipoleAssert
  split_ifs with h <;> simp [h]

/-- **C33.** When `synth_coeffs_gsm` succeeds, and what it returns: the model has GSM coefficients and a static part, there is at least one
time, the file belongs to the configured dipole, its matrices fit, and the source is one of the two names (default 'external'). Row `t` is
the matrix of the Fourier series at `t` times the vector of the coefficients, cut after the coefficients of degree `nmax` (at most that of the
model). -/
theorem C33_result (env : Env) (m : Chaos) (times : List ℝ) (nmax : Option ℕ) (source : Option String) (r : ℕ × List (ℕ → ℝ)) :
    synthCoeffsGsm env m times nmax source = .ok r ↔ ∃ g, m.gsm = some g ∧ m.static ≠ none ∧ times ≠ [] ∧
      env.gsmFile.dipole = env.dipole ∧ env.gsmFile.cols = g.dim ∧ ∃ internal : Bool,
        source.getD "external" = (if internal then "internal" else "external") ∧
        r.1 = min env.gsmFile.rows (clipNmax (nmaxOfDim g.dim).toNat nmax * (clipNmax (nmaxOfDim g.dim).toNat nmax + 2)) ∧
        r.2 = times.map fun t i => ∑ j ∈ Finset.range g.dim, env.gsmFile.series internal t i j * g.c j := by
  have hrows : ∀ g : Gauss, (fun t => matVec g.dim (env.gsmFile.rot t) g.c) =
      fun t i => ∑ j ∈ Finset.range g.dim, env.gsmFile.series false t i j * g.c j := by
    intro g; funext t i; unfold matVec; simp only [rot_series]
  have hrowsI : ∀ g : Gauss, (fun t => matVec g.dim (env.gsmFile.rotInd t) g.c) =
      fun t i => ∑ j ∈ Finset.range g.dim, env.gsmFile.series true t i j * g.c j := by
    intro g; funext t i; unfold matVec; simp only [rotInd_series]
  unfold synthCoeffsGsm
  cases hg : m.gsm with
  | none => simp
  | some g =>
    simp only
    cases hs : m.static with
    | none => simp
    | some st =>
      simp only [bind, Except.bind, pure, Except.pure, throw, throwThe, MonadExceptOf.throw]
      by_cases ht : times = []
      · simp [nonempty, ht]
      rw [show nonempty times = .ok () from if_neg ht]
      simp only
      by_cases hd : env.gsmFile.dipole = env.dipole
      swap
      · rw [show dipoleAssert env.gsmFile.dipole env.dipole = .error .assertionError from if_neg hd]
        simp [hd]
      rw [show dipoleAssert env.gsmFile.dipole env.dipole = .ok () from if_pos hd]
      simp only
      by_cases h1 : source.getD "external" = "external"
      · rw [if_pos h1]
        by_cases hc : env.gsmFile.cols = g.dim
        · rw [if_neg (by simp [hc])]
          simp only [Except.ok.injEq]
          constructor
          · rintro rfl
            exact ⟨g, rfl, by simp, ht, hd, hc, false, by simpa using h1, rfl, by rw [hrows]⟩
          · rintro ⟨g', hg', _, _, _, _, b, hb, hr1, hr2⟩
            cases hg'
            have : b = false := by
              cases b
              · rfl
              · rw [h1] at hb; simp at hb
            subst this
            rw [← hrows] at hr2
            exact Prod.ext hr1.symm hr2.symm
        · rw [if_pos hc]
          simp only [reduceCtorEq, false_iff]
          rintro ⟨g', hg', _, _, _, hc', _⟩
          cases hg'
          exact hc hc'
      · rw [if_neg h1]
        by_cases h2 : source.getD "external" = "internal"
        · rw [if_pos h2]
          by_cases hc : env.gsmFile.cols = g.dim
          · rw [if_neg (by simp [hc])]
            simp only [Except.ok.injEq]
            constructor
            · rintro rfl
              exact ⟨g, rfl, by simp, ht, hd, hc, true, by simpa using h2, rfl, by rw [hrowsI]⟩
            · rintro ⟨g', hg', _, _, _, _, b, hb, hr1, hr2⟩
              cases hg'
              have : b = true := by
                cases b
                · rw [h2] at hb; simp at hb
                · rfl
              subst this
              rw [← hrowsI] at hr2
              exact Prod.ext hr1.symm hr2.symm
          · rw [if_pos hc]
            simp only [reduceCtorEq, false_iff]
            rintro ⟨g', hg', _, _, _, hc', _⟩
            cases hg'
            exact hc hc'
        · rw [if_neg h2]
          simp only [reduceCtorEq, false_iff]
          rintro ⟨_, _, _, _, _, _, b, hb, _⟩
          cases b
          · exact h1 (by simpa using hb)
          · exact h2 (by simpa using hb)

/-- **C33.** `synth_coeffs_gsm` is linear in the coefficients of the model, for both sources, all times and every truncation. -/
theorem C33_linear (env : Env) (m : Chaos) (times : List ℝ) (nmax : Option ℕ) (source : Option String) (dim : ℕ) (c c' : ℕ → ℝ) (α β : ℝ)
    (n : ℕ) (l l' : List (ℕ → ℝ)) (h : synthCoeffsGsm env { m with gsm := some ⟨dim, c⟩ } times nmax source = .ok (n, l))
    (h' : synthCoeffsGsm env { m with gsm := some ⟨dim, c'⟩ } times nmax source = .ok (n, l')) :
    synthCoeffsGsm env { m with gsm := some ⟨dim, fun i => α * c i + β * c' i⟩ } times nmax source =
      .ok (n, List.zipWith (fun v v' i => α * v i + β * v' i) l l') := by
  obtain ⟨g, hg, h1, h2, h3, h4, b, hb, h5, h6⟩ := (C33_result _ _ _ _ _ _).1 h
  obtain ⟨g', hg', _, _, _, _, b', hb', _, h6'⟩ := (C33_result _ _ _ _ _ _).1 h'
  simp only [Option.some.injEq] at hg hg'
  subst hg
  subst hg'
  have : b = b' := by
    rw [hb] at hb'
    cases b <;> cases b' <;> simp_all
  subst this
  refine (C33_result _ _ _ _ _ _).2 ⟨_, rfl, h1, h2, h3, h4, b, hb, h5, ?_⟩
  simp only at h6 h6' ⊢
  rw [h6, h6', List.zipWith_map, List.zipWith_self]
  apply List.map_congr_left
  intro t _
  funext i
  rw [Finset.mul_sum, Finset.mul_sum, ← Finset.sum_add_distrib]
  exact Finset.sum_congr rfl fun j _ => by ring

/-- **C33.** `nmax` only cuts the rows: with file matrices of full size the result has `n(n+2)` columns, `n` the smaller one of `nmax` and the
degree of the model, and the rows are those of the call without `nmax`. -/
theorem C33_truncation (env : Env) (m : Chaos) (times : List ℝ) (n : ℕ) (source : Option String) (N k : ℕ) (c : ℕ → ℝ) (rows : List (ℕ → ℝ))
    (hm : m.gsm = some ⟨N * (N + 2), c⟩) (hrows : env.gsmFile.rows = N * (N + 2))
    (h : synthCoeffsGsm env m times none source = .ok (k, rows)) :
    k = N * (N + 2) ∧ synthCoeffsGsm env m times (some n) source = .ok (min n N * (min n N + 2), rows) := by
  have hN : (nmaxOfDim (N * (N + 2))).toNat = N := by
    have := (Index.C12_nmax_of_dim (N * (N + 2)) N).2 ⟨le_rfl, by ring_nf; omega⟩
    rw [this]
    simp
  obtain ⟨g, hg, h1, h2, h3, h4, b, hb, h5, h6⟩ := (C33_result _ _ _ _ _ _).1 h
  rw [hm] at hg
  cases hg
  simp only [clipNmax, hN, hrows, min_self] at h5
  refine ⟨h5, (C33_result _ _ _ _ _ _).2 ⟨_, hm, h1, h2, h3, h4, b, hb, ?_, h6⟩⟩
  simp only [clipNmax, hN, hrows]
  split_ifs with hc
  · rw [min_self, min_eq_right (by omega)]
  · rw [min_eq_left (by omega : n ≤ N), min_eq_right]
    exact Nat.mul_le_mul (by omega) (by omega)

/-- **C33** (exceptions). Missing coefficients, no times, and an unknown source are ValueErrors; a file made for another dipole is an
AssertionError. **Finding:** a model without static part cannot compute its GSM field (AttributeError). -/
theorem C33_errors (env : Env) (m : Chaos) (times : List ℝ) (nmax : Option ℕ) (source : Option String) :
    (m.gsm = none → synthCoeffsGsm env m times nmax source = .error .valueError) ∧
    (m.gsm ≠ none → m.static = none → synthCoeffsGsm env m times nmax source = .error .attributeError) ∧
    (m.gsm ≠ none → m.static ≠ none → times = [] → synthCoeffsGsm env m times nmax source = .error .valueError) ∧
    (m.gsm ≠ none → m.static ≠ none → times ≠ [] → env.gsmFile.dipole ≠ env.dipole →
      synthCoeffsGsm env m times nmax source = .error .assertionError) ∧
    (m.gsm ≠ none → m.static ≠ none → times ≠ [] → env.gsmFile.dipole = env.dipole →
      (source.getD "external" ≠ "external" ∧ source.getD "external" ≠ "internal" ∨ ∃ g, m.gsm = some g ∧ env.gsmFile.cols ≠ g.dim) →
      synthCoeffsGsm env m times nmax source = .error .valueError) := by
  refine ⟨?_, ?_, ?_, ?_, ?_⟩
  · intro h
    simp [synthCoeffsGsm, h]
  · intro h h'
    obtain ⟨g, hg⟩ := Option.ne_none_iff_exists'.1 h
    simp [synthCoeffsGsm, hg, h']
  · intro h h' ht
    obtain ⟨g, hg⟩ := Option.ne_none_iff_exists'.1 h
    obtain ⟨st, hst⟩ := Option.ne_none_iff_exists'.1 h'
    simp [synthCoeffsGsm, hg, hst, ht, nonempty, bind, Except.bind]
  · intro h h' ht hd
    obtain ⟨g, hg⟩ := Option.ne_none_iff_exists'.1 h
    obtain ⟨st, hst⟩ := Option.ne_none_iff_exists'.1 h'
    simp [synthCoeffsGsm, hg, hst, ht, nonempty, bind, Except.bind, dipoleAssert, hd]
  · intro h h' ht hd hsrc
    obtain ⟨g, hg⟩ := Option.ne_none_iff_exists'.1 h
    obtain ⟨st, hst⟩ := Option.ne_none_iff_exists'.1 h'
    have e1 : nonempty times = .ok () := if_neg ht
    have e2 : dipoleAssert env.gsmFile.dipole env.dipole = .ok () := if_pos hd
    simp only [synthCoeffsGsm, hg, hst, e1, e2, bind, Except.bind, throw, throwThe, MonadExceptOf.throw]
    rcases hsrc with ⟨a, b⟩ | ⟨g', hg', hne⟩
    · rw [if_neg a, if_neg b]
    · rw [hg] at hg'
      cases hg'
      split_ifs <;> rfl

end ChaosMagPy.Chaos
